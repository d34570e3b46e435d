import Verif.Crypto.Hkdf

/-!
# The Merkle tree of batch signatures

Model of `fizz/experimental/crypto/MerkleTree.h`.  The hash map is a partial function of height and
offset.  `int` and `size_t` offsets are natural numbers: the model describes trees of fewer than `2^31`
leaves (the limit in the comment at `MerkleTree.h:303`).  The hash does not fail.
-/

namespace Fizz.Batch
open Fizz Fizz.Crypto

/-- `constructLeafNode` (`fizz/experimental/crypto/MerkleTree.h:367-381`). -/
def leafHash (H : HashAlg) (m : Bytes) : Bytes := H.digest (0 :: m)

/-- `constructInternalNode` (`fizz/experimental/crypto/MerkleTree.h:341-361`). -/
def nodeHash (H : HashAlg) (l r : Bytes) : Bytes := H.digest (1 :: (l ++ r))

/-- `MerkleTree` (`fizz/experimental/crypto/MerkleTree.h:252-260`). -/
structure Tree where
  maxLeaves : Nat
  leaves : Nat := 0
  height : Nat := 0
  node : Nat → Nat → Option Bytes := fun _ _ => none

/-- `tree_[(h, o)] = v`. -/
def Tree.set (t : Tree) (h o : Nat) (v : Bytes) : Tree :=
  { t with node := fun h' o' => if h' = h ∧ o' = o then some v else t.node h' o' }

/-- `addNode` (`fizz/experimental/crypto/MerkleTree.h:235-250`).  `operator[]` of a key that is not
there would insert zeros; the left sibling is always there (`addNode_rep`), so that the insertion is
left out. -/
def Tree.addNode (H : HashAlg) (t : Tree) (v : Bytes) (h o : Nat) : Tree :=
  if o % 2 = 1 then
    let t' := { t.set h o v with height := max t.height h }
    Tree.addNode H t' (nodeHash H ((t'.node h (o - 1)).getD (List.replicate H.hashLen 0)) v) (h + 1) (o / 2)
  else { t.set h o v with height := max t.height h }
termination_by o

/-- `append` (`fizz/experimental/crypto/MerkleTree.h:76-86`). -/
def Tree.append (H : HashAlg) (t : Tree) (m : Bytes) : Tree × Option Nat :=
  if t.leaves ≥ t.maxLeaves then (t, none)
  else ({ t.addNode H (leafHash H m) 0 t.leaves with leaves := t.leaves + 1 }, some t.leaves)

/-- One iteration of `finalizeTree` (`fizz/experimental/crypto/MerkleTree.h:324-329`). -/
def Tree.compensate (H : HashAlg) (t : Tree) (i cur : Nat) : Tree :=
  if cur % 2 = 0 then
    t.addNode H ((t.node i 0).getD (List.replicate H.hashLen 0)) i (cur + 1)
  else t

/-- The loop of `finalizeTree` (`fizz/experimental/crypto/MerkleTree.h:323-331`): the bound `height` may
grow while it runs.  `none`: not finished after `fuel` iterations. -/
def Tree.finalizeLoop (H : HashAlg) : Nat → Tree → Nat → Nat → Option Tree
  | fuel, t, i, cur =>
    if i < t.height then
      match fuel with
      | 0 => none
      | fuel + 1 => finalizeLoop H fuel (t.compensate H i cur) (i + 1) (cur / 2)
    else some t

/-- `finalizeTree` (`fizz/experimental/crypto/MerkleTree.h:318-333`).  The loop halves its index: it ends
within as many iterations as there are leaves (`finalize_ends`). -/
def Tree.finalize (H : HashAlg) (t : Tree) : Option Tree :=
  if t.leaves > 1 then t.finalizeLoop H t.leaves 0 (t.leaves - 1) else some t

/-- `getRootValue` (`fizz/experimental/crypto/MerkleTree.h:106-108`): `value()` of an empty optional
throws. -/
def Tree.root (t : Tree) : Res Bytes :=
  match t.node t.height 0 with
  | some v => .ok v
  | none => .error .emptyOptional

/-- The sibling's offset (`fizz/experimental/crypto/MerkleTree.h:147-151`). -/
def sibling (o : Nat) : Nat := if o % 2 = 0 then o + 1 else o - 1

/-- The loop of `getPath` (`fizz/experimental/crypto/MerkleTree.h:146-161`), for the last `n` of the
heights.  (The counter is a byte; the height of a tree is less than 64.) -/
def Tree.pathFrom (t : Tree) : Nat → Nat → Nat → Res Bytes
  | 0, _, _ => .ok []
  | n + 1, h, o =>
    match t.node h (sibling o) with
    | none => .error (Failure.rt "Merkle Tree is not balanced")
    | some v => do
      let rest ← t.pathFrom n (h + 1) (sibling o / 2)
      pure (v ++ rest)

/-- `getPath` (`fizz/experimental/crypto/MerkleTree.h:138-163`). -/
def Tree.path (t : Tree) (index : Nat) : Res Bytes := do
  let _ ← t.root
  t.pathFrom t.height 0 index

/-- The loop of `computeRootFromPath` (`fizz/experimental/crypto/MerkleTree.h:179-191`), `n` elements. -/
def climb (H : HashAlg) : Nat → Nat → Bytes → Bytes → Bytes
  | 0, _, v, _ => v
  | n + 1, i, v, path =>
    let c := path.take H.hashLen
    climb H n (i / 2) (if i % 2 = 0 then nodeHash H v c else nodeHash H c v) (path.drop H.hashLen)

/-- `computeRootFromPath` (`fizz/experimental/crypto/MerkleTree.h:168-193`). -/
def computeRoot (H : HashAlg) (msg : Bytes) (index : Nat) (path : Bytes) : Res Bytes :=
  if path.length % H.hashLen ≠ 0 then .error (Failure.rt "Merkle Tree path has a bad format")
  else .ok (climb H (path.length / H.hashLen) index (leafHash H msg) path)

/-- `BatchSignatureMerkleTree(maxMsgSize)` (`fizz/experimental/crypto/MerkleTree.h:281-282`). -/
def Tree.batch (maxMsgs : Nat) : Tree := { maxLeaves := 2 * maxMsgs }

/-- `appendTranscript` (`fizz/experimental/crypto/MerkleTree.h:298-306`): the message and a random
leaf. -/
def Tree.appendTranscript (H : HashAlg) (t : Tree) (msg random : Bytes) : Tree × Option Nat :=
  let (t, i) := t.append H msg
  ((t.append H random).1, i)

/-- `countMessages` (`fizz/experimental/crypto/MerkleTree.h:311-313`). -/
def Tree.countMessages (t : Tree) : Nat := t.leaves / 2

end Fizz.Batch

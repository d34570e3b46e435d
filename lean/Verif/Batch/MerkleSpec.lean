import Verif.Agree.NoClash

/-!
# Specification of a Merkle tree

Independent of how the tree is stored: hash the messages, then combine neighbours until one value is left;
a level with an odd number of values is completed with a copy of its first one.
-/

namespace Fizz.Batch.Spec
open Fizz Fizz.Crypto Fizz.Crypto.Spec

/-- Neighbours combined. -/
def pairs {α : Type} (f : α → α → α) : List α → List α
  | a :: b :: r => f a b :: pairs f r
  | _ => []

/-- A level completed to an even number. -/
def pad {α : Type} (l : List α) : List α := if l.length % 2 = 1 then l ++ l.take 1 else l

theorem pairs_length {α : Type} (f : α → α → α) : ∀ l : List α, (pairs f l).length = l.length / 2
  | [] => by simp [pairs]
  | [_] => by simp [pairs]
  | a :: b :: r => by
    simp only [pairs, List.length_cons, pairs_length f r]; omega

theorem pad_length {α : Type} (l : List α) : (pad l).length = (l.length + 1) / 2 * 2 := by
  unfold pad
  split
  · cases l with
    | nil => simp at *
    | cons a l => simp at *; omega
  · omega

/-- The leaf and the inner node of the draft (draft-ietf-tls-batch-signing). -/
def leaf (h : Hash) (m : Bytes) : Bytes := h.H (0 :: m)
def inner (h : Hash) (l r : Bytes) : Bytes := h.H (1 :: (l ++ r))

/-- The value at the root over these values. -/
def merkle (h : Hash) : List Bytes → Bytes
  | [] => []
  | [x] => x
  | a :: b :: r => merkle h (pairs (inner h) (pad (a :: b :: r)))
termination_by l => l.length
decreasing_by
  rw [pairs_length, pad_length]
  simp only [List.length_cons]
  omega

/-- The root of the tree of some messages. -/
def root (h : Hash) (msgs : List Bytes) : Bytes := merkle h (msgs.map (leaf h))

/-- The inputs of the hash function for neighbours. -/
def pairInputs : List Bytes → List Bytes
  | a :: b :: r => (1 :: (a ++ b)) :: pairInputs r
  | _ => []

/-- The inputs of the hash function in `merkle`. -/
def merkleInputs (h : Hash) : List Bytes → List Bytes
  | [] => []
  | [_] => []
  | a :: b :: r => pairInputs (pad (a :: b :: r)) ++ merkleInputs h (pairs (inner h) (pad (a :: b :: r)))
termination_by l => l.length
decreasing_by
  rw [pairs_length, pad_length]
  simp only [List.length_cons]
  omega

/-- All inputs of the hash function in the tree of some messages. -/
def treeInputs (h : Hash) (msgs : List Bytes) : List Bytes :=
  msgs.map (0 :: ·) ++ merkleInputs h (msgs.map (leaf h))

/-- The value a proof leads to, and the inputs of the hash function it takes: `steps` are the siblings, from the
leaf upwards, the bits of `i` say on which side they are. -/
def proofValue (h : Hash) : Nat → Bytes → List Bytes → Bytes
  | _, v, [] => v
  | i, v, c :: cs => proofValue h (i / 2) (if i % 2 = 0 then inner h v c else inner h c v) cs
def proofInputs (h : Hash) : Nat → Bytes → List Bytes → List Bytes
  | _, _, [] => []
  | i, v, c :: cs => (if i % 2 = 0 then 1 :: (v ++ c) else 1 :: (c ++ v)) ::
      proofInputs h (i / 2) (if i % 2 = 0 then inner h v c else inner h c v) cs

/-- A path cut into values of the length of the hash. -/
def cut (L : Nat) : Nat → Bytes → List Bytes
  | 0, _ => []
  | n + 1, p => p.take L :: cut L n (p.drop L)

/-- All inputs of the hash function when a proof is checked. -/
def checkInputs (h : Hash) (m : Bytes) (i : Nat) (path : Bytes) : List Bytes :=
  (0 :: m) :: proofInputs h i (leaf h m) (cut h.L (path.length / h.L) path)

end Fizz.Batch.Spec

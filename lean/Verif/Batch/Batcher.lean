import Verif.Batch.Merkle
import Verif.Codec.Prim

/-!
# Batch signatures and the batcher

Model of `fizz/experimental/crypto/BatchSignature.h`, `fizz/experimental/batcher/Batcher.h`,
`fizz/experimental/server/BatchSignatureAsyncSelfCert.h`, `fizz/experimental/client/BatchSignaturePeerCert.cpp`
and `fizz/experimental/protocol/BatchSignatureTypes.{h,cpp}`.
-/

namespace Fizz.Batch
open Fizz Fizz.Crypto Fizz.Codec

/-! ## The signature on the wire -/

/-- `BatchSignature` (`fizz/experimental/crypto/BatchSignature.h:130-132`, `MerkleTree.h:23-26`). -/
structure BatchSig where
  index : UInt32
  path : Bytes
  sig : Bytes
  deriving DecidableEq, Repr

/-- `encode` (`fizz/experimental/crypto/BatchSignature.h:68-85`). -/
def BatchSig.encode (s : BatchSig) : Res Bytes := do
  let i ← writeU32 s.index
  let p ← writeBuf .u16 s.path
  let g ← writeBuf .u16 s.sig
  pure (i ++ p ++ g)

/-- `decode` (`fizz/experimental/crypto/BatchSignature.h:50-63`). -/
def BatchSig.decode : Rd BatchSig := do
  let (i, _) ← readU32
  let (p, _) ← readBuf .u16
  let (g, _) ← readBuf .u16
  pure ⟨i, p, g⟩

/-- The constant prefix (`fizz/experimental/crypto/BatchSignature.h:102-110`). -/
def tbsPrefix : Bytes :=
  [0x20, 0x20, 0x20, 0x20, 0x20, 0x20, 0x20, 0x20, 0x20, 0x20, 0x20,
   0x20, 0x20, 0x20, 0x20, 0x20, 0x20, 0x20, 0x20, 0x20, 0x20, 0x20,
   0x20, 0x20, 0x20, 0x20, 0x20, 0x20, 0x20, 0x20, 0x20, 0x20, 0x20,
   0x20, 0x20, 0x20, 0x20, 0x20, 0x20, 0x20, 0x20, 0x20, 0x20, 0x20,
   0x20, 0x20, 0x20, 0x20, 0x20, 0x20, 0x20, 0x20, 0x20, 0x20, 0x20,
   0x20, 0x20, 0x20, 0x20, 0x20, 0x20, 0x20, 0x20, 0x20, 0x54, 0x4c,
   0x53, 0x20, 0x62, 0x61, 0x74, 0x63, 0x68, 0x20, 0x73, 0x69, 0x67,
   0x6e, 0x61, 0x74, 0x75, 0x72, 0x65, 0x00]

/-- `encodeToBeSigned` (`fizz/experimental/crypto/BatchSignature.h:101-127`). -/
def encodeToBeSigned (root : Bytes) (scheme : UInt16) : Bytes :=
  tbsPrefix ++ beEnc 2 scheme.toNat ++ root

/-! ## Schemes -/

/-- `BatchSignatureSchemes<Sha256>::getFromBaseScheme`
(`fizz/experimental/protocol/BatchSignatureTypes.h:36-59`). -/
def getFromBaseScheme (s : UInt16) : Option UInt16 :=
  if s = 0x0403 then some 0xFE00
  else if s = 0x0804 then some 0xFE05
  else none

/-- `getBatchSchemeInfo` with no list of supported schemes
(`fizz/experimental/protocol/BatchSignatureTypes.cpp:13-58`).  The switch has no default: a value that is
not in the enumeration falls out of it and gives the base scheme 0. -/
def getBatchSchemeInfo (s : UInt16) : Option UInt16 :=
  if s = 0xFE00 then some 0x0403
  else if s = 0xFE01 then some 0x0503
  else if s = 0xFE02 then some 0x0603
  else if s = 0xFE03 then some 0x0807
  else if s = 0xFE04 then some 0x0808
  else if s = 0xFE05 then some 0x0804
  else if s = 0x0403 ∨ s = 0x0503 ∨ s = 0x0603 ∨ s = 0x0804 ∨ s = 0x0805 ∨ s = 0x0806 ∨ s = 0x0807 ∨ s = 0x0808 then none
  else some 0

/-- The constructor's choice (`fizz/experimental/batcher/Batcher.h:63-78`): the *last* scheme of the
signer that has a batch scheme.  `none`: the members stay uninitialized. -/
def chooseScheme (signer : List UInt16) : Option (UInt16 × UInt16) :=
  signer.foldl (fun c s => match getFromBaseScheme s with
    | some b => some (s, b)
    | none => c) none

/-! ## The batcher -/

/-- Parameters of a batcher: `SynchronizedBatcher` has one epoch for all threads (`Batcher.h:144-205`),
`ThreadLocalBatcher` one for each (`Batcher.h:211-263`). -/
structure BatcherCfg where
  H : HashAlg
  threshold : Nat
  shared : Bool
  scheme : UInt16

/-- `EpochData` (`fizz/experimental/batcher/Batcher.h:46-53`).  `gen` is the identity of its promise. -/
structure Epoch where
  gen : Nat := 0
  tree : Tree

/-- What has become of an epoch's tree and promise after the epoch was completed. -/
inductive Phase
  | collecting
  | closed (t : Tree)
  | asked (t : Tree)
  | done (r : Res (Tree × Bytes))

/-- A batcher: the current epochs and the completed ones. -/
structure Batcher where
  epoch : Nat → Epoch
  phase : Nat → Nat → Phase

/-- Construction (`fizz/experimental/batcher/Batcher.h:146-152`, `212-219`). -/
def Batcher.init (cfg : BatcherCfg) : Batcher :=
  { epoch := fun _ => { tree := Tree.batch cfg.threshold }, phase := fun _ _ => .collecting }

/-- What happens to a batcher: a thread calls `addMessageAndSign` (the part under the lock; `random` is
the leaf drawn); the completed tree is finalized and handed to the signer; the signer answers. -/
inductive BEv
  | add (thread : Nat) (msg random : Bytes)
  | start (slot gen : Nat)
  | answer (slot gen : Nat) (r : Res (Option Bytes))

/-- What can be seen of it: index and promise given to the caller; the bytes to be signed. -/
inductive BOut
  | added (r : Res (Nat × Nat × Nat))
  | asked (tbs : Res Bytes)
  | nothing
  deriving DecidableEq

def Batcher.setPhase (b : Batcher) (slot gen : Nat) (p : Phase) : Batcher :=
  { b with phase := fun s g => if s = slot ∧ g = gen then p else b.phase s g }

/-- The epoch a thread adds to. -/
def BatcherCfg.slot (cfg : BatcherCfg) (thread : Nat) : Nat := if cfg.shared then 0 else thread

/-- `addMessageAndSign` up to the release of the lock (`fizz/experimental/batcher/Batcher.h:154-184`,
`221-244`). -/
def Batcher.add (cfg : BatcherCfg) (b : Batcher) (thread : Nat) (msg random : Bytes) : Batcher × BOut :=
  let slot := cfg.slot thread
  let e := b.epoch slot
  let (tree, index) := e.tree.appendTranscript cfg.H msg random
  match index with
  | none =>
    ({ b with epoch := fun s => if s = slot then { e with tree := tree } else b.epoch s },
      .added (.error (Failure.rt "Cannot append more TLS transcripts into the Merkle Tree")))
  | some i =>
    if tree.countMessages ≥ cfg.threshold then
      (Batcher.setPhase { b with epoch := fun s => if s = slot then
          { gen := e.gen + 1, tree := Tree.batch cfg.threshold } else b.epoch s } slot e.gen (.closed tree),
        .added (.ok (i, slot, e.gen)))
    else
      ({ b with epoch := fun s => if s = slot then { e with tree := tree } else b.epoch s },
        .added (.ok (i, slot, e.gen)))

/-- The first part of `signMerkleTree` (`fizz/experimental/batcher/Batcher.h:103-123`), called by the
thread that completed the epoch: the call of the signer.  (That `finalizeTree` does not end is `ub`.) -/
def Batcher.start (cfg : BatcherCfg) (b : Batcher) (slot gen : Nat) : Batcher × BOut :=
  match b.phase slot gen with
  | .closed t =>
    match t.finalize cfg.H with
    | none => (b, .asked (.error (.ub "finalizeTree")))
    | some f =>
      match f.root with
      | .error e => (b.setPhase slot gen (.done (.error e)), .asked (.error e))
      | .ok r => (b.setPhase slot gen (.asked f), .asked (.ok (encodeToBeSigned r cfg.scheme)))
  | _ => (b, .nothing)

/-- The rest of `signMerkleTree` and the promise (`fizz/experimental/batcher/Batcher.h:124-135`,
`187-198`).  An exception of a synchronous signer leaves the promise broken: also an error. -/
def Batcher.answer (b : Batcher) (slot gen : Nat) (r : Res (Option Bytes)) : Batcher :=
  match b.phase slot gen with
  | .asked f =>
    b.setPhase slot gen (.done (match r with
      | .ok (some sig) => .ok (f, sig)
      | .ok none => .error (Failure.rt "Base signature cannot be generated by the signer.")
      | .error e => .error e))
  | _ => b

def Batcher.step (cfg : BatcherCfg) (b : Batcher) : BEv → Batcher × BOut
  | .add th m r => b.add cfg th m r
  | .start s g => b.start cfg s g
  | .answer s g r => (b.answer s g r, .nothing)

def Batcher.run (cfg : BatcherCfg) (b : Batcher) : List BEv → Batcher × List BOut
  | [] => (b, [])
  | e :: es =>
    let (b1, o) := b.step cfg e
    let (b2, os) := Batcher.run cfg b1 es
    (b2, o :: os)

/-! ## Signing and verifying -/

/-- The continuation in `batchSigSign` (`fizz/experimental/server/BatchSignatureAsyncSelfCert.h:127-133`).
`getPath` takes the index as a `uint32_t`. -/
def finishSign (t : Tree) (index : Nat) (sig : Bytes) : Res Bytes := do
  let i := UInt32.ofNat index
  let p ← t.path i.toNat
  BatchSig.encode ⟨i, p, sig⟩

/-- `batchSigVerify` (`fizz/experimental/client/BatchSignaturePeerCert.cpp:13-48`); `base` is `verify` of the
decorated certificate, for a given context.  Bytes after the signature are not looked at. -/
def batchSigVerify (H : HashAlg) (base : UInt16 → Bytes → Bytes → Res Unit) (scheme baseScheme : UInt16)
    (msg signature : Bytes) : Res Unit := do
  let (d, _) ← BatchSig.decode signature
  if d.index.toNat > 2 ^ 32 then
    .error (Failure.rt "Verification failure: batch signature index must be less than 2^31")
  else if d.path.length / H.hashLen > 32 then
    .error (Failure.rt "Verification failure: batch signature number of path elements must be less than 32")
  else do
    let r ← computeRoot H msg d.index.toNat d.path
    base baseScheme (encodeToBeSigned r scheme) d.sig

/-- `BatchSignaturePeerCert::verify` (`fizz/experimental/client/BatchSignaturePeerCert.h:35-49`). -/
def peerVerify (H : HashAlg) (base : UInt16 → Bytes → Bytes → Res Unit) (scheme : UInt16)
    (msg signature : Bytes) : Res Unit :=
  match getBatchSchemeInfo scheme with
  | none => base scheme msg signature
  | some b => batchSigVerify H base scheme b msg signature

end Fizz.Batch

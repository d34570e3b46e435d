import Verif.Aead.Transform

/-!
# `encryptHelper` and `decryptHelper`

Model of the parts of `fizz/crypto/aead/CryptoUtil.h` that every `Aead` implementation shares: where the
output goes, whether it may be the input, and where the tag is put.  The cipher is a parameter.
-/

namespace Fizz.Aead

/-- One buffer of an `IOBuf` chain: content, tailroom, and whether its memory is shared. -/
structure Buf where
  data : Bytes
  tailroom : Nat
  shared : Bool
  deriving DecidableEq, Repr

/-- The contents of a chain. -/
def datas (c : List Buf) : Chain := c.map Buf.data

/-- `IOBuf::isShared()`: some buffer of the chain is. -/
def isShared (c : List Buf) : Bool := c.any Buf.shared

/-- `Aead::BufferOption` (`Aead.h:31-36`). -/
inductive BufferOption | respectSharedPolicy | allowInPlace | allowFullModification
  deriving DecidableEq, Repr

/-- `Aead::AllocationOption` (`Aead.h:38-41`). -/
inductive AllocationOption | allow | deny
  deriving DecidableEq, Repr

/-- `Aead::AeadOptions` (`Aead.h:43-46`). -/
structure AeadOptions where
  bufferOpt : BufferOption
  allocOpt : AllocationOption
  deriving DecidableEq, Repr

variable {σ τ : Type}

/-- New contents for the buffers of a chain. -/
def setDatas (c : List Buf) (d : Chain) : List Buf :=
  c.zipWith (fun b x => { b with data := x }) d

/-- `output->prev()->append(tagLen)` and the copy of the tag there (`CryptoUtil.h:249-254`). -/
def growLast : List Buf → Bytes → List Buf
  | [], _ => []
  | [b], tag => [{ b with data := b.data ++ tag, tailroom := b.tailroom - tag.length }]
  | b :: bs, tag => b :: growLast bs tag

/-- Tailroom of the last buffer. -/
def lastTailroom (c : List Buf) : Nat := (c.getLast?.map Buf.tailroom).getD 0

/-- `encryptHelper` (`CryptoUtil.h:184-258`), over `AeadImpl::init`, `AeadImpl::encrypt` and
`AeadImpl::final`.  `slack` is what the allocator gives beyond the size asked for; a fresh buffer is
modelled as zeros. -/
def encryptWith (init : Res σ) (body : σ → Option Chain → Chain → Res (Chain × τ))
    (final : τ → Nat → Res Bytes) (slack : Nat) (plaintext : List Buf) (tagLen headroom : Nat)
    (opts : AeadOptions) : Res (List Buf) := do
  let inputLength := (datas plaintext).flatten.length
  let s ← init
  let allowInplaceEdit := !isShared plaintext || opts.bufferOpt != .respectSharedPolicy
  let allowGrowth := opts.bufferOpt == .allowFullModification || !isShared plaintext ||
    !allowInplaceEdit
  let allowAlloc := opts.allocOpt == .allow
  if !allowInplaceEdit && !allowAlloc then
    .error (.rt "Cannot encrypt (must be in-place or allow allocation)")
  else if !allowInplaceEdit && decide (2^64 ≤ headroom + inputLength + tagLen) then
    .error (.err "Output buffer size" none .stdOverflow)
  else
    let output : List Buf :=
      if allowInplaceEdit then plaintext
      else [⟨List.replicate inputLength 0, tagLen + slack, false⟩]
    let src := if allowInplaceEdit then none else some (datas plaintext)
    let (mem, s) ← body s src (datas output)
    let output := setDatas output mem
    if lastTailroom output < tagLen || !allowGrowth then
      if !allowAlloc then .error (.rt "Cannot encrypt (insufficient space for tag)")
      else do
        let tag ← final s tagLen
        .ok (output ++ [⟨tag, slack, false⟩])
    else do
      let tag ← final s tagLen
      .ok (growLast output tag)

/-- `decryptHelper` (`CryptoUtil.h:277-312`), over `AeadImpl::init` and `AeadImpl::decryptAndFinal`. -/
def decryptWith (init : Res σ) (body : σ → Option Chain → Chain → Res (Chain × Bool)) (slack : Nat)
    (ciphertext : List Buf) (inPlace : Bool) : Res (Option (List Buf)) := do
  let inputLength := (datas ciphertext).flatten.length
  let s ← init
  let output : List Buf :=
    if inPlace then ciphertext else [⟨List.replicate inputLength 0, slack, false⟩]
  let src := if inPlace then none else some (datas ciphertext)
  let (mem, decrypted) ← body s src (datas output)
  if decrypted then .ok (some (setDatas output mem)) else .ok none

/-- `lastBuf->trimEnd(tagLength_)` and the tag at its `writableTail()`
(`OpenSSLEVPCipher.cpp:513-519`). -/
def cutLast : List Buf → Nat → List Buf × Bytes
  | [], _ => ([], [])
  | [b], n =>
    ([{ b with data := b.data.take (b.data.length - n), tailroom := b.tailroom + n }],
      b.data.drop (b.data.length - n))
  | b :: bs, n => let (r, t) := cutLast bs n; (b :: r, t)

/-- Length of the last buffer. -/
def lastLength (c : List Buf) : Nat := (c.getLast?.map fun b => b.data.length).getD 0

/-- `tryDecrypt` with a nonce (`OpenSSLEVPCipher.cpp:490-550`, `AEGISCipher.cpp:445-493`): the length and
policy checks and the separation of the tag, which `dec` then gets.  `maxTag` is the size of the array for
a fragmented tag. -/
def tryDecryptWith (dec : List Buf → Bytes → Bool → Res (Option (List Buf))) (tagLength maxTag : Nat)
    (ciphertext : List Buf) (opts : AeadOptions) : Res (Option (List Buf)) :=
  if (datas ciphertext).flatten.length < tagLength then .ok none
  else
    let inPlace := !isShared ciphertext || opts.bufferOpt != .respectSharedPolicy
    if !inPlace && opts.allocOpt == .deny then
      .error (.rt "Unable to decrypt (no-alloc requires in-place)")
    else if tagLength ≤ lastLength ciphertext then
      let (ct, tag) := cutLast ciphertext tagLength
      dec ct tag inPlace
    else if opts.allocOpt == .deny then
      .error (.rt "Unable to decrypt (tag is fragmented and no allocation allowed)")
    else if maxTag < tagLength then .error (.ub "write past the tag array")
    else do
      let (mem, tag) ← trimBytes (datas ciphertext) tagLength
      dec (setDatas ciphertext mem) tag inPlace

end Fizz.Aead

import Verif.Ech.Crypt

/-!
# C89: GREASE ECH and GREASE PSKs

Model of `fizz/protocol/ech/GreaseECH.cpp`, `GreaseECHSetting.h` and the GREASE PSK functions of
`fizz/protocol/ech/Encryption.cpp:491-555`.  The random source is a parameter: its `i`-th call, asked
for `n` bytes, gives `draw i n`.
-/

namespace Fizz.Ech.Grease
open Fizz Fizz.Codec Fizz.Ech

/-- `Factory::makeRandomBytes`/`makeRandomIOBuf` (`fizz/protocol/Factory.cpp:72-80`), call by call. -/
structure Rng where
  draw : Nat → Nat → Bytes
  length : ∀ i n, (draw i n).length = n

/-- The bytes of a `size_t` in memory (little endian). -/
def leDec : Bytes → Nat
  | [] => 0
  | b :: bs => b.toNat + 256 * leDec bs

/-- `RandomNumberGenerator::generate` (`GreaseECH.cpp:27-33`). -/
def Rng.number (r : Rng) (i : Nat) : Nat := leDec (r.draw i 8)

/-- `RandomSelector::genNumber` (`GreaseECH.cpp:44-56`) with the `i`-th call of the source.  `size_t` has
64 bits. -/
def genNumber (r : Rng) (i min max : Nat) : Res Nat :=
  if min > max then .error (Failure.rt "min > max")
  else if max - min = 2 ^ 64 - 1 then .error (Failure.rt "The range exeeds size_t")
  else .ok (min + r.number i % (max - min + 1))

/-- `RandomSelector::select` (`GreaseECH.cpp:58-64`): `elems.size() - 1` wraps around if the list is
empty; the index is in range otherwise. -/
def select {α} (r : Rng) (i : Nat) (elems : List α) : Res α := do
  let idx ← genNumber r i 0 ((elems.length + (2 ^ 64 - 1)) % 2 ^ 64)
  match elems[idx]? with
  | some x => .ok x
  | none => .error (Failure.ub "index out of range")

/-- `PayloadGenerationStrategy` (`GreaseECHSetting.h:16-30`). -/
inductive Strategy
  | uniformRandom
  | computed
  deriving DecidableEq

/-- `GreaseECHSetting` (`GreaseECHSetting.h:32-51`). -/
structure Setting where
  minConfigId : UInt8
  maxConfigId : UInt8
  strategy : Strategy
  minPayloadSize : Nat
  maxPayloadSize : Nat
  keySizes : List UInt16
  kdfs : List UInt16
  aeads : List UInt16

/-- The size of the payload (`GreaseECH.cpp:93-102`), a `size_t`. -/
def payloadSize (s : Setting) (aead : UInt16) (picked encodedChloSize : Nat) : Res Nat :=
  match s.strategy with
  | .uniformRandom => .ok picked
  | .computed => do
    let overhead ← cipherOverhead aead
    pure ((picked + (encodedChloSize + overhead)) % 2 ^ 64)

/-- `generateGreaseECH` (`GreaseECH.cpp:71-105`). -/
def generateGreaseECH (s : Setting) (r : Rng) (encodedChloSize : Nat) : Res OuterEch := do
  let kdf ← select r 0 s.kdfs
  let aead ← select r 1 s.aeads
  let configId ← genNumber r 2 s.minConfigId.toNat s.maxConfigId.toNat
  let keySize ← select r 3 s.keySizes
  let enc := r.draw 4 keySize.toNat
  let picked ← genNumber r 5 s.minPayloadSize s.maxPayloadSize
  let size ← payloadSize s aead picked encodedChloSize
  pure ⟨⟨kdf, aead⟩, UInt8.ofNat configId, enc, r.draw 6 size⟩

/-- The loop of `generateGreasePskCommon` (`Encryption.cpp:498-520`) from the identity `i` on, three
calls of the source per identity. `binders.at(i)` throws if there is no such binder. -/
def pskLoop (r : Rng) (keepIdentity : Bool) (binders : List PskBinder) :
    Nat → List PskIdentity → Res (List PskIdentity × List PskBinder)
  | _, [] => .ok ([], [])
  | i, id :: ids =>
    let ident := if keepIdentity then id.psk_identity else r.draw (3 * i) 16
    let age := UInt32.ofNat (leDec (r.draw (3 * i + 1) 4))
    match binders[i]? with
    | none => .error (Failure.outOfRange)
    | some b =>
      match pskLoop r keepIdentity binders (i + 1) ids with
      | .error f => .error f
      | .ok (is, bs) => .ok (⟨ident, age⟩ :: is, ⟨r.draw (3 * i + 2) b.binder.length⟩ :: bs)

/-- `generateGreasePskCommon` (`Encryption.cpp:491-523`). -/
def generateGreasePskCommon (r : Rng) (source : ClientPresharedKey) (keepIdentity : Bool) :
    Res ClientPresharedKey :=
  match pskLoop r keepIdentity source.binders 0 source.identities with
  | .error f => .error f
  | .ok (is, bs) => .ok ⟨is, bs⟩

/-- `generateGreasePSK` (`Encryption.cpp:526-545`). -/
def generateGreasePSK (r : Rng) (inner : ClientHello) : Res (Option ClientPresharedKey) :=
  match getExtension 41 readClientPresharedKey inner.extensions with
  | .error f => .error f
  | .ok none => .ok none
  | .ok (some psk) =>
    match generateGreasePskCommon r psk false with
    | .error f => .error f
    | .ok g => .ok (some g)

/-- `generateGreasePSKForHRR` (`Encryption.cpp:547-555`). -/
def generateGreasePSKForHRR (r : Rng) (previous : ClientPresharedKey) : Res ClientPresharedKey :=
  generateGreasePskCommon r previous true

end Fizz.Ech.Grease

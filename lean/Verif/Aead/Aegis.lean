import Verif.Aead.Helper
import Verif.Record.WriteModel

/-!
# `AEGISCipher`: the `Aead` over libaegis

Model of `fizz/backend/libaegis/AEGISCipher.cpp`.  libaegis is the abstract machine `Lib`; `none` is a
return value other than 0.  The library state is a member of the cipher object and is used by every
encryption and every decryption; what an operation leaves in it is not described, so that an object may
be found with any state at all.
-/

namespace Fizz.Aead.Aegis

open Fizz.Aead

/-- `LibAegisCipherBase` (`AEGISCipher.cpp:20-32`). -/
structure Lib (σ : Type) where
  /-- `aegis*_state_init(&state, ad, adlen, npub, k)`: the state it finds, then its arguments -/
  stateInit : σ → (ad npub k : Bytes) → σ
  /-- `aegis*_state_encrypt_update` -/
  encUpdate : σ → Bytes → Option (Bytes × σ)
  /-- `aegis*_state_encrypt_final` with the length of the tag -/
  encFinal : σ → Nat → Option Bytes
  /-- `aegis*_state_decrypt_update` -/
  decUpdate : σ → Bytes → Option (Bytes × σ)
  /-- `aegis*_state_decrypt_final`: whether the tag is right -/
  decFinal : σ → Bytes → Bool

/-- `AEGISCipher::kTagLength` (`AEGISCipher.cpp:78`). -/
def kTagLength : Nat := 16

/-- `AEGISCipher::kMaxIVLength` (`AEGISCipher.cpp:77`). -/
def kMaxIVLength : Nat := 32

/-- A traffic key (`fizz/crypto/aead/Aead.h`: `TrafficKey`). -/
structure Key where
  key : Bytes
  iv : Bytes
  deriving DecidableEq, Repr

/-- An `AEGISCipher` object (`AEGISCipher.cpp:160-178`) and the allocator's surplus. -/
structure Cipher (σ : Type) where
  lib : Lib σ
  state : σ
  trafficKey : Option Key := none
  headroom : Nat := 5
  keyLength : Nat
  ivLength : Nat
  slack : Nat := 0

variable {σ : Type}

/-- `AEGISCipher::setKey` (`AEGISCipher.cpp:366-380`): the object after the call, and its result. -/
def Cipher.setKey (c : Cipher σ) (k : Key) : Cipher σ × Res Unit :=
  if k.key.length ≠ c.keyLength then (c, .error (.rt "Invalid key"))
  else if k.iv.length ≠ c.ivLength then (c, .error (.rt "Invalid IV"))
  else ({ c with trafficKey := some k }, .ok ())

/-- `AEGISCipher::getKey` (`AEGISCipher.cpp:382-387`). -/
def Cipher.getKey (c : Cipher σ) : Option Key := c.trafficKey

/-- `AEGISCipher::getCipherOverhead` (`AEGISCipher.cpp:499-501`). -/
def Cipher.overhead (_ : Cipher σ) : Nat := kTagLength

/-- `AeadImpl::init` (`AEGISCipher.cpp:195-219`, `277-302`): the associated data in one piece, and the
library state started over.  Without a key the library reads through a null pointer, with a nonce that is
too short past its end. -/
def Cipher.init (c : Cipher σ) (iv : Bytes) (aad : Option Chain) : Res σ :=
  match c.trafficKey with
  | none => .error (.ub "no key")
  | some k =>
    if iv.length < c.ivLength then .error (.ub "nonce too short")
    else .ok (c.lib.stateInit c.state (aad.getD []).flatten (iv.take c.ivLength) k.key)

/-- The lambda of `AeadImpl::encrypt` (`AEGISCipher.cpp:227-235`).  Once it has failed the real lambda
ignores further calls, and the error is returned after the traversal; here the traversal stops at once. -/
def encFn (lib : Lib σ) (s : σ) (d : Bytes) : Res (Bytes × σ) :=
  match lib.encUpdate s d with
  | none => .error (.rt "Encryption error")
  | some r => .ok r

/-- `AeadImpl::encrypt` (`AEGISCipher.cpp:221-244`): the memory of `ciphertext`, and the tag. -/
def encBody (lib : Lib σ) (s : σ) (src : Option Chain) (out : Chain) : Res (Chain × Bytes) := do
  let (out, s) ← transformBuffer src out (encFn lib) s
  match lib.encFinal s kTagLength with
  | none => .error (.rt "Encryption error")
  | some tag => .ok (out, tag)

/-- `AeadImpl::final` (`AEGISCipher.cpp:246-249`): `memcpy` from the array of `kTagLength` bytes. -/
def encTag (tag : Bytes) (tagLen : Nat) : Res Bytes :=
  if kTagLength < tagLen then .error (.ub "read past the tag array") else .ok (tag.take tagLen)

/-- The lambda of `AeadImpl::decryptAndFinal` (`AEGISCipher.cpp:314-322`), as `encFn`. -/
def decFn (lib : Lib σ) (s : σ) (d : Bytes) : Res (Bytes × σ) :=
  match lib.decUpdate s d with
  | none => .error (.rt "Decryption error")
  | some r => .ok r

/-- `AeadImpl::decryptAndFinal` (`AEGISCipher.cpp:304-329`). -/
def decBody (lib : Lib σ) (tag : Bytes) (s : σ) (src : Option Chain) (out : Chain) :
    Res (Chain × Bool) := do
  let (out, s) ← transformBuffer src out (decFn lib) s
  .ok (out, lib.decFinal s (tag.take kTagLength))

/-- `AEGISCipher::encrypt` with a nonce (`AEGISCipher.cpp:407-416`) over `doEncrypt` (`183-263`). -/
def Cipher.encrypt (c : Cipher σ) (plaintext : List Buf) (aad : Option Chain) (nonce : Bytes)
    (opts : AeadOptions) : Res (List Buf) :=
  encryptWith (c.init nonce aad) (encBody c.lib) encTag c.slack plaintext kTagLength c.headroom opts

/-- The nonce of a sequence number (`AEGISCipher.cpp:396-397`, `425-426`, `444-445`). -/
def Cipher.nonce (c : Cipher σ) (seq : UInt64) : Res Bytes :=
  if kMaxIVLength < c.ivLength then .error (.ub "write past the nonce array")
  else Record.createIV seq c.ivLength ((c.trafficKey.map Key.iv).getD [])

/-- `AEGISCipher::encrypt` with a sequence number (`AEGISCipher.cpp:389-405`). -/
def Cipher.encryptSeq (c : Cipher σ) (plaintext : List Buf) (aad : Option Chain) (seq : UInt64)
    (opts : AeadOptions) : Res (List Buf) := do
  let iv ← c.nonce seq
  c.encrypt plaintext aad iv opts

/-- `AEGISCipher::inplaceEncrypt` (`AEGISCipher.cpp:418-435`). -/
def Cipher.inplaceEncrypt (c : Cipher σ) (plaintext : List Buf) (aad : Option Chain) (seq : UInt64) :
    Res (List Buf) := do
  let iv ← c.nonce seq
  c.encrypt plaintext aad iv ⟨.allowFullModification, .deny⟩

/-- `AEGISCipher::tryDecrypt` with a nonce (`AEGISCipher.cpp:455-497`) over `doDecrypt` (`265-342`). -/
def Cipher.tryDecrypt (c : Cipher σ) (ciphertext : List Buf) (aad : Option Chain) (nonce : Bytes)
    (opts : AeadOptions) : Res (Option (List Buf)) :=
  tryDecryptWith
    (fun ct tag inPlace => decryptWith (c.init nonce aad) (decBody c.lib tag) c.slack ct inPlace)
    kTagLength kTagLength ciphertext opts

/-- `AEGISCipher::tryDecrypt` with a sequence number (`AEGISCipher.cpp:437-453`). -/
def Cipher.tryDecryptSeq (c : Cipher σ) (ciphertext : List Buf) (aad : Option Chain) (seq : UInt64)
    (opts : AeadOptions) : Res (Option (List Buf)) := do
  let iv ← c.nonce seq
  c.tryDecrypt ciphertext aad iv opts

/-! ## A session with one object -/

/-- A call of a user of the object. -/
inductive Op
  | setKey (k : Key)
  | setHeadroom (n : Nat)
  | encrypt (plaintext : List Buf) (aad : Option Chain) (seq : UInt64) (opts : AeadOptions)
  | inplaceEncrypt (plaintext : List Buf) (aad : Option Chain) (seq : UInt64)
  | encryptNonce (plaintext : List Buf) (aad : Option Chain) (nonce : Bytes) (opts : AeadOptions)
  | tryDecrypt (ciphertext : List Buf) (aad : Option Chain) (seq : UInt64) (opts : AeadOptions)
  | tryDecryptNonce (ciphertext : List Buf) (aad : Option Chain) (nonce : Bytes) (opts : AeadOptions)

/-- One call (`AEGISCipher.cpp:366-497`).  `left` is what an encryption or decryption, complete or broken
off, leaves in the member `state_`: anything. -/
inductive Step : Cipher σ → Op → Cipher σ → Prop
  | setKey (c : Cipher σ) (k : Key) : Step c (.setKey k) (c.setKey k).1
  | headroom (c : Cipher σ) (n : Nat) : Step c (.setHeadroom n) { c with headroom := n }
  | encrypt (c : Cipher σ) p a s o (left : σ) : Step c (.encrypt p a s o) { c with state := left }
  | inplace (c : Cipher σ) p a s (left : σ) : Step c (.inplaceEncrypt p a s) { c with state := left }
  | encryptNonce (c : Cipher σ) p a n o (left : σ) :
    Step c (.encryptNonce p a n o) { c with state := left }
  | tryDecrypt (c : Cipher σ) p a s o (left : σ) :
    Step c (.tryDecrypt p a s o) { c with state := left }
  | tryDecryptNonce (c : Cipher σ) p a n o (left : σ) :
    Step c (.tryDecryptNonce p a n o) { c with state := left }

/-- Any number of calls. -/
inductive Calls : Cipher σ → List Op → Cipher σ → Prop
  | nil (c : Cipher σ) : Calls c [] c
  | snoc {c d e : Cipher σ} {ops : List Op} {op : Op} :
    Calls c ops d → Step d op e → Calls c (ops ++ [op]) e

end Fizz.Aead.Aegis

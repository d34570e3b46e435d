import Verif.Aead.Aegis
import Verif.Aead.Ideal

/-! Specification for `AEGISCipher`: which key counts, the nonce of a record, and what libaegis is assumed
to do. -/

namespace Fizz.Aead.Aegis

/-- The key in force after a series of calls on a new object: the last one set that had the right
lengths. -/
def lastKey (keyLength ivLength : Nat) : List Op → Option Key
  | [] => none
  | .setKey k :: ops =>
    match lastKey keyLength ivLength ops with
    | some k' => some k'
    | none => if k.key.length = keyLength ∧ k.iv.length = ivLength then some k else none
  | _ :: ops => lastKey keyLength ivLength ops

/-- The nonce of a sequence number: the IV with its last eight bytes xored with the number. -/
def nonceOf (iv : Bytes) (seq : UInt64) : Bytes :=
  iv.take (iv.length - 8) ++
    List.zipWith (· ^^^ ·) (iv.drop (iv.length - 8)) (beEnc 8 seq.toNat)

/-- libaegis computes the AEAD `A key`, in pieces, for keys and nonces of its lengths; starting over does
not depend on the state it finds. -/
structure Realises {σ : Type} (lib : Lib σ) (keyLength ivLength : Nat) (A : Bytes → Ideal) where
  /-- state while encrypting: key, nonce, associated data, plaintext so far -/
  e : Bytes → Bytes → Bytes → Bytes → σ
  /-- ciphertext put out so far -/
  eo : Bytes → Bytes → Bytes → Bytes → Bytes
  /-- state while decrypting -/
  d : Bytes → Bytes → Bytes → Bytes → σ
  /-- plaintext put out so far (not authenticated yet) -/
  po : Bytes → Bytes → Bytes → Bytes → Bytes
  tagLen : ∀ k, (A k).tagLen = 16
  encInit : ∀ s a n k, k.length = keyLength → n.length = ivLength →
    lib.stateInit s a n k = e k n a []
  decInit : ∀ s a n k, k.length = keyLength → n.length = ivLength →
    lib.stateInit s a n k = d k n a []
  encUpdate : ∀ k n a p x, ∃ o, lib.encUpdate (e k n a p) x = some (o, e k n a (p ++ x)) ∧
    eo k n a p ++ o = eo k n a (p ++ x)
  encFinal : ∀ k n a p, lib.encFinal (e k n a p) 16 = some ((A k).sealing n a p).2 ∧
    eo k n a p = ((A k).sealing n a p).1
  decUpdate : ∀ k n a c x, ∃ o, lib.decUpdate (d k n a c) x = some (o, d k n a (c ++ x)) ∧
    po k n a c ++ o = po k n a (c ++ x)
  poLen : ∀ k n a c, (po k n a c).length = c.length
  decBad : ∀ k n a c t, (A k).opening n a c t = none → lib.decFinal (d k n a c) t = false
  decGood : ∀ k n a c t p, (A k).opening n a c t = some p →
    lib.decFinal (d k n a c) t = true ∧ po k n a c = p

end Fizz.Aead.Aegis

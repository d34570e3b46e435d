import Verif.Aead.Evp

/-!
# What the `EVP_*` machine is assumed to do

`Ideal` is an AEAD on whole byte strings.  `Implements` says that a machine computes it incrementally:
its state after some calls depends only on the nonce, on the associated data and on the concatenation of
the bytes it was given, and it puts out whole blocks of `bs` bytes (`bs = 1` for the stream modes GCM and
ChaCha20-Poly1305, `bs = 16` for OCB).  This is the documented behaviour of OpenSSL; it is a hypothesis of
the theorems, not something proved here.
-/

namespace Fizz.Aead

/-- An AEAD with its key: ciphertext and tag of a plaintext; plaintext of a ciphertext and tag. -/
structure Ideal where
  tagLen : Nat
  sealing : (nonce aad plain : Bytes) → Bytes × Bytes
  opening : (nonce aad cipher tag : Bytes) → Option Bytes

/-- Lengths are kept, and what was sealed opens. -/
structure Ideal.Ok (A : Ideal) : Prop where
  cipherLen : ∀ n a p, (A.sealing n a p).1.length = p.length
  tagLen : ∀ n a p, (A.sealing n a p).2.length = A.tagLen
  plainLen : ∀ n a c t p, A.opening n a c t = some p → p.length = c.length
  correct : ∀ n a p, A.opening n a (A.sealing n a p).1 (A.sealing n a p).2 = some p

/-- The machine `evp` computes `A` incrementally, in blocks of `bs` bytes. -/
structure Implements {σ : Type} (evp : Evp σ) (bs : Nat) (A : Ideal) where
  /-- state while encrypting: nonce, associated data, plaintext so far -/
  e : Bytes → Bytes → Bytes → σ
  /-- ciphertext put out so far -/
  eo : Bytes → Bytes → Bytes → Bytes
  /-- state while decrypting -/
  d : Bytes → Bytes → Bytes → σ
  /-- state with the expected tag set -/
  dt : Bytes → Bytes → Bytes → Bytes → σ
  /-- plaintext put out so far (not authenticated yet) -/
  po : Bytes → Bytes → Bytes → Bytes
  encInit : ∀ n, evp.encInit n = some (e n [] [])
  encAad : ∀ n a x, evp.encAad (e n a []) x = some (e n (a ++ x) [])
  encUpdate : ∀ n a p x, ∃ o, evp.encUpdate (e n a p) x = some (o, e n a (p ++ x)) ∧
    eo n a p ++ o = eo n a (p ++ x)
  eoLen : ∀ n a p, (eo n a p).length = p.length - p.length % bs
  encFinal : ∀ n a p, ∃ o s, evp.encFinal (e n a p) = some (o, s) ∧
    eo n a p ++ o = (A.sealing n a p).1 ∧ evp.getTag s A.tagLen = some (A.sealing n a p).2
  decInit : ∀ n, evp.decInit n = some (d n [] [])
  decAad : ∀ n a x, evp.decAad (d n a []) x = some (d n (a ++ x) [])
  decUpdate : ∀ n a c x, ∃ o, evp.decUpdate (d n a c) x = some (o, d n a (c ++ x)) ∧
    po n a c ++ o = po n a (c ++ x)
  poLen : ∀ n a c, (po n a c).length = c.length - c.length % bs
  setTag : ∀ n a c t, t.length = A.tagLen → evp.setTag (d n a c) t = some (dt n a c t)
  decBad : ∀ n a c t, A.opening n a c t = none → evp.decFinal (dt n a c t) = none
  decGood : ∀ n a c t p, A.opening n a c t = some p →
    ∃ o, evp.decFinal (dt n a c t) = some o ∧ po n a c ++ o = p

end Fizz.Aead

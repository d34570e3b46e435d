import Verif.Codec.Props

/-!
# The random of a HelloRetryRequest

RFC 8446, 4.1.3: a HelloRetryRequest is a ServerHello whose random is SHA-256 of the ASCII string
"HelloRetryRequest".  The code (`fizz/record/Types.h:331-335`) has 32 literal bytes; here they are compared with
SHA-256 as FIPS 180-4 defines it, written down independently of the model.
-/

namespace Fizz.Codec.Sha256

/-- The first 32 bits of the fractional parts of the cube roots of the first 64 primes (FIPS 180-4, 4.2.2). -/
def k : List Nat :=
  [0x428a2f98, 0x71374491, 0xb5c0fbcf, 0xe9b5dba5, 0x3956c25b, 0x59f111f1, 0x923f82a4, 0xab1c5ed5,
   0xd807aa98, 0x12835b01, 0x243185be, 0x550c7dc3, 0x72be5d74, 0x80deb1fe, 0x9bdc06a7, 0xc19bf174,
   0xe49b69c1, 0xefbe4786, 0x0fc19dc6, 0x240ca1cc, 0x2de92c6f, 0x4a7484aa, 0x5cb0a9dc, 0x76f988da,
   0x983e5152, 0xa831c66d, 0xb00327c8, 0xbf597fc7, 0xc6e00bf3, 0xd5a79147, 0x06ca6351, 0x14292967,
   0x27b70a85, 0x2e1b2138, 0x4d2c6dfc, 0x53380d13, 0x650a7354, 0x766a0abb, 0x81c2c92e, 0x92722c85,
   0xa2bfe8a1, 0xa81a664b, 0xc24b8b70, 0xc76c51a3, 0xd192e819, 0xd6990624, 0xf40e3585, 0x106aa070,
   0x19a4c116, 0x1e376c08, 0x2748774c, 0x34b0bcb5, 0x391c0cb3, 0x4ed8aa4a, 0x5b9cca4f, 0x682e6ff3,
   0x748f82ee, 0x78a5636f, 0x84c87814, 0x8cc70208, 0x90befffa, 0xa4506ceb, 0xbef9a3f7, 0xc67178f2]

/-- Addition of words. -/
def add (a b : Nat) : Nat := (a + b) % 4294967296

/-- Rotation of a word to the right. -/
def rotr (n x : Nat) : Nat := (x >>> n) ||| ((x <<< (32 - n)) % 4294967296)

/-- The functions of FIPS 180-4, 4.1.2. -/
def ch (x y z : Nat) : Nat := (x &&& y) ^^^ ((4294967295 ^^^ x) &&& z)
@[inherit_doc ch] def maj (x y z : Nat) : Nat := (x &&& y) ^^^ (x &&& z) ^^^ (y &&& z)
@[inherit_doc ch] def S0 (x : Nat) : Nat := rotr 2 x ^^^ rotr 13 x ^^^ rotr 22 x
@[inherit_doc ch] def S1 (x : Nat) : Nat := rotr 6 x ^^^ rotr 11 x ^^^ rotr 25 x
@[inherit_doc ch] def s0 (x : Nat) : Nat := rotr 7 x ^^^ rotr 18 x ^^^ (x >>> 3)
@[inherit_doc ch] def s1 (x : Nat) : Nat := rotr 17 x ^^^ rotr 19 x ^^^ (x >>> 10)

/-- The message schedule, newest word first (FIPS 180-4, 6.2.2, step 1). -/
def extend : Nat → List Nat → List Nat
  | 0, w => w
  | n + 1, w =>
    extend n (add (add (s1 (w.getD 1 0)) (w.getD 6 0)) (add (s0 (w.getD 14 0)) (w.getD 15 0)) :: w)

/-- The eight working variables. -/
structure V where
  (a b c d e f g h : Nat)

/-- One round (FIPS 180-4, 6.2.2, step 3). -/
def round (v : V) (kw : Nat × Nat) : V :=
  let t1 := add (add (add v.h (S1 v.e)) (add (ch v.e v.f v.g) kw.1)) kw.2
  let t2 := add (S0 v.a) (maj v.a v.b v.c)
  ⟨add t1 t2, v.a, v.b, v.c, add v.d t1, v.e, v.f, v.g⟩

/-- One block of sixteen words (FIPS 180-4, 6.2.2). -/
def block (v : V) (m : List Nat) : V :=
  let r := (k.zip (extend 48 m.reverse).reverse).foldl round v
  ⟨add v.a r.a, add v.b r.b, add v.c r.c, add v.d r.d, add v.e r.e, add v.f r.f, add v.g r.g, add v.h r.h⟩

/-- The initial value (FIPS 180-4, 5.3.3). -/
def init : V :=
  ⟨0x6a09e667, 0xbb67ae85, 0x3c6ef372, 0xa54ff53a, 0x510e527f, 0x9b05688c, 0x1f83d9ab, 0x5be0cd19⟩

/-- Big-endian words. -/
def toWords : List Nat → List Nat
  | a :: b :: c :: d :: l => (((a * 256 + b) * 256 + c) * 256 + d) :: toWords l
  | _ => []

/-- Padding of a message of fewer than 56 bytes (FIPS 180-4, 5.1.1): a one bit, zeros, the length in bits. -/
def pad (m : List Nat) : List Nat :=
  m ++ 0x80 :: List.replicate (61 - m.length) 0 ++ [m.length * 8 / 256, m.length * 8 % 256]

/-- A word's bytes. -/
def bytes (w : Nat) : List Nat := [w / 16777216 % 256, w / 65536 % 256, w / 256 % 256, w % 256]

/-- SHA-256 of a message of one block. -/
def sha256 (m : List Nat) : List Nat :=
  let v := block init (toWords (pad m))
  [v.a, v.b, v.c, v.d, v.e, v.f, v.g, v.h].flatMap bytes

/-- The example of FIPS 180-4: SHA-256 of "abc". -/
example : sha256 [0x61, 0x62, 0x63] =
    [0xba, 0x78, 0x16, 0xbf, 0x8f, 0x01, 0xcf, 0xea, 0x41, 0x41, 0x40, 0xde, 0x5d, 0xae, 0x22, 0x23,
     0xb0, 0x03, 0x61, 0xa3, 0x96, 0x17, 0x7a, 0x9c, 0xb4, 0x10, 0xff, 0x61, 0xf2, 0x00, 0x15, 0xad] := by
  decide +kernel

end Fizz.Codec.Sha256

namespace Fizz.Codec

/-- SHA-256 of "HelloRetryRequest". -/
def Spec.retryRandom : List Nat := Sha256.sha256 ("HelloRetryRequest".toList.map Char.toNat)

theorem hrrRandom_eq : hrrRandom.val.map UInt8.toNat = Spec.retryRandom := by decide +kernel

theorem random_eq (r : Random) : r = hrrRandom ↔ r.val.map UInt8.toNat = Spec.retryRandom := by
  rw [← hrrRandom_eq]
  constructor
  · rintro rfl; rfl
  · intro h
    have hm : ∀ a b : Bytes, a.map UInt8.toNat = b.map UInt8.toNat → a = b := by
      intro a
      induction a with
      | nil => intro b hb; cases b with
        | nil => rfl
        | cons _ _ => cases hb
      | cons x xs ih => intro b hb; cases b with
        | nil => cases hb
        | cons y ys =>
          simp only [List.map_cons, List.cons.injEq] at hb
          rw [UInt8.toNat_inj.mp hb.1, ih ys hb.2]
    have := hm _ _ h
    cases r
    cases hr : hrrRandom
    rw [hr] at this
    simpa using this

/-- **C02** (telling a retry from a hello) A message of type server_hello (2) that decodes is taken for a
HelloRetryRequest exactly when its random, the 32 bytes after the version, is SHA-256 of "HelloRetryRequest"
(RFC 8446, 4.1.3); otherwise it is a ServerHello with that random. -/
theorem C02_retry (body : Bytes) (m : HsMsg) (h : parseHandshake 2 body = .ok m) :
    ((∃ r, m = .helloRetryRequest r) ↔ ((body.drop 2).take 32).map UInt8.toNat = Spec.retryRandom) ∧
    ((∃ s, m = .serverHello s ∧ s.random.val = (body.drop 2).take 32) ↔
      ((body.drop 2).take 32).map UInt8.toNat ≠ Spec.retryRandom) := by
  have h : parseServerHello body = .ok m := h
  rw [parseServerHello, Res.bind_eq_ok] at h
  obtain ⟨s, hs, h⟩ := h
  have hr : (body.drop 2).take 32 = s.random.val := by
    rw [decodeServerHello, decodeAll_eq_ok, readServerHello_eq_ok] at hs
    obtain ⟨h1, h2, h3⟩ := hs
    obtain ⟨x, hx⟩ := Option.isSome_iff_exists.mp h1
    have hu : (Spec.u16 s.legacy_version).length = 2 := by simp [Spec.u16]
    rw [h3, Spec.serverHello, hx]
    simp only [List.append_assoc]
    rw [List.drop_append_of_le_length (by omega), List.drop_eq_nil_of_le (by omega), List.nil_append,
      List.take_append_of_le_length (by rw [s.random.len]; exact Nat.le_refl _), List.take_of_length_le (by rw [s.random.len]; exact Nat.le_refl _)]
  rw [hr, ← random_eq]
  by_cases hc : s.random = hrrRandom
  · rw [if_pos hc] at h
    cases h
    simp [← random_eq, hc]
  · rw [if_neg hc] at h
    cases h
    simp [← random_eq, hc]

/-- **C01** (the other direction) Every HelloRetryRequest is encoded as a server_hello with that random. -/
theorem C01_retry (r : HelloRetryRequest) (bs : Bytes) (h : encodeHandshake (.helloRetryRequest r) = .ok bs) :
    bs.head? = some 2 ∧ ((bs.drop 6).take 32).map UInt8.toNat = Spec.retryRandom := by
  have hb := (C01_encode_handshake (.helloRetryRequest r)).1 bs h
  subst hb
  rw [← hrrRandom_eq]
  refine ⟨rfl, ?_⟩
  congr 1

/-- Messages that meet the hypotheses: a retry, and a hello that differs in the last byte of its random. -/
example : (∃ m, parseHandshake 2 ([3, 3] ++ hrrRandom.val ++ [0, 0x13, 1, 0, 0, 0]) = .ok (.helloRetryRequest m)) ∧
    (∃ m, parseHandshake 2 ([3, 3] ++ hrrRandom.val.dropLast ++ [0x9D] ++ [0, 0x13, 1, 0, 0, 0]) =
      .ok (.serverHello m)) := ⟨⟨_, rfl⟩, ⟨_, rfl⟩⟩

end Fizz.Codec

import Verif.Aead.AegisProps
import Verif.Aead.Example

/-! # A library meeting the hypotheses of C79, and a session with it -/

namespace Fizz.Aead.Aegis.Example

open Fizz.Aead.Example (ideal ideal_ok tagOf)

/-- Key, nonce, associated data, input so far. -/
abbrev S := Bytes × Bytes × Bytes × Bytes

/-- The toy tag depends on the key through its sum. -/
def mix (k n : Bytes) : Bytes := List.replicate k.sum.toNat 0 ++ n

def lib : Lib S where
  stateInit _ a n k := (k, n, a, [])
  encUpdate s x := some (Fizz.Aead.Example.flip x, (s.1, s.2.1, s.2.2.1, s.2.2.2 ++ x))
  encFinal s n := if n = 16 then some (tagOf (mix s.1 s.2.1) s.2.2.1 (Fizz.Aead.Example.flip s.2.2.2)) else none
  decUpdate s x := some (Fizz.Aead.Example.flip x, (s.1, s.2.1, s.2.2.1, s.2.2.2 ++ x))
  decFinal s t := decide (t = tagOf (mix s.1 s.2.1) s.2.2.1 s.2.2.2)

def A (k : Bytes) : Ideal where
  tagLen := 16
  sealing n a p := ideal.sealing (mix k n) a p
  opening n a c t := ideal.opening (mix k n) a c t

theorem A_ok (k : Bytes) : (A k).Ok where
  cipherLen n a p := ideal_ok.cipherLen _ a p
  tagLen n a p := ideal_ok.tagLen _ a p
  plainLen n a c t p h := ideal_ok.plainLen _ a c t p h
  correct n a p := ideal_ok.correct _ a p

def realises (kl il : Nat) : Realises lib kl il A where
  e k n a p := (k, n, a, p)
  eo _ _ _ p := Fizz.Aead.Example.flip p
  d k n a p := (k, n, a, p)
  po _ _ _ p := Fizz.Aead.Example.flip p
  tagLen _ := rfl
  encInit _ _ _ _ _ _ := rfl
  decInit _ _ _ _ _ _ := rfl
  encUpdate k n a p x := ⟨Fizz.Aead.Example.flip x, rfl, by simp [Fizz.Aead.Example.flip]⟩
  encFinal k n a p := ⟨by simp [lib, A, ideal], rfl⟩
  decUpdate k n a p x := ⟨Fizz.Aead.Example.flip x, rfl, by simp [Fizz.Aead.Example.flip]⟩
  poLen k n a c := by simp [Fizz.Aead.Example.flip]
  decBad k n a c t h := by
    simp only [A, ideal] at h
    split at h
    · simp at h
    next g => simp [lib, g]
  decGood k n a c t p h := by
    simp only [A, ideal] at h
    split at h
    next g => exact ⟨by simp [lib, g], by simpa using h⟩
    · simp at h

/-- A new AEGIS-128L object. -/
def fresh : Cipher S := { lib, state := ([], [], [], []), keyLength := 16, ivLength := 16 }

def key (b : UInt8) : Key := ⟨List.replicate 16 b, List.replicate 16 (b + 1)⟩

def plain : List Buf := [⟨[1, 2, 3], 0, false⟩, ⟨[], 0, false⟩, ⟨[4, 5], 3, true⟩]

/-- Set a key, encrypt, try a bad key, decrypt something, change the key. -/
def ops : List Op :=
  [.setKey (key 1), .encrypt plain none 0 ⟨.respectSharedPolicy, .allow⟩,
    .setKey ⟨[1], []⟩, .tryDecrypt plain none 0 ⟨.respectSharedPolicy, .allow⟩, .setKey (key 2),
    .setKey ⟨[], [2]⟩]

def after : Cipher S :=
  { fresh with state := ([9], [9], [9], [9]), trafficKey := some (key 2) }

theorem session : Calls fresh ops after := by
  have h1 := Calls.snoc (.nil fresh) (.setKey _ (key 1))
  have h2 := h1.snoc (.encrypt _ plain none 0 ⟨.respectSharedPolicy, .allow⟩ ([7], [], [], [3]))
  have h3 := h2.snoc (.setKey _ ⟨[1], []⟩)
  have h4 := h3.snoc (.tryDecrypt _ plain none 0 ⟨.respectSharedPolicy, .allow⟩ ([9], [9], [9], [9]))
  have h5 := h4.snoc (.setKey _ (key 2))
  exact h5.snoc (.setKey _ ⟨[], [2]⟩)

example : lastKey 16 16 ops = some (key 2) := by decide

/-- The hypotheses of C79 are met, and the conclusion is about real bytes. -/
example : ∃ r, after.encryptSeq plain (some [[7], [8, 9]]) 5 ⟨.respectSharedPolicy, .allow⟩ = .ok r ∧
    (datas r).flatten =
      ((A (key 2).key).sealing (nonceOf (key 2).iv 5) [7, 8, 9] [1, 2, 3, 4, 5]).1 ++
      ((A (key 2).key).sealing (nonceOf (key 2).iv 5) [7, 8, 9] [1, 2, 3, 4, 5]).2 :=
  (C79_encrypt session rfl A_ok (realises 16 16) (by decide) (by decide) (by decide) plain (by decide)
    (some [[7], [8, 9]]) 5 _ (by decide)).2.2.1 (Or.inl rfl)

example : nonceOf (key 2).iv 5 =
    [3, 3, 3, 3, 3, 3, 3, 3, 3, 3, 3, 3, 3, 3, 3, 6] := by decide

/-- Decrypting a fragmented ciphertext with another object that has its own history. -/
example : ∃ r, after.encryptSeq plain none 5 ⟨.respectSharedPolicy, .allow⟩ = .ok r ∧
    ∀ ct : List Buf, ct ≠ [] → (datas ct).flatten = (datas r).flatten →
      ∃ p, after.tryDecryptSeq ct none 5 ⟨.allowInPlace, .allow⟩ = .ok (some p) ∧
        (datas p).flatten = [1, 2, 3, 4, 5] := by
  obtain ⟨r, h, -⟩ := (C79_encrypt session rfl A_ok (realises 16 16) (by decide) (by decide)
    (k := key 2) (by decide) plain (by decide) none 5 ⟨.respectSharedPolicy, .allow⟩ (by decide)).2.2.1 (Or.inl rfl)
  refine ⟨r, h, fun ct hne hct => ?_⟩
  exact C79_roundtrip session session rfl rfl A_ok (realises 16 16) (realises 16 16) (by decide)
    (by decide) (by decide) (by decide) (k := key 2) (by decide) (by decide) plain ct (by decide) hne none none 5 _ _
    rfl rfl (by decide) rfl r h hct

end Fizz.Aead.Aegis.Example

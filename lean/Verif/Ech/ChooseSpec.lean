import Verif.Ech.Types

/-!
# Specification: choosing a configuration (draft-ietf-tls-esni sections 4, 6.1)
-/

namespace Fizz.Ech.Spec
open Fizz Fizz.Codec

/-- Letters, digits and hyphens. -/
def Ldh (b : UInt8) : Prop :=
  (48 ≤ b.toNat ∧ b.toNat ≤ 57) ∨ (65 ≤ b.toNat ∧ b.toNat ≤ 90) ∨ (97 ≤ b.toNat ∧ b.toNat ≤ 122) ∨ b.toNat = 45

/-- The labels with dots (46) between them. -/
def dotted : List Bytes → Bytes
  | [] => []
  | [l] => l
  | l :: l' :: ls => l ++ 46 :: dotted (l' :: ls)

/-- A sequence of one or more non-empty labels of letters, digits and hyphens. -/
def ValidName (n : Bytes) : Prop :=
  ∃ labels : List Bytes, labels ≠ [] ∧ n = dotted labels ∧ ∀ l ∈ labels, l ≠ [] ∧ ∀ b ∈ l, Ldh b

/-- No mandatory extension (high bit set), a valid public name, a KEM the client has. -/
def Usable (kems : List UInt16) (c : ConfigContent) : Prop :=
  (∀ x ∈ c.extensions, x.extension_type.toNat < 0x8000) ∧ ValidName c.publicName ∧ c.key.kemId ∈ kems

/-- An AEAD the client has (1: AES-128-GCM, 2: AES-256-GCM, 3: ChaCha20Poly1305), with the KDF that belongs to it
(1: SHA-256, 2: SHA-384). -/
def SuiteOk (aeads : List UInt16) (s : Suite) : Prop :=
  s.aead ∈ aeads ∧ (s = ⟨1, 1⟩ ∨ s = ⟨2, 2⟩ ∨ s = ⟨1, 3⟩)

/-- The first suite of a list of a kind. -/
def FirstSuite (aeads : List UInt16) (l : List Suite) (s : Suite) : Prop :=
  ∃ pre post, l = pre ++ s :: post ∧ SuiteOk aeads s ∧ ∀ x ∈ pre, ¬ SuiteOk aeads x

/-- A configuration the client can use. -/
def Works (kems aeads : List UInt16) (c : ConfigContent) : Prop :=
  Usable kems c ∧ ∃ s ∈ c.key.suites, SuiteOk aeads s

end Fizz.Ech.Spec

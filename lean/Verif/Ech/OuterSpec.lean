import Verif.Codec.Spec

/-!
# Specification: references to outer extensions (draft-ietf-tls-esni section 5.1)
-/

namespace Fizz.Ech.Spec
open Fizz Fizz.Codec Fizz.Codec.Spec

def types (l : List Extension) : List UInt16 := l.map (·.extension_type)

/-- `out` is what the encoded inner extensions `inner` stand for, given the outer ones.  Either there is no
reference and nothing is repeated; or there is one `ech_outer_extensions` (0xfd00), listing the types of some
outer extensions in the order they have there, none of them `encrypted_client_hello` (0xfe0d) and none
repeated, and it is replaced by those extensions. -/
inductive Expansion (inner outer : List Extension) : List Extension → Prop
  | plain (h : 0xfd00 ∉ types inner) (distinct : (types inner).Nodup) : Expansion inner outer inner
  | refs (pre post picked : List Extension) (trailing : Bytes)
      (fits : 2 * picked.length < 256)
      (shape : inner = pre ++ ⟨0xfd00, vec .u8 ((types picked).flatMap u16) ++ trailing⟩ :: post)
      (order : List.Sublist picked outer)
      (noEch : 0xfe0d ∉ types picked)
      (distinct : (types pre ++ 0xfd00 :: types picked ++ types post).Nodup) :
      Expansion inner outer (pre ++ picked ++ post)

/-- The extensions of the listed types stand next to each other. -/
def Contiguous (T : List UInt16) (inner : List Extension) : Prop :=
  ∃ pre mid post, inner = pre ++ mid ++ post ∧ (∀ e ∈ pre, e.extension_type ∉ T) ∧
    (∀ e ∈ mid, e.extension_type ∈ T) ∧ (∀ e ∈ post, e.extension_type ∉ T)

end Fizz.Ech.Spec

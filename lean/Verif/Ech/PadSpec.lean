import Verif.Codec.ExtSpec

/-!
# Specification: the name in the inner hello
-/

namespace Fizz.Ech.Spec
open Fizz Fizz.Codec Fizz.Codec.Spec

/-- Extensions `A`, then the server name if there is one, then `B`. -/
def withName (A B : List Extension) : Option Bytes → List Extension
  | none => A ++ B
  | some name => A ++ serverNameListWire ⟨[{ hostname := name }]⟩ :: B

end Fizz.Ech.Spec

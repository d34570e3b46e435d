import Verif.Crypto.Spec

/-!
# No collision of the hash function between two lists of inputs
-/

namespace Fizz.Agree.Spec
open Fizz Fizz.Crypto.Spec

/-- The two sides have not found a collision of the hash function: inputs of the one and of the other
with the same hash are the same. -/
def NoClash (h : Hash) (P Q : List Bytes) : Prop := ∀ a ∈ P, ∀ b ∈ Q, h.H a = h.H b → a = b

end Fizz.Agree.Spec

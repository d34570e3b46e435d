import Verif.Server.Ccs
import Verif.Server.Example

/-! # C104: examples -/

namespace Fizz.Server.Example
open Fizz.Codec
open Fizz.Conn (Trig)

/-- The connection `retry` with a session id, and the same without the first ClientHello's retry. -/
def sid (b : Bytes) (m : ClientHello) : HsMsg := .clientHello { m with legacy_session_id := b }

def compat (b : Bytes) (two : Bool) : List (St → Trig × StepIn) :=
  (fun _ => recv (sid b (hello 29 []))) :: (if two then [fun _ => recv (sid b (hello 23 []))] else []) ++ [accept]

/-- The types of the records written, step by step. -/
def types (l : List (St → Trig × StepIn)) : List (List UInt8) :=
  (drive cfg l).1.reverse.map fun y => (Spec.contents y).map (·.type)

/-- Without a session id there is none; with one it follows the ServerHello; after a HelloRetryRequest (and so twice: the bound of
`C104_count` is met) it is sent with both messages. -/
example : types (compat [] false) = [[], [22, 22]] ∧ types (compat [5] false) = [[], [22, 20, 22]] ∧
    types (compat [5] true) = [[], [22, 20], [22, 20, 22]] := by
  decide +kernel

example (b : Bytes) (two : Bool) : Run cfg (drive cfg (compat b two)).1 (drive cfg (compat b two)).2 := drive_run _ _

end Fizz.Server.Example

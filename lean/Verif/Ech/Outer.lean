import Verif.Ech.Types

/-!
# Compressing the inner ClientHello by references into the outer one

Model of `fizz/protocol/ech/Encryption.cpp:587-625` and `869-951`.
-/

namespace Fizz.Ech
open Fizz Fizz.Codec

/-- `extTypes` (`fizz/protocol/ech/Encryption.cpp:592-600`). -/
def selectedTypes (outerTypes : List UInt16) (inner : List Extension) : List UInt16 :=
  (inner.filter fun e => outerTypes.contains e.extension_type).map (·.extension_type)

/-- `find_if` and `encodeExtension(*it, ...)` (`fizz/protocol/ech/Encryption.cpp:610-616`): the first
extension of the type is overwritten; `*end()` is undefined. -/
def replaceFirst (t : UInt16) (x : Extension) : List Extension → Res (List Extension)
  | [] => .error (.ub "dereference of end()")
  | e :: es => if e.extension_type = t then .ok (x :: es) else do
    let r ← replaceFirst t x es
    pure (e :: r)

/-- `find_if` and `erase` (`fizz/protocol/ech/Encryption.cpp:610-618`); `erase(end())` is undefined. -/
def eraseFirst (t : UInt16) : List Extension → Res (List Extension)
  | [] => .error (.ub "erase(end())")
  | e :: es => if e.extension_type = t then .ok es else do
    let r ← eraseFirst t es
    pure (e :: r)

/-- The later rounds of the loop (`fizz/protocol/ech/Encryption.cpp:609-620`). -/
def eraseEach : List UInt16 → List Extension → Res (List Extension)
  | [], l => .ok l
  | t :: ts, l => do
    let l ← eraseFirst t l
    eraseEach ts l

/-- `generateAndReplaceOuterExtensions` (`fizz/protocol/ech/Encryption.cpp:587-625`). -/
def generateOuter (inner : List Extension) (outerTypes : List UInt16) : Res (List Extension) :=
  match selectedTypes outerTypes inner with
  | [] => .ok inner
  | t :: ts => do
    let x ← encodeOuterExtensions (t :: ts)
    let l ← replaceFirst t x inner
    eraseEach ts l

/-- `err.error(msg, none, Category::OuterExtensions)`. -/
def outerFail (msg : String) : Failure := .err msg none .outerExtensions

/-- `dupeCheck` (`fizz/protocol/ech/Encryption.cpp:877-886`). -/
def dupeCheck (seen : List UInt16) (t : UInt16) : Res (List UInt16) :=
  if seen.contains t then .error (outerFail "inner client hello has duplicate extensions") else .ok (t :: seen)

/-- The scan (`fizz/protocol/ech/Encryption.cpp:926-937`): the next extension of the type and what is left. -/
def scan (t : UInt16) : List Extension → Res (Extension × List Extension)
  | [] => .error (outerFail "ech outer extensions references a missing extension")
  | e :: es => if e.extension_type = t then .ok (e, es) else scan t es

/-- The loop over the referenced types (`fizz/protocol/ech/Encryption.cpp:914-942`). -/
def expandRefs : List UInt16 → (seen : List UInt16) → (outer : List Extension) →
    Res (List Extension × List UInt16)
  | [], seen, _ => .ok ([], seen)
  | t :: ts, seen, outer => do
    let seen ← dupeCheck seen t
    if t = tyEch then .error (outerFail "ech is not allowed in outer extensions")
    else do
      let (e, rest) ← scan t outer
      let (out, seen) ← expandRefs ts seen rest
      pure (e :: out, seen)

/-- The `try` block (`fizz/protocol/ech/Encryption.cpp:896-911`): every failure is replaced. -/
def parseRefs (data : Bytes) : Res (List UInt16) :=
  match readOuterExtensions data with
  | .ok (types, _) => .ok types
  | .error _ => .error (outerFail "ech_outer_extensions malformed")

/-- The loop over the inner extensions (`fizz/protocol/ech/Encryption.cpp:888-945`). -/
def substLoop (outer : List Extension) : List Extension → (seen : List UInt16) → Res (List Extension)
  | [], _ => .ok []
  | e :: es, seen => do
    let seen ← dupeCheck seen e.extension_type
    if tyOuter ≠ e.extension_type then do
      let out ← substLoop outer es seen
      pure (e :: out)
    else do
      let types ← parseRefs e.extension_data
      let (picked, seen) ← expandRefs types seen outer
      let out ← substLoop outer es seen
      pure (picked ++ out)

/-- `substituteOuterExtensions` (`fizz/protocol/ech/Encryption.cpp:869-951`). -/
def substituteOuter (inner outer : List Extension) : Res (List Extension) := substLoop outer inner []

end Fizz.Ech

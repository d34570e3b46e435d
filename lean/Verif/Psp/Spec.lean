import Verif.Psp.Model

/-! # PSP upgrade: specification -/

namespace Fizz.Psp.Spec

open Fizz.Codec

/-- The SA message with its tag and length. -/
def message (sa : SA) : Bytes :=
  [1, 40] ++ (beEnc 4 sa.spi.toNat ++ ([sa.psp_version, 0, 0, 0] ++
    (sa.key ++ List.replicate (32 - sa.key.length) 0)))

/-- The key has the length of the version: 16 bytes for 0 and 2, 32 for 1 and 3. -/
def Valid (sa : SA) : Prop :=
  (sa.psp_version = 0 ∧ sa.key.length = 16) ∨ (sa.psp_version = 2 ∧ sa.key.length = 16) ∨
  (sa.psp_version = 1 ∧ sa.key.length = 32) ∨ (sa.psp_version = 3 ∧ sa.key.length = 32)

/-- The bytes begin with a whole SA message that says `sa`: reserved bytes and what follows the key may be
anything. -/
def Begins (bytes : Bytes) (sa : SA) : Prop :=
  ∃ len : UInt8, ∃ reserved tail rest, 40 ≤ len.toNat ∧ Valid sa ∧ reserved.length = 3 ∧
    len.toNat = 8 + sa.key.length + tail.length ∧
    bytes = [1, len] ++ (beEnc 4 sa.spi.toNat ++ ([sa.psp_version] ++ (reserved ++ (sa.key ++ tail)))) ++
      rest

/-- Bytes received. -/
def received (es : List Event) : Bytes := es.flatMap fun | .data b => b | _ => []

/-- Bytes written. -/
def written (fs : List Eff) : Bytes := fs.flatMap fun | .write b => b | _ => []

/-- The calls of the callback. -/
def called (fs : List Eff) : List Eff := fs.filter fun | .success => true | .failure _ => true | _ => false

/-- A new object, on a transport with or without a socket. -/
def new (fd : Bool) : St := { fd := fd }

end Fizz.Psp.Spec

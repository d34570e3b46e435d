import Verif.Crypto.Hkdf
import Verif.Cred.Sign

/-!
# Exported keying material

Model of `fizz/protocol/Exporter.cpp` and of its callers in `FizzBase`, `FizzClient` and
`FizzServer`.  The factory's choice of hash for a cipher is the parameter `h`.
-/

namespace Fizz.Exporter
open Fizz.Crypto Fizz.Cred

/-- `Exporter::getExportedKeyingMaterial` (`fizz/protocol/Exporter.cpp:14-53`).  No context is the
same as an empty one; `deriver->hashLength()` is a `size_t` passed as `uint16_t`. -/
def getExportedKeyingMaterial (h : HashAlg) (exporterMaster label context : Bytes)
    (length : UInt16) : Res Bytes := do
  let hashedContext := h.digest context
  let secret ← deriveSecret h exporterMaster label h.blankHash (UInt16.ofNat h.hashLen)
  expandLabel h secret (str "exporter") hashedContext length

/-- `FizzBase::getExportedKeyingMaterial` (`fizz/protocol/FizzBase-inl.h:210-234`): a null buffer
while the connection has no cipher or no exporter secret. -/
def ofConnection (cipher : Option HashAlg) (secret : Option Bytes) (label context : Bytes)
    (length : UInt16) : Res (Option Bytes) :=
  match cipher, secret with
  | some h, some s => do
    let k ← getExportedKeyingMaterial h s label context length
    pure (some k)
  | _, _ => .ok none

/-- `FizzClient::getEarlyEkm` (`fizz/client/FizzClient-inl.h:31-52`) and, with its message,
`FizzServer::getEarlyEkm` (`fizz/server/FizzServer-inl.h:51-76`): the early cipher and exporter
secret, an error without them. -/
def early (params : Option (HashAlg × Bytes)) (label context : Bytes) (length : UInt16) : Res Bytes :=
  match params with
  | some (h, s) => getExportedKeyingMaterial h s label context length
  | none => .error (Failure.rt "early ekm not available")

end Fizz.Exporter

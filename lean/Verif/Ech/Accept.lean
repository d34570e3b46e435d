import Verif.Ech.Types
import Verif.Codec.Lemmas
import Verif.Crypto.KeySchedule
import Verif.Server.State

/-!
# Confirming that ECH was accepted

`fizz/protocol/ech/Encryption.cpp:286-484`.  A `HandshakeContext` is the hash function and the transcript fed to it so
far; the key scheduler handed to these functions is fresh except for `deriveEarlySecret(random)`, as the client and the
server call them (`fizz/client/ClientProtocol.cpp:1587-1600`, `1947-1960`;
`fizz/server/ServerProtocol.cpp:1701-1722`, `1885-1906`).
-/

namespace Fizz.Ech
open Fizz Fizz.Codec Fizz.Crypto

/-- `makeKeyScheduler` and `deriveEarlySecret` with the random of the inner hello
(`fizz/client/ClientProtocol.cpp:1587-1591`). -/
def confirmScheduler (h : HashAlg) (random : Random) : Res KS.KS :=
  Server.ksState (KS.deriveEarlySecret h {} random.val)

/-- The random with its last eight bytes overwritten (the `memset` and `memcpy` of
`fizz/protocol/ech/Encryption.cpp:299-304`, `446-449`): reading more bytes than there are is undefined. -/
def overwriteTail (r : Random) (b : Bytes) : Res Random :=
  if hb : 8 ≤ b.length then
    .ok ⟨r.val.take 24 ++ b.take 8, by simp [r.len]; omega⟩
  else .error (.ub "read past the end of the confirmation")

/-- `makeDummyServerHello` (`fizz/protocol/ech/Encryption.cpp:286-306`); it dereferences the session id. -/
def dummyServerHello (m : ServerHello) : Res ServerHello :=
  match m.legacy_session_id_echo with
  | none => .error (.ub "null session id")
  | some _ => do
    let r ← overwriteTail m.random (List.replicate 8 0)
    pure { m with random := r }

/-- One extension in `makeDummyHRR` (`fizz/protocol/ech/Encryption.cpp:312-325`). -/
def dummyExt (x : Extension) : Extension :=
  if x.extension_type ≠ tyEch then x else ⟨tyEch, List.replicate 8 0⟩

/-- `makeDummyHRR` (`fizz/protocol/ech/Encryption.cpp:308-334`). -/
def dummyHrr (m : HelloRetryRequest) : HelloRetryRequest := { m with extensions := m.extensions.map dummyExt }

/-- `calculateAcceptConfirmation` for a ServerHello (`fizz/protocol/ech/Encryption.cpp:338-362`). -/
def confirmation (h : HashAlg) (random : Random) (transcript : Bytes) (m : ServerHello) : Res Bytes := do
  let ks ← confirmScheduler h random
  let d ← dummyServerHello m
  let e ← encodeHandshake (.serverHello d)
  Server.ksSecret (KS.getEarly h ks .echAcceptConfirmation (h.digest (transcript ++ e)))

/-- `calculateAcceptConfirmation` for a HelloRetryRequest (`fizz/protocol/ech/Encryption.cpp:364-392`). -/
def confirmationHrr (h : HashAlg) (random : Random) (transcript : Bytes) (m : HelloRetryRequest) : Res Bytes := do
  let ks ← confirmScheduler h random
  let e ← encodeHandshake (.helloRetryRequest (dummyHrr m))
  let s ← Server.ksSecret (KS.getEarly h ks .hrrEchAcceptConfirmation (h.digest (transcript ++ e)))
  if s.length < 8 then .error (Failure.fizz "ech acceptance secret too small" none) else pure s

/-- `CryptoUtils::equal` of two ranges of eight bytes; the second one is a prefix of the secret. -/
def equal8 (a secret : Bytes) : Res Bool :=
  if 8 ≤ secret.length then .ok (a == secret.take 8) else .error (.ub "read past the end of the confirmation")

/-- `checkECHAccepted` for a ServerHello (`fizz/protocol/ech/Encryption.cpp:396-414`). -/
def checkAccepted (h : HashAlg) (random : Random) (transcript : Bytes) (m : ServerHello) : Res Bool := do
  let c ← confirmation h random transcript m
  equal8 (m.random.val.drop 24) c

/-- `checkECHAccepted` for a HelloRetryRequest (`fizz/protocol/ech/Encryption.cpp:416-443`). -/
def checkAcceptedHrr (h : HashAlg) (random : Random) (transcript : Bytes) (m : HelloRetryRequest) : Res Bool := do
  let c ← confirmationHrr h random transcript m
  let x ← getExtension tyEch readEchHrr m.extensions
  match x with
  | none => pure false
  | some v => equal8 v.val c

/-- `setAcceptConfirmation` for a ServerHello (`fizz/protocol/ech/Encryption.cpp:445-460`). -/
def setConfirmation (h : HashAlg) (random : Random) (transcript : Bytes) (m : ServerHello) : Res ServerHello := do
  let c ← confirmation h random transcript m
  let r ← overwriteTail m.random c
  pure { m with random := r }

/-- `setAcceptConfirmation` for a HelloRetryRequest (`fizz/protocol/ech/Encryption.cpp:462-484`): an extension of eight
zero bytes (`ECHHelloRetryRequest()` is value-initialised) is appended, and overwritten with the confirmation. -/
def setConfirmationHrr (h : HashAlg) (random : Random) (transcript : Bytes) (m : HelloRetryRequest) :
    Res HelloRetryRequest := do
  let x ← encodeEchHrr ⟨List.replicate 8 0, rfl⟩
  let c ← confirmationHrr h random transcript { m with extensions := m.extensions ++ [x] }
  if 8 ≤ c.length then pure { m with extensions := m.extensions ++ [⟨x.extension_type, c.take 8⟩] }
  else .error (.ub "read past the end of the confirmation")

end Fizz.Ech

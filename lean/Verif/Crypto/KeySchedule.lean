import Verif.Crypto.Hkdf

/-!
# The key schedule — model of `fizz/protocol/KeyScheduler.{h,cpp}`

One operation per public method.  Each returns the scheduler afterwards and the result: a failure
keeps whatever was already changed, as in the code.
-/

namespace Fizz.KS
open Fizz.Crypto

/-- `KeySchedulerSecret` (`fizz/protocol/KeyScheduler.h:180-222`). -/
inductive Sec where
  | early (b : Bytes)
  | handshake (b : Bytes)
  | master (b : Bytes)
  deriving DecidableEq, Repr

/-- `AppTrafficSecret` (`fizz/protocol/KeyScheduler.h:201-206`). -/
structure App where
  client : Bytes
  clientGeneration : UInt32 := 0
  server : Bytes
  serverGeneration : UInt32 := 0
  deriving DecidableEq, Repr

/-- The members of `KeyScheduler` (`fizz/protocol/KeyScheduler.h:232-235`); the deriver is the
hash algorithm passed to each operation. -/
structure KS where
  secret : Option Sec := none
  app : Option App := none
  deriving DecidableEq, Repr

/-- `enum class EarlySecrets` (`fizz/protocol/KeyScheduler.h:18-25`). -/
inductive EarlySecrets where
  | externalPskBinder | resumptionPskBinder | clientEarlyTraffic | earlyExporter
  | echAcceptConfirmation | hrrEchAcceptConfirmation
  deriving DecidableEq, Repr
/-- `enum class HandshakeSecrets` (`fizz/protocol/KeyScheduler.h:27-31`). -/
inductive HandshakeSecrets where
  | clientHandshakeTraffic | serverHandshakeTraffic | echAcceptConfirmation
  deriving DecidableEq, Repr
/-- `enum class MasterSecrets` (`fizz/protocol/KeyScheduler.h:33`). -/
inductive MasterSecrets where
  | exporterMaster | resumptionMaster
  deriving DecidableEq, Repr
/-- `enum class AppTrafficSecrets` (`fizz/protocol/KeyScheduler.h:35`). -/
inductive AppTrafficSecrets where
  | clientAppTraffic | serverAppTraffic
  deriving DecidableEq, Repr

/-- The bytes of a label constant. -/
def lbl (s : String) : Bytes := s.toList.map fun c => UInt8.ofNat c.toNat

/-- Label constants (`fizz/protocol/KeyScheduler.cpp:15-33`). -/
def kDerivedSecret : Bytes := lbl "derived"
def kTrafficKeyUpdate : Bytes := lbl "traffic upd"
def kResumption : Bytes := lbl "resumption"
def kTrafficKey : Bytes := lbl "key"
def kTrafficIv : Bytes := lbl "iv"
def kClientAppTraffic : Bytes := lbl "c ap traffic"
def kServerAppTraffic : Bytes := lbl "s ap traffic"

/-- The label and length selected by the `switch` of `getSecret(EarlySecrets)`
(`fizz/protocol/KeyScheduler.cpp:183-208`; sizes from `fizz/protocol/ech/Types.h:22`). -/
def earlyLabel (h : HashAlg) : EarlySecrets → Bytes × UInt16
  | .externalPskBinder => (lbl "ext binder", UInt16.ofNat h.hashLen)
  | .resumptionPskBinder => (lbl "res binder", UInt16.ofNat h.hashLen)
  | .clientEarlyTraffic => (lbl "c e traffic", UInt16.ofNat h.hashLen)
  | .earlyExporter => (lbl "e exp master", UInt16.ofNat h.hashLen)
  | .echAcceptConfirmation => (lbl "ech accept confirmation", 8)
  | .hrrEchAcceptConfirmation => (lbl "hrr ech accept confirmation", 8)

/-- `fizz/protocol/KeyScheduler.cpp:228-243`. -/
def handshakeLabel (h : HashAlg) : HandshakeSecrets → Bytes × UInt16
  | .clientHandshakeTraffic => (lbl "c hs traffic", UInt16.ofNat h.hashLen)
  | .serverHandshakeTraffic => (lbl "s hs traffic", UInt16.ofNat h.hashLen)
  | .echAcceptConfirmation => (lbl "ech accept confirmation", 8)

/-- `fizz/protocol/KeyScheduler.cpp:263-273`. -/
def masterLabel (h : HashAlg) : MasterSecrets → Bytes × UInt16
  | .exporterMaster => (lbl "exp master", UInt16.ofNat h.hashLen)
  | .resumptionMaster => (lbl "res master", UInt16.ofNat h.hashLen)

/-- What an operation returns on success. -/
inductive Out where
  | done
  | generation (n : UInt32)
  | secret (b : Bytes)
  | trafficKey (key iv : Bytes)
  deriving DecidableEq, Repr

/-- The null dereference `*secret_->asX()` on a secret of another kind. -/
def nullDeref : Failure := .ub "null dereference of the wrong secret kind"

/-- `deriver_->hashLength()` zeros. -/
def zeros (h : HashAlg) : Bytes := List.replicate h.hashLen 0

/-- `deriveEarlySecret` (`fizz/protocol/KeyScheduler.cpp:37-48`). -/
def deriveEarlySecret (h : HashAlg) (s : KS) (psk : Bytes) : KS × Res Out :=
  match s.secret with
  | some _ => (s, .error (Failure.fizz "secret already set" none))
  | none =>
    match extract h (zeros h) psk with
    | .error e => (s, .error e)
    | .ok x => ({ s with secret := some (.early x) }, .ok .done)

/-- The common part of deriving the next stage: `Extract(Derive-Secret(cur, "derived", ""), ikm)`
(`fizz/protocol/KeyScheduler.cpp:53-63`, `80-90`, `100-110`). -/
def nextStage (h : HashAlg) (cur ikm : Bytes) : Res Bytes := do
  let pre ← deriveSecret h cur kDerivedSecret h.blankHash (UInt16.ofNat h.hashLen)
  extract h pre ikm

/-- `deriveHandshakeSecret(err)` (`fizz/protocol/KeyScheduler.cpp:50-66`). -/
def deriveHandshakeSecret (h : HashAlg) (s : KS) : KS × Res Out :=
  match s.secret with
  | none => (s, .error .emptyOptional)
  | some (.early e) =>
    match nextStage h e (zeros h) with
    | .error f => (s, .error f)
    | .ok x => ({ s with secret := some (.handshake x) }, .ok .done)
  | some _ => (s, .error nullDeref)

/-- `deriveHandshakeSecret(err, ecdhe)` (`fizz/protocol/KeyScheduler.cpp:68-93`). -/
def deriveHandshakeSecretEcdhe (h : HashAlg) (s : KS) (ecdhe : Bytes) : KS × Res Out :=
  let ini : KS × Res Unit := match s.secret with
    | none =>
      match extract h (zeros h) (zeros h) with
      | .error f => (s, .error f)
      | .ok x => ({ s with secret := some (.early x) }, .ok ())
    | some _ => (s, .ok ())
  match ini with
  | (s, .error f) => (s, .error f)
  | (s, .ok ()) =>
    match s.secret with
    | some (.early e) =>
      match nextStage h e ecdhe with
      | .error f => (s, .error f)
      | .ok x => ({ s with secret := some (.handshake x) }, .ok .done)
    | some _ => (s, .error (Failure.rt "Mismatched access type"))
    | none => (s, .error .emptyOptional)

/-- `deriveMasterSecret` (`fizz/protocol/KeyScheduler.cpp:95-113`). -/
def deriveMasterSecret (h : HashAlg) (s : KS) : KS × Res Out :=
  match s.secret with
  | none => (s, .error .emptyOptional)
  | some (.handshake e) =>
    match nextStage h e (zeros h) with
    | .error f => (s, .error f)
    | .ok x => ({ s with secret := some (.master x) }, .ok .done)
  | some _ => (s, .error (Failure.rt "Mismatched access type"))

/-- `deriveAppTrafficSecrets` (`fizz/protocol/KeyScheduler.cpp:115-136`). -/
def deriveAppTrafficSecrets (h : HashAlg) (s : KS) (transcript : Bytes) : KS × Res Out :=
  match s.secret with
  | none => (s, .error .emptyOptional)
  | some (.master m) =>
    match deriveSecret h m kClientAppTraffic transcript (UInt16.ofNat h.hashLen) with
    | .error f => (s, .error f)
    | .ok c =>
      match deriveSecret h m kServerAppTraffic transcript (UInt16.ofNat h.hashLen) with
      | .error f => (s, .error f)
      | .ok sv => ({ s with app := some { client := c, server := sv } }, .ok .done)
  | some _ => (s, .error nullDeref)

/-- `clearMasterSecret` (`fizz/protocol/KeyScheduler.cpp:138-144`). -/
def clearMasterSecret (s : KS) : KS × Res Out :=
  match s.secret with
  | none => (s, .error .emptyOptional)
  | some (.master _) => ({ s with secret := none }, .ok .done)
  | some _ => (s, .error (Failure.fizz "Secret isn't MasterSecret" none))

/-- `clientKeyUpdate` (`fizz/protocol/KeyScheduler.cpp:146-160`). -/
def clientKeyUpdate (h : HashAlg) (s : KS) : KS × Res Out :=
  match s.app with
  | none => (s, .error .emptyOptional)
  | some a =>
    match expandLabel h a.client kTrafficKeyUpdate [] (UInt16.ofNat h.hashLen) with
    | .error f => (s, .error f)
    | .ok x =>
      ({ s with app := some { a with client := x, clientGeneration := a.clientGeneration + 1 } },
        .ok (.generation (a.clientGeneration + 1)))

/-- `serverKeyUpdate` (`fizz/protocol/KeyScheduler.cpp:162-176`). -/
def serverKeyUpdate (h : HashAlg) (s : KS) : KS × Res Out :=
  match s.app with
  | none => (s, .error .emptyOptional)
  | some a =>
    match expandLabel h a.server kTrafficKeyUpdate [] (UInt16.ofNat h.hashLen) with
    | .error f => (s, .error f)
    | .ok x =>
      ({ s with app := some { a with server := x, serverGeneration := a.serverGeneration + 1 } },
        .ok (.generation (a.serverGeneration + 1)))

/-- `getSecret(EarlySecrets, transcript)` (`fizz/protocol/KeyScheduler.cpp:178-221`). -/
def getEarly (h : HashAlg) (s : KS) (w : EarlySecrets) (transcript : Bytes) : Res Out :=
  match s.secret with
  | none => .error .emptyOptional
  | some (.early e) => do
    let x ← deriveSecret h e (earlyLabel h w).1 transcript (earlyLabel h w).2
    pure (.secret x)
  | some _ => .error nullDeref

/-- `getSecret(HandshakeSecrets, transcript)` (`fizz/protocol/KeyScheduler.cpp:223-256`). -/
def getHandshake (h : HashAlg) (s : KS) (w : HandshakeSecrets) (transcript : Bytes) : Res Out :=
  match s.secret with
  | none => .error .emptyOptional
  | some (.handshake e) => do
    let x ← deriveSecret h e (handshakeLabel h w).1 transcript (handshakeLabel h w).2
    pure (.secret x)
  | some _ => .error nullDeref

/-- `getSecret(MasterSecrets, transcript)` (`fizz/protocol/KeyScheduler.cpp:258-286`). -/
def getMaster (h : HashAlg) (s : KS) (w : MasterSecrets) (transcript : Bytes) : Res Out :=
  match s.secret with
  | none => .error .emptyOptional
  | some (.master e) => do
    let x ← deriveSecret h e (masterLabel h w).1 transcript (masterLabel h w).2
    pure (.secret x)
  | some _ => .error nullDeref

/-- `getSecret(AppTrafficSecrets)` (`fizz/protocol/KeyScheduler.cpp:288-302`). -/
def getApp (s : KS) (w : AppTrafficSecrets) : Res Out :=
  match s.app with
  | none => .error .emptyOptional
  | some a => match w with
    | .clientAppTraffic => .ok (.secret a.client)
    | .serverAppTraffic => .ok (.secret a.server)

/-- `getTrafficKey` / `getTrafficKeyWithLabel` (`fizz/protocol/KeyScheduler.cpp:304-332`): `size_t`
lengths are narrowed to the `uint16_t` parameter of `expandLabel`. -/
def getTrafficKey (h : HashAlg) (trafficSecret : Bytes) (keyLength ivLength : Nat) : Res Out := do
  let k ← expandLabel h trafficSecret kTrafficKey [] (UInt16.ofNat keyLength)
  let i ← expandLabel h trafficSecret kTrafficIv [] (UInt16.ofNat ivLength)
  pure (.trafficKey k i)

/-- `getResumptionSecret` (`fizz/protocol/KeyScheduler.cpp:334-347`). -/
def getResumptionSecret (h : HashAlg) (resumptionMasterSecret ticketNonce : Bytes) : Res Out := do
  let x ← expandLabel h resumptionMasterSecret kResumption ticketNonce (UInt16.ofNat h.hashLen)
  pure (.secret x)

/-- The calls a user can make. -/
inductive Op where
  | deriveEarlySecret (psk : Bytes)
  | deriveHandshakeSecret
  | deriveHandshakeSecretEcdhe (ecdhe : Bytes)
  | deriveMasterSecret
  | deriveAppTrafficSecrets (transcript : Bytes)
  | clearMasterSecret
  | clientKeyUpdate
  | serverKeyUpdate
  | getEarly (w : EarlySecrets) (transcript : Bytes)
  | getHandshake (w : HandshakeSecrets) (transcript : Bytes)
  | getMaster (w : MasterSecrets) (transcript : Bytes)
  | getApp (w : AppTrafficSecrets)
  deriving DecidableEq, Repr

/-- One call. -/
def step (h : HashAlg) (s : KS) : Op → KS × Res Out
  | .deriveEarlySecret psk => deriveEarlySecret h s psk
  | .deriveHandshakeSecret => deriveHandshakeSecret h s
  | .deriveHandshakeSecretEcdhe e => deriveHandshakeSecretEcdhe h s e
  | .deriveMasterSecret => deriveMasterSecret h s
  | .deriveAppTrafficSecrets t => deriveAppTrafficSecrets h s t
  | .clearMasterSecret => clearMasterSecret s
  | .clientKeyUpdate => clientKeyUpdate h s
  | .serverKeyUpdate => serverKeyUpdate h s
  | .getEarly w t => (s, getEarly h s w t)
  | .getHandshake w t => (s, getHandshake h s w t)
  | .getMaster w t => (s, getMaster h s w t)
  | .getApp w => (s, getApp s w)

/-- A sequence of calls on a fresh scheduler, collecting the results. -/
def run (h : HashAlg) : KS → List Op → KS × List (Res Out)
  | s, [] => (s, [])
  | s, o :: os =>
    let (s1, r) := step h s o
    let (s2, rs) := run h s1 os
    (s2, r :: rs)

end Fizz.KS

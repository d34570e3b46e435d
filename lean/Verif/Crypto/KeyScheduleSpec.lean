import Verif.Crypto.Spec
import Verif.Crypto.KeySchedule

/-!
# Specification of the key schedule (RFC 8446 section 7.1)

The values are closed formulas over the PSK, the (EC)DHE secret, the transcript hashes and the
number of key updates.  Only the names of the calls (`Op`) and results (`Out`) come from the model.
-/

namespace Fizz.KS.Spec
open Fizz.Crypto.Spec

/-- The bytes of an ASCII label. -/
def ascii (s : String) : Bytes := s.toList.map fun c => UInt8.ofNat c.toNat

/-- `Derive-Secret(Secret, Label, Messages)` given `Transcript-Hash(Messages)`. -/
def DeriveSecret (h : Hash) (secret : Bytes) (label : String) (transcriptHash : Bytes) : Bytes :=
  ExpandLabel h secret (ascii label) transcriptHash (UInt16.ofNat h.L)

/-- A string of `Hash.length` zero bytes, written `0` in the RFC. -/
def zero (h : Hash) : Bytes := List.replicate h.L 0

/-- Inputs of a connection: a PSK if one is used, an (EC)DHE secret if one is used. -/
structure Inputs where
  psk : Option Bytes
  ecdhe : Option Bytes
  deriving DecidableEq

/-- Early Secret = HKDF-Extract(0, PSK or 0). -/
def early (h : Hash) (psk : Option Bytes) : Bytes := Extract h (zero h) (psk.getD (zero h))
/-- Handshake Secret = HKDF-Extract(Derive-Secret(Early, "derived", ""), (EC)DHE or 0). -/
def handshake (h : Hash) (i : Inputs) : Bytes :=
  Extract h (DeriveSecret h (early h i.psk) "derived" (h.H [])) (i.ecdhe.getD (zero h))
/-- Master Secret = HKDF-Extract(Derive-Secret(Handshake, "derived", ""), 0). -/
def master (h : Hash) (i : Inputs) : Bytes :=
  Extract h (DeriveSecret h (handshake h i) "derived" (h.H [])) (zero h)
/-- `application_traffic_secret_{N+1} = HKDF-Expand-Label(.._N, "traffic upd", "", Hash.length)`. -/
def traffic (h : Hash) (s0 : Bytes) : Nat → Bytes
  | 0 => s0
  | n + 1 => ExpandLabel h (traffic h s0 n) (ascii "traffic upd") [] (UInt16.ofNat h.L)

/-- Where a connection is in the schedule. -/
inductive Stage where
  | start
  | early (psk : Option Bytes)
  | handshake (i : Inputs)
  | master (i : Inputs)
  deriving DecidableEq

/-- The application secrets: the inputs of the master secret they came from, the transcript hash,
and how many updates each direction has seen. -/
structure AppKeys where
  inputs : Inputs
  transcript : Bytes
  clientUpdates : Nat
  serverUpdates : Nat
  deriving DecidableEq

/-- What a scheduler knows. -/
structure Abs where
  stage : Stage := .start
  app : Option AppKeys := none
  deriving DecidableEq

/-- The client (resp. server) application traffic secret after its updates. -/
def clientTraffic (h : Hash) (a : AppKeys) : Bytes :=
  traffic h (DeriveSecret h (master h a.inputs) "c ap traffic" a.transcript) a.clientUpdates
def serverTraffic (h : Hash) (a : AppKeys) : Bytes :=
  traffic h (DeriveSecret h (master h a.inputs) "s ap traffic" a.transcript) a.serverUpdates

/-- RFC 8446 section 7.1 (and the ECH confirmation of draft-ietf-tls-esni, 8 bytes). -/
def earlyValue (h : Hash) (psk : Option Bytes) (th : Bytes) : EarlySecrets → Bytes
  | .externalPskBinder => DeriveSecret h (early h psk) "ext binder" th
  | .resumptionPskBinder => DeriveSecret h (early h psk) "res binder" th
  | .clientEarlyTraffic => DeriveSecret h (early h psk) "c e traffic" th
  | .earlyExporter => DeriveSecret h (early h psk) "e exp master" th
  | .echAcceptConfirmation => ExpandLabel h (early h psk) (ascii "ech accept confirmation") th 8
  | .hrrEchAcceptConfirmation =>
    ExpandLabel h (early h psk) (ascii "hrr ech accept confirmation") th 8
def handshakeValue (h : Hash) (i : Inputs) (th : Bytes) : HandshakeSecrets → Bytes
  | .clientHandshakeTraffic => DeriveSecret h (handshake h i) "c hs traffic" th
  | .serverHandshakeTraffic => DeriveSecret h (handshake h i) "s hs traffic" th
  | .echAcceptConfirmation => ExpandLabel h (handshake h i) (ascii "ech accept confirmation") th 8
def masterValue (h : Hash) (i : Inputs) (th : Bytes) : MasterSecrets → Bytes
  | .exporterMaster => DeriveSecret h (master h i) "exp master" th
  | .resumptionMaster => DeriveSecret h (master h i) "res master" th

/-- The documented call order (`fizz/protocol/KeyScheduler.h:76-140`) and the value each call must
return; `none` when the documentation does not allow the call.  A transcript is a hash, so it has
`Hash.length` bytes. -/
def next (h : Hash) (a : Abs) : Op → Option (Abs × Out)
  | .deriveEarlySecret psk =>
    match a.stage with
    | .start => some ({ a with stage := .early (some psk) }, .done)
    | _ => none
  | .deriveHandshakeSecret =>
    match a.stage with
    | .early psk => some ({ a with stage := .handshake ⟨psk, none⟩ }, .done)
    | _ => none
  | .deriveHandshakeSecretEcdhe e =>
    match a.stage with
    | .start => some ({ a with stage := .handshake ⟨none, some e⟩ }, .done)
    | .early psk => some ({ a with stage := .handshake ⟨psk, some e⟩ }, .done)
    | _ => none
  | .deriveMasterSecret =>
    match a.stage with
    | .handshake i => some ({ a with stage := .master i }, .done)
    | _ => none
  | .deriveAppTrafficSecrets th =>
    match a.stage with
    | .master i => if th.length = h.L then some ({ a with app := some ⟨i, th, 0, 0⟩ }, .done) else none
    | _ => none
  | .clearMasterSecret =>
    match a.stage with
    | .master _ => some ({ a with stage := .start }, .done)
    | _ => none
  | .clientKeyUpdate =>
    match a.app with
    | some k => some ({ a with app := some { k with clientUpdates := k.clientUpdates + 1 } },
        .generation (UInt32.ofNat (k.clientUpdates + 1)))
    | none => none
  | .serverKeyUpdate =>
    match a.app with
    | some k => some ({ a with app := some { k with serverUpdates := k.serverUpdates + 1 } },
        .generation (UInt32.ofNat (k.serverUpdates + 1)))
    | none => none
  | .getEarly w th =>
    match a.stage with
    | .early psk => if th.length = h.L then some (a, .secret (earlyValue h psk th w)) else none
    | _ => none
  | .getHandshake w th =>
    match a.stage with
    | .handshake i => if th.length = h.L then some (a, .secret (handshakeValue h i th w)) else none
    | _ => none
  | .getMaster w th =>
    match a.stage with
    | .master i => if th.length = h.L then some (a, .secret (masterValue h i th w)) else none
    | _ => none
  | .getApp w =>
    match a.app with
    | some k => some (a, .secret (match w with
        | .clientAppTraffic => clientTraffic h k
        | .serverAppTraffic => serverTraffic h k))
    | none => none

/-- A whole documented call sequence. -/
def trace (h : Hash) : Abs → List Op → Option (Abs × List Out)
  | a, [] => some (a, [])
  | a, o :: os =>
    match next h a o with
    | none => none
    | some (a', out) =>
      match trace h a' os with
      | none => none
      | some (a'', outs) => some (a'', out :: outs)

end Fizz.KS.Spec

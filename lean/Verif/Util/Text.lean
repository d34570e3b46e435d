import Verif.Crypto.KeySchedule
import Verif.Crypto.EcKex

/-!
# C90: hexadecimal text, the key log, X25519 keys in text form

Model of `fizz/util/Hex.cpp`, `fizz/util/KeyLogWriter.h`, and of `createKeyExchangeFromBuf`,
`generateKeypairCurve25519` and `getAlpnsFromNpnList` (`fizz/util/FizzUtil.cpp:163-268`).  Characters
are bytes.
-/

namespace Fizz.Text
open Fizz.KS

/-- `kHexValues` (`Hex.cpp:17`), for values below 16. -/
def kHexValues (n : Nat) : UInt8 := if n < 10 then UInt8.ofNat (48 + n) else UInt8.ofNat (87 + n)

/-- `kHexTable` (`Hex.cpp:19-36`). -/
def kHexTable (c : UInt8) : Nat :=
  if 48 ≤ c.toNat ∧ c.toNat < 58 then c.toNat - 48
  else if 97 ≤ c.toNat ∧ c.toNat < 103 then c.toNat - 97 + 10
  else if 65 ≤ c.toNat ∧ c.toNat < 71 then c.toNat - 65 + 10
  else 16

/-- `hexlify` (`Hex.cpp:39-47`). -/
def hexlify : Bytes → Bytes
  | [] => []
  | b :: bs => kHexValues (b.toNat / 16 % 16) :: kHexValues (b.toNat % 16) :: hexlify bs

/-- The loop of `unhexlify` (`Hex.cpp:54-62`): the values are at most 16, so the test of bit 4 of their
disjunction is that one of them is 16. -/
def unhexLoop : Bytes → Res Bytes
  | [] => .ok []
  | [_] => .ok []
  | h :: l :: rest =>
    if kHexTable h = 16 ∨ kHexTable l = 16 then
      .error (Failure.rt "unhexlify: input contains non-hex character")
    else do
      let bs ← unhexLoop rest
      pure (UInt8.ofNat (kHexTable h * 16 + kHexTable l) :: bs)

/-- `unhexlify` (`Hex.cpp:49-64`). -/
def unhexlify (input : Bytes) : Res Bytes :=
  if input.length % 2 ≠ 0 then .error (Failure.rt "unhexlify: input has odd length")
  else unhexLoop input

/-- `KeyLogWriter::Label` (`KeyLogWriter.h:28-53`). -/
inductive Label
  | rsa | clientRandom | clientEarlyTraffic | clientHandshakeTraffic | serverHandshakeTraffic
  | clientTraffic0 | serverTraffic0 | earlyExporter | exporter
  deriving DecidableEq

/-- `labelToString` (`KeyLogWriter.h:172-198`). -/
def labelToString : Label → Bytes
  | .rsa => lbl "RSA"
  | .clientRandom => lbl "CLIENT_RANDOM"
  | .clientEarlyTraffic => lbl "CLIENT_EARLY_TRAFFIC_SECRET"
  | .clientHandshakeTraffic => lbl "CLIENT_HANDSHAKE_TRAFFIC_SECRET"
  | .serverHandshakeTraffic => lbl "SERVER_HANDSHAKE_TRAFFIC_SECRET"
  | .clientTraffic0 => lbl "CLIENT_TRAFFIC_SECRET_0"
  | .serverTraffic0 => lbl "SERVER_TRAFFIC_SECRET_0"
  | .earlyExporter => lbl "EARLY_EXPORTER_SECRET"
  | .exporter => lbl "EXPORTER_SECRET"

/-- `SecretType` (`fizz/protocol/KeyScheduler.h:37-42`). -/
inductive SecretType
  | early (s : EarlySecrets)
  | handshake (s : HandshakeSecrets)
  | master (s : MasterSecrets)
  | app (s : AppTrafficSecrets)
  deriving DecidableEq

/-- `secretToNSSLabel` (`KeyLogWriter.h:76-137`). -/
def secretToNSSLabel : SecretType → Option Label
  | .early .externalPskBinder => none
  | .early .resumptionPskBinder => none
  | .early .clientEarlyTraffic => some .clientEarlyTraffic
  | .early .earlyExporter => some .earlyExporter
  | .early .echAcceptConfirmation => none
  | .early .hrrEchAcceptConfirmation => none
  | .handshake .clientHandshakeTraffic => some .clientHandshakeTraffic
  | .handshake .serverHandshakeTraffic => some .serverHandshakeTraffic
  | .handshake .echAcceptConfirmation => none
  | .master .exporterMaster => some .exporter
  | .master .resumptionMaster => none
  | .app .clientAppTraffic => some .clientTraffic0
  | .app .serverAppTraffic => some .serverTraffic0

/-- The label the server passes to its trace point with a secret
(`fizz/server/AsyncFizzServer-inl.h:410-415`): `value_or(std::numeric_limits<Label>::max())`.
`std::numeric_limits` has no specialisation for the enumeration, and the `max()` of the primary template
returns `Label()`, the value 0. -/
def probeLabel (t : SecretType) : Label := (secretToNSSLabel t).getD .rsa

/-- One call of `KeyLogWriter::write`: the client random (an array of 32 bytes), label and secret. -/
structure Entry where
  clientRandom : Bytes
  label : Label
  secret : Bytes
  deriving DecidableEq

/-- `generateLogLine` (`KeyLogWriter.h:159-169`). -/
def generateLogLine (e : Entry) : Bytes :=
  labelToString e.label ++ [32] ++ hexlify e.clientRandom ++ [32] ++ hexlify e.secret ++ [10]

/-- The file after a history of writes (it is opened for appending, `KeyLogWriter.h:149-151,171`). -/
def logFile (before : Bytes) (writes : List Entry) : Bytes :=
  writes.foldl (fun f e => f ++ generateLogLine e) before

/-! ## Keys in text form -/

/-- `X25519KeyExchange::setPrivateKey` (`X25519.cpp:20-43`) with a non-null buffer; `base` is
`crypto_scalarmult_curve25519_base`. -/
def setPrivateKeyX25519 (cv : Kex.Curve) (priv : Bytes) : Res (Option (Bytes × Bytes)) :=
  if priv.length ≠ 32 then .error (Failure.rt "Invalid Private Key.")
  else .ok (some (priv, cv.base priv))

/-- `FizzUtil::createKeyExchangeFromBuf` (`FizzUtil.cpp:163-213`) for the key encapsulation mechanism
`kem`.  `readPem` is `PEM_read_bio_PrivateKey` for a curve.  `folly::unhexlify` throws on bad input.
Null is `none`. -/
def createKeyExchangeFromBuf (l : Kex.Lib) (readPem : (e : Kex.Ec) → Bytes → Option e.Priv)
    (kem : UInt16) (privKey : Bytes) : Except Failure (Option Kex.Obj) :=
  let ec (e : Kex.Ec) (n : Nat) : Except Failure (Option Kex.Obj) :=
    match readPem e privKey with
    | none => .error (Failure.rt "failed to decrypt private key; pwFile: (none)")
    | some k =>
      match e.setPrivateKey k with
      | .error f => .error f
      | .ok s => .ok (some ⟨Kex.ecKex e n, s⟩)
  if kem = 0x10 then ec l.p256 65
  else if kem = 0x11 then ec l.p384 97
  else if kem = 0x12 then ec l.p521 133
  else if kem = 0x20 then
    match unhexlify privKey with
    | .error f => .error f
    | .ok raw =>
      match setPrivateKeyX25519 l.x25519 raw with
      | .error f => .error f
      | .ok s => .ok (some ⟨Kex.x25519 l.x25519, s⟩)
  else .ok none

/-- `FizzUtil::generateKeypairCurve25519` (`FizzUtil.cpp:232-268`): public and private key in
hexadecimal. -/
def generateKeypairCurve25519 (cv : Kex.Curve) (r : Bytes) : Bytes × Bytes :=
  (hexlify (cv.base (cv.privOf r)), hexlify (cv.privOf r))

/-! ## ALPN from NPN lists -/

/-- `folly::SSLContext::NextProtocolsItem`: a weight and a list of protocols. -/
structure NpnItem where
  weight : Int
  protocols : List Bytes
  deriving DecidableEq

/-- The loop of `getAlpnsFromNpnList` (`FizzUtil.cpp:220-224`); `maxWeight` is not changed in it. -/
def npnLoop (maxWeight : Int) (protoList : List Bytes) : List NpnItem → List Bytes
  | [] => protoList
  | i :: is => npnLoop maxWeight (if i.weight > maxWeight then i.protocols else protoList) is

/-- `FizzUtil::getAlpnsFromNpnList` (`FizzUtil.cpp:215-226`); the check fails on an empty list. -/
def getAlpnsFromNpnList : List NpnItem → Res (List Bytes)
  | [] => .error Failure.abort
  | i :: is => .ok (npnLoop i.weight i.protocols (i :: is))

end Fizz.Text

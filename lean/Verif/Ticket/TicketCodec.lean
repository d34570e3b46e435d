import Verif.Codec.Prim
import Verif.Server.CertManager
import Verif.Ticket.Time

/-!
# Session ticket codec — model of `fizz/server/TicketCodec-inl.h`, `fizz/server/TicketCodec.cpp`

A null `Buf` is written like an empty one, so both are `[]`; strings are their bytes.
-/

namespace Fizz.Ticket
open Fizz.Codec Fizz.Time

/-- A client certificate as the codec sees it: `getIdentity()` and, if it is an
`OpenSSLTransportCertificate` with an `X509`, the DER encoding of that. -/
structure ClientCert where
  identity : Bytes
  der : Option Bytes
  deriving DecidableEq

/-- `ResumptionState` (`fizz/server/ResumptionState.h:19-31`).  Times are nanoseconds. -/
structure ResumptionState where
  version : UInt16
  cipher : UInt16
  resumptionSecret : Bytes
  serverCert : Option CertManager.Cert
  clientCert : Option ClientCert
  alpn : Option Bytes
  ticketAgeAdd : UInt32
  ticketIssueTime : Int
  appToken : Bytes
  handshakeTime : Int
  deriving DecidableEq

/-- `CertificateStorage` (`fizz/server/TicketCodec.h:17-21`). -/
inductive Storage where
  | none | x509 | identityOnly
  deriving DecidableEq

/-- The part of `Factory` used: `makePeerCertFromTicket` (`fizz/protocol/Factory.h:112-121`) and
`makeIdentityOnlyCert` (`fizz/protocol/Factory.cpp:68-70`, a certificate with that identity and no
X509). -/
structure CertFactory where
  peerCert : Bytes → Res ClientCert

/-- `makeIdentityOnlyCert` (`fizz/protocol/Factory.cpp:68-70`). -/
def makeIdentityOnlyCert (ident : Bytes) : ClientCert := ⟨ident, none⟩

/-- `appendClientCertificate` (`fizz/server/TicketCodec.cpp:28-65`). -/
def appendClientCertificate (storage : Storage) (cert : Option ClientCert) : Res Bytes :=
  match storage, cert with
  | _, none => writeU8 0
  | .none, some _ => writeU8 0
  | .x509, some c =>
    match c.der with
    | some der => do
      let s ← writeU8 1
      let b ← writeBuf .u16 der
      pure (s ++ b)
    | none => do
      let s ← writeU8 2
      let b ← writeBuf .u16 c.identity
      pure (s ++ b)
  | .identityOnly, some c => do
    let s ← writeU8 2
    let b ← writeBuf .u16 c.identity
    pure (s ++ b)

/-- The ALPN (`fizz/server/TicketCodec-inl.h:47-54`). -/
def writeAlpn : Option Bytes → Res Bytes
  | some a => writeBuf .u8 a
  | none => writeBuf .u8 []

/-- The identity stored for our own certificate (`fizz/server/TicketCodec-inl.h:21-24`). -/
def selfIdentity (s : ResumptionState) : Bytes := match s.serverCert with
  | some c => c.identity
  | none => []

/-- `TicketCodec<Storage>::encode` (`fizz/server/TicketCodec-inl.h:19-62`). -/
def encode (storage : Storage) (s : ResumptionState) : Res Bytes := do
  let ticketIssueTime := toU64 (toSeconds s.ticketIssueTime)
  let b1 ← writeU16 s.version
  let b2 ← writeU16 s.cipher
  let b3 ← writeBuf .u16 s.resumptionSecret
  let b4 ← writeBuf .u16 (selfIdentity s)
  let b5 ← appendClientCertificate storage s.clientCert
  let b6 ← writeU32 s.ticketAgeAdd
  let b7 ← writeU64 ticketIssueTime
  let b8 ← writeAlpn s.alpn
  let b9 ← writeBuf .u16 s.appToken
  let handshakeTime := toU64 (toSeconds s.handshakeTime)
  let b10 ← writeU64 handshakeTime
  pure (b1 ++ b2 ++ b3 ++ b4 ++ b5 ++ b6 ++ b7 ++ b8 ++ b9 ++ b10)

/-- Lifts a result into a read. -/
def liftRes {α} (r : Res α) : Rd α := fun inp =>
  match r with
  | .ok a => .ok (a, inp)
  | .error e => .error e

/-- `readClientCertificate` (`fizz/server/TicketCodec.cpp:67-94`). -/
def readClientCertificate (f : CertFactory) : Rd (Option ClientCert) := do
  let (storage, _) ← readU8
  if storage = 0 then pure none
  else if storage = 1 then do
    let (der, _) ← readBuf .u16
    let c ← liftRes (f.peerCert der)
    pure (some c)
  else if storage = 2 then do
    let (ident, _) ← readBuf .u16
    pure (some (makeIdentityOnlyCert ident))
  else pure none

/-- The fields every ticket has (`fizz/server/TicketCodec-inl.h:69-99`). -/
def readBase (f : CertFactory) (mgr : CertManager.Manager) : Rd ResumptionState := do
  let (version, _) ← readU16
  let (cipher, _) ← readU16
  let (resumptionSecret, _) ← readBuf .u16
  let (selfIdentity, _) ← readBuf .u16
  let clientCert ← readClientCertificate f
  let (ticketAgeAdd, _) ← readU32
  let (seconds, _) ← readU64
  let (alpnBuf, _) ← readBuf .u8
  let alpn := if alpnBuf.isEmpty then none else some alpnBuf
  let t ← liftRes (fromSeconds seconds)
  pure {
    version, cipher, resumptionSecret
    serverCert := CertManager.getCertByIdentity mgr selfIdentity
    clientCert, alpn, ticketAgeAdd
    ticketIssueTime := t
    appToken := []
    handshakeTime := t }

/-- `TicketCodec<Storage>::decode` (`fizz/server/TicketCodec-inl.h:64-114`). -/
def decode (f : CertFactory) (mgr : CertManager.Manager) (encoded : Bytes) :
    Res ResumptionState :=
  match readBase f mgr encoded with
  | .error e => .error e
  | .ok (s, rest) =>
    if rest.isEmpty then .ok s
    else
      match readBuf .u16 rest with
      | .error e => .error e
      | .ok ((appToken, _), rest) =>
        let s := { s with appToken }
        if rest.isEmpty then .ok s
        else
          match readU64 rest with
          | .error e => .error e
          | .ok ((seconds, _), _) =>
            match fromSeconds seconds with
            | .error e => .error e
            | .ok t => .ok { s with handshakeTime := t }

end Fizz.Ticket

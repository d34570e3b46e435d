import Verif.Codec.Prim
import Verif.Ticket.Time

/-!
# Serialized client PSKs — model of `fizz/client/PskSerializationUtils.cpp`

Times are nanoseconds since the epoch (`Verif/Ticket/Time.lean`).  Certificates are an arbitrary
type `κ`, read and written by the caller's `CertificateSerialization`.
-/

namespace Fizz.Client
open Fizz.Codec Fizz.Time

/-- `enum class PskType` (`fizz/protocol/Types.h:17-23`). -/
inductive PskType where
  | notSupported | notAttempted | rejected | external | resumption
  deriving DecidableEq

/-- `CachedPsk` (`fizz/client/PskCache.h:20-38`). -/
structure CachedPsk (κ : Type) where
  psk : Bytes
  secret : Bytes
  type : PskType
  version : UInt16
  cipher : UInt16
  group : Option UInt16 := none
  serverCert : Option κ := none
  clientCert : Option κ := none
  maxEarlyDataSize : UInt32 := 0
  alpn : Option Bytes := none
  ticketAgeAdd : UInt32
  ticketIssueTime : Int
  ticketExpirationTime : Int
  ticketHandshakeTime : Int
  deriving DecidableEq

/-- `CertificateSerialization` (`fizz/protocol/Certificate.h`): `none` is an exception, a null
result or `Status::Fail`; the code treats them alike. -/
structure CertSerializer (κ : Type) where
  serialize : κ → Option Bytes
  deserialize : Bytes → Option κ

/-- Nanoseconds per millisecond. -/
def nsPerMs : Int := 1000000

/-- `duration_cast<milliseconds>(ns)`: truncates towards zero. -/
def toMillis (ns : Int) : Int := ns.tdiv nsPerMs

/-- `clampTimePoint<Duration>` (`fizz/client/PskSerializationUtils.cpp:68-78`); `unit` is the
number of nanoseconds in a `Duration`.  `kMaxValue` is `duration_cast` of the largest `int64_t`.
The product is checked for signed overflow. -/
def clampTimePoint (unit : Int) (value : UInt64) : Res Int :=
  let kMaxValue : Nat := ((2 ^ 63 - 1 : Int).tdiv unit).toNat
  checked ((Nat.min value.toNat kMaxValue : Nat) * unit)

/-- The bytes of an optional certificate in `tryWriteCert`
(`fizz/client/PskSerializationUtils.cpp:19-26`). -/
def certBytes {κ} (ser : CertSerializer κ) : Option κ → Bytes
  | some c => (ser.serialize c).getD []
  | none => []

/-- `tryWriteCert` (`fizz/client/PskSerializationUtils.cpp:14-36`). -/
def tryWriteCert {κ} (ser : CertSerializer κ) (cert : Option κ) : Res Bytes :=
  writeBuf .u32 (certBytes ser cert)

/-- `tryReadCert` (`fizz/client/PskSerializationUtils.cpp:38-57`). -/
def tryReadCert {κ} (ser : CertSerializer κ) : Rd (Option κ) := do
  let (b, _) ← readBuf .u32
  pure (if b.isEmpty then none else ser.deserialize b)

/-- The group of `serializePsk` (`fizz/client/PskSerializationUtils.cpp:107-114`). -/
def writePskGroup : Option UInt16 → Res Bytes
  | some g => do
    let t ← writeU8 1
    let b ← writeU16 g
    pure (t ++ b)
  | none => writeU8 0

/-- `serializePsk` (`fizz/client/PskSerializationUtils.cpp:80-134`). -/
def serializePsk {κ} (ser : CertSerializer κ) (p : CachedPsk κ) : Res Bytes := do
  let b1 ← writeBuf .u16 p.psk
  let b2 ← writeBuf .u16 p.secret
  let b3 ← writeU16 p.version
  let b4 ← writeU16 p.cipher
  let b5 ← writePskGroup p.group
  let b6 ← writeBuf .u8 (p.alpn.getD [])
  let b7 ← writeU32 p.ticketAgeAdd
  let b8 ← writeU64 (toU64 (toMillis p.ticketIssueTime))
  let b9 ← writeU64 (toU64 (toSeconds p.ticketExpirationTime))
  let b10 ← tryWriteCert ser p.serverCert
  let b11 ← tryWriteCert ser p.clientCert
  let b12 ← writeU32 p.maxEarlyDataSize
  let b13 ← writeU64 (toU64 (toMillis p.ticketHandshakeTime))
  pure (b1 ++ (b2 ++ (b3 ++ (b4 ++ (b5 ++ (b6 ++ (b7 ++ (b8 ++ (b9 ++ (b10 ++ (b11 ++ (b12 ++
    b13))))))))))))

/-- `fizz/client/PskSerializationUtils.cpp:158-164`. -/
def readPskGroup : Rd (Option UInt16) := do
  let (hasGroup, _) ← readU8
  if hasGroup = 1 then do
    let (g, _) ← readU16
    pure (some g)
  else pure none

/-- Use of a result computed from the bytes read. -/
def liftR {α} (r : Res α) : Rd α := fun inp =>
  match r with
  | .ok a => .ok (a, inp)
  | .error e => .error e

/-- A read whose length result is not used. -/
def val {α} (rd : Rd (α × Nat)) : Rd α := do
  let x ← rd
  pure x.1

/-- The reads of `deserializePsk` up to and including the early data size
(`fizz/client/PskSerializationUtils.cpp:136-192`); the handshake time is filled in later. -/
def readPskBase {κ} (ser : CertSerializer κ) : Rd (CachedPsk κ) := do
  let psk ← val (readBuf .u16)
  let secret ← val (readBuf .u16)
  let version ← val readU16
  let cipher ← val readU16
  let group ← readPskGroup
  let alpn ← val (readBuf .u8)
  let ticketAgeAdd ← val readU32
  let issue ← val readU64
  let ticketIssueTime ← liftR (clampTimePoint nsPerMs issue)
  let expiration ← val readU64
  let ticketExpirationTime ← liftR (clampTimePoint nsPerSec expiration)
  let serverCert ← tryReadCert ser
  let clientCert ← tryReadCert ser
  let maxEarlyDataSize ← val readU32
  pure { psk, secret, type := .resumption, version, cipher, group, serverCert, clientCert,
         maxEarlyDataSize, alpn := if alpn.isEmpty then none else some alpn, ticketAgeAdd,
         ticketIssueTime, ticketExpirationTime, ticketHandshakeTime := 0 }

/-- `deserializePsk` (`fizz/client/PskSerializationUtils.cpp:136-208`); `now` is the clock reading
used when there is no handshake time. -/
def deserializePsk {κ} (ser : CertSerializer κ) (now : Int) (data : Bytes) : Res (CachedPsk κ) :=
  match readPskBase ser data with
  | .error e => .error e
  | .ok (p, rest) =>
    if rest.isEmpty then .ok { p with ticketHandshakeTime := now }
    else
      match readU64 rest with
      | .error e => .error e
      | .ok ((t, _), _) => do
        let ticketHandshakeTime ← clampTimePoint nsPerMs t
        pure { p with ticketHandshakeTime }

end Fizz.Client

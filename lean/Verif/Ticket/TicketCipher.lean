import Verif.Ticket.Token
import Verif.Ticket.TicketCodec

/-!
# Ticket ciphers and the ticket policy — model of `fizz/server/AeadTicketCipher.h`,
`fizz/server/TicketPolicy.h`, `fizz/server/DualTicketCipher.h`

The futures of the interface are modelled by their results: the ciphers here complete them at once
(`TicketCipherImpl`) or after the other cipher has (`DualTicketCipher`).
-/

namespace Fizz.Ticket
open Fizz.Time

/-- `TicketPolicy` (`fizz/server/TicketPolicy.h:69-71`); the clock is a reading of it. -/
structure TicketPolicy where
  /-- `ticketValidity_`, in seconds. -/
  ticketValidity : Int := 3600
  /-- `handshakeValidity_`, in seconds. -/
  handshakeValidity : Int := 259200

/-- `getValidity` (`fizz/server/TicketPolicy.h:64-67`): `handshakeTime + handshakeValidity - now`
computed in nanoseconds, then cast to seconds. -/
def TicketPolicy.getValidity (p : TicketPolicy) (now : Int) (s : ResumptionState) : Res Int := do
  let hv ← checked (p.handshakeValidity * nsPerSec)
  let sum ← checked (s.handshakeTime + hv)
  let diff ← checked (sum - now)
  pure (toSeconds diff)

/-- `remainingValidity` (`fizz/server/TicketPolicy.h:50-57`). -/
def TicketPolicy.remainingValidity (p : TicketPolicy) (now : Int) (s : ResumptionState) :
    Res Int := do
  let v ← p.getValidity now s
  pure (min (min v p.handshakeValidity) p.ticketValidity)

/-- `shouldAccept` (`fizz/server/TicketPolicy.h:59-61`). -/
def TicketPolicy.shouldAccept (p : TicketPolicy) (now : Int) (s : ResumptionState) : Res Bool := do
  let v ← p.getValidity now s
  pure (decide (v > 0))

/-- `PskType` (`fizz/protocol/Types.h`), the values a ticket cipher can answer with. -/
inductive PskType where
  | rejected | resumption | external
  deriving DecidableEq

/-- `TicketCipherImpl` (`fizz/server/AeadTicketCipher.h:114-119`) over the token cipher and the
codec with a storage mode. -/
structure TicketCipher where
  tokenCipher : TokenCipher
  policy : TicketPolicy
  storage : Storage
  factory : CertFactory
  certManager : CertManager.Manager

/-- `CodecType::Label` (`fizz/server/TicketCodec.h:42`): "Fizz Ticket Codec v2". -/
def ticketLabel : Bytes :=
  [70, 105, 122, 122, 32, 84, 105, 99, 107, 101, 116, 32, 67, 111, 100, 101, 99, 32, 118, 50]

/-- The constructors (`fizz/server/AeadTicketCipher.h:37-54`). -/
def TicketCipher.make (storage : Storage) (factory : CertFactory)
    (certManager : CertManager.Manager) (pskContext : Option Bytes) : TicketCipher where
  tokenCipher := TokenCipher.make (ticketLabel :: pskContext.toList)
  policy := {}
  storage := storage
  factory := factory
  certManager := certManager

/-- `encrypt` (`fizz/server/AeadTicketCipher.h:75-88`): the ticket and its lifetime in seconds. -/
def TicketCipher.encrypt (A : TokenAlg) (c : TicketCipher) (now : Int) (salt : Bytes)
    (s : ResumptionState) : Res (Option (Bytes × Int)) := do
  let validity ← c.policy.remainingValidity now s
  if validity ≤ 0 then pure none
  else do
    let encoded ← encode c.storage s
    match ← c.tokenCipher.encrypt A salt encoded none with
    | none => pure none
    | some ticket => pure (some (ticket, validity))

/-- `decrypt` (`fizz/server/AeadTicketCipher.h:90-112`).  `catch (const std::exception&)` catches
every failure of `decode` except the ones that do not return to the caller. -/
def TicketCipher.decrypt (A : TokenAlg) (c : TicketCipher) (now : Int) (ticket : Bytes) :
    Res (PskType × Option ResumptionState) := do
  match ← c.tokenCipher.decrypt A ticket none with
  | none => pure (.rejected, none)
  | some plaintext =>
    match decode c.factory c.certManager plaintext with
    | .error (.ub why) => .error (.ub why)
    | .error .abort => .error .abort
    | .error _ => pure (.rejected, none)
    | .ok s => do
      if ← c.policy.shouldAccept now s then pure (.resumption, some s)
      else pure (.rejected, none)

/-- `DualTicketCipher::decrypt` (`fizz/server/DualTicketCipher.h:35-47`) over two arbitrary
ciphers. -/
def dualDecrypt (cipher fallback : Bytes → Res (PskType × Option ResumptionState))
    (ticket : Bytes) : Res (PskType × Option ResumptionState) := do
  let res ← cipher ticket
  if res.1 = .rejected then fallback ticket else pure res

/-- `DualTicketCipher::encrypt` (`fizz/server/DualTicketCipher.h:29-33`). -/
def dualEncrypt (cipher _fallback : ResumptionState → Res (Option (Bytes × Int)))
    (s : ResumptionState) : Res (Option (Bytes × Int)) := cipher s

end Fizz.Ticket

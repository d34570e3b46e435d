import Verif.Crypto.KeySchedule
import Verif.Codec.Extensions
import Verif.Record.ReadModel
import Verif.Ticket.TicketCodec
import Verif.Ticket.Cookie
import Verif.Client.PskSerialization
import Verif.Conn.Model

/-!
# The server state machine: state, actions, configuration, environment

Model of `fizz/server/State.h`, `fizz/server/Actions.h`, `fizz/protocol/Actions.h`,
`fizz/server/FizzServerContext.h`.

Record layers are represented by what identifies them: the encryption level and the traffic secret
they were keyed with (`Protocol::setAead`, `fizz/protocol/Protocol.h:20-46`); what a layer does with
bytes is modelled in `Verif/Record`.  Logging is not modelled.
-/

namespace Fizz.Server
open Fizz.Codec Fizz.Crypto

/-- `enum class StateEnum` (`fizz/server/State.h:28-40`). -/
inductive StateEnum where
  | uninitialized | expectingClientHello | expectingCertificate | expectingCertificateVerify
  | acceptingEarlyData | expectingFinished | acceptingData | expectingCloseNotify | closed | error
  deriving DecidableEq, Repr

/-- `enum class EncryptionLevel` (`fizz/record/Types.h`). -/
inductive Level where
  | plaintext | earlyData | handshake | appTraffic
  deriving DecidableEq, Repr

/-- A `ReadRecordLayer`: its level, the traffic secret (empty for a plaintext layer), and whether
undecryptable (or, in a plaintext layer, encrypted) records are skipped. -/
structure RLayer where
  level : Level
  secret : Bytes := []
  skip : Bool := false
  deriving DecidableEq, Repr

/-- A `WriteRecordLayer`: its level and traffic secret. -/
structure WLayer where
  level : Level
  secret : Bytes := []
  deriving DecidableEq, Repr

/-- `enum class KeyExchangeType` (`fizz/protocol/Types.h`). -/
inductive KeyExchangeType where
  | none | oneRtt | helloRetryRequest
  deriving DecidableEq, Repr

/-- `enum class EarlyDataType` (`fizz/protocol/Types.h`). -/
inductive EarlyDataType where
  | notAttempted | rejected | accepted
  deriving DecidableEq, Repr

/-- `enum class ReplayCacheResult` (`fizz/server/ReplayCache.h`). -/
inductive ReplayCacheResult where
  | notChecked | notReplay | maybeReplay | definitelyReplay
  deriving DecidableEq, Repr

/-- `enum class ECHStatus` (`fizz/server/State.h:42`). -/
inductive EchStatus where
  | notRequested | accepted | rejected
  deriving DecidableEq, Repr

/-- `enum class AlpnMode` (`fizz/server/FizzServerContext.h`). -/
inductive AlpnMode where
  | allowMismatch | optional | required
  deriving DecidableEq, Repr

/-- `enum class ClientAuthMode` (`fizz/server/FizzServerContext.h`). -/
inductive ClientAuthMode where
  | none | optional | required
  deriving DecidableEq, Repr

/-- `PskType` (`fizz/protocol/Types.h:17-23`). -/
abbrev PskType := Client.PskType

/-- A peer certificate: identity and DER encoding. -/
abbrev PeerCert := Ticket.ClientCert

/-- `PskKeyExchangeMode::psk_ke` (`fizz/record/Types.h`); `psk_dhe_ke` is 1. -/
def psk_ke : UInt8 := 0

/-- `HandshakeContextImpl` (`fizz/protocol/HandshakeContext.h`): the cipher whose hash it was made
with and the bytes appended so far. -/
structure HsCtx where
  cipher : UInt16
  transcript : Bytes := []
  deriving DecidableEq, Repr

/-- `ECHState` (`fizz/server/State.h:44-54`); the HPKE context is an identifier. -/
structure EchState where
  cipherSuite : Ticket.EchSuite := ⟨0, 0⟩
  configId : UInt8 := 0
  hpkeContext : Option Nat := none
  outerSni : Option Bytes := none
  deriving DecidableEq

/-- `State` (`fizz/server/State.h:60-600`).  The executor, the context and the extensions object are
part of the environment; logging is dropped. -/
structure St where
  state : StateEnum := .uninitialized
  read : Option RLayer := none
  write : Option WLayer := none
  handshakeRead : Option RLayer := none
  ks : Option KS.KS := none
  hs : Option HsCtx := none
  serverCert : Option CertManager.Cert := none
  clientCert : Option PeerCert := none
  unverifiedCertChain : Option (List PeerCert) := none
  version : Option UInt16 := none
  cipher : Option UInt16 := none
  group : Option UInt16 := none
  sigScheme : Option UInt16 := none
  pskType : Option PskType := none
  pskMode : Option UInt8 := none
  keyExchangeType : Option KeyExchangeType := none
  earlyDataType : Option EarlyDataType := none
  replayCacheResult : Option ReplayCacheResult := none
  clientHandshakeSecret : Option Bytes := none
  alpn : Option Bytes := none
  clientClockSkew : Option Int := none
  appToken : Option Bytes := none
  serverCertCompAlgo : Option UInt16 := none
  earlyExporterMasterSecret : Option Bytes := none
  exporterMasterSecret : Option Bytes := none
  handshakeTime : Option Int := none
  clientRandom : Option Random := none
  echStatus : EchStatus := .notRequested
  echState : Option EchState := none
  resumptionMasterSecret : Bytes := []
  certReqExtensions : List UInt16 := []
  deriving DecidableEq

/-- One `TLSContent` (`fizz/record/RecordLayer.h`): the layer that protects it, the content type and
the plaintexts handed to the layer, in order. -/
structure Content where
  layer : WLayer
  type : UInt8
  data : List Bytes
  deriving DecidableEq, Repr

/-- The kinds of secrets announced (`fizz/protocol/Actions.h` `SecretAvailable`). -/
inductive SecretKind where
  | clientEarlyTraffic | clientHandshakeTraffic | serverHandshakeTraffic | clientAppTraffic
  | serverAppTraffic
  deriving DecidableEq, Repr

/-- `Action` (`fizz/server/Actions.h`, `fizz/protocol/Actions.h`). -/
inductive Action where
  | mutate (f : St → St)
  | write (token : Option Nat) (contents : List Content) (flags : Nat)
  | deliver (data : Bytes)
  | reportHandshakeSuccess
  | reportEarlyHandshakeSuccess
  | reportError (alert : Option UInt8)
  | endOfData (postClose : Bytes)
  | waitForData
  | attemptVersionFallback (clientHello : Bytes) (sni : Option Bytes)
  | secretAvailable (kind : SecretKind) (secret : Bytes)

/-- What visiting an action does to the state (`FizzServer::ActionMoveVisitor`; only `MutateState`
changes it). -/
def Action.apply : Action → St → St
  | .mutate f, s => f s
  | _, s => s

/-- All actions of an event, in order. -/
def applyAll (acts : List Action) (s : St) : St := acts.foldl (fun s a => a.apply s) s

/-- The two state enumerators after which the connection is over. -/
def terminal (s : St) : Bool := s.state = .error || s.state = .closed

/-- The server as seen by the connection driver. -/
def machine : Conn.Machine where
  S := St
  A := Action
  terminal := terminal
  apply := Action.apply

/-- `ech::OuterECHClientHello` as far as the server looks at it. -/
structure OuterEch where
  cipherSuite : Ticket.EchSuite
  configId : UInt8
  enc : Bytes
  deriving DecidableEq

/-- `FizzServerContext` (`fizz/server/FizzServerContext.h`) and what does not change during a
connection.  The extension codec of ECH is a parameter. -/
structure Cfg where
  supportedVersions : List UInt16
  supportedCiphers : List (List UInt16)
  supportedGroups : List UInt16
  supportedPskModes : List UInt8
  supportedSigSchemes : List UInt16
  supportedAlpns : List Bytes
  supportedCompressionAlgorithms : List UInt16 := []
  alpnMode : AlpnMode := .allowMismatch
  versionFallbackEnabled : Bool := false
  clientAuthMode : ClientAuthMode := .none
  acceptEarlyData_ : Bool := false
  earlyDataFbOnly : Bool := false
  /-- `ClockSkewTolerance::before`, `::after`, in milliseconds. -/
  skewBefore : Int := -1000
  skewAfter : Int := 1000
  omitEarlyRecordLayer : Bool := false
  sendNewSessionTicket : Bool := true
  maxEarlyDataSize : UInt32 := 0
  hasCookieCipher : Bool := false
  hasTicketCipher : Bool := false
  hasReplayCache : Bool := false
  hasAppTokenValidator : Bool := false
  hasClientCertVerifier : Bool := false
  hasExtensions : Bool := false
  hasEchDecrypter : Bool := false
  /-- `getHashFunction` and `makeHasherFactory`: the hash of a cipher suite. -/
  hashOf : UInt16 → Res HashAlg
  getOuterEch : List Extension → Res (Option OuterEch)
  getInnerEch : List Extension → Res (Option Unit)
  /-- `encodeExtension(ECHEncryptedExtensions)` of the retry configurations. -/
  echRetryExtension : Extension := ⟨0xfe0d, []⟩

/-- `tls_1_3_23_fb`, `tls_1_3_26_fb` (`fizz/record/Types.h`). -/
def fbVersions : List UInt16 := [0xfb17, 0xfb1a]

/-- `getAcceptEarlyData` (`fizz/server/FizzServerContext.h:260-267`). -/
def Cfg.acceptEarlyData (c : Cfg) (version : UInt16) : Bool :=
  if c.earlyDataFbOnly ∧ version ∉ fbVersions then false else c.acceptEarlyData_

/-- What the environment answers while one event is processed.  A failure anywhere inside a handler
that is not described by the other fields (a cryptographic backend, a write) is `fault`. -/
structure Inp where
  /-- The result is a `SemiFuture` that completes later. -/
  async : Bool := false
  fault : Option Failure := none
  /-- `writeAlert` fails. -/
  alertFails : Bool := false
  now : Int := 0
  /-- The second clock reading of a ClientHello. -/
  now2 : Int := 0
  cookieDecrypt : Bytes → Res (Option Ticket.CookieState)
  ticketDecrypt : Bytes → Res (PskType × Option Ticket.ResumptionState)
  replayCheck : Bytes → Res ReplayCacheResult
  validateToken : Ticket.ResumptionState → Bool
  echDecrypt : ClientHello → Res (Option (ClientHello × Bytes × Nat))
  /-- `decryptClientHelloHRR` with the stored context or with the `enc` of a cookie. -/
  echDecryptHrr : ClientHello → Option Nat ⊕ Bytes → Res (ClientHello × Bytes)
  /-- `ech::setAcceptConfirmation` on the ServerHello and on the HelloRetryRequest: the random of the hello
  used, the transcript, the message. -/
  echConfirm : Random → Bytes → ServerHello → Res ServerHello
  echConfirmHrr : Random → Bytes → HelloRetryRequest → Res HelloRetryRequest
  kex : UInt16 → Bytes → Res (Bytes × Bytes)
  random : Random
  extraExtensions : ClientHello → Res (List Extension)
  getCert : Option Bytes → List UInt16 → Res (Option (CertManager.Cert × UInt16))
  /-- The encoded Certificate or CompressedCertificate message. -/
  certMessage : CertManager.Cert → Option UInt16 → Res Bytes
  sign : CertManager.Cert → UInt16 → Bytes → Res Bytes
  verifierExtensions : Res (List Extension)
  makePeerCert : CertificateEntry → Bool → Res PeerCert
  /-- `PeerCert::verify(scheme, Client, toBeSigned, signature)` (`true` = success). -/
  verifySig : PeerCert → UInt16 → Bytes → Bytes → Res Unit
  verifyChain : List PeerCert → Res (Option PeerCert)
  ticketEncrypt : Ticket.ResumptionState → Res (Option (Bytes × Int))
  ticketAgeAdd : UInt32 := 0

/-- What `readEvent` answered (`fizz/server/ServerProtocol.cpp:159-211`): a failure with the alert
the caller derives from it, not enough data, or a message and whether undecoded handshake bytes are
left behind. -/
inductive SockIn where
  | fail (alert : Option UInt8)
  | needData
  | event (e : Record.Event) (unparsed : Bool)

/-- `Param` (`fizz/protocol/Params.h:84-107`) as the server state machine receives them. -/
inductive Param where
  | accept
  | sock (e : Record.Event)
  | appWrite (token : Option Nat) (data : Bytes) (flags : Nat)
  | earlyAppWrite (token : Option Nat) (data : Bytes) (flags : Nat)
  | writeNewSessionTicket (appToken : Option Bytes)
  | keyUpdateInitiation (requestUpdate : UInt8)

/-! ## Helpers -/

/-- `*folly::Optional`. -/
def deref {α} : Option α → Res α
  | some a => .ok a
  | none => .error .emptyOptional

/-- `*std::unique_ptr`. -/
def derefPtr {α} : Option α → Res α
  | some a => .ok a
  | none => .error (.ub "null pointer")

/-- Fails with a `FizzException` unless the condition holds. -/
def check (b : Bool) (msg : String) (alert : Option UInt8) : Res Unit :=
  if b then .ok () else .error (Failure.fizz msg alert)

/-- The state of a key scheduler after a call. -/
def ksState : KS.KS × Res KS.Out → Res KS.KS
  | (k, .ok _) => .ok k
  | (_, .error f) => .error f

/-- The secret a call returned. -/
def ksSecret : Res KS.Out → Res Bytes
  | .ok (.secret b) => .ok b
  | .ok _ => .error (.ub "not a secret")
  | .error f => .error f

/-- `getHandshakeContext` (`fizz/protocol/HandshakeContext.cpp:22-32`). -/
def transcriptHash (h : HashAlg) (c : HsCtx) : Bytes := h.digest c.transcript

/-- `appendToTranscript` (`fizz/protocol/HandshakeContext.cpp:17-20`). -/
def HsCtx.append (c : HsCtx) (b : Bytes) : HsCtx := { c with transcript := c.transcript ++ b }

/-- `getFinishedData` (`fizz/protocol/HandshakeContext.cpp:34-58`). -/
def finishedData (h : HashAlg) (c : HsCtx) (baseKey : Bytes) : Res Bytes := do
  let finishedKey ← expandLabel h baseKey (KS.lbl "finished") [] (UInt16.ofNat h.hashLen)
  hmac h finishedKey [transcriptHash h c] (List.replicate h.hashLen 0)

/-- The alert `processEvent` sends for an exception (`fizz/server/ServerProtocol.cpp:270-311`): the
one a `FizzException` carries, `unexpected_message` for any other. -/
def alertFor : Failure → Option UInt8
  | .err _ a .fizz => a
  | .err _ a .verifier => a
  | _ => some 10

/-- `writeRecordLayer()->write*`: one record layer write of `data`. -/
def content (l : WLayer) (type : UInt8) (data : Bytes) : Content := ⟨l, type, [data]⟩

/-- `Transition<s>` (`fizz/protocol/StateMachine.h`). -/
def transition (e : StateEnum) : Action := .mutate fun s => { s with state := e }

end Fizz.Server

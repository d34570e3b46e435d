import Verif.Server.Machine

/-!
# The client state machine: state, actions, configuration, environment

Model of `fizz/client/State.h`, `fizz/client/Actions.h`, `fizz/protocol/Actions.h`,
`fizz/client/FizzClientContext.h`.

Record layers are represented as in `Verif/Server/State.lean`.  Logging is not modelled.
-/

namespace Fizz.ClientSM
open Fizz.Codec Fizz.Crypto
open Fizz.Server (Level RLayer WLayer Content KeyExchangeType HsCtx SockIn PeerCert content)
open Fizz.Client (CachedPsk PskType)

/-- `enum class StateEnum` (`fizz/client/State.h:22-34`). -/
inductive StateEnum where
  | uninitialized | expectingServerHello | expectingEncryptedExtensions | expectingCertificate
  | expectingCertificateVerify | expectingFinished | established | writeSideClosed | closed | error
  deriving DecidableEq, Repr

/-- `enum class EarlyDataType` (`fizz/protocol/Types.h`). -/
inductive EarlyDataType where
  | notAttempted | attempted | rejected | accepted
  deriving DecidableEq, Repr

/-- `enum class ClientAuthType` (`fizz/client/State.h:45`). -/
inductive ClientAuthType where
  | notRequested | sent | requestedNoMatch | stored
  deriving DecidableEq, Repr

/-- `enum class ECHStatus` (`fizz/client/State.h:61`). -/
inductive EchStatus where
  | requested | rejected | accepted
  deriving DecidableEq, Repr

/-- `enum class SendKeyShare` (`fizz/client/FizzClientContext.h:30-34`). -/
inductive SendKeyShare where
  | always | whenNecessary | alwaysDefaultShares
  deriving DecidableEq, Repr

/-- A `SelfCert`. -/
abbrev SelfCert := CertManager.Cert

/-- `std::shared_ptr<const Cert>`: one of our own certificates or a peer's. -/
abbrev Cert := SelfCert ⊕ PeerCert

/-- A cached PSK (`fizz/client/PskCache.h:20-38`). -/
abbrev Psk := CachedPsk Cert

/-- `isPskAccepted` (`fizz/protocol/Types.h:25-40`). -/
def isPskAccepted : PskType → Bool
  | .external => true
  | .resumption => true
  | _ => false

/-- `EarlyDataParams` (`fizz/client/State.h:52-59`). -/
structure EarlyDataParams where
  version : UInt16
  cipher : UInt16
  serverCert : Option Cert
  clientCert : Option Cert
  alpn : Option Bytes
  earlyExporterSecret : Bytes := []
  deriving DecidableEq

/-- `ECHState` (`fizz/client/State.h:63-83`).  The negotiated configuration and the HPKE context are
part of the environment. -/
structure EchState where
  status : EchStatus := .requested
  /-- the encoding of the inner ClientHello -/
  encodedInner : Option Bytes
  sni : Option Bytes
  random : Random
  greasePsk : Option ClientPresharedKey := none
  hs : Option HsCtx := none
  retryConfigs : Option (List Bytes) := none
  deriving DecidableEq

/-- `State` (`fizz/client/State.h:85-620`).  The context, the verifier and the extensions object are
part of the configuration; logging is dropped.  A key exchange is represented by its group and our
share. -/
structure St where
  state : StateEnum := .uninitialized
  read : Option RLayer := none
  write : Option WLayer := none
  earlyWrite : Option WLayer := none
  ks : Option KS.KS := none
  hs : Option HsCtx := none
  serverCert : Option Cert := none
  clientCert : Option Cert := none
  clientAuth : Option ClientAuthType := none
  clientAuthSigScheme : Option UInt16 := none
  selectedClientCert : Option SelfCert := none
  unverifiedCertChain : Option (List PeerCert) := none
  version : Option UInt16 := none
  cipher : Option UInt16 := none
  group : Option UInt16 := none
  sigScheme : Option UInt16 := none
  pskType : Option PskType := none
  pskMode : Option UInt8 := none
  keyExchangeType : Option KeyExchangeType := none
  earlyDataType : Option EarlyDataType := none
  clientHandshakeSecret : Option Bytes := none
  serverHandshakeSecret : Option Bytes := none
  alpn : Option Bytes := none
  serverCertCompAlgo : Option UInt16 := none
  exporterMasterSecret : Option Bytes := none
  resumptionSecret : Option Bytes := none
  handshakeTime : Option Int := none
  clientRandom : Option Random := none
  sni : Option Bytes := none
  legacySessionId : Bytes := []
  attemptedPsk : Option Psk := none
  earlyDataParams : Option EarlyDataParams := none
  encodedClientHello : Option Bytes := none
  keyExchangers : Option (List (UInt16 × Bytes)) := none
  requestedExtensions : Option (List UInt16) := none
  sentCCS : Bool := false
  echState : Option EchState := none
  deriving DecidableEq

/-- The kinds of secrets announced (`fizz/protocol/Actions.h` `SecretAvailable`). -/
inductive SecretKind where
  | clientEarlyTraffic | earlyExporter | clientHandshakeTraffic | serverHandshakeTraffic
  | exporterMaster | resumptionMaster | clientAppTraffic | serverAppTraffic
  deriving DecidableEq, Repr

/-- `Action` (`fizz/client/Actions.h`, `fizz/protocol/Actions.h`). -/
inductive Action where
  | mutate (f : St → St)
  | write (token : Option Nat) (contents : List Content) (flags : Nat)
  | deliver (data : Bytes)
  | reportHandshakeSuccess (earlyDataAccepted : Bool)
  | reportEarlyHandshakeSuccess (maxEarlyDataSize : UInt32)
  | reportEarlyWriteFailed (token : Option Nat) (data : Bytes) (flags : Nat)
  | reportError (alert : Option UInt8)
  | endOfData (postClose : Bytes)
  | waitForData
  | newCachedPsk (psk : Psk)
  | secretAvailable (kind : SecretKind) (secret : Bytes)
  | echRetryAvailable (sni : Bytes) (configs : List Bytes)

/-- What visiting an action does to the state (`FizzClient::ActionMoveVisitor`; only `MutateState`
changes it). -/
def Action.apply : Action → St → St
  | .mutate f, s => f s
  | _, s => s

/-- All actions of an event, in order. -/
def applyAll (acts : List Action) (s : St) : St := acts.foldl (fun s a => a.apply s) s

/-- The two state enumerators after which the connection is over. -/
def terminal (s : St) : Bool := s.state = .error || s.state = .closed

/-- The client as seen by the connection driver. -/
def machine : Conn.Machine where
  S := St
  A := Action
  terminal := terminal
  apply := Action.apply

/-- How ECH is greased (`ech::GreaseECHSetting::payloadStrategy`). -/
inductive GreaseStrategy where
  | uniformRandom | computed
  deriving DecidableEq, Repr

/-- `FizzClientContext` (`fizz/client/FizzClientContext.h`) and the arguments of `connect`
(`fizz/client/FizzClient-inl.h:12-27`). -/
structure Cfg where
  supportedVersions : List UInt16
  supportedCiphers : List UInt16
  supportedSigSchemes : List UInt16
  supportedGroups : List UInt16
  defaultShares : List UInt16
  supportedPskModes : List UInt8
  supportedAlpns : List Bytes
  sendEarlyData : Bool := false
  compatMode : Bool := false
  omitEarlyRecordLayer : Bool := false
  requireAlpn : Bool := false
  hasCertManager : Bool := false
  decompressionAlgorithms : List UInt16 := []
  /-- in nanoseconds -/
  maxPskHandshakeLife : Int := 604800000000000
  sendKeyShare : SendKeyShare := .whenNecessary
  greaseEch : Option GreaseStrategy := none
  hashOf : UInt16 → Res HashAlg
  /-- arguments of `connect` -/
  sni : Option Bytes := none
  cachedPsk : Option Psk := none
  hasVerifier : Bool := false
  hasExtensions : Bool := false
  hasEchConfigs : Bool := false

/-- What the environment answers while one event is processed.  A failure anywhere inside a handler
that is not described by the other fields is `fault`. -/
structure Inp where
  /-- The result is a `SemiFuture` that completes later (it never is for a client; the driver allows
  it). -/
  async : Bool := false
  fault : Option Failure := none
  /-- `writeAlert` fails. -/
  alertFails : Bool := false
  /-- `writeAlert` throws an exception. -/
  alertThrows : Bool := false
  now : Int := 0
  /-- The second clock reading of a Connect, HelloRetryRequest or NewSessionTicket. -/
  now2 : Int := 0
  /-- `makeRandomBytes`: for the ClientHello, and for the outer one of ECH. -/
  random : Random
  random2 : Random
  /-- `makeRandomIOBuf(32)`. -/
  sessionId : Random
  /-- `makeKeyExchange`, `generateKeyPair`, `getKeyShare`. -/
  keyShare : UInt16 → Res Bytes
  /-- `generateSharedSecret` of our key pair (group, our share) with the peer's share. -/
  kex : UInt16 → Bytes → Bytes → Res Bytes
  /-- `ClientExtensions::getClientHelloExtensions`. -/
  extraExtensions : Res (List Extension)
  /-- `ClientExtensions::onEncryptedExtensions`. -/
  onEncryptedExtensions : List Extension → Res Unit
  /-- `setupECH`: the public name. -/
  echSetup : Res Bytes
  /-- `encryptClientHello` / `encryptClientHelloHRR` of the inner hello for the outer hello: the body of
  the encrypted_client_hello extension. -/
  echEncrypt : ClientHello → ClientHello → Option ClientPresharedKey → Res Bytes
  /-- The body of a GREASE encrypted_client_hello extension. -/
  greaseEch : Nat → Res Bytes
  greasePsk : ClientHello → Res (Option ClientPresharedKey)
  greasePskHrr : ClientPresharedKey → Res ClientPresharedKey
  /-- `ech::checkECHAccepted`: the inner random, the inner transcript, the message. -/
  echAccepted : Random → Bytes → ServerHello → Res Bool
  echAcceptedHrr : Random → Bytes → HelloRetryRequest → Res Bool
  /-- The supported retry configurations of the ECH extension of EncryptedExtensions. -/
  echRetry : List Extension → Res (Option (List Bytes))
  /-- `CertManager::getCert` with the schemes and extensions of the CertificateRequest. -/
  getCert : Option Bytes → List UInt16 → List Extension → Res (Option (SelfCert × UInt16))
  /-- `SelfCert::getCertMessage` with no request context. -/
  certMessage : SelfCert → Res CertificateMsg
  /-- `SelfCert::sign(scheme, Client, toBeSigned)`. -/
  sign : SelfCert → UInt16 → Bytes → Res Bytes
  decompress : CompressedCertificate → Res CertificateMsg
  makePeerCert : CertificateEntry → Bool → Res PeerCert
  /-- `PeerCert::verify(scheme, Server, toBeSigned, signature)`. -/
  verifySig : PeerCert → UInt16 → Bytes → Bytes → Res Unit
  verifyChain : List PeerCert → Res (Option PeerCert)

/-- `Param` (`fizz/protocol/Params.h:84-107`) as the client state machine receives them. -/
inductive Param where
  | connect
  | sock (e : Record.Event)
  | appWrite (token : Option Nat) (data : Bytes) (flags : Nat)
  | earlyAppWrite (token : Option Nat) (data : Bytes) (flags : Nat)
  | writeNewSessionTicket
  | keyUpdateInitiation (requestUpdate : UInt8)

/-- `Transition<s>` (`fizz/protocol/StateMachine.h`). -/
def transition (e : StateEnum) : Action := .mutate fun s => { s with state := e }

/-- `FakeChangeCipherSpec` (`fizz/record/Types.h:56-57`) as a
content. -/
def ccs : Content := ⟨⟨.plaintext, []⟩, 20, [[1]]⟩

/-- The change_cipher_spec record sent once in compatibility mode before the second flight
(`fizz/client/ClientProtocol.cpp:2047-2056`, `2677-2686`, `3074-3084`). -/
def firstCcs (cfg : Cfg) (s : St) : List Content := if cfg.compatMode && !s.sentCCS then [ccs] else []

/-- `sentCCS` afterwards. -/
def sentCcs (cfg : Cfg) (s : St) : Bool := s.sentCCS || cfg.compatMode

end Fizz.ClientSM

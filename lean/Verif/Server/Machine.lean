import Verif.Server.Hello

/-!
# The server state machine: all other handlers and the dispatch

Model of `fizz/server/ServerProtocol.cpp:140-480` and `2412-3112`.

`State` is `const` in the handlers, but the handshake context, the key scheduler and the pending
handshake read layer are reached through pointers and are changed while the handler runs.  The model
makes these changes part of the first `MutateState` action of the handler.  The two differ only when
the handler fails half-way: then the C++ object keeps the change, the model forgets it; the state is
`Error` in both and nothing reads those members any more.
-/

namespace Fizz.Server
open Fizz.Codec Fizz.Crypto
open Fizz.Ticket (ResumptionState)

/-- What `handleError` does to the state (`fizz/server/ServerProtocol.cpp:320-324`). -/
def toError (s : St) : St := { s with state := .error, read := none, write := none }

/-- Writing an alert (`fizz/record/RecordLayer.h` `writeAlert`): level fatal (2) and the
description. -/
def alertContent (l : WLayer) (desc : UInt8) : Content := content l 21 [2, desc]

/-- The alert `handleError` writes (`fizz/server/ServerProtocol.cpp:329-342`): only when there is an
alert and a write layer; a failing `writeAlert` is swallowed. -/
def alertWrites (s : St) (a : Option UInt8) (fails : Bool) : List Action :=
  match a, s.write with
  | some a, some w => if fails then [] else [.write none [alertContent w a] 0]
  | _, _ => []

/-- `handleError` (`fizz/server/ServerProtocol.cpp:313-345`). -/
def handleError (s : St) (alert : Option UInt8) (alertFails : Bool) : List Action :=
  if s.state = .error then []
  else .mutate toError :: (alertWrites s alert alertFails ++ [.reportError alert])

/-- `MutateState` of `handleAppCloseImmediate` (`fizz/server/ServerProtocol.cpp:348-352`). -/
def toClosed (s : St) : St := { s with state := .closed, read := none, write := none }

/-- `handleAppCloseImmediate` (`fizz/server/ServerProtocol.cpp:347-369`): a failing `writeAlert`
escapes. -/
def handleAppCloseImmediate (s : St) (alertFails : Bool) : Conn.Outcome Action :=
  match s.write with
  | some w => if alertFails then .escape else .now [.mutate toClosed, .write none [alertContent w 0] 0]
  | none => .now [.mutate toClosed]

/-- `MutateState` of `handleAppClose` (`fizz/server/ServerProtocol.cpp:373-376`). -/
def toExpectingCloseNotify (s : St) : St := { s with state := .expectingCloseNotify, write := none }

/-- `handleAppClose` (`fizz/server/ServerProtocol.cpp:371-398`): a failing `writeAlert` escapes. -/
def handleAppClose (s : St) (alertFails : Bool) : Conn.Outcome Action :=
  match s.write with
  | some w =>
    if alertFails then .escape
    else .now [.mutate toExpectingCloseNotify, .write none [alertContent w 0] 0]
  | none => .now [.mutate toClosed]

/-- `handleInvalidEvent` (`fizz/server/ServerProtocol.cpp:400-424`). -/
def invalidEvent : Param → Failure
  | .sock (.alert _) => Failure.fizz "received alert" none
  | _ => Failure.fizz "invalid event" (some 10)

/-- `Uninitialized`, `Accept` (`fizz/server/ServerProtocol.cpp:452-480`). -/
def onAccept : List Action :=
  [.mutate fun s => { s with read := some ⟨.plaintext, [], false⟩, write := some ⟨.plaintext, []⟩ },
   transition .expectingClientHello]

/-- `AppWrite` in `AcceptingEarlyData`, `ExpectingFinished` and `AcceptingData`
(`fizz/server/ServerProtocol.cpp:2424-2445`, `2476-2497`, `2883-2904`). -/
def onAppWrite (s : St) (token : Option Nat) (data : Bytes) (flags : Nat) : Res (List Action) := do
  let w ← derefPtr s.write
  pure [.write token [content w 23 data] flags]

/-- The transcript and the reader after EndOfEarlyData. -/
def saveEoed (orig : Bytes) (s : St) : St :=
  { s with hs := s.hs.map (·.append orig), read := s.handshakeRead, handshakeRead := none }

/-- `AcceptingEarlyData`, `EndOfEarlyData` (`fizz/server/ServerProtocol.cpp:2447-2474`). -/
def onEndOfEarlyData (s : St) (unparsed : Bool) (orig : Bytes) : Res (List Action) := do
  check (!unparsed) "data after eoed" (some 10)
  let _ ← derefPtr s.hs
  pure [.mutate (saveEoed orig), transition .expectingFinished]

/-- `Protocol::checkAllowedExtensions` for a certificate entry (`fizz/protocol/Protocol.h:172-211`). -/
def checkCertExtensions (allowed : List UInt16) (e : CertificateEntry) : Res Unit := do
  check (e.extensions.all fun x => decide (x.extension_type ∈ allowed)) "Unexpected extension in cert"
    (some 47)
  check (decide (e.extensions.map (·.extension_type)).Nodup) "duplicate extension" (some 47)

/-- The loop over the certificate list (`fizz/server/ServerProtocol.cpp:2613-2627`). -/
def readChain (inp : Inp) (allowed : List UInt16) : Bool → List CertificateEntry → Res (List PeerCert)
  | _, [] => .ok []
  | leaf, e :: es => do
    checkCertExtensions allowed e
    let c ← inp.makePeerCert e leaf
    let cs ← readChain inp allowed false es
    pure (c :: cs)

/-- The state after the client's Certificate. -/
def saveChain (orig : Bytes) (chain : Option (List PeerCert)) (s : St) : St :=
  { s with hs := s.hs.map (·.append orig), unverifiedCertChain := chain }

/-- `ExpectingCertificate`, `Certificate` (`fizz/server/ServerProtocol.cpp:2592-2652`). -/
def onCertificate (cfg : Cfg) (inp : Inp) (s : St) (m : CertificateMsg) (orig : Bytes) :
    Res (List Action) := do
  let _ ← derefPtr s.hs
  check m.certificate_request_context.isEmpty "certificate request context must be empty" (some 47)
  let chain ← readChain inp s.certReqExtensions true m.certificate_list
  if chain.isEmpty then
    if cfg.clientAuthMode = .optional then
      pure [.mutate (saveChain orig none), transition .expectingFinished]
    else .error (Failure.fizz "certificate requested but none received" (some 116))
  else pure [.mutate (saveChain orig (some chain)), transition .expectingCertificateVerify]

/-- Exceptions of the chain verifier (`fizz/server/ServerProtocol.cpp:2700-2713`): a
`FizzException` is passed on, any other becomes `bad_certificate`. -/
def verifierFailure : Failure → Failure
  | .err m a .fizz => .err m a .fizz
  | .err m a .verifier => .err m a .verifier
  | .err m _ .stdRuntime => .err m (some 42) .verifier
  | .abort => .abort
  | .ub w => .ub w
  | _ => .err "client certificate failure" (some 42) .verifier

/-- The certificate the client is known by: the verifier's, else the leaf
(`fizz/server/ServerProtocol.cpp:2684-2699`). -/
def verifiedCert (cfg : Cfg) (inp : Inp) (leaf : PeerCert) (chain : List PeerCert) : Res PeerCert :=
  if cfg.hasClientCertVerifier then
    match inp.verifyChain chain with
    | .ok (some c) => .ok c
    | .ok none => .ok leaf
    | .error f => .error (verifierFailure f)
  else .ok leaf

/-- The state after the client's CertificateVerify. -/
def saveClientCert (orig : Bytes) (cert : PeerCert) (s : St) : St :=
  { s with hs := s.hs.map (·.append orig), unverifiedCertChain := none, clientCert := some cert }

/-- `certs.front()` of a non-empty vector. -/
def front {α} : List α → Res α
  | [] => .error (.ub "front of an empty vector")
  | a :: _ => .ok a

/-- `ExpectingCertificateVerify`, `CertificateVerify` (`fizz/server/ServerProtocol.cpp:2654-2728`). -/
def onCertificateVerify (cfg : Cfg) (inp : Inp) (s : St) (m : CertificateVerify) (orig : Bytes) :
    Res (List Action) := do
  check (decide (m.algorithm ∈ cfg.supportedSigSchemes)) "client chose unsupported sig scheme" (some 40)
  let chain ← deref s.unverifiedCertChain
  let leaf ← front chain
  let ctx ← derefPtr s.hs
  let h ← cfg.hashOf ctx.cipher
  inp.verifySig leaf m.algorithm (transcriptHash h ctx) m.signature
  let cert ← verifiedCert cfg inp leaf chain
  pure [.mutate (saveClientCert orig cert), transition .expectingFinished]

/-- The early data extension of a NewSessionTicket (`fizz/server/ServerProtocol.cpp:2514-2521`). -/
def ticketExts (cfg : Cfg) (version : UInt16) : Res (List Extension) :=
  if cfg.acceptEarlyData version then do
    let e ← encodeTicketEarlyData ⟨cfg.maxEarlyDataSize⟩
    pure [e]
  else .ok []

/-- `writeNewSessionTicket` (`fizz/server/ServerProtocol.cpp:2499-2534`); the nonce is empty. -/
def writeNewSessionTicket (cfg : Cfg) (w : WLayer) (lifetime : Int) (ageAdd : UInt32)
    (ticket : Bytes) (version : UInt16) : Res Action := do
  let exts ← ticketExts cfg version
  let enc ← encodeHandshake (.newSessionTicket ⟨UInt32.ofInt lifetime, ageAdd, some [], ticket, exts⟩)
  pure (.write none [content w 22 enc] 0)

/-- The state put into a ticket (`fizz/server/ServerProtocol.cpp:2546-2572`). -/
def ticketState (cfg : Cfg) (inp : Inp) (s : St) (rms : Bytes) (appToken : Option Bytes) :
    Res ResumptionState := do
  let _ ← derefPtr s.ks
  let cipher ← deref s.cipher
  let h ← cfg.hashOf cipher
  let secret ← ksSecret (KS.getResumptionSecret h rms [])
  let version ← deref s.version
  let handshakeTime ← deref s.handshakeTime
  pure ⟨version, cipher, secret, s.serverCert, s.clientCert, s.alpn, inp.ticketAgeAdd, inp.now,
    appToken.getD [], handshakeTime⟩

/-- `generateTicket` once there is a ticket cipher (`fizz/server/ServerProtocol.cpp:2546-2590`). -/
def makeTicket (cfg : Cfg) (inp : Inp) (s : St) (rms : Bytes) (appToken : Option Bytes) :
    Res (List Action) := do
  let rs ← ticketState cfg inp s rms appToken
  match ← inp.ticketEncrypt rs with
  | none => pure []
  | some (ticket, lifetime) => do
    let w ← derefPtr s.write
    let a ← writeNewSessionTicket cfg w lifetime inp.ticketAgeAdd ticket rs.version
    pure [a]

/-- `generateTicket` (`fizz/server/ServerProtocol.cpp:2536-2590`). -/
def generateTicket (cfg : Cfg) (inp : Inp) (s : St) (rms : Bytes) (appToken : Option Bytes) :
    Res (List Action) :=
  if cfg.hasTicketCipher = false then .ok []
  else do
    let t ← deref s.pskType
    if t = .notSupported then pure [] else makeTicket cfg inp s rms appToken

/-- The state after the client's Finished (`fizz/server/ServerProtocol.cpp:2796-2802`). -/
def saveFinished (read : Bytes) (rms : Bytes) (ks : KS.KS) (s : St) : St :=
  { s with
    read := some ⟨.appTraffic, read, false⟩, resumptionMasterSecret := rms, ks := some ks, hs := none
    clientHandshakeSecret := none }

/-- The ticket of the Finished handler. -/
def finishedTicket (cfg : Cfg) (inp : Inp) (s : St) (rms : Bytes) : Res (List Action) :=
  if cfg.sendNewSessionTicket then generateTicket cfg inp s rms none else .ok []

/-- The actions of the Finished handler (`fizz/server/ServerProtocol.cpp:2806-2839`). -/
def finishedActions (cfg : Cfg) (read rms : Bytes) (ks : KS.KS) (nst : List Action) : List Action :=
  if cfg.sendNewSessionTicket then
    [.mutate (saveFinished read rms ks), transition .acceptingData,
      .secretAvailable .clientAppTraffic read] ++ nst ++ [.reportHandshakeSuccess]
  else
    [.mutate (saveFinished read rms ks), .secretAvailable .clientAppTraffic read,
      transition .acceptingData, .reportHandshakeSuccess]

/-- `ExpectingFinished`, `Finished` (`fizz/server/ServerProtocol.cpp:2730-2841`). -/
def onFinished (cfg : Cfg) (inp : Inp) (s : St) (unparsed : Bool) (m : Finished) (orig : Bytes) :
    Res (List Action) := do
  let ctx ← derefPtr s.hs
  let secret ← deref s.clientHandshakeSecret
  let h ← cfg.hashOf ctx.cipher
  let expected ← finishedData h ctx secret
  check (decide (expected = m.verify_data)) "client finished verify failure" none
  check (!unparsed) "data after finished" none
  let _ ← deref s.version
  let ks ← derefPtr s.ks
  let cipher ← deref s.cipher
  let hc ← cfg.hashOf cipher
  let read ← ksSecret (KS.getApp ks .clientAppTraffic)
  let rms ← ksSecret (KS.getMaster hc ks .resumptionMaster (transcriptHash h (ctx.append orig)))
  let ks ← ksState (KS.clearMasterSecret ks)
  let nst ← finishedTicket cfg inp s rms
  pure (finishedActions cfg read rms ks nst)

/-- `AcceptingData`, `WriteNewSessionTicket` (`fizz/server/ServerProtocol.cpp:2843-2868`). -/
def onWriteNewSessionTicket (cfg : Cfg) (inp : Inp) (s : St) (appToken : Option Bytes) :
    Res (List Action) :=
  generateTicket cfg inp s s.resumptionMasterSecret appToken

/-- The hash of the negotiated cipher and the key scheduler. -/
def schedule (cfg : Cfg) (s : St) : Res (HashAlg × KS.KS) := do
  let cipher ← deref s.cipher
  let h ← cfg.hashOf cipher
  let ks ← derefPtr s.ks
  pure (h, ks)

/-- Moving our own traffic key to the next generation: the new scheduler, the new secret. -/
def nextWrite (h : HashAlg) (ks : KS.KS) : Res (KS.KS × Bytes) := do
  let ks ← ksState (KS.serverKeyUpdate h ks)
  let secret ← ksSecret (KS.getApp ks .serverAppTraffic)
  pure (ks, secret)

/-- Moving the peer's traffic key to the next generation. -/
def nextRead (h : HashAlg) (ks : KS.KS) : Res (KS.KS × Bytes) := do
  let ks ← ksState (KS.clientKeyUpdate h ks)
  let secret ← ksSecret (KS.getApp ks .clientAppTraffic)
  pure (ks, secret)

/-- The new write layer. -/
def saveWrite (ks : KS.KS) (secret : Bytes) (s : St) : St :=
  { s with ks := some ks, write := some ⟨.appTraffic, secret⟩ }

/-- The new read layer. -/
def saveRead (ks : KS.KS) (secret : Bytes) (s : St) : St :=
  { s with ks := some ks, read := some ⟨.appTraffic, secret, false⟩ }

/-- Both new layers. -/
def saveBoth (ks : KS.KS) (read write : Bytes) (s : St) : St :=
  { s with
    ks := some ks, read := some ⟨.appTraffic, read, false⟩, write := some ⟨.appTraffic, write⟩ }

/-- `AcceptingData`, `KeyUpdateInitiation` (`fizz/server/ServerProtocol.cpp:2906-2962`). -/
def onKeyUpdateInitiation (cfg : Cfg) (s : St) (unparsed : Bool) (request : UInt8) :
    Res (List Action) := do
  check (!unparsed) "data after key_update" none
  let enc ← encodeHandshake (.keyUpdate ⟨request⟩)
  let w ← derefPtr s.write
  let (h, ks) ← schedule cfg s
  let (ks, secret) ← nextWrite h ks
  pure [.mutate (saveWrite ks secret), .secretAvailable .serverAppTraffic secret,
    .write none [content w 22 enc] 0]

/-- Answering a KeyUpdate that requests one (`fizz/server/ServerProtocol.cpp:3005-3057`). -/
def answerKeyUpdate (s : St) (h : HashAlg) (ks : KS.KS) (read : Bytes) : Res (List Action) := do
  let enc ← encodeHandshake (.keyUpdate ⟨0⟩)
  let w ← derefPtr s.write
  let (ks, write) ← nextWrite h ks
  pure [.mutate (saveBoth ks read write), .secretAvailable .serverAppTraffic write,
    .secretAvailable .clientAppTraffic read, .write none [content w 22 enc] 0]

/-- `AcceptingData`, `KeyUpdate` (`fizz/server/ServerProtocol.cpp:2964-3058`). -/
def onKeyUpdate (cfg : Cfg) (s : St) (unparsed : Bool) (m : KeyUpdate) : Res (List Action) := do
  check (!unparsed) "data after key_update" none
  let (h, ks) ← schedule cfg s
  let (ks, read) ← nextRead h ks
  if m.request_update = 0 then
    pure [.mutate (saveRead ks read), .secretAvailable .clientAppTraffic read]
  else answerKeyUpdate s h ks read

/-- The state without record layers. -/
def clearLayers (s : St) : St := { s with read := none, write := none }

/-- `AcceptingData`, `CloseNotify` (`fizz/server/ServerProtocol.cpp:3060-3089`). -/
def onCloseNotify (s : St) (unparsed : Bool) (post : Bytes) : Res (List Action) := do
  check (!unparsed) "unprocessed handshake data" (some 10)
  let w ← derefPtr s.write
  pure [.write none [alertContent w 0] 0, .mutate clearLayers, transition .closed, .endOfData post]

/-- `ExpectingCloseNotify`, `CloseNotify` (`fizz/server/ServerProtocol.cpp:3091-3112`). -/
def onExpectedCloseNotify (unparsed : Bool) (post : Bytes) : Res (List Action) := do
  check (!unparsed) "unprocessed handshake data" (some 10)
  pure [.mutate clearLayers, transition .closed, .endOfData post]

/-- `StateMachine<ServerTypes>::getHandler(state, event)`
(`fizz/server/ServerProtocol.cpp:39-138`, `fizz/protocol/StateMachine.h`): the handler table. -/
def handle (cfg : Cfg) (inp : Inp) (s : St) (unparsed : Bool) (p : Param) : Res (List Action) :=
  match s.state, p with
  | .uninitialized, .accept => .ok onAccept
  | .expectingClientHello, .sock (.handshake (.clientHello m) orig) =>
    onClientHello cfg inp s unparsed m orig
  | .acceptingEarlyData, .sock (.appData d) => .ok [.deliver d]
  | .acceptingEarlyData, .appWrite t d f => onAppWrite s t d f
  | .acceptingEarlyData, .sock (.handshake .endOfEarlyData orig) => onEndOfEarlyData s unparsed orig
  | .expectingCertificate, .sock (.handshake (.certificate m) orig) => onCertificate cfg inp s m orig
  | .expectingCertificateVerify, .sock (.handshake (.certificateVerify m) orig) =>
    onCertificateVerify cfg inp s m orig
  | .expectingFinished, .appWrite t d f => onAppWrite s t d f
  | .expectingFinished, .sock (.handshake (.finished m) orig) =>
    onFinished cfg inp s unparsed m orig
  | .acceptingData, .writeNewSessionTicket a => onWriteNewSessionTicket cfg inp s a
  | .acceptingData, .sock (.appData d) => .ok [.deliver d]
  | .acceptingData, .appWrite t d f => onAppWrite s t d f
  | .acceptingData, .keyUpdateInitiation r => onKeyUpdateInitiation cfg s unparsed r
  | .acceptingData, .sock (.handshake (.keyUpdate m) _) => onKeyUpdate cfg s unparsed m
  | .acceptingData, .sock (.closeNotify post) => onCloseNotify s unparsed post
  | .expectingCloseNotify, .sock (.closeNotify post) => onExpectedCloseNotify unparsed post
  | _, p => .error (invalidEvent p)

/-- A handler, or a failure of something the model does not describe. -/
def handleOrFault (cfg : Cfg) (inp : Inp) (s : St) (unparsed : Bool) (p : Param) :
    Res (List Action) :=
  match inp.fault with
  | some f => .error f
  | none => handle cfg inp s unparsed p

/-- Actions as an immediate or a delayed result.  Only the ClientHello, Finished and
WriteNewSessionTicket handlers return futures; the model allows every handler to. -/
def outcome (inp : Inp) (acts : List Action) : Conn.Outcome Action :=
  if inp.async then .later acts else .now acts

/-- `processEvent` (`fizz/server/ServerProtocol.cpp:257-311`).  A process that has aborted, or whose
behaviour is undefined, does nothing more in the model. -/
def processEvent (cfg : Cfg) (inp : Inp) (s : St) (unparsed : Bool) (p : Param) :
    Conn.Outcome Action :=
  match handleOrFault cfg inp s unparsed p with
  | .ok acts => outcome inp acts
  | .error .abort => .escape
  | .error (.ub _) => .escape
  | .error f => outcome inp (handleError s (alertFor f) inp.alertFails)

/-- `processSocketData` (`fizz/server/ServerProtocol.cpp:152-211`). -/
def processSocketData (cfg : Cfg) (inp : Inp) (s : St) (r : SockIn) : Conn.Outcome Action :=
  match s.read with
  | none => .now (handleError s none inp.alertFails)
  | some _ =>
    match r with
    | .fail a => .now (handleError s a inp.alertFails)
    | .needData => .now [.waitForData]
    | .event e unparsed => processEvent cfg inp s unparsed (.sock e)

/-- Everything the environment contributes to one run of the state machine. -/
structure StepIn where
  inp : Inp
  /-- what the record layer delivers -/
  sock : SockIn := .needData
  /-- undecoded handshake bytes are buffered (for events of the application) -/
  unparsed : Bool := false
  /-- the bytes handed over in the SSLv2 fallback -/
  v2 : Bytes := []

/-- `ServerStateMachine` (`fizz/server/ServerProtocol.cpp:140-255`) and the SSLv2 fallback of
`FizzServer::newTransportData` (`fizz/server/FizzServer-inl.h:27-51`). -/
def step (cfg : Cfg) (i : StepIn) (s : St) : Conn.Trig → Conn.Outcome Action
  | .sock => processSocketData cfg i.inp s i.sock
  | .accept => processEvent cfg i.inp s i.unparsed .accept
  | .v2 => .now [transition .error, .attemptVersionFallback i.v2 none]
  | .app (.appWrite t d f) => processEvent cfg i.inp s i.unparsed (.appWrite t d f)
  | .app (.earlyAppWrite t d f) => processEvent cfg i.inp s i.unparsed (.earlyAppWrite t d f)
  | .app (.newSessionTicket a) => processEvent cfg i.inp s i.unparsed (.writeNewSessionTicket a)
  | .app (.keyUpdate r) => processEvent cfg i.inp s i.unparsed (.keyUpdateInitiation r)
  | .app (.appClose true) => handleAppCloseImmediate s i.inp.alertFails
  | .app (.appClose false) => handleAppClose s i.inp.alertFails

end Fizz.Server

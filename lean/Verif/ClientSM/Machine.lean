import Verif.ClientSM.Hello

/-!
# The client state machine: all other handlers and the dispatch

Model of `fizz/client/ClientProtocol.cpp:171-465` and `2101-3255`.

As in `Verif/Server/Machine.lean`, the changes a handler makes through pointers (handshake context, key
scheduler) are part of its first `MutateState` action.
-/

namespace Fizz.ClientSM
open Fizz.Codec Fizz.Crypto
open Fizz.Server (Level RLayer WLayer Content KeyExchangeType HsCtx SockIn PeerCert content alertContent
  alertFor deref derefPtr check ksState ksSecret transcriptHash finishedData verifierFailure)
open Fizz.Client (CachedPsk PskType)

/-! ## Errors and closing -/

/-- What `handleError` does to the state (`fizz/client/ClientProtocol.cpp:349-353`). -/
def toError (s : St) : St := { s with state := .error, read := none, write := none }

/-- The alert `handleError` writes (`fizz/client/ClientProtocol.cpp:358-371`): only when there is an
alert and a write layer; a failing `writeAlert` is swallowed. -/
def alertWrites (s : St) (a : Option UInt8) (fails : Bool) : List Action :=
  match a, s.write with
  | some a, some w => if fails then [] else [.write none [alertContent w a] 0]
  | _, _ => []

/-- `handleError` (`fizz/client/ClientProtocol.cpp:342-374`): in the error state only the report. -/
def handleError (s : St) (alert : Option UInt8) (alertFails : Bool) : List Action :=
  if s.state = .error then [.reportError alert]
  else .mutate toError :: (alertWrites s alert alertFails ++ [.reportError alert])

/-- `MutateState` of `handleAppCloseImmediate` (`fizz/client/ClientProtocol.cpp:377-381`). -/
def toClosed (s : St) : St := { s with state := .closed, read := none, write := none }

/-- `MutateState` of `handleAppClose` (`fizz/client/ClientProtocol.cpp:397-400`). -/
def toWriteSideClosed (s : St) : St := { s with state := .writeSideClosed, write := none }

/-- The closing alert, and what a failing `writeAlert` leads to: an exception escapes
(`fizz/client/ClientProtocol.cpp:275-276`, `291-292`), `Status::Fail` becomes an error whose alert is
`decode_error` (`280-285`, `296-301`; if `writeAlert` fails once, it fails again). -/
def closing (inp : Inp) (s : St) (w : WLayer) (f : St → St) : Conn.Outcome Action :=
  if inp.alertThrows then .escape
  else if inp.alertFails then .now (handleError s (some 50) true)
  else .now [.mutate f, .write none [alertContent w 0] 0]

/-- `processAppCloseImmediate`, `handleAppCloseImmediate`
(`fizz/client/ClientProtocol.cpp:288-302`, `376-393`). -/
def handleAppCloseImmediate (inp : Inp) (s : St) : Conn.Outcome Action :=
  match s.write with
  | some w => closing inp s w toClosed
  | none => .now [.mutate toClosed]

/-- `processAppClose`, `handleAppClose` (`fizz/client/ClientProtocol.cpp:272-286`, `395-417`). -/
def handleAppClose (inp : Inp) (s : St) : Conn.Outcome Action :=
  match s.write with
  | some w => closing inp s w toWriteSideClosed
  | none => .now [.mutate toClosed]

/-- `handleInvalidEvent` (`fizz/client/ClientProtocol.cpp:419-443`). -/
def invalidEvent : Param → Failure
  | .sock (.alert _) => Failure.fizz "received alert" none
  | _ => Failure.fizz "invalid event" (some 10)

/-! ## EncryptedExtensions -/

/-- The application protocol of EncryptedExtensions (`fizz/client/ClientProtocol.cpp:2149-2170`). -/
def eeAlpn (cfg : Cfg) (exts : List Extension) : Res (Option Bytes) := do
  match ← getProtocolNameList exts with
  | none => do
    check (!cfg.requireAlpn) "alpn is required" (some 120)
    pure none
  | some l =>
    match l.protocol_name_list with
    | [p] => do
      check (decide (p.name ∈ cfg.supportedAlpns)) "alpn mismatch" (some 47)
      pure (some p.name)
    | _ => .error (Failure.fizz "alpn list does not contain exactly one protocol" (some 47))

/-- `validateAcceptedEarly` (`fizz/client/ClientProtocol.cpp:2101-2130`). -/
def validateAcceptedEarly (cfg : Cfg) (s : St) (alpn : Option Bytes) : Res Unit :=
  match s.earlyDataParams with
  | none => .error (Failure.fizz "early accepted without psk" (some 47))
  | some p => do
    check (decide (s.pskType ≠ some .rejected)) "early accepted without psk" (some 47)
    check (decide (s.cipher = some p.cipher)) "early accepted with different cipher" (some 47)
    check (decide (p.alpn = alpn)) "early accepted with different alpn" (some 47)
    check (s.earlyWrite.isSome || cfg.omitEarlyRecordLayer) "no early record layer" (some 47)

/-- The server accepts early data. -/
def acceptEarly (cfg : Cfg) (s : St) (alpn : Option Bytes) : Res (Option EarlyDataType) :=
  if s.earlyDataType = some .attempted then do
    validateAcceptedEarly cfg s alpn
    pure (some .accepted)
  else .error (Failure.fizz "unexpected accepted early data" (some 47))

/-- What becomes of early data (`fizz/client/ClientProtocol.cpp:2172-2188`). -/
def eeEarly (cfg : Cfg) (s : St) (exts : List Extension) (alpn : Option Bytes) :
    Res (Option EarlyDataType) := do
  match ← getServerEarlyData exts with
  | some _ => acceptEarly cfg s alpn
  | none =>
    pure (if s.earlyDataType = some .attempted then some .rejected else s.earlyDataType)

/-- The ECH retry configurations (`fizz/client/ClientProtocol.cpp:2190-2213`): when none of them is
supported, `retryConfigs.value()` throws. -/
def eeRetry (inp : Inp) (s : St) (exts : List Extension) : Res (Option (Bytes × List Bytes)) :=
  match s.echState with
  | none => .ok none
  | some e => do
    match ← inp.echRetry exts with
    | none => pure none
    | some [] => .error .emptyOptional
    | some (c :: cs) => pure (some (e.sni.getD [], c :: cs))

/-- `ClientExtensions::onEncryptedExtensions` (`fizz/client/ClientProtocol.cpp:2215-2217`). -/
def eeNotify (cfg : Cfg) (inp : Inp) (exts : List Extension) : Res Unit :=
  if cfg.hasExtensions then inp.onEncryptedExtensions exts else .ok ()

/-- The ECH part of the state after EncryptedExtensions. -/
def eeEch (retry : Option (Bytes × List Bytes)) (e : EchState) : EchState :=
  match retry with
  | some (_, cs) => { e with retryConfigs := some cs }
  | none => e

/-- The state after EncryptedExtensions (`fizz/client/ClientProtocol.cpp:2220-2230`). -/
def saveEe (orig : Bytes) (alpn : Option Bytes) (early : Option EarlyDataType)
    (retry : Option (Bytes × List Bytes)) (s : St) : St :=
  { s with
    hs := s.hs.map (·.append orig), alpn := alpn, requestedExtensions := none, earlyDataType := early
    echState := s.echState.map (eeEch retry) }

/-- `ECHRetryAvailable` (`fizz/client/ClientProtocol.cpp:2232-2234`). -/
def retryActions : Option (Bytes × List Bytes) → List Action
  | some (n, cs) => [.echRetryAvailable n cs]
  | none => []

/-- The state after EncryptedExtensions (`fizz/client/ClientProtocol.cpp:2236-2239`). -/
def afterEe (t : PskType) : StateEnum :=
  if isPskAccepted t then .expectingFinished else .expectingCertificate

/-- `ExpectingEncryptedExtensions`, `EncryptedExtensions`
(`fizz/client/ClientProtocol.cpp:2132-2242`). -/
def onEncryptedExtensions (cfg : Cfg) (inp : Inp) (s : St) (m : EncryptedExtensions) (orig : Bytes) :
    Res (List Action) := do
  let requested ← deref s.requestedExtensions
  checkEeExtensions m.extensions requested
  let _ ← derefPtr s.hs
  let alpn ← eeAlpn cfg m.extensions
  let early ← eeEarly cfg s m.extensions alpn
  let retry ← eeRetry inp s m.extensions
  eeNotify cfg inp m.extensions
  let t ← deref s.pskType
  pure (.mutate (saveEe orig alpn early retry) :: (retryActions retry ++ [transition (afterEe t)]))

/-! ## Certificates -/

/-- `getClientCert` (`fizz/client/ClientProtocol.cpp:2244-2271`). -/
def getClientCert (cfg : Cfg) (inp : Inp) (s : St) (schemes : List UInt16) (exts : List Extension) :
    Res (Option (SelfCert × UInt16)) :=
  if cfg.hasCertManager then inp.getCert s.sni schemes exts else .ok none

/-- The state after a CertificateRequest (`fizz/client/ClientProtocol.cpp:2324-2330`). -/
def saveRequest (orig : Bytes) (cert : Option (SelfCert × UInt16)) (s : St) : St :=
  { s with
    hs := s.hs.map (·.append orig)
    clientAuth := some (if cert.isSome then .sent else .requestedNoMatch)
    selectedClientCert := cert.map (·.1), clientAuthSigScheme := cert.map (·.2) }

/-- `ExpectingCertificate`, `CertificateRequest` (`fizz/client/ClientProtocol.cpp:2273-2336`). -/
def onCertificateRequest (cfg : Cfg) (inp : Inp) (s : St) (m : CertificateRequest) (orig : Bytes) :
    Res (List Action) := do
  check s.clientAuth.isNone "duplicate certificate request message" (some 10)
  let _ ← derefPtr s.hs
  check m.certificate_request_context.isEmpty "certificate request context must be empty" (some 47)
  match ← getSignatureAlgorithms m.extensions with
  | none => .error (Failure.fizz "certificate request without signature algorithms" (some 47))
  | some algs => do
    let cert ← getClientCert cfg inp s algs.supported_signature_algorithms m.extensions
    pure [.mutate (saveRequest orig cert), transition .expectingCertificate]

/-- The extensions of a certificate entry must have been requested
(`fizz/client/ClientProtocol.cpp:2353-2379`). -/
def checkCertExtensions (cfg : Cfg) (inp : Inp) (e : CertificateEntry) : Res Unit :=
  if cfg.hasExtensions then do
    let requested ← inp.extraExtensions
    check (e.extensions.all fun x => decide (x.extension_type ∈ requested.map (·.extension_type)))
      "unrequested certificate extension" (some 47)
  else check e.extensions.isEmpty "certificate extensions must be empty" (some 47)

/-- The loop over the certificate list (`fizz/client/ClientProtocol.cpp:2350-2386`). -/
def readChain (cfg : Cfg) (inp : Inp) : Bool → List CertificateEntry → Res (List PeerCert)
  | _, [] => .ok []
  | leaf, e :: es => do
    checkCertExtensions cfg inp e
    let c ← inp.makePeerCert e leaf
    let cs ← readChain cfg inp false es
    pure (c :: cs)

/-- The state after the server's Certificate (`fizz/client/ClientProtocol.cpp:2393-2401`). -/
def saveChain (orig : Bytes) (chain : List PeerCert) (algo : Option UInt16) (s : St) : St :=
  { s with
    hs := s.hs.map (·.append orig), unverifiedCertChain := some chain
    clientAuth := some (s.clientAuth.getD .notRequested), serverCertCompAlgo := algo }

/-- `handleCertMsg` (`fizz/client/ClientProtocol.cpp:2338-2403`). -/
def handleCertMsg (cfg : Cfg) (inp : Inp) (m : CertificateMsg) : Res (List PeerCert) := do
  check m.certificate_request_context.isEmpty "certificate request context must be empty" (some 47)
  let chain ← readChain cfg inp true m.certificate_list
  check (!chain.isEmpty) "no certificates received" (some 47)
  pure chain

/-- `ExpectingCertificate`, `Certificate` (`fizz/client/ClientProtocol.cpp:2458-2475`). -/
def onCertificate (cfg : Cfg) (inp : Inp) (s : St) (m : CertificateMsg) (orig : Bytes) :
    Res (List Action) := do
  let _ ← derefPtr s.hs
  let chain ← handleCertMsg cfg inp m
  pure [.mutate (saveChain orig chain none), transition .expectingCertificateVerify]

/-- Decompression (`fizz/client/ClientProtocol.cpp:2437-2449`): every failure is a bad certificate. -/
def decompress (inp : Inp) (m : CompressedCertificate) : Res CertificateMsg :=
  match inp.decompress m with
  | .ok c => .ok c
  | .error .abort => .error .abort
  | .error (.ub w) => .error (.ub w)
  | .error _ => .error (Failure.fizz "certificate decompression failed" (some 42))

/-- `ExpectingCertificate`, `CompressedCertificate` (`fizz/client/ClientProtocol.cpp:2405-2456`). -/
def onCompressedCertificate (cfg : Cfg) (inp : Inp) (s : St) (m : CompressedCertificate)
    (orig : Bytes) : Res (List Action) := do
  check (!cfg.decompressionAlgorithms.isEmpty) "compressed certificate received unexpectedly" (some 10)
  let _ ← derefPtr s.hs
  check (decide (m.algorithm ∈ cfg.decompressionAlgorithms))
    "certificate compressed with unsupported algorithm" (some 42)
  let cert ← decompress inp m
  let chain ← handleCertMsg cfg inp cert
  pure [.mutate (saveChain orig chain (some m.algorithm)), transition .expectingCertificateVerify]

/-- The certificate the server is known by: the verifier's, else the leaf
(`fizz/client/ClientProtocol.cpp:2512-2537`). -/
def verifiedCert (cfg : Cfg) (inp : Inp) (leaf : PeerCert) (chain : List PeerCert) : Res PeerCert :=
  if cfg.hasVerifier then
    match inp.verifyChain chain with
    | .ok (some c) => .ok c
    | .ok none => .ok leaf
    | .error f => .error (verifierFailure f)
  else .ok leaf

/-- The state after the server's CertificateVerify (`fizz/client/ClientProtocol.cpp:2543-2548`). -/
def saveServerCert (orig : Bytes) (scheme : UInt16) (cert : PeerCert) (s : St) : St :=
  { s with
    hs := s.hs.map (·.append orig), sigScheme := some scheme, serverCert := some (.inr cert)
    unverifiedCertChain := none }

/-- `FIZZ_CHECK(!chain.empty()); chain.front()` (`fizz/client/ClientProtocol.cpp:2500-2501`). -/
def leafOf : List PeerCert → Res PeerCert
  | [] => .error .abort
  | c :: _ => .ok c

/-- `ExpectingCertificateVerify`, `CertificateVerify` (`fizz/client/ClientProtocol.cpp:2477-2551`). -/
def onCertificateVerify (cfg : Cfg) (inp : Inp) (s : St) (m : CertificateVerify) (orig : Bytes) :
    Res (List Action) := do
  check (decide (m.algorithm ∈ cfg.supportedSigSchemes)) "server choose unsupported sig scheme" (some 47)
  let chain ← deref s.unverifiedCertChain
  let leaf ← leafOf chain
  let ctx ← derefPtr s.hs
  let h ← cfg.hashOf ctx.cipher
  inp.verifySig leaf m.algorithm (transcriptHash h ctx) m.signature
  let cert ← verifiedCert cfg inp leaf chain
  pure [.mutate (saveServerCert orig m.algorithm cert), transition .expectingFinished]

/-! ## Finished -/

/-- EndOfEarlyData, sent when early data was accepted (`fizz/client/ClientProtocol.cpp:2583-2595`): the
transcript, and what goes out under the early traffic key. -/
def endEarly (cfg : Cfg) (s : St) (ctx : HsCtx) : Res (HsCtx × List Content) :=
  if s.earlyDataType = some .accepted ∧ cfg.omitEarlyRecordLayer = false then do
    let enc ← encodeHandshake .endOfEarlyData
    let w ← derefPtr s.earlyWrite
    pure (ctx.append enc, [content w 22 enc])
  else .ok (ctx, [])

/-- The client's certificate messages. -/
structure Auth where
  ctx : HsCtx
  messages : Bytes
  cert : Option Cert

/-- Certificate and CertificateVerify of the client (`fizz/client/ClientProtocol.cpp:2613-2645`). -/
def sendCert (inp : Inp) (h : HashAlg) (s : St) (ctx : HsCtx) : Res Auth := do
  let cert ← derefPtr s.selectedClientCert
  let m ← inp.certMessage cert
  let msg ← encodeHandshake (.certificate m)
  let scheme ← deref s.clientAuthSigScheme
  let sig ← inp.sign cert scheme (transcriptHash h (ctx.append msg))
  let verify ← encodeHandshake (.certificateVerify ⟨scheme, sig⟩)
  pure ⟨(ctx.append msg).append verify, msg ++ verify, some (.inl cert)⟩

/-- `fizz/client/ClientProtocol.cpp:2597-2648`: what the client proves about itself. -/
def clientAuth (inp : Inp) (h : HashAlg) (s : St) (ctx : HsCtx) : ClientAuthType → Res Auth
  | .stored => .ok ⟨ctx, [], s.clientCert⟩
  | .notRequested => .ok ⟨ctx, [], none⟩
  | .requestedNoMatch => do
    let msg ← encodeHandshake (.certificate ⟨[], []⟩)
    pure ⟨ctx.append msg, msg, none⟩
  | .sent => sendCert inp h s ctx

/-- What the server's Finished leads to. -/
structure Done where
  exporter : Bytes
  resumption : Bytes
  read : Bytes
  write : Bytes
  ks : KS.KS
  cert : Option Cert
  flight : List Content

/-- The secrets of the connection (`fizz/client/ClientProtocol.cpp:2581`, `2650-2673`, `2710-2746`): the
master secret, the application traffic secrets and exporter secret over `th`, the transcript through
the server's Finished, and the resumption secret over `thAll`. -/
def masterStage (h : HashAlg) (ks : KS.KS) (th thAll : Bytes) :
    Res (Bytes × Bytes × Bytes × Bytes × KS.KS) := do
  let ks ← ksState (KS.deriveMasterSecret h ks)
  let exporter ← ksSecret (KS.getMaster h ks .exporterMaster th)
  let resumption ← ksSecret (KS.getMaster h ks .resumptionMaster thAll)
  let ks ← ksState (KS.deriveAppTrafficSecrets h ks th)
  let ks ← ksState (KS.clearMasterSecret ks)
  let write ← ksSecret (KS.getApp ks .clientAppTraffic)
  let read ← ksSecret (KS.getApp ks .serverAppTraffic)
  pure (exporter, resumption, read, write, ks)

/-- The client's second flight as handshake messages (`fizz/client/ClientProtocol.cpp:2583-2663`): the
transcript through the client's Finished, the contents. -/
def secondFlight (cfg : Cfg) (inp : Inp) (h : HashAlg) (s : St) (ctx : HsCtx) :
    Res (HsCtx × List Content × Option Cert) := do
  let (ctx, eoed) ← endEarly cfg s ctx
  let auth ← deref s.clientAuth
  let a ← clientAuth inp h s ctx auth
  let secret ← deref s.clientHandshakeSecret
  let mac ← finishedData h a.ctx secret
  let fin ← encodeHandshake (.finished ⟨mac⟩)
  let w ← derefPtr s.write
  pure (a.ctx.append fin, eoed ++ [content w 22 (a.messages ++ fin)], a.cert)

/-- `ExpectingFinished`, `Finished` up to the actions (`fizz/client/ClientProtocol.cpp:2553-2746`). -/
def processFinished (cfg : Cfg) (inp : Inp) (s : St) (unparsed : Bool) (m : Finished) (orig : Bytes) :
    Res Done := do
  check (!unparsed) "data after finished" (some 10)
  let ctx ← derefPtr s.hs
  let h ← cfg.hashOf ctx.cipher
  let secret ← deref s.serverHandshakeSecret
  let expected ← finishedData h ctx secret
  check (decide (expected = m.verify_data)) "server finished verify failure" (some 20)
  let (all, flight, cert) ← secondFlight cfg inp h s (ctx.append orig)
  let ks ← derefPtr s.ks
  let cipher ← deref s.cipher
  let hc ← cfg.hashOf cipher
  let _ ← deref s.version
  let (exporter, resumption, read, write, ks) ← masterStage hc ks (transcriptHash h (ctx.append orig))
    (transcriptHash h all)
  pure ⟨exporter, resumption, read, write, ks, cert, firstCcs cfg s ++ flight⟩

/-- The state after the server's Finished (`fizz/client/ClientProtocol.cpp:2752-2769`). -/
def saveFinished (cfg : Cfg) (d : Done) (s : St) : St :=
  { s with
    read := some ⟨.appTraffic, d.read, false⟩, write := some ⟨.appTraffic, d.write⟩, earlyWrite := none
    clientHandshakeSecret := none, serverHandshakeSecret := none, resumptionSecret := some d.resumption
    exporterMasterSecret := some d.exporter, selectedClientCert := none, clientCert := d.cert
    sentCCS := sentCcs cfg s, hs := none, ks := some d.ks }

/-- ECH was offered and rejected. -/
def echRejected (s : St) : Bool :=
  match s.echState with
  | some e => decide (e.status = .rejected)
  | none => false

/-- Success, or the ech_required error (`fizz/client/ClientProtocol.cpp:2777-2790`). -/
def finalReport (inp : Inp) (s : St) : List Action :=
  if echRejected s then handleError s (some 121) inp.alertFails
  else [.reportHandshakeSuccess (decide (s.earlyDataType = some .accepted))]

/-- `ExpectingFinished`, `Finished` (`fizz/client/ClientProtocol.cpp:2553-2794`). -/
def onFinished (cfg : Cfg) (inp : Inp) (s : St) (unparsed : Bool) (m : Finished) (orig : Bytes) :
    Res (List Action) := do
  let d ← processFinished cfg inp s unparsed m orig
  pure ([.mutate (saveFinished cfg d), transition .established,
    .secretAvailable .serverAppTraffic d.read, .secretAvailable .clientAppTraffic d.write,
    .secretAvailable .exporterMaster d.exporter, .secretAvailable .resumptionMaster d.resumption,
    .write none d.flight 0] ++ finalReport inp s)

/-! ## The established connection -/

/-- `getMaxEarlyDataSize` (`fizz/client/ClientProtocol.cpp:2796-2806`). -/
def ticketEarly (exts : List Extension) : Res UInt32 := do
  match ← getTicketEarlyData exts with
  | some e => pure e.max_early_data_size
  | none => pure 0

/-- `Established`, `NewSessionTicket` (`fizz/client/ClientProtocol.cpp:2808-2848`).  The expiration
time is the sum of two 64-bit numbers of nanoseconds. -/
def onNewSessionTicket (cfg : Cfg) (inp : Inp) (s : St) (m : NewSessionTicket) : Res (List Action) := do
  let _ ← derefPtr s.ks
  let cipher ← deref s.cipher
  let h ← cfg.hashOf cipher
  let rms ← deref s.resumptionSecret
  let nonce ← derefPtr m.ticket_nonce
  let secret ← ksSecret (KS.getResumptionSecret h rms nonce)
  let version ← deref s.version
  let expires ← Time.checked (inp.now2 + m.ticket_lifetime.toNat * 1000000000)
  let time ← deref s.handshakeTime
  let early ← ticketEarly m.extensions
  pure [.newCachedPsk ⟨m.ticket, secret, .resumption, version, cipher, s.group, s.serverCert,
    s.clientCert, early, s.alpn, m.ticket_age_add, inp.now, expires, time⟩]

/-- `Established`, `AppWrite` (`fizz/client/ClientProtocol.cpp:2871-2889`). -/
def onAppWrite (s : St) (token : Option Nat) (data : Bytes) (flags : Nat) : Res (List Action) := do
  let w ← derefPtr s.write
  pure [.write token [content w 23 data] flags]

/-- The hash of the negotiated cipher and the key scheduler. -/
def schedule (cfg : Cfg) (s : St) : Res (HashAlg × KS.KS) := do
  let cipher ← deref s.cipher
  let h ← cfg.hashOf cipher
  let ks ← derefPtr s.ks
  pure (h, ks)

/-- Moving our own traffic key to the next generation: the new scheduler, the new secret. -/
def nextWrite (h : HashAlg) (ks : KS.KS) : Res (KS.KS × Bytes) := do
  let ks ← ksState (KS.clientKeyUpdate h ks)
  let secret ← ksSecret (KS.getApp ks .clientAppTraffic)
  pure (ks, secret)

/-- Moving the server's traffic key to the next generation. -/
def nextRead (h : HashAlg) (ks : KS.KS) : Res (KS.KS × Bytes) := do
  let ks ← ksState (KS.serverKeyUpdate h ks)
  let secret ← ksSecret (KS.getApp ks .serverAppTraffic)
  pure (ks, secret)

/-- The new write layer. -/
def saveWrite (ks : KS.KS) (secret : Bytes) (s : St) : St :=
  { s with ks := some ks, write := some ⟨.appTraffic, secret⟩ }

/-- The new read layer. -/
def saveRead (ks : KS.KS) (secret : Bytes) (s : St) : St :=
  { s with ks := some ks, read := some ⟨.appTraffic, secret, false⟩ }

/-- Both new layers. -/
def saveBoth (ks : KS.KS) (read write : Bytes) (s : St) : St :=
  { s with
    ks := some ks, read := some ⟨.appTraffic, read, false⟩, write := some ⟨.appTraffic, write⟩ }

/-- `Established`, `KeyUpdateInitiation` (`fizz/client/ClientProtocol.cpp:2891-2939`). -/
def onKeyUpdateInitiation (cfg : Cfg) (s : St) (unparsed : Bool) (request : UInt8) :
    Res (List Action) := do
  check (!unparsed) "data after key_update" (some 10)
  let enc ← encodeHandshake (.keyUpdate ⟨request⟩)
  let w ← derefPtr s.write
  let (h, ks) ← schedule cfg s
  let (ks, secret) ← nextWrite h ks
  pure [.mutate (saveWrite ks secret), .secretAvailable .clientAppTraffic secret,
    .write none [content w 22 enc] 0]

/-- Answering a KeyUpdate that requests one (`fizz/client/ClientProtocol.cpp:2983-3023`). -/
def answerKeyUpdate (s : St) (h : HashAlg) (ks : KS.KS) (read : Bytes) : Res (List Action) := do
  let enc ← encodeHandshake (.keyUpdate ⟨0⟩)
  let w ← derefPtr s.write
  let (ks, write) ← nextWrite h ks
  pure [.mutate (saveBoth ks read write), .secretAvailable .serverAppTraffic read,
    .secretAvailable .clientAppTraffic write, .write none [content w 22 enc] 0]

/-- `Established`, `KeyUpdate` (`fizz/client/ClientProtocol.cpp:2941-3024`). -/
def onKeyUpdate (cfg : Cfg) (s : St) (unparsed : Bool) (m : KeyUpdate) : Res (List Action) := do
  check (!unparsed) "data after key_update" (some 10)
  let (h, ks) ← schedule cfg s
  let (ks, read) ← nextRead h ks
  if m.request_update = 0 then
    pure [.mutate (saveRead ks read), .secretAvailable .serverAppTraffic read]
  else answerKeyUpdate s h ks read

/-- `ignoreEarlyAppWrite` (`fizz/client/ClientProtocol.cpp:3032-3046`). -/
def ignoreEarly (s : St) (token : Option Nat) (data : Bytes) (flags : Nat) : Res (List Action) := do
  let t ← deref s.earlyDataType
  check (decide (t = .rejected)) "ignoring valid early write" none
  pure [.reportEarlyWriteFailed token data flags]

/-- The early data write (`fizz/client/ClientProtocol.cpp:3065-3090`). -/
def writeEarly (cfg : Cfg) (s : St) (token : Option Nat) (data : Bytes) (flags : Nat) :
    Res (List Action) := do
  let w ← derefPtr s.earlyWrite
  if cfg.compatMode && !s.sentCCS then
    pure [.mutate fun s => { s with sentCCS := true }, .write token [ccs, content w 23 data] flags]
  else pure [.write token [content w 23 data] flags]

/-- The switch of `handleEarlyAppWrite` (`fizz/client/ClientProtocol.cpp:3058-3091`). -/
def dispatchEarly (cfg : Cfg) (s : St) (token : Option Nat) (data : Bytes) (flags : Nat) :
    EarlyDataType → Res (List Action)
  | .notAttempted => .error (Failure.fizz "invalid early write" none)
  | .rejected => ignoreEarly s token data flags
  | .attempted => writeEarly cfg s token data flags
  | .accepted => writeEarly cfg s token data flags

/-- `handleEarlyAppWrite` (`fizz/client/ClientProtocol.cpp:3048-3093`). -/
def handleEarly (cfg : Cfg) (s : St) (token : Option Nat) (data : Bytes) (flags : Nat) :
    Res (List Action) := do
  check (!cfg.omitEarlyRecordLayer) "early app writes disabled" none
  let t ← deref s.earlyDataType
  dispatchEarly cfg s token data flags t

/-- `Established`, `EarlyAppWrite` (`fizz/client/ClientProtocol.cpp:3166-3191`). -/
def onEarlyEstablished (s : St) (token : Option Nat) (data : Bytes) (flags : Nat) :
    Res (List Action) := do
  let t ← deref s.earlyDataType
  if t = .accepted then onAppWrite s token data flags else ignoreEarly s token data flags

/-- The state without record layers. -/
def clearLayers (s : St) : St := { s with read := none, write := none }

/-- `Established`, `CloseNotify` (`fizz/client/ClientProtocol.cpp:3193-3219`). -/
def onCloseNotify (s : St) (unparsed : Bool) (post : Bytes) : Res (List Action) := do
  check (!unparsed) "unprocessed handshake data" (some 10)
  let w ← derefPtr s.write
  pure [.write none [alertContent w 0] 0, .mutate clearLayers, transition .closed, .endOfData post]

/-- `WriteSideClosed`, `CloseNotify` (`fizz/client/ClientProtocol.cpp:3231-3254`). -/
def onExpectedCloseNotify (unparsed : Bool) (post : Bytes) : Res (List Action) := do
  check (!unparsed) "unprocessed handshake data" (some 10)
  pure [.mutate clearLayers, transition .closed, .endOfData post]

/-! ## Dispatch -/

/-- `StateMachine<ClientTypes>::getHandler(state, event)`
(`fizz/client/ClientProtocol.cpp:32-169`, `fizz/protocol/StateMachine.h`): the handler table. -/
def handle (cfg : Cfg) (inp : Inp) (s : St) (unparsed : Bool) (p : Param) : Res (List Action) :=
  match s.state, p with
  | .uninitialized, .connect => onConnect cfg inp
  | .expectingServerHello, .sock (.handshake (.helloRetryRequest m) orig) =>
    onHelloRetryRequest cfg inp s m orig
  | .expectingServerHello, .sock (.handshake (.serverHello m) orig) =>
    onServerHello cfg inp s unparsed m orig
  | .expectingServerHello, .earlyAppWrite t d f => handleEarly cfg s t d f
  | .expectingEncryptedExtensions, .sock (.handshake (.encryptedExtensions m) orig) =>
    onEncryptedExtensions cfg inp s m orig
  | .expectingEncryptedExtensions, .earlyAppWrite t d f => handleEarly cfg s t d f
  | .expectingCertificate, .sock (.handshake (.certificateRequest m) orig) =>
    onCertificateRequest cfg inp s m orig
  | .expectingCertificate, .sock (.handshake (.certificate m) orig) => onCertificate cfg inp s m orig
  | .expectingCertificate, .sock (.handshake (.compressedCertificate m) orig) =>
    onCompressedCertificate cfg inp s m orig
  | .expectingCertificate, .earlyAppWrite t d f => ignoreEarly s t d f
  | .expectingCertificateVerify, .sock (.handshake (.certificateVerify m) orig) =>
    onCertificateVerify cfg inp s m orig
  | .expectingCertificateVerify, .earlyAppWrite t d f => ignoreEarly s t d f
  | .expectingFinished, .sock (.handshake (.finished m) orig) => onFinished cfg inp s unparsed m orig
  | .expectingFinished, .earlyAppWrite t d f => handleEarly cfg s t d f
  | .established, .earlyAppWrite t d f => onEarlyEstablished s t d f
  | .established, .sock (.handshake (.newSessionTicket m) _) => onNewSessionTicket cfg inp s m
  | .established, .sock (.appData d) => .ok [.deliver d]
  | .established, .appWrite t d f => onAppWrite s t d f
  | .established, .keyUpdateInitiation r => onKeyUpdateInitiation cfg s unparsed r
  | .established, .sock (.handshake (.keyUpdate m) _) => onKeyUpdate cfg s unparsed m
  | .established, .sock (.closeNotify post) => onCloseNotify s unparsed post
  | .writeSideClosed, .sock (.appData d) => .ok [.deliver d]
  | .writeSideClosed, .sock (.closeNotify post) => onExpectedCloseNotify unparsed post
  | _, p => .error (invalidEvent p)

/-- A handler, or a failure of something the model does not describe. -/
def handleOrFault (cfg : Cfg) (inp : Inp) (s : St) (unparsed : Bool) (p : Param) :
    Res (List Action) :=
  match inp.fault with
  | some f => .error f
  | none => handle cfg inp s unparsed p

/-- Actions as an immediate or a delayed result. -/
def outcome (inp : Inp) (acts : List Action) : Conn.Outcome Action :=
  if inp.async then .later acts else .now acts

/-- `processEvent` (`fizz/client/ClientProtocol.cpp:313-340`).  A process that has aborted, or whose
behaviour is undefined, does nothing more in the model. -/
def processEvent (cfg : Cfg) (inp : Inp) (s : St) (unparsed : Bool) (p : Param) :
    Conn.Outcome Action :=
  match handleOrFault cfg inp s unparsed p with
  | .ok acts => outcome inp acts
  | .error .abort => .escape
  | .error (.ub _) => .escape
  | .error f => outcome inp (handleError s (alertFor f) inp.alertFails)

/-- `processSocketData` (`fizz/client/ClientProtocol.cpp:195-249`). -/
def processSocketData (cfg : Cfg) (inp : Inp) (s : St) (r : SockIn) : Conn.Outcome Action :=
  match s.read with
  | none => .now (handleError s none inp.alertFails)
  | some _ =>
    match r with
    | .fail a => .now (handleError s a inp.alertFails)
    | .needData => .now [.waitForData]
    | .event e unparsed => processEvent cfg inp s unparsed (.sock e)

/-- Everything the environment contributes to one run of the state machine. -/
structure StepIn where
  inp : Inp
  /-- what the record layer delivers -/
  sock : SockIn := .needData
  /-- undecoded handshake bytes are buffered (for events of the application) -/
  unparsed : Bool := false

/-- `ClientStateMachine` (`fizz/client/ClientProtocol.cpp:176-309`).  `.accept` stands for `connect`;
there is no SSLv2 fallback in a client. -/
def step (cfg : Cfg) (i : StepIn) (s : St) : Conn.Trig → Conn.Outcome Action
  | .sock => processSocketData cfg i.inp s i.sock
  | .accept => processEvent cfg i.inp s i.unparsed .connect
  | .v2 => .now []
  | .app (.appWrite t d f) => processEvent cfg i.inp s i.unparsed (.appWrite t d f)
  | .app (.earlyAppWrite t d f) => processEvent cfg i.inp s i.unparsed (.earlyAppWrite t d f)
  | .app (.newSessionTicket _) => processEvent cfg i.inp s i.unparsed .writeNewSessionTicket
  | .app (.keyUpdate r) => processEvent cfg i.inp s i.unparsed (.keyUpdateInitiation r)
  | .app (.appClose true) => handleAppCloseImmediate i.inp s
  | .app (.appClose false) => handleAppClose i.inp s

end Fizz.ClientSM

import Verif.ClientSM.Spec

/-!
# The complete behaviour of the client

`Does cfg h x acts` says: `acts` is what the application and the transport may see of the step `x` that the client
takes after the history `h`.  The constructors list everything a client ever does.
-/

namespace Fizz.ClientSM.Spec
open Fizz.Codec Fizz.Crypto
open Fizz.Server (Level RLayer WLayer Content KeyExchangeType HsCtx SockIn PeerCert)
open Fizz.Server.Spec (messageHash finishedMac handshakeBytes)
open Fizz.Client (CachedPsk PskType)

/-- An alert under the given write layer. -/
def alert (w : WLayer) (d : UInt8) : Content := ⟨w, 21, [[2, d]]⟩

/-- What a failure with alert `a` writes when the write layer is `w`: at most that alert. -/
inductive Farewell (w : Option WLayer) (a : Option UInt8) : List Action → Prop where
  | silent : Farewell w a []
  | alert {l d} : w = some l → a = some d → Farewell w a [.write none [Spec.alert l d] 0]

/-- The change_cipher_spec record of the compatibility mode, if there is one. -/
def CcsOnly (l : List Content) : Prop := l = [] ∨ l = [ccs]

/-- The handshake is complete; `th` is the transcript hash through the server's Finished. -/
structure Complete (cfg : Cfg) (h : List Step) (g : Neg) (th : Bytes) (early : EarlyDataType) : Prop where
  fixed : Fixed cfg h g
  confirmed : Confirmed cfg h g th
  success : ∀ b, .reportHandshakeSuccess b ∈ actions h ↔ b = decide (early = .accepted)

/-- Our application write layer. -/
def Neg.writeLayer (g : Neg) (th : Bytes) (h : List Step) : WLayer :=
  ⟨.appTraffic, g.clientApp th (updatesSent h)⟩

/-- The server's application read layer. -/
def Neg.readLayer (g : Neg) (th : Bytes) (h : List Step) : RLayer :=
  ⟨.appTraffic, g.serverApp th (updatesReceived h), false⟩

/-- The handshake is complete, and the layers of the state `s` are those of the current generation of keys. -/
structure Current (cfg : Cfg) (h : List Step) (s : St) (g : Neg) (th : Bytes) (early : EarlyDataType) : Prop where
  complete : Complete cfg h g th early
  write : s.write = some (g.writeLayer th h)
  read : s.read = some (g.readLayer th h)

/-- The server has turned down the early data that was offered: by a HelloRetryRequest, or in its
EncryptedExtensions. -/
def EarlyRejected (cfg : Cfg) (h : List Step) : Prop :=
  (∃ o1 o p, Offered cfg h o1 o p ∧ o1.early = true ∧ retries h ≠ []) ∨
  ∃ g alpn, Fixed cfg h g ∧ Encrypted cfg h g alpn .rejected

/-- Early data may be written with the key `k`: it was offered with the only ClientHello so far, and the
server has not answered yet or has accepted it. -/
def EarlyKey (cfg : Cfg) (h : List Step) (s : St) (k : Bytes) : Prop :=
  (∃ o p, Offered cfg h o o p ∧ o.early = true ∧ retries h = [] ∧
    earlySecret cfg o .clientEarlyTraffic = some k) ∧
  (s.state = .expectingServerHello ∨ s.state = .expectingEncryptedExtensions ∨
    ∃ g alpn, Fixed cfg h g ∧ Encrypted cfg h g alpn .accepted)

/-- The PSK a NewSessionTicket leads to (RFC 8446 section 4.6.1): the ticket; the secret derived from the resumption master
secret of this connection with the ticket's nonce; and what this connection has negotiated. -/
structure SavedTicket (cfg : Cfg) (h : List Step) (inp : Inp) (m : NewSessionTicket) (psk : Psk) : Prop where
  ticket : psk.psk = m.ticket
  type : psk.type = .resumption
  ageAdd : psk.ticketAgeAdd = m.ticket_age_add
  issued : psk.ticketIssueTime = inp.now
  expires : psk.ticketExpirationTime = inp.now2 + m.ticket_lifetime.toNat * 1000000000
  earlyData : ∃ e, getTicketEarlyData m.extensions = .ok e ∧
    psk.maxEarlyDataSize = (e.map (·.max_early_data_size)).getD 0
  session : ∃ g th early rms nonce, Complete cfg h g th early ∧ m.ticket_nonce = some nonce ∧
    Completed cfg h g th early (some rms) psk.clientCert ∧
    psk.secret = Crypto.Spec.ExpandLabel g.hash.spec rms (KS.Spec.ascii "resumption") nonce
      (UInt16.ofNat g.hash.hashLen) ∧
    psk.version = g.version ∧ psk.cipher = g.cipher ∧ psk.group = g.ecdhe.map (·.1) ∧
    ServerIs cfg g h psk.serverCert ∧ Encrypted cfg h g psk.alpn early ∧ Since cfg h g psk.ticketHandshakeTime

/-- Everything that holds when the server's Finished has been verified and answered. -/
structure Answered (cfg : Cfg) (h : List Step) (x : Step) (g : Neg) (th : Bytes) (early : EarlyDataType) : Prop where
  fixed : Fixed cfg h g
  received : ∃ m orig, received x = some (.finished m, orig) ∧
    x.env.sock = .event (.handshake (.finished m) orig) false ∧
    m.verify_data = finishedMac g.hash.spec g.serverHandshake (g.hash.digest (transcript cfg h)) ∧
    th = g.hash.digest (transcript cfg h ++ orig)
  keyed : x.pre.read = some ⟨.handshake, g.serverHandshake, false⟩
  server : ServerIs cfg g h (post x).serverCert
  encrypted : Encrypted cfg h g (post x).alpn early
  first : ∀ b, .reportHandshakeSuccess b ∉ actions h

/-- The secrets announced with the second flight, and the flight. -/
def finalActions (g : Neg) (th rms : Bytes) (flight : List Content) : List Action :=
  [.secretAvailable .serverAppTraffic (g.serverApp th 0), .secretAvailable .clientAppTraffic (g.clientApp th 0),
    .secretAvailable .exporterMaster (KS.Spec.masterValue g.hash.spec g.inputs th .exporterMaster),
    .secretAvailable .resumptionMaster rms, .write none flight 0]

/-- The second flight after the transcript `base`, and the resumption master secret. -/
def Finishes (cfg : Cfg) (h : List Step) (x : Step) (g : Neg) (th rms : Bytes) (early : EarlyDataType)
    (flight : List Content) : Prop :=
  ∃ m orig cert, received x = some (.finished m, orig) ∧
    th = g.hash.digest (transcript cfg h ++ orig) ∧
    FlightOk cfg x.env.inp g h (transcript cfg h ++ orig) early flight cert ∧
    rms = KS.Spec.masterValue g.hash.spec g.inputs
      (g.hash.digest (transcript cfg h ++ orig ++ handshakeBytes flight)) .resumptionMaster

/-- What the client may show in a step. -/
inductive Does (cfg : Cfg) (h : List Step) (x : Step) : List Action → Prop where
  /-- a request that is not executed, or a message that completes no flight -/
  | nothing : x.acts = [] → Does cfg h x []
  | wait : x.trig = .sock → x.env.sock = .needData → post x = x.pre → Does cfg h x [.waitForData]
  /-- failures -/
  | fail {a f} : x.pre.state ≠ .error → (post x).state = .error → Farewell x.pre.write a f →
      Does cfg h x (f ++ [.reportError a])
  | again {a} : x.pre.state = .error → post x = x.pre → Does cfg h x [.reportError a]
  /-- the application ends the connection -/
  | close {now w} : x.trig = .app (.appClose now) → x.pre.write = some w →
      (post x).state = (if now then .closed else .writeSideClosed) →
      Does cfg h x [.write none [alert w 0] 0]
  | closed {now} : x.trig = .app (.appClose now) → x.pre.write = none → (post x).state = .closed →
      Does cfg h x []
  /-- the ClientHellos -/
  | connect {o p acts} : First cfg x o p → ConnectShows cfg x o → retries h = [] → acts = visible x.acts →
      Does cfg h x acts
  | retry {m orig o1 o p flight} : Offered cfg h o1 o1 p → Second cfg h x m orig o1 o p →
      contents x = flight → Does cfg h x [.write none flight 0]
  /-- the server's answers -/
  | serverHello {g} : Negotiated cfg h x g →
      Does cfg h x [.secretAvailable .serverHandshakeTraffic g.serverHandshake,
        .secretAvailable .clientHandshakeTraffic g.clientHandshake]
  | encryptedExtensions {g m orig early} : Fixed cfg h g →
      received x = some (.encryptedExtensions m, orig) →
      Encrypted cfg (x :: h) g (post x).alpn early → (post x).earlyDataType = some early →
      Does cfg h x []
  | echRetry {g m orig early n cs} : Fixed cfg h g →
      received x = some (.encryptedExtensions m, orig) →
      Encrypted cfg (x :: h) g (post x).alpn early → (post x).earlyDataType = some early →
      cfg.hasEchConfigs = true → x.env.inp.echRetry m.extensions = .ok (some cs) → cs ≠ [] →
      Does cfg h x [.echRetryAvailable n cs]
  | certificateRequest {g m orig cert} : Fixed cfg h g → (∀ psk, g.psk = some psk → ¬ PskAuth psk) →
      received x = some (.certificateRequest m, orig) → Asked cfg (x :: h) cert → ¬ asked h →
      Does cfg h x []
  | certificate {g m leaf chain} : Fixed cfg h g → (∀ psk, g.psk = some psk → ¬ PskAuth psk) →
      CertReceived cfg x m → SentChain cfg (x :: h) leaf chain → Does cfg h x []
  | certificateVerify {g cert m orig} : Fixed cfg h g → (∀ psk, g.psk = some psk → ¬ PskAuth psk) →
      received x = some (.certificateVerify m, orig) →
      ProvedIdentity cfg g (x :: h) cert → (post x).serverCert = some (.inr cert) → Does cfg h x []
  /-- the server's Finished, our second flight, success -/
  | finished {g th rms early flight b} : Answered cfg h x g th early → Finishes cfg h x g th rms early flight →
      (cfg.hasEchConfigs = true → g.ech = true) → b = decide (early = .accepted) →
      (post x).state = .established →
      Does cfg h x (finalActions g th rms flight ++ [.reportHandshakeSuccess b])
  /-- ECH was rejected: the server authenticated as the public one, the connection fails -/
  | echRejected {g th rms early flight f} : Answered cfg h x g th early →
      Finishes cfg h x g th rms early flight →
      cfg.hasEchConfigs = true → g.ech = false → Farewell x.pre.write (some 121) f →
      (post x).state = .error →
      Does cfg h x (finalActions g th rms flight ++ (f ++ [.reportError (some 121)]))
  /-- the established connection -/
  | ticket {m orig psk} : received x = some (.newSessionTicket m, orig) → SavedTicket cfg h x.env.inp m psk →
      post x = x.pre → Does cfg h x [.newCachedPsk psk]
  | data {g th early d u} : Current cfg h x.pre g th early → x.trig = .sock → x.env.sock = .event (.appData d) u →
      post x = x.pre → Does cfg h x [.deliver d]
  | appWrite {g th early t d f} : Current cfg h x.pre g th early → x.trig = .app (.appWrite t d f) →
      post x = x.pre → Does cfg h x [.write t [⟨g.writeLayer th h, 23, [d]⟩] f]
  | keyUpdate {g th early m orig} : Current cfg h x.pre g th early →
      received x = some (.keyUpdate m, orig) → x.env.sock = .event (.handshake (.keyUpdate m) orig) false →
      m.request_update = 0 →
      (post x).read = some ⟨.appTraffic, g.serverApp th (updatesReceived h + 1), false⟩ →
      (post x).write = x.pre.write → (post x).state = .established →
      Does cfg h x [.secretAvailable .serverAppTraffic (g.serverApp th (updatesReceived h + 1))]
  | keyUpdateAnswered {g th early m orig} : Current cfg h x.pre g th early →
      received x = some (.keyUpdate m, orig) → x.env.sock = .event (.handshake (.keyUpdate m) orig) false →
      m.request_update ≠ 0 →
      (post x).read = some ⟨.appTraffic, g.serverApp th (updatesReceived h + 1), false⟩ →
      (post x).write = some ⟨.appTraffic, g.clientApp th (updatesSent h + 1)⟩ → (post x).state = .established →
      Does cfg h x [.secretAvailable .serverAppTraffic (g.serverApp th (updatesReceived h + 1)),
        .secretAvailable .clientAppTraffic (g.clientApp th (updatesSent h + 1)),
        .write none [⟨g.writeLayer th h, 22, [Codec.Spec.handshake (.keyUpdate ⟨0⟩)]⟩] 0]
  | keyUpdateInitiated {g th early r} : Current cfg h x.pre g th early → x.trig = .app (.keyUpdate r) →
      x.env.unparsed = false → (post x).read = x.pre.read →
      (post x).write = some ⟨.appTraffic, g.clientApp th (updatesSent h + 1)⟩ → (post x).state = .established →
      Does cfg h x [.secretAvailable .clientAppTraffic (g.clientApp th (updatesSent h + 1)),
        .write none [⟨g.writeLayer th h, 22, [Codec.Spec.handshake (.keyUpdate ⟨r⟩)]⟩] 0]
  | closeNotify {g th early b} : Current cfg h x.pre g th early → x.trig = .sock →
      x.env.sock = .event (.closeNotify b) false → (post x).state = .closed →
      Does cfg h x [.write none [alert (g.writeLayer th h) 0] 0, .endOfData b]
  /-- early data -/
  | earlyWrite {t d f k c} : x.trig = .app (.earlyAppWrite t d f) → EarlyKey cfg h x.pre k →
      cfg.omitEarlyRecordLayer = false → CcsOnly c →
      Does cfg h x [.write t (c ++ [⟨⟨.earlyData, k⟩, 23, [d]⟩]) f]
  | earlyLate {g th early t d f} : Current cfg h x.pre g th early → x.trig = .app (.earlyAppWrite t d f) →
      early = .accepted → post x = x.pre → Does cfg h x [.write t [⟨g.writeLayer th h, 23, [d]⟩] f]
  | earlyFailed {t d f} : x.trig = .app (.earlyAppWrite t d f) → EarlyRejected cfg h → post x = x.pre →
      Does cfg h x [.reportEarlyWriteFailed t d f]
  /-- after `appClose` -/
  | lateData {d u n z o} : x.pre.state = .writeSideClosed → x.trig = .sock → x.env.sock = .event (.appData d) u →
      h = n ++ z :: o → z.trig = .app (.appClose false) → x.pre.read = z.pre.read → post x = x.pre →
      Does cfg h x [.deliver d]
  | lateClose {b} : x.pre.state = .writeSideClosed → x.trig = .sock → x.env.sock = .event (.closeNotify b) false →
      (post x).state = .closed → Does cfg h x [.endOfData b]

end Fizz.ClientSM.Spec

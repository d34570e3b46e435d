import Mathlib.Data.List.Forall2
import Verif.Server.Trace
import Verif.Codec.ExtSpec
import Verif.Crypto.KeyScheduleSpec
import Verif.Crypto.HkdfProps

/-!
# What a server history says — the vocabulary of C26 … C29 and C44 … C47

Read off the steps of a history: what was received, what was sent, the transcript of the handshake
messages exchanged (RFC 8446 section 4.4.1), and the MACs and secrets the RFC defines over it.
-/

namespace Fizz.Server.Spec
open Fizz.Codec Fizz.Crypto
open Fizz.Ticket (CookieState ResumptionState)
open Fizz.Conn (Trig)

/-- The state a step leads to. -/
def post (x : Step) : St := applyAll x.acts x.pre

/-- The handshake message the step received, with its encoding.  (A step without any action has not
dealt with its message: the process was gone.) -/
def received (x : Step) : Option (HsMsg × Bytes) :=
  if x.acts.isEmpty then none
  else
    match x.trig, x.env.sock with
    | .sock, .event (.handshake m orig) _ => some (m, orig)
    | _, _ => none

/-- What some actions hand to the transport. -/
def writes (acts : List Action) : List Content :=
  acts.flatMap fun | .write _ cs _ => cs | _ => []

/-- What the step handed to the transport. -/
def contents (x : Step) : List Content := writes x.acts

/-- The handshake messages in some contents. -/
def handshakeBytes (cs : List Content) : Bytes := (cs.filter (·.type = 22)).flatMap (·.data.flatten)

/-- The handshake messages the step sent. -/
def sent (x : Step) : Bytes := handshakeBytes (contents x)

/-- The data the step handed to the application. -/
def delivered (x : Step) : List Bytes :=
  x.acts.flatMap fun | .deliver d => [d] | _ => []

/-- The number of KeyUpdate messages received. -/
def updatesReceived (h : List Step) : Nat :=
  h.countP fun x => match received x with | some (.keyUpdate _, _) => true | _ => false

/-- The number of KeyUpdate messages (type 24) sent. -/
def updatesSent (h : List Step) : Nat := h.countP fun x => (sent x).head? == some 24

/-- `message_hash` (RFC 8446 section 4.4.1): a synthetic handshake message. -/
def messageHash (digest : Bytes) : Bytes := 254 :: vec .u24 digest

/-- The HelloRetryRequest of a stateless server, given the cookie it contained. -/
def statelessRetry (ck : CookieState) (cookie : Bytes) : Bytes :=
  Codec.Spec.handshake (.helloRetryRequest
    { legacy_version := 0x0303, legacy_session_id_echo := [], cipher_suite := ck.cipher
      extensions := [Codec.Spec.serverSupportedVersionsWire ⟨ck.version⟩] ++
        (match ck.group with
          | some g => [Codec.Spec.helloRetryRequestKeyShareWire ⟨g⟩]
          | none => []) ++
        [Codec.Spec.cookieWire ⟨cookie⟩] })

/-- The state in a ClientHello's cookie. -/
def cookieState (inp : Inp) (m : ClientHello) : Option CookieState :=
  match getCookie m.extensions with
  | .ok (some c) =>
    match inp.cookieDecrypt c.cookie with
    | .ok (some s) => some s
    | _ => none
  | _ => none

/-- The cookie of a ClientHello. -/
def cookieBytes (m : ClientHello) : Bytes :=
  match getCookie m.extensions with
  | .ok (some c) => c.cookie
  | _ => []

/-- The ClientHello inside an encrypted one. -/
def innerHello (x : Step) (m : ClientHello) : Option (ClientHello × Bytes) :=
  if x.pre.hs = none ∧ cookieState x.env.inp m = none then
    match x.env.inp.echDecrypt m with
    | .ok (some (c, o, _)) => some (c, o)
    | _ => none
  else
    match x.env.inp.echDecryptHrr m
        (if x.pre.echStatus = .accepted then .inl (x.pre.echState.bind (·.hpkeContext))
         else .inr ((cookieState x.env.inp m).map (·.echEnc) |>.getD [])) with
    | .ok r => some r
    | _ => none

/-- The ClientHello the handshake is about: the inner one if ECH was accepted. -/
def usedHello (x : Step) (m : ClientHello) (orig : Bytes) : ClientHello × Bytes :=
  if (post x).echStatus = .accepted then (innerHello x m).getD (m, orig) else (m, orig)

/-- The hash of a cipher suite applied to some bytes. -/
def digest (cfg : Cfg) (cipher : Option UInt16) (b : Bytes) : Bytes :=
  match cipher with
  | none => []
  | some c =>
    match cfg.hashOf c with
    | .ok h => h.digest b
    | .error _ => []

/-- The messages before a ClientHello `m` of which `used` is the hello in use: those of the
connection, or, when the client came back with a cookie, the hash of its first ClientHello and the
HelloRetryRequest that contained the cookie. -/
def beforeHello (inp : Inp) (m used : ClientHello) (prior : Bytes) : Bytes :=
  match cookieState inp m with
  | some ck => messageHash ck.chloHash ++ statelessRetry ck (cookieBytes used)
  | none => prior

/-- What a transcript is before the ClientHello in use: nothing, or the hash of an earlier ClientHello and a
HelloRetryRequest. -/
def Begins (b : Bytes) : Prop :=
  b = [] ∨ ∃ d hrr, d.length < 2 ^ 24 ∧ Codec.Spec.Encodable (.helloRetryRequest hrr) ∧
    b = messageHash d ++ Codec.Spec.handshake (.helloRetryRequest hrr)

/-- The transcript of the handshake (RFC 8446 section 4.4.1): all handshake messages received and
sent, in order; when the answer to a ClientHello is a HelloRetryRequest, what came before is replaced
by its hash. -/
def transcript (cfg : Cfg) : List Step → Bytes
  | [] => []
  | x :: h =>
    match received x with
    | none => transcript cfg h
    | some (.clientHello m, orig) =>
      let used := usedHello x m orig
      let t := beforeHello x.env.inp m used.1 (transcript cfg h) ++ used.2
      if (post x).state = .expectingClientHello then
        messageHash (digest cfg (post x).cipher t) ++ sent x
      else t ++ sent x
    | some (_, orig) => transcript cfg h ++ orig ++ sent x

/-- The verify_data of a Finished message (RFC 8446 section 4.4.4). -/
def finishedMac (h : Crypto.Spec.Hash) (baseKey transcriptHash : Bytes) : Bytes :=
  Crypto.Spec.HMAC h
    (Crypto.Spec.ExpandLabel h baseKey (KS.Spec.ascii "finished") [] (UInt16.ofNat h.L)) transcriptHash

/-- What the ClientHello fixes for the connection. -/
structure Neg where
  hash : HashAlg
  version : UInt16
  cipher : UInt16
  /-- the ClientHello in use and its encoding -/
  used : ClientHello × Bytes
  /-- transcript before the ClientHello -/
  before : Bytes
  /-- the ServerHello, and the rest of the server's flight through its Finished -/
  serverHello : Bytes
  rest : Bytes
  /-- the ticket whose PSK is used -/
  psk : Option ResumptionState
  pskType : PskType
  /-- the group, the client's share, our share and the shared secret -/
  ecdhe : Option (UInt16 × Bytes × Bytes × Bytes)
  alpn : Option Bytes
  early : Bool

/-- The key schedule's inputs. -/
def Neg.inputs (g : Neg) : KS.Spec.Inputs :=
  ⟨g.psk.map (·.resumptionSecret), g.ecdhe.map (·.2.2.2)⟩
/-- Transcript hash through the ClientHello. -/
def Neg.thHello (g : Neg) : Bytes := g.hash.digest (g.before ++ g.used.2)
/-- Transcript hash through the ServerHello. -/
def Neg.thServerHello (g : Neg) : Bytes := g.hash.digest (g.before ++ g.used.2 ++ g.serverHello)
/-- Transcript hash through the server's Finished. -/
def Neg.thServerFinished (g : Neg) : Bytes :=
  g.hash.digest (g.before ++ g.used.2 ++ g.serverHello ++ g.rest)
/-- `client_handshake_traffic_secret`. -/
def Neg.clientHandshake (g : Neg) : Bytes :=
  KS.Spec.handshakeValue g.hash.spec g.inputs g.thServerHello .clientHandshakeTraffic
/-- `server_handshake_traffic_secret`. -/
def Neg.serverHandshake (g : Neg) : Bytes :=
  KS.Spec.handshakeValue g.hash.spec g.inputs g.thServerHello .serverHandshakeTraffic
/-- `client_early_traffic_secret`. -/
def Neg.clientEarly (g : Neg) : Bytes :=
  KS.Spec.earlyValue g.hash.spec g.inputs.psk g.thHello .clientEarlyTraffic
/-- The application secrets after some key updates. -/
def Neg.app (g : Neg) (clientUpdates serverUpdates : Nat) : KS.Spec.AppKeys :=
  ⟨g.inputs, g.thServerFinished, clientUpdates, serverUpdates⟩
/-- `client_application_traffic_secret_N`. -/
def Neg.clientApp (g : Neg) (n : Nat) : Bytes := KS.Spec.clientTraffic g.hash.spec (g.app n 0)
/-- `server_application_traffic_secret_N`. -/
def Neg.serverApp (g : Neg) (n : Nat) : Bytes := KS.Spec.serverTraffic g.hash.spec (g.app 0 n)

/-- The PSK in use was offered first by the client, is the one its ticket decrypts to, was issued for
this version and a cipher with this hash, and the client's binder proves it knows the PSK. -/
def PskOk (cfg : Cfg) (inp : Inp) (g : Neg) (rs : ResumptionState) : Prop :=
  ∃ offer ident idents b binders n,
    getClientPresharedKey g.used.1.extensions = .ok (some offer) ∧
    offer.identities = ident :: idents ∧ offer.binders = b :: binders ∧
    cfg.hasTicketCipher = true ∧ inp.ticketDecrypt ident.psk_identity = .ok (g.pskType, some rs) ∧
    rs.version = g.version ∧ sameHash cfg rs.cipher g.cipher = .ok true ∧
    getBinderLength g.used.1 = .ok n ∧
    b.binder = finishedMac g.hash.spec
      (KS.Spec.earlyValue g.hash.spec (some rs.resumptionSecret) (g.hash.digest [])
        (if g.pskType = .external then .externalPskBinder else .resumptionPskBinder))
      (g.hash.digest (g.before ++ g.used.2.take (g.used.2.length - n)))

/-- The key exchange: the server's most preferred group the client also supports, the client's share
for it, and what the key exchange computed. -/
def EcdheOk (cfg : Cfg) (inp : Inp) (g : Neg) (e : UInt16 × Bytes × Bytes × Bytes) : Prop :=
  inp.kex e.1 e.2.1 = .ok (e.2.2.1, e.2.2.2) ∧
  ∃ groups shares, getSupportedGroups g.used.1.extensions = .ok (some groups) ∧
    getClientKeyShare g.used.1.extensions = .ok (some shares) ∧
    Negotiate.FirstIn cfg.supportedGroups (· ∈ groups.named_group_list) e.1 ∧
    ⟨e.1, e.2.1⟩ ∈ shares.client_shares ∧ (shares.client_shares.map (·.group)).Nodup

/-- The ClientHello offers no compression and no extension twice. -/
def ValidHello (m : ClientHello) : Prop :=
  m.legacy_compression_methods = [0] ∧ (m.extensions.map (·.extension_type)).Nodup

/-- The secret an action announces. -/
def announcement : Action → List (SecretKind × Bytes)
  | .secretAvailable k b => [(k, b)]
  | _ => []

/-- The secrets a step announces. -/
def announced (x : Step) : List (SecretKind × Bytes) := x.acts.flatMap announcement

/-- All conditions for early data (C27). -/
def EarlyOk (cfg : Cfg) (x : Step) (m : ClientHello) (g : Neg) : Prop :=
  (∃ e, getClientEarlyData g.used.1.extensions = .ok (some e)) ∧
  cfg.acceptEarlyData_ = true ∧ (cfg.earlyDataFbOnly = true → g.version = 0xfb17 ∨ g.version = 0xfb1a) ∧
  x.pre.hs = none ∧ x.pre.keyExchangeType ≠ some .helloRetryRequest ∧
  cookieState x.env.inp m = none ∧
  cfg.hasReplayCache = true ∧ x.env.inp.replayCheck g.used.1.random.val = .ok .notReplay ∧
  ∃ rs offer ident idents, g.psk = some rs ∧ rs.cipher = g.cipher ∧ rs.alpn = g.alpn ∧
    (cfg.hasAppTokenValidator = true → x.env.inp.validateToken rs = true) ∧
    getClientPresharedKey g.used.1.extensions = .ok (some offer) ∧
    offer.identities = ident :: idents ∧
    cfg.skewBefore ≤ ((ident.obfuscated_ticket_age - rs.ticketAgeAdd).toNat : Int) -
      Client.toMillis (x.env.inp.now2 - rs.ticketIssueTime) ∧
    ((ident.obfuscated_ticket_age - rs.ticketAgeAdd).toNat : Int) -
      Client.toMillis (x.env.inp.now2 - rs.ticketIssueTime) ≤ cfg.skewAfter

/-- Our share of the key exchange as an extension. -/
def shareExt : Option (UInt16 × Bytes × Bytes × Bytes) → List Extension
  | some (group, _, share, _) => [Codec.Spec.serverKeyShareWire ⟨⟨group, share⟩⟩]
  | none => []

/-- The ServerHello (RFC 8446 section 4.1.3): the negotiated version, cipher suite, our share of the key
exchange, and PSK number 0 if a PSK is used. -/
def serverHello (inp : Inp) (g : Neg) : ServerHello :=
  { legacy_version := 0x0303, random := inp.random
    legacy_session_id_echo := some g.used.1.legacy_session_id, cipher_suite := g.cipher
    extensions := Codec.Spec.serverSupportedVersionsWire ⟨g.version⟩ ::
      (shareExt g.ecdhe ++
       (if g.psk.isSome then [Codec.Spec.serverPresharedKeyWire ⟨0⟩] else [])) }

/-- The server asks for a client certificate. -/
def WantsCert (cfg : Cfg) (g : Neg) : Prop := cfg.clientAuthMode ≠ .none ∧ g.psk = none

/-- The chosen application protocol as an extension. -/
def alpnExt : Option Bytes → List Extension
  | some a => [Codec.Spec.protocolNameListWire ⟨[⟨a⟩]⟩]
  | none => []

/-- The rest of the flight: EncryptedExtensions, CertificateRequest when a client certificate is
wanted, Certificate and CertificateVerify (a signature of the transcript through the Certificate) when
no PSK is used, Finished. -/
structure RestOk (cfg : Cfg) (inp : Inp) (ech : EchStatus) (g : Neg) (ee req cert cv : Bytes) : Prop where
  all : g.rest = ee ++ req ++ cert ++ cv ++ Codec.Spec.handshake (.finished
    ⟨finishedMac g.hash.spec g.serverHandshake
      (g.hash.digest (g.before ++ g.used.2 ++ g.serverHello ++ ee ++ req ++ cert ++ cv))⟩)
  extensions : ∃ other, (if cfg.hasExtensions then inp.extraExtensions g.used.1 else .ok []) = .ok other ∧
    ee = Codec.Spec.handshake (.encryptedExtensions ⟨alpnExt g.alpn ++
      (if g.early then [Codec.Spec.serverEarlyDataWire ⟨⟩] else []) ++
      (if ech = .rejected then [cfg.echRetryExtension] else []) ++ other⟩)
  request : WantsCert cfg g → ∃ exts, req = Codec.Spec.handshake (.certificateRequest ⟨[],
    Codec.Spec.signatureAlgorithmsWire ⟨cfg.supportedSigSchemes⟩ :: exts⟩)
  noRequest : ¬ WantsCert cfg g → req = []
  certificate : g.psk = none → ∃ algos sni c scheme comp sig,
    getSignatureAlgorithms g.used.1.extensions = .ok (some algos) ∧
    getSni g.used.1 = .ok sni ∧
    inp.getCert sni algos.supported_signature_algorithms = .ok (some (c, scheme)) ∧
    (∀ a, comp = some a → ∃ l, getCertificateCompressionAlgorithms g.used.1.extensions = .ok (some l) ∧
      Negotiate.FirstIn cfg.supportedCompressionAlgorithms (· ∈ l.algorithms) a) ∧
    inp.certMessage c comp = .ok cert ∧
    inp.sign c scheme (g.hash.digest (g.before ++ g.used.2 ++ g.serverHello ++ ee ++ req ++ cert)) =
      .ok sig ∧
    cv = Codec.Spec.handshake (.certificateVerify ⟨scheme, sig⟩)
  noCertificate : g.psk ≠ none → cert = [] ∧ cv = []

/-- Step `x`, taken after the history `h`, answers a ClientHello with the server's whole flight and
fixes `g`. -/
structure Negotiated (cfg : Cfg) (h : List Step) (x : Step) (g : Neg) : Prop where
  hello : ∃ m orig, x.trig = .sock ∧ x.env.sock = .event (.handshake (.clientHello m) orig) false ∧
    g.used = usedHello x m orig ∧
    g.before = beforeHello x.env.inp m g.used.1 (transcript cfg h) ∧
    (g.early = true → EarlyOk cfg x m g) ∧
    (∀ ck, cookieState x.env.inp m = some ck → x.pre.hs = none ∧ ck.version = g.version ∧
      ck.cipher = g.cipher ∧
      ∀ a b, ck.group = some a → g.ecdhe.map (·.1) = some b → a = b)
  begins : Begins g.before
  valid : ValidHello g.used.1
  state : x.pre.state = .expectingClientHello
  hash : cfg.hashOf g.cipher = .ok g.hash
  version : ∃ v, getSupportedVersions g.used.1.extensions = .ok (some v) ∧
    Negotiate.FirstIn cfg.supportedVersions (· ∈ v.versions) g.version
  cipher : Negotiate.negotiateTiers cfg.supportedCiphers g.used.1.cipher_suites = some g.cipher
  sameVersion : x.pre.version = none ∨ x.pre.version = some g.version
  sameCipher : x.pre.cipher = none ∨ x.pre.cipher = some g.cipher
  sameGroup : x.pre.group = none ∨ x.pre.group = g.ecdhe.map (·.1)
  psk : ∀ rs, g.psk = some rs → PskOk cfg x.env.inp g rs
  ecdhe : ∀ e, g.ecdhe = some e → EcdheOk cfg x.env.inp g e
  noEcdhe : g.ecdhe = none → g.psk ≠ none ∧ 0 ∈ cfg.supportedPskModes ∧
    ∃ m, getPskKeyExchangeModes g.used.1.extensions = .ok (some m) ∧ 0 ∈ m.modes
  alpn : ∀ a, g.alpn = some a → ∃ l, getProtocolNameList g.used.1.extensions = .ok (some l) ∧
    Negotiate.FirstIn cfg.supportedAlpns (· ∈ l.protocol_name_list.map (·.name)) a
  noAlpn : g.alpn = none → cfg.alpnMode ≠ .required ∧
    (cfg.alpnMode = .optional → getProtocolNameList g.used.1.extensions = .ok none)
  /-- the ServerHello goes out in the clear, everything else of the flight under the handshake key -/
  flight : ∃ w c enc, x.pre.write = some w ∧ contents x =
    ⟨w, 22, [g.serverHello]⟩ :: (c ++ [⟨⟨.handshake, g.serverHandshake⟩, 22, enc⟩]) ∧
    enc.flatten = g.rest ∧ (∀ k ∈ c, k = ⟨⟨.plaintext, []⟩, 20, [[1]]⟩)
  serverHello : ∃ sh, g.serverHello = Codec.Spec.handshake (.serverHello sh) ∧
    Codec.Spec.Encodable (.serverHello sh) ∧
    ((post x).echStatus ≠ .accepted → sh = Spec.serverHello x.env.inp g) ∧
    ((post x).echStatus = .accepted → x.env.inp.echConfirm g.used.1.random (g.before ++ g.used.2) (Spec.serverHello x.env.inp g) = .ok sh)
  rest : ∃ ee req cert cv, RestOk cfg x.env.inp (post x).echStatus g ee req cert cv
  secrets : announced x = (if g.early then [(.clientEarlyTraffic, g.clientEarly)] else []) ++
    [(.clientHandshakeTraffic, g.clientHandshake), (.serverHandshakeTraffic, g.serverHandshake),
     (.serverAppTraffic, g.serverApp 0)]
  report : .reportHandshakeSuccess ∉ x.acts ∧ (.reportEarlyHandshakeSuccess ∈ x.acts ↔ g.early = true)

/-- The server certificate remembered for the connection: the one chosen for the client's server name
and signature schemes, or, when a PSK is used, the one of the ticket. -/
def SavedCert (inp : Inp) (g : Neg) (cert : Option CertManager.Cert) : Prop :=
  (∀ rs, g.psk = some rs → cert = rs.serverCert) ∧
  (g.psk = none → ∃ algos sni c scheme,
    getSignatureAlgorithms g.used.1.extensions = .ok (some algos) ∧ getSni g.used.1 = .ok sni ∧
    inp.getCert sni algos.supported_signature_algorithms = .ok (some (c, scheme)) ∧ cert = some c)

/-- Certificate and time of the full handshake this connection goes back to. -/
def Origin (cfg : Cfg) (h : List Step) (g : Neg) (cert : Option CertManager.Cert) (time : Int) : Prop :=
  ∃ newer x older, h = newer ++ x :: older ∧ Negotiated cfg older x g ∧ SavedCert x.env.inp g cert ∧
    time = match g.psk with | some rs => rs.handshakeTime | none => x.env.inp.now

/-- What the connection's accessors say is what was negotiated. -/
structure Info (g : Neg) (s : St) : Prop where
  version : s.version = some g.version
  cipher : s.cipher = some g.cipher
  group : s.group = g.ecdhe.map (·.1)
  alpn : s.alpn = g.alpn
  pskType : s.pskType = some g.pskType
  clientRandom : s.clientRandom = some g.used.1.random
  appToken : s.appToken = g.psk.map (·.appToken)
  early : s.earlyDataType = some .accepted ↔ g.early = true
  exporter : s.exporterMasterSecret =
    some (KS.Spec.masterValue g.hash.spec g.inputs g.thServerFinished .exporterMaster)
  earlyExporter : g.early = true → s.earlyExporterMasterSecret =
    some (KS.Spec.earlyValue g.hash.spec g.inputs.psk g.thHello .earlyExporter)

/-- Some earlier step has fixed `g`. -/
def Fixed (cfg : Cfg) (h : List Step) (g : Neg) : Prop :=
  ∃ newer x older, h = newer ++ x :: older ∧ Negotiated cfg older x g

/-- The client has sent a Certificate message with the certificates `leaf :: chain`, in answer to our
request. -/
def SentChain (h : List Step) (leaf : PeerCert) (chain : List PeerCert) : Prop :=
  ∃ newer y older m orig e es, h = newer ++ y :: older ∧ received y = some (.certificate m, orig) ∧
    m.certificate_request_context = [] ∧ m.certificate_list = e :: es ∧
    y.env.inp.makePeerCert e true = .ok leaf ∧
    List.Forall₂ (fun e c => y.env.inp.makePeerCert e false = .ok c) es chain ∧
    ∀ e ∈ m.certificate_list, (e.extensions.map (·.extension_type)).Nodup ∧
      ∀ t ∈ e.extensions.map (·.extension_type), t ∈ y.pre.certReqExtensions

/-- The client has proved that it has the key of `leaf`: its CertificateVerify uses a scheme we
support and its signature of the transcript verifies; and the chain was accepted. -/
def ProvedIdentity (cfg : Cfg) (g : Neg) (h : List Step) (cert : PeerCert) : Prop :=
  ∃ newer z older m orig leaf chain, h = newer ++ z :: older ∧
    received z = some (.certificateVerify m, orig) ∧ SentChain older leaf chain ∧
    m.algorithm ∈ cfg.supportedSigSchemes ∧
    z.env.inp.verifySig leaf m.algorithm (g.hash.digest (transcript cfg older)) m.signature = .ok () ∧
    (cfg.hasClientCertVerifier = false → cert = leaf) ∧
    (cfg.hasClientCertVerifier = true → ∃ r, z.env.inp.verifyChain (leaf :: chain) = .ok r ∧
      cert = r.getD leaf)

/-- The client has answered our request with an empty Certificate message. -/
def SentNoCert (h : List Step) : Prop :=
  ∃ newer y older m orig, h = newer ++ y :: older ∧ received y = some (.certificate m, orig) ∧
    m.certificate_list = []

/-- What the client certificate of the connection is. -/
def IdentityOk (cfg : Cfg) (g : Neg) (h : List Step) (cert : Option PeerCert) : Prop :=
  (¬ WantsCert cfg g → cert = g.psk.bind (·.clientCert)) ∧
  (WantsCert cfg g →
    (cfg.clientAuthMode = .optional ∧ cert = none ∧ SentNoCert h) ∨
    ∃ c, cert = some c ∧ ProvedIdentity cfg g h c)

/-- The HelloRetryRequest (RFC 8446 section 4.1.4). -/
def helloRetryRequest (m : ClientHello) (version cipher group : UInt16) : HelloRetryRequest :=
  { legacy_version := 0x0303, legacy_session_id_echo := m.legacy_session_id, cipher_suite := cipher
    extensions := [Codec.Spec.serverSupportedVersionsWire ⟨version⟩,
      Codec.Spec.helloRetryRequestKeyShareWire ⟨group⟩] }

/-- Step `r`, after the history `older`, answers a ClientHello with a HelloRetryRequest for these parameters: our most preferred
version, cipher and group among the client's, a group the client sent no share for. -/
def SentRetry (cfg : Cfg) (older : List Step) (r : Step) (version cipher group : UInt16) : Prop :=
  ∃ m orig, received r = some (.clientHello m, orig) ∧ (post r).state = .expectingClientHello ∧
    ValidHello (usedHello r m orig).1 ∧
    (∃ v, getSupportedVersions (usedHello r m orig).1.extensions = .ok (some v) ∧
      Negotiate.FirstIn cfg.supportedVersions (· ∈ v.versions) version) ∧
    Negotiate.negotiateTiers cfg.supportedCiphers (usedHello r m orig).1.cipher_suites = some cipher ∧
    (∃ groups shares, getSupportedGroups (usedHello r m orig).1.extensions = .ok (some groups) ∧
      getClientKeyShare (usedHello r m orig).1.extensions = .ok (some shares) ∧
      Negotiate.FirstIn cfg.supportedGroups (· ∈ groups.named_group_list) group ∧
      ∀ e ∈ shares.client_shares, e.group ≠ group) ∧
    ∃ hrr, sent r = Codec.Spec.handshake (.helloRetryRequest hrr) ∧
      ((post r).echStatus ≠ .accepted →
        hrr = helloRetryRequest (usedHello r m orig).1 version cipher group) ∧
      ((post r).echStatus = .accepted →
        ∃ hash, cfg.hashOf cipher = .ok hash ∧
          r.env.inp.echConfirmHrr (usedHello r m orig).1.random
            (messageHash (hash.digest (beforeHello r.env.inp m (usedHello r m orig).1 (transcript cfg older) ++ (usedHello r m orig).2)))
            (helloRetryRequest (usedHello r m orig).1 version cipher group) = .ok hrr)

end Fizz.Server.Spec

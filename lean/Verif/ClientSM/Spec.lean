import Mathlib.Data.List.Forall2
import Verif.ClientSM.Trace
import Verif.Server.Spec

/-!
# What a client history says — the vocabulary of C30, C31 and C51 …

Read off the steps of a history: what was received and sent, the ClientHellos offered, the transcript of
the handshake messages exchanged (RFC 8446 section 4.4.1), and the MACs and secrets the RFC defines over
it.
-/

namespace Fizz.ClientSM.Spec
open Fizz.Codec Fizz.Crypto
open Fizz.Server (Level RLayer WLayer Content KeyExchangeType HsCtx SockIn PeerCert)
open Fizz.Server.Spec (messageHash finishedMac handshakeBytes)
open Fizz.Codec.Spec (Encodable)
open Fizz.Client (CachedPsk PskType)

/-- The state a step leads to. -/
def post (x : Step) : St := applyAll x.acts x.pre

/-- The handshake message the step received, with its encoding.  (A step without any action has not
dealt with its message: the process was gone.) -/
def received (x : Step) : Option (HsMsg × Bytes) :=
  if x.acts.isEmpty then none
  else
    match x.trig, x.env.sock with
    | .sock, .event (.handshake m orig) _ => some (m, orig)
    | _, _ => none

/-- What some actions hand to the transport. -/
def writes (acts : List Action) : List Content :=
  acts.flatMap fun | .write _ cs _ => cs | _ => []

/-- What the step handed to the transport. -/
def contents (x : Step) : List Content := writes x.acts

/-- The handshake messages the step sent. -/
def sent (x : Step) : Bytes := handshakeBytes (contents x)

/-- The data the step handed to the application. -/
def delivered (x : Step) : List Bytes :=
  x.acts.flatMap fun | .deliver d => [d] | _ => []

/-- The action is seen outside of the client's own state. -/
def isVisible : Action → Bool
  | .mutate _ => false
  | _ => true

/-- What the application and the transport see of some actions, in order. -/
def visible (acts : List Action) : List Action := acts.filter isVisible

/-- The secret an action announces. -/
def announcement : Action → List (SecretKind × Bytes)
  | .secretAvailable k b => [(k, b)]
  | _ => []

/-- The secrets a step announces. -/
def announced (x : Step) : List (SecretKind × Bytes) := x.acts.flatMap announcement

/-- The number of KeyUpdate messages received. -/
def updatesReceived (h : List Step) : Nat :=
  h.countP fun x => match received x with | some (.keyUpdate _, _) => true | _ => false

/-- The number of KeyUpdate messages (type 24) sent. -/
def updatesSent (h : List Step) : Nat := h.countP fun x => (sent x).head? == some 24

/-- The HelloRetryRequest a step received. -/
def retryOf (x : Step) : Option HelloRetryRequest :=
  match received x with
  | some (.helloRetryRequest m, _) => some m
  | _ => none

/-- The HelloRetryRequests received. -/
def retries (h : List Step) : List HelloRetryRequest := h.filterMap retryOf

/-- The step is the call of `connect` on a new client. -/
def connects (x : Step) : Prop := x.trig = .accept ∧ x.pre.state = .uninitialized

instance (x : Step) : Decidable (connects x) := inferInstanceAs (Decidable (_ ∧ _))

/-- The inner ClientHello that was encrypted into the one the step sent. -/
def innerSent (x : Step) : Bytes := ((post x).echState.bind (·.encodedInner)).getD []

/-- The server has accepted ECH. -/
def echAccepted (s : St) : Bool :=
  match s.echState with
  | some e => decide (e.status = .accepted)
  | none => false

/-- The hash of a cipher suite applied to some bytes. -/
def digest (cfg : Cfg) (cipher : UInt16) (b : Bytes) : Bytes :=
  match cfg.hashOf cipher with
  | .ok h => h.digest b
  | .error _ => []

/-- The transcript of the handshake (RFC 8446 section 4.4.1): all handshake messages sent and received,
in order; a HelloRetryRequest replaces what came before by its hash.  Until the ServerHello decides
whether ECH was accepted there are two: with the ClientHello as sent, and with the one encrypted in
it. -/
def transcripts (cfg : Cfg) : List Step → Bytes × Bytes
  | [] => ([], [])
  | x :: h =>
    let t := transcripts cfg h
    match received x with
    | some (.helloRetryRequest m, orig) =>
      (messageHash (digest cfg m.cipher_suite t.1) ++ orig ++ sent x,
       messageHash (digest cfg m.cipher_suite t.2) ++ orig ++ innerSent x)
    | some (.serverHello _, orig) =>
      if echAccepted (post x) then (t.2 ++ orig, t.2 ++ orig) else (t.1 ++ orig, t.1 ++ orig)
    | some (_, orig) => (t.1 ++ orig ++ sent x, t.2 ++ orig ++ sent x)
    | none => if connects x then (sent x, innerSent x) else t

/-- The transcript. -/
def transcript (cfg : Cfg) (h : List Step) : Bytes := (transcripts cfg h).1

/-! ## The ClientHello -/

/-- A PSK as offered: with the obfuscated age of its ticket and a binder. -/
structure PskOffer where
  psk : Psk
  age : UInt32
  binder : Bytes

/-- What a ClientHello offers, besides what is configured. -/
structure Offer where
  random : Random
  sessionId : Bytes
  sni : Option Bytes
  /-- groups with our share -/
  shares : List (UInt16 × Bytes)
  early : Bool
  cookie : Option Bytes
  /-- the application's extensions -/
  extra : List Extension
  /-- the encrypted_client_hello extension: inner marker or GREASE -/
  ech : List Extension
  psk : Option PskOffer

/-- An extension that is sent if there is something to send. -/
def opt {α} (f : α → Extension) : Option α → List Extension
  | some a => [f a]
  | none => []

/-- The pre_shared_key extension. -/
def PskOffer.ext (p : PskOffer) : Extension :=
  Codec.Spec.clientPresharedKeyWire ⟨[⟨p.psk.psk, p.age⟩], [⟨p.binder⟩]⟩

/-- The extensions of a ClientHello; pre_shared_key is last (RFC 8446 section 4.2.11). -/
def Offer.extensions (cfg : Cfg) (o : Offer) : List Extension :=
  opt (fun n => Codec.Spec.serverNameListWire ⟨[{ hostname := n }]⟩) o.sni ++
  [Codec.Spec.supportedVersionsWire ⟨cfg.supportedVersions⟩,
   Codec.Spec.supportedGroupsWire ⟨cfg.supportedGroups⟩,
   Codec.Spec.clientKeyShareWire ⟨o.shares.map fun s => ⟨s.1, s.2⟩⟩,
   Codec.Spec.signatureAlgorithmsWire ⟨cfg.supportedSigSchemes⟩] ++
  (if cfg.supportedAlpns = [] then [] else
    [Codec.Spec.protocolNameListWire ⟨cfg.supportedAlpns.map fun n => ⟨n⟩⟩]) ++
  (if cfg.supportedPskModes = [] then [] else
    [Codec.Spec.pskKeyExchangeModesWire ⟨cfg.supportedPskModes⟩]) ++
  (if o.early then [Codec.Spec.clientEarlyDataWire ⟨⟩] else []) ++
  opt (fun c => Codec.Spec.cookieWire ⟨c⟩) o.cookie ++
  (if cfg.decompressionAlgorithms = [] then [] else
    [Codec.Spec.certificateCompressionAlgorithmsWire ⟨cfg.decompressionAlgorithms⟩]) ++
  o.extra ++ o.ech ++ opt PskOffer.ext o.psk

/-- The ClientHello (RFC 8446 section 4.1.2). -/
def Offer.hello (cfg : Cfg) (o : Offer) : ClientHello :=
  { legacy_version := 0x0303, random := o.random, legacy_session_id := o.sessionId
    cipher_suites := cfg.supportedCiphers, legacy_compression_methods := [0]
    extensions := o.extensions cfg }

/-- Its encoding. -/
def Offer.encoded (cfg : Cfg) (o : Offer) : Bytes := Codec.Spec.handshake (.clientHello (o.hello cfg))

/-- Key shares for exactly these groups, each made by the key exchange. -/
structure SharesFor (inp : Inp) (groups : List UInt16) (shares : List (UInt16 × Bytes)) : Prop where
  groups : ∀ g, g ∈ shares.map (·.1) ↔ g ∈ groups
  nodup : (shares.map (·.1)).Nodup
  made : ∀ s ∈ shares, inp.keyShare s.1 = .ok s.2

/-- The groups of the first ClientHello: the group of the PSK's session if that is known and supported,
none if the session had none and shares are sent only when necessary, else the default ones. -/
def firstGroups (cfg : Cfg) (psk : Option Psk) : List UInt16 :=
  match psk.map (·.group) with
  | some (some g) =>
    if cfg.sendKeyShare = .alwaysDefaultShares ∨ g ∉ cfg.supportedGroups then cfg.defaultShares else [g]
  | some none => if cfg.sendKeyShare = .whenNecessary then [] else cfg.defaultShares
  | none => cfg.defaultShares

/-- The cached PSK may be offered: its version and cipher are supported; a ticket has not expired and
its original handshake was neither too long ago nor in the future. -/
def Usable (cfg : Cfg) (now : Int) (psk : Psk) : Prop :=
  cfg.cachedPsk = some psk ∧ psk.version ∈ cfg.supportedVersions ∧ psk.cipher ∈ cfg.supportedCiphers ∧
  (psk.type = .resumption → now ≤ psk.ticketExpirationTime ∧
    now - psk.ticketHandshakeTime ≤ cfg.maxPskHandshakeLife ∧ psk.ticketHandshakeTime ≤ now)

/-- Early data is attempted: enabled, allowed by the ticket, and the session's application protocol is
one we offer. -/
def WantsEarly (cfg : Cfg) (psk : Psk) : Prop :=
  cfg.sendEarlyData = true ∧ psk.maxEarlyDataSize ≠ 0 ∧ ∀ a, psk.alpn = some a → a ∈ cfg.supportedAlpns

/-- The age and the binder of the PSK offered (RFC 8446 section 4.2.11): the age of the ticket in
milliseconds plus its mask, modulo 2^32; the MAC, under the PSK's binder key, of the messages `before`
and this ClientHello without its binders. -/
def PskOk (cfg : Cfg) (h : HashAlg) (now : Int) (before : Bytes) (o : Offer) : Prop :=
  ∀ p, o.psk = some p →
    p.age = (if p.psk.type = .resumption then
      UInt32.ofInt (Client.toMillis (now - p.psk.ticketIssueTime)) + p.psk.ticketAgeAdd else 0) ∧
    ∃ n, getBinderLength (o.hello cfg) = .ok n ∧
      p.binder = finishedMac h.spec
        (KS.Spec.earlyValue h.spec (some p.psk.secret) (h.digest [])
          (if p.psk.type = .external then .externalPskBinder else .resumptionPskBinder))
        (h.digest (before ++ (o.encoded cfg).take ((o.encoded cfg).length - n)))

/-- What an ECH client shows in the clear. -/
structure Public where
  random : Random
  name : Bytes

/-- An extension that does not differ between the inner and the outer ClientHello. -/
def common (first : Bool) (e : Extension) : Bool :=
  decide (e.extension_type ≠ 0 ∧ e.extension_type ≠ 41 ∧ e.extension_type ≠ 0xfe0d ∧
    (first = true → e.extension_type ≠ 42))

/-- The outer ClientHello of ECH: a random number and server name of its own, no PSK other than
GREASE, the inner ClientHello encrypted; all other extensions are those of the inner one.  (The
exception: an extension of the inner one may remain if the application itself has added one of the same
type.) -/
structure Outer (cfg : Cfg) (inp : Inp) (first : Bool) (o : Offer) (p : Public) (outer : ClientHello) :
    Prop where
  version : outer.legacy_version = 0x0303
  random : outer.random = p.random
  sessionId : outer.legacy_session_id = o.sessionId
  ciphers : outer.cipher_suites = cfg.supportedCiphers
  compression : outer.legacy_compression_methods = [0]
  extensions : ∃ base body grease, inp.echEncrypt (o.hello cfg) { outer with extensions := base } grease =
      .ok body ∧
    outer.extensions = base ++ [⟨0xfe0d, body⟩] ++ opt Codec.Spec.clientPresharedKeyWire grease ∧
    base.filter (common first) = (o.extensions cfg).filter (common first) ∧
    getServerNameList base = .ok (some ⟨[{ hostname := p.name }]⟩) ∧
    ∀ e ∈ base, common first e = false →
      e = Codec.Spec.serverNameListWire ⟨[{ hostname := p.name }]⟩ ∨
      ∃ x ∈ o.extra, x.extension_type = e.extension_type

/-- How the offer goes out: as it is; with a GREASE extension computed over it; or encrypted in an
outer ClientHello. -/
def Wire (cfg : Cfg) (inp : Inp) (first : Bool) (o : Offer) (p : Public) (sent inner : Bytes) : Prop :=
  Encodable (.clientHello (o.hello cfg)) ∧
  if cfg.hasEchConfigs = true then
    inner = o.encoded cfg ∧ ∃ outer, sent = Codec.Spec.handshake (.clientHello outer) ∧
      Encodable (.clientHello outer) ∧ Outer cfg inp first o p outer
  else if cfg.greaseEch = some .computed ∧ first = true then
    inner = [] ∧ ∃ b, inp.greaseEch (o.encoded cfg).length = .ok b ∧
      Encodable (.clientHello { o.hello cfg with extensions := o.extensions cfg ++ [⟨0xfe0d, b⟩] }) ∧
      sent = Codec.Spec.handshake (.clientHello
        { o.hello cfg with extensions := o.extensions cfg ++ [⟨0xfe0d, b⟩] })
  else inner = [] ∧ sent = o.encoded cfg

/-- The ClientHello that goes out for the offer. -/
def Went (cfg : Cfg) (inp : Inp) (first : Bool) (o : Offer) (p : Public) (c : ClientHello) : Prop :=
  if cfg.hasEchConfigs = true then Outer cfg inp first o p c
  else if cfg.greaseEch = some .computed ∧ first = true then
    ∃ b, inp.greaseEch (o.encoded cfg).length = .ok b ∧
      c = { o.hello cfg with extensions := o.extensions cfg ++ [⟨0xfe0d, b⟩] }
  else c = o.hello cfg

/-- The application's extensions. -/
def ExtraOk (cfg : Cfg) (inp : Inp) (o : Offer) : Prop :=
  (if cfg.hasExtensions then inp.extraExtensions else .ok []) = .ok o.extra

/-- The PSK offered. -/
def Offer.pskOf (o : Offer) : Option Psk := o.psk.map (·.psk)

/-- The first ClientHello. -/
structure First (cfg : Cfg) (x : Step) (o : Offer) (p : Public) : Prop where
  connects : connects x
  random : o.random = x.env.inp.random
  sessionId : o.sessionId = if cfg.compatMode then x.env.inp.sessionId.val else []
  sni : o.sni = cfg.sni
  shares : SharesFor x.env.inp (firstGroups cfg o.pskOf) o.shares
  early : o.early = true ↔ ∃ psk, o.pskOf = some psk ∧ WantsEarly cfg psk
  cookie : o.cookie = none
  extra : ExtraOk cfg x.env.inp o
  ech : (cfg.hasEchConfigs = true ∧ o.ech = [⟨0xfe0d, [1]⟩]) ∨
    (cfg.hasEchConfigs = false ∧ cfg.greaseEch = some .uniformRandom ∧
      ∃ b, x.env.inp.greaseEch 0 = .ok b ∧ o.ech = [⟨0xfe0d, b⟩]) ∨
    (cfg.hasEchConfigs = false ∧ cfg.greaseEch ≠ some .uniformRandom ∧ o.ech = [])
  psk : ∀ psk, o.pskOf = some psk ↔ Usable cfg x.env.inp.now psk
  binder : ∀ psk, o.pskOf = some psk → ∃ h, cfg.hashOf psk.cipher = .ok h ∧
    PskOk cfg h x.env.inp.now2 [] o
  name : cfg.hasEchConfigs = true → x.env.inp.echSetup = .ok p.name ∧ p.random = x.env.inp.random2
  wire : Wire cfg x.env.inp true o p (sent x) (innerSent x)
  layer : contents x = [⟨⟨.plaintext, []⟩, 22, [sent x]⟩]

/-- The second ClientHello, in answer to the HelloRetryRequest `m` received after `h`, when the first
offer was `o1`. -/
structure Second (cfg : Cfg) (h : List Step) (x : Step) (m : HelloRetryRequest) (orig : Bytes)
    (o1 o : Offer) (p : Public) : Prop where
  received : received x = some (.helloRetryRequest m, orig)
  first : retries h = []
  version : ∃ v, getServerSupportedVersions m.extensions = .ok (some ⟨v⟩) ∧ v ∈ cfg.supportedVersions
  cipher : m.cipher_suite ∈ cfg.supportedCiphers
  legacy : m.legacy_version = 0x0303 ∧ m.legacy_compression_method = 0
  allowed : (m.extensions.map (·.extension_type)).Nodup ∧ ∀ t ∈ m.extensions.map (·.extension_type),
    t = 44 ∨ t = 51 ∨ t = 43 ∨ (t = 0xfe0d ∧ (t ∈ (o1.extensions cfg).map (·.extension_type) ∨
      cfg.greaseEch = some .computed))
  random : o.random = o1.random
  sessionId : o.sessionId = o1.sessionId
  sni : o.sni = o1.sni
  shares : (getHelloRetryRequestKeyShare m.extensions = .ok none ∧ o.shares = o1.shares) ∨
    ∃ g, getHelloRetryRequestKeyShare m.extensions = .ok (some ⟨g⟩) ∧ g ∈ cfg.supportedGroups ∧
      g ∉ o1.shares.map (·.1) ∧ SharesFor x.env.inp [g] o.shares
  early : o.early = false
  cookie : getCookie m.extensions = .ok (o.cookie.map fun c => ⟨c⟩)
  extra : ExtraOk cfg x.env.inp o
  ech : o.ech = if cfg.hasEchConfigs then [⟨0xfe0d, [1]⟩] else []
  psk : ∀ psk, o.pskOf = some psk ↔ o1.pskOf = some psk ∧ sameHash cfg m.cipher_suite psk.cipher = .ok true
  binder : ∃ ha, cfg.hashOf m.cipher_suite = .ok ha ∧ PskOk cfg ha x.env.inp.now2
    (messageHash (ha.digest (if cfg.hasEchConfigs then (transcripts cfg h).2 else (transcripts cfg h).1)) ++
      orig) o
  /-- the server says whether it accepts ECH -/
  accepted : cfg.hasEchConfigs = true → ∃ ha, cfg.hashOf m.cipher_suite = .ok ha ∧
    x.env.inp.echAcceptedHrr o1.random (messageHash (ha.digest (transcripts cfg h).2)) m =
      .ok (echAccepted (post x))
  wire : Wire cfg x.env.inp false o p (sent x) (innerSent x)
  layer : ∃ c, contents x = c ++ [⟨⟨.plaintext, []⟩, 22, [sent x]⟩] ∧ ∀ k ∈ c, k = ccs

/-- The last ClientHello sent offered `o`; the first one offered `o1`. -/
inductive Offered (cfg : Cfg) : List Step → Offer → Offer → Public → Prop where
  | first {h x o p} : First cfg x o p → Offered cfg (x :: h) o o p
  | second {h x m orig o1 o p} : Offered cfg h o1 o1 p → Second cfg h x m orig o1 o p →
      Offered cfg (x :: h) o1 o p
  | later {h x o1 o p} : ¬ connects x → retryOf x = none → Offered cfg h o1 o p →
      Offered cfg (x :: h) o1 o p

/-- What a transcript is before the last ClientHello: nothing, or the hash of the first ClientHello and the
HelloRetryRequest. -/
def Begins (h : List Step) (b : Bytes) : Prop :=
  (retries h = [] ∧ b = []) ∨ ∃ d y m orig, d.length < 2 ^ 24 ∧ y ∈ h ∧
    received y = some (.helloRetryRequest m, orig) ∧ b = messageHash d ++ orig

/-- Both transcripts end with the last ClientHello. -/
structure Ends (cfg : Cfg) (h : List Step) (o : Offer) (p : Public) : Prop where
  outer : ∃ b c, Begins h b ∧ (transcripts cfg h).1 = b ++ Codec.Spec.handshake (.clientHello c) ∧
    Encodable (.clientHello c) ∧ ∃ y ∈ h, ∃ first, Went cfg y.env.inp first o p c
  inner : cfg.hasEchConfigs = true → ∃ b, Begins h b ∧ (transcripts cfg h).2 = b ++ o.encoded cfg ∧
    Encodable (.clientHello (o.hello cfg))

/-! ## The negotiation -/

/-- What the ServerHello fixes for the connection. -/
structure Neg where
  hash : HashAlg
  version : UInt16
  cipher : UInt16
  /-- the first offer, and the one the ServerHello answers -/
  first : Offer
  offer : Offer
  /-- transcript through that ClientHello -/
  before : Bytes
  serverHello : Bytes
  psk : Option Psk
  /-- the group, our share, the server's share and the shared secret -/
  ecdhe : Option (UInt16 × Bytes × Bytes × Bytes)
  /-- ECH was accepted -/
  ech : Bool

/-- The key schedule's inputs. -/
def Neg.inputs (g : Neg) : KS.Spec.Inputs := ⟨g.psk.map (·.secret), g.ecdhe.map (·.2.2.2)⟩
/-- Transcript hash through the ServerHello. -/
def Neg.thServerHello (g : Neg) : Bytes := g.hash.digest (g.before ++ g.serverHello)
/-- `client_handshake_traffic_secret`. -/
def Neg.clientHandshake (g : Neg) : Bytes :=
  KS.Spec.handshakeValue g.hash.spec g.inputs g.thServerHello .clientHandshakeTraffic
/-- `server_handshake_traffic_secret`. -/
def Neg.serverHandshake (g : Neg) : Bytes :=
  KS.Spec.handshakeValue g.hash.spec g.inputs g.thServerHello .serverHandshakeTraffic
/-- The application secrets after some key updates; `th` is the transcript hash through the server's
Finished. -/
def Neg.app (g : Neg) (th : Bytes) (clientUpdates serverUpdates : Nat) : KS.Spec.AppKeys :=
  ⟨g.inputs, th, clientUpdates, serverUpdates⟩
/-- `client_application_traffic_secret_N`. -/
def Neg.clientApp (g : Neg) (th : Bytes) (n : Nat) : Bytes :=
  KS.Spec.clientTraffic g.hash.spec (g.app th n 0)
/-- `server_application_traffic_secret_N`. -/
def Neg.serverApp (g : Neg) (th : Bytes) (n : Nat) : Bytes :=
  KS.Spec.serverTraffic g.hash.spec (g.app th 0 n)

/-- The PSK was offered, has our version and a cipher with the same hash, and the server selected it
in a mode we support. -/
structure PskChosen (cfg : Cfg) (g : Neg) (exts : List Extension) (psk : Psk) : Prop where
  offered : g.offer.pskOf = some psk
  selected : getServerPresharedKey exts = .ok (some ⟨0⟩)
  version : psk.version = g.version
  cipher : sameHash cfg g.cipher psk.cipher = .ok true
  mode : (if g.ecdhe.isSome then 1 else 0) ∈ cfg.supportedPskModes

/-- The key exchange was one we offered a share for. -/
structure EcdheOk (inp : Inp) (g : Neg) (exts : List Extension) (e : UInt16 × Bytes × Bytes × Bytes) :
    Prop where
  selected : getServerKeyShare exts = .ok (some ⟨⟨e.1, e.2.2.1⟩⟩)
  offered : (e.1, e.2.1) ∈ g.offer.shares
  shared : inp.kex e.1 e.2.1 e.2.2.1 = .ok e.2.2.2

/-- Step `x`, taken after the history `h`, accepts a ServerHello that fixes `g`. -/
structure Negotiated (cfg : Cfg) (h : List Step) (x : Step) (g : Neg) : Prop where
  offered : ∃ p, Offered cfg h g.first g.offer p
  message : ∃ m, x.trig = .sock ∧
    x.env.sock = .event (.handshake (.serverHello m) g.serverHello) false ∧
    m.legacy_version = 0x0303 ∧ m.legacy_compression_method = 0 ∧ m.cipher_suite = g.cipher ∧
    m.legacy_session_id_echo = some g.offer.sessionId ∧
    getServerSupportedVersions m.extensions = .ok (some ⟨g.version⟩) ∧
    (m.extensions.map (·.extension_type)).Nodup ∧
    (∀ t ∈ m.extensions.map (·.extension_type), (t = 51 ∨ t = 41 ∨ t = 43) ∧
      t ∈ (g.offer.extensions cfg).map (·.extension_type)) ∧
    (∀ psk, g.psk = some psk → PskChosen cfg g m.extensions psk) ∧
    (g.psk = none → getServerPresharedKey m.extensions = .ok none) ∧
    (∀ e, g.ecdhe = some e → EcdheOk x.env.inp g m.extensions e) ∧
    (g.ecdhe = none → getServerKeyShare m.extensions = .ok none ∧ g.psk ≠ none ∧
      0 ∈ cfg.supportedPskModes) ∧
    (g.ech = true → x.env.inp.echAccepted g.offer.random (transcripts cfg h).2 m = .ok true) ∧
    (cfg.hasEchConfigs = true → g.ech = false →
      x.env.inp.echAccepted g.offer.random (transcripts cfg h).2 m = .ok false ∧
      ∀ psk, g.psk = some psk → psk.type ≠ .external ∧ psk.type ≠ .resumption)
  state : x.pre.state = .expectingServerHello
  hash : cfg.hashOf g.cipher = .ok g.hash
  version : g.version ∈ cfg.supportedVersions
  cipher : g.cipher ∈ cfg.supportedCiphers
  /-- at most one HelloRetryRequest, with the same version and cipher -/
  retried : (retries h).length ≤ 1 ∧ ∀ r ∈ retries h, r.cipher_suite = g.cipher ∧
    getServerSupportedVersions r.extensions = .ok (some ⟨g.version⟩)
  /-- and the same answer about ECH -/
  consistent : cfg.hasEchConfigs = true → ∀ y ∈ h, retryOf y ≠ none → echAccepted (post y) = g.ech
  before : g.before = if g.ech then (transcripts cfg h).2 else (transcripts cfg h).1
  /-- the ClientHello it answers -/
  answered : ∃ b c, Begins h b ∧ g.before = b ++ Codec.Spec.handshake (.clientHello c) ∧
    Encodable (.clientHello c) ∧ (g.ech = true → c = g.offer.hello cfg) ∧
    (g.ech = false → ∃ p, Offered cfg h g.first g.offer p ∧ ∃ y ∈ h, ∃ first, Went cfg y.env.inp first g.offer p c)
  ech : g.ech = true → cfg.hasEchConfigs = true
  status : echAccepted (post x) = g.ech
  secrets : announced x = [(.serverHandshakeTraffic, g.serverHandshake),
    (.clientHandshakeTraffic, g.clientHandshake)]

/-- Some earlier step has fixed `g`. -/
def Fixed (cfg : Cfg) (h : List Step) (g : Neg) : Prop :=
  ∃ newer x older, h = newer ++ x :: older ∧ Negotiated cfg older x g

/-- When the session's original handshake took place: that of the PSK, or now. -/
def Since (cfg : Cfg) (h : List Step) (g : Neg) (t : Int) : Prop :=
  ∃ newer x older, h = newer ++ x :: older ∧ Negotiated cfg older x g ∧
    t = match g.psk with | some psk => psk.ticketHandshakeTime | none => x.env.inp.now

/-- What the connection says about what was negotiated. -/
structure Info (cfg : Cfg) (h : List Step) (g : Neg) (s : St) : Prop where
  version : s.version = some g.version
  cipher : s.cipher = some g.cipher
  group : s.group = g.ecdhe.map (·.1)
  pskType : ∃ t, s.pskType = some t ∧ (∀ psk, g.psk = some psk → t = psk.type) ∧
    (g.psk = none → t = if g.offer.psk.isSome then .rejected
      else if cfg.supportedPskModes = [] then .notSupported else .notAttempted)
  pskMode : s.pskMode = g.psk.map fun _ => if g.ecdhe.isSome then 1 else 0
  kex : s.keyExchangeType = some (if g.ecdhe.isSome then
    (if retries h = [] then .oneRtt else .helloRetryRequest) else .none)
  sni : ∃ p, Offered cfg h g.first g.offer p ∧
    s.sni = (if cfg.hasEchConfigs = true ∧ g.ech = false then some p.name else g.offer.sni) ∧
    s.clientRandom = some (if cfg.hasEchConfigs = true ∧ g.ech = false then p.random else g.offer.random)

/-! ## The rest of the server's flight -/

/-- The PSK authenticates the server. -/
def PskAuth (psk : Psk) : Prop := psk.type = .external ∨ psk.type = .resumption

/-- What becomes of early data when EncryptedExtensions `exts` arrives and the application protocol is
`alpn` — `early`: accepted only if it was offered and the server accepted the PSK, with the session's
cipher and application protocol. -/
def EarlyAnswer (cfg : Cfg) (g : Neg) (exts : List Extension) (alpn : Option Bytes) (early : EarlyDataType) :
    Prop :=
  (early = .accepted ∧ getServerEarlyData exts = .ok (some ⟨⟩) ∧ g.offer.early = true ∧
    ∃ psk, g.psk = some psk ∧ WantsEarly cfg psk ∧ psk.cipher = g.cipher ∧ psk.alpn = alpn) ∨
  (early = .rejected ∧ getServerEarlyData exts = .ok none ∧ g.first.early = true) ∨
  (early = .notAttempted ∧ getServerEarlyData exts = .ok none ∧ g.first.early = false)

/-- The server has sent EncryptedExtensions, only with extensions we offered, that choose the
application protocol `alpn` (one we offered) and decide about early data; the application's extensions
have accepted them. -/
def Encrypted (cfg : Cfg) (h : List Step) (g : Neg) (alpn : Option Bytes) (early : EarlyDataType) : Prop :=
  ∃ newer y older m orig, h = newer ++ y :: older ∧ received y = some (.encryptedExtensions m, orig) ∧
    y.pre.state = .expectingEncryptedExtensions ∧
    (m.extensions.map (·.extension_type)).Nodup ∧
    (∀ t ∈ m.extensions.map (·.extension_type), t ∉ ([13, 51, 41, 45, 44, 43] : List UInt16) ∧
      (t ∈ (g.offer.extensions cfg).map (·.extension_type) ∨
       (t = 0xfe0d ∧ cfg.greaseEch = some .computed))) ∧
    (∀ a, alpn = some a → getProtocolNameList m.extensions = .ok (some ⟨[⟨a⟩]⟩) ∧ a ∈ cfg.supportedAlpns) ∧
    (alpn = none → getProtocolNameList m.extensions = .ok none ∧ cfg.requireAlpn = false) ∧
    EarlyAnswer cfg g m.extensions alpn early ∧
    (cfg.hasExtensions = true → y.env.inp.onEncryptedExtensions m.extensions = .ok ())

/-- The Certificate message a step received, possibly compressed with an algorithm we offered. -/
def CertReceived (cfg : Cfg) (y : Step) (m : CertificateMsg) : Prop :=
  (∃ orig, received y = some (.certificate m, orig)) ∨
  ∃ c orig, received y = some (.compressedCertificate c, orig) ∧
    c.algorithm ∈ cfg.decompressionAlgorithms ∧ y.env.inp.decompress c = .ok m

/-- The extensions of a certificate are among those the application asked for. -/
def EntryOk (cfg : Cfg) (inp : Inp) (e : CertificateEntry) : Prop :=
  (cfg.hasExtensions = false → e.extensions = []) ∧
  (cfg.hasExtensions = true → ∃ req, inp.extraExtensions = .ok req ∧
    ∀ x ∈ e.extensions, x.extension_type ∈ req.map (·.extension_type))

/-- The server has sent a Certificate message with the certificates `leaf :: chain`. -/
def SentChain (cfg : Cfg) (h : List Step) (leaf : PeerCert) (chain : List PeerCert) : Prop :=
  ∃ newer y older m e es, h = newer ++ y :: older ∧ CertReceived cfg y m ∧
    m.certificate_request_context = [] ∧ m.certificate_list = e :: es ∧
    y.env.inp.makePeerCert e true = .ok leaf ∧
    List.Forall₂ (fun e c => y.env.inp.makePeerCert e false = .ok c) es chain ∧
    ∀ e ∈ m.certificate_list, EntryOk cfg y.env.inp e

/-- The server has proved that it has the key of `leaf`: its CertificateVerify uses a scheme we offered
and its signature of the transcript verifies; and the verifier has accepted the chain. -/
def ProvedIdentity (cfg : Cfg) (g : Neg) (h : List Step) (cert : PeerCert) : Prop :=
  ∃ newer z older m orig leaf chain, h = newer ++ z :: older ∧
    received z = some (.certificateVerify m, orig) ∧ SentChain cfg older leaf chain ∧
    m.algorithm ∈ cfg.supportedSigSchemes ∧
    z.env.inp.verifySig leaf m.algorithm (g.hash.digest (transcript cfg older)) m.signature = .ok () ∧
    (cfg.hasVerifier = false → cert = leaf) ∧
    (cfg.hasVerifier = true → ∃ r, z.env.inp.verifyChain (leaf :: chain) = .ok r ∧ cert = r.getD leaf)

/-- Who the server is: that of the session resumed, or the one it has proved to be. -/
def ServerIs (cfg : Cfg) (g : Neg) (h : List Step) (cert : Option Cert) : Prop :=
  (∃ psk, g.psk = some psk ∧ PskAuth psk ∧ cert = psk.serverCert) ∨
  ((∀ psk, g.psk = some psk → ¬ PskAuth psk) ∧ ∃ c, cert = some (.inr c) ∧ ProvedIdentity cfg g h c)

/-- The server's Finished has been received and verified; `th` is the transcript hash through it. -/
def Confirmed (cfg : Cfg) (h : List Step) (g : Neg) (th : Bytes) : Prop :=
  ∃ newer y older m orig, h = newer ++ y :: older ∧
    y.trig = .sock ∧ y.env.sock = .event (.handshake (.finished m) orig) false ∧
    Fixed cfg older g ∧
    m.verify_data = finishedMac g.hash.spec g.serverHandshake (g.hash.digest (transcript cfg older)) ∧
    th = g.hash.digest (transcript cfg older ++ orig)

/-! ## The client's second flight -/

/-- The secrets of early data: over the first ClientHello, under the PSK. -/
def earlySecret (cfg : Cfg) (o : Offer) (w : KS.EarlySecrets) : Option Bytes :=
  match o.psk with
  | none => none
  | some p =>
    match cfg.hashOf p.psk.cipher with
    | .error _ => none
    | .ok h => some (KS.Spec.earlyValue h.spec (some p.psk.secret) (h.digest (o.encoded cfg)) w)

/-- The server has asked for a certificate, and this is what we found for it. -/
def Asked (cfg : Cfg) (h : List Step) (cert : Option (SelfCert × UInt16)) : Prop :=
  ∃ newer y older m orig algs, h = newer ++ y :: older ∧
    received y = some (.certificateRequest m, orig) ∧ m.certificate_request_context = [] ∧
    getSignatureAlgorithms m.extensions = .ok (some algs) ∧
    (cfg.hasCertManager = false → cert = none) ∧
    (cfg.hasCertManager = true →
      y.env.inp.getCert y.pre.sni algs.supported_signature_algorithms m.extensions = .ok cert)

/-- The server has asked for a certificate. -/
def asked (h : List Step) : Prop := ∃ y ∈ h, ∃ m orig, received y = some (.certificateRequest m, orig)

/-- Certificate and CertificateVerify of the client after the messages `base`, and the certificate the
connection remembers. -/
inductive AuthOk (cfg : Cfg) (inp : Inp) (g : Neg) (h : List Step) (base : Bytes) :
    Bytes → Option Cert → Prop where
  | resumed {psk} : g.psk = some psk → PskAuth psk → AuthOk cfg inp g h base [] psk.clientCert
  | none : (∀ psk, g.psk = some psk → ¬ PskAuth psk) → ¬ asked h → AuthOk cfg inp g h base [] .none
  | empty : (∀ psk, g.psk = some psk → ¬ PskAuth psk) → Asked cfg h .none →
      AuthOk cfg inp g h base (Codec.Spec.handshake (.certificate ⟨[], []⟩)) .none
  | cert {c scheme m sig} : (∀ psk, g.psk = some psk → ¬ PskAuth psk) → Asked cfg h (some (c, scheme)) →
      inp.certMessage c = .ok m →
      inp.sign c scheme (g.hash.digest (base ++ Codec.Spec.handshake (.certificate m))) = .ok sig →
      AuthOk cfg inp g h base (Codec.Spec.handshake (.certificate m) ++
        Codec.Spec.handshake (.certificateVerify ⟨scheme, sig⟩)) (some (.inl c))

/-- The client's second flight after the messages `base`: EndOfEarlyData if early data was accepted,
Certificate and CertificateVerify if asked for, Finished. -/
def FlightOk (cfg : Cfg) (inp : Inp) (g : Neg) (h : List Step) (base : Bytes) (early : EarlyDataType)
    (flight : List Content) (cert : Option Cert) : Prop :=
  ∃ c eoed auth, AuthOk cfg inp g h (base ++ handshakeBytes eoed) auth cert ∧
    (∀ k ∈ c, k = ccs) ∧
    (early = .accepted ∧ cfg.omitEarlyRecordLayer = false →
      ∃ k, earlySecret cfg g.first .clientEarlyTraffic = some k ∧
        eoed = [⟨⟨.earlyData, k⟩, 22, [Codec.Spec.handshake .endOfEarlyData]⟩]) ∧
    (¬ (early = .accepted ∧ cfg.omitEarlyRecordLayer = false) → eoed = []) ∧
    flight = c ++ eoed ++ [⟨⟨.handshake, g.clientHandshake⟩, 22, [auth ++
      Codec.Spec.handshake (.finished ⟨finishedMac g.hash.spec g.clientHandshake
        (g.hash.digest (base ++ handshakeBytes eoed ++ auth))⟩)]⟩]

/-- The server's Finished has been answered with the second flight; `rms` is the resumption master
secret, over the transcript through the client's Finished, and `cert` the certificate the connection
remembers. -/
def Completed (cfg : Cfg) (h : List Step) (g : Neg) (th : Bytes) (early : EarlyDataType) (rms : Option Bytes)
    (cert : Option Cert) : Prop :=
  ∃ newer y older m orig, h = newer ++ y :: older ∧ received y = some (.finished m, orig) ∧
    th = g.hash.digest (transcript cfg older ++ orig) ∧
    FlightOk cfg y.env.inp g older (transcript cfg older ++ orig) early (contents y) cert ∧
    rms = some (KS.Spec.masterValue g.hash.spec g.inputs
      (g.hash.digest (transcript cfg older ++ orig ++ sent y)) .resumptionMaster) ∧
    announced y = [(.serverAppTraffic, g.serverApp th 0), (.clientAppTraffic, g.clientApp th 0),
      (.exporterMaster, KS.Spec.masterValue g.hash.spec g.inputs th .exporterMaster),
      (.resumptionMaster, KS.Spec.masterValue g.hash.spec g.inputs
        (g.hash.digest (transcript cfg older ++ orig ++ sent y)) .resumptionMaster)]

/-- Early data was offered. -/
def earlyOffered (h : List Step) : Prop := ∃ n, .reportEarlyHandshakeSuccess n ∈ actions h

/-- What `connect` shows: the ClientHello; and if it offers early data, the early traffic secret, that early
data may be written and how much, and the early exporter secret. -/
def ConnectShows (cfg : Cfg) (x : Step) (o : Offer) : Prop :=
  (o.early = false ∧ visible x.acts = [.write none (contents x) 0]) ∨
  ∃ psk traffic exporter, o.early = true ∧ o.pskOf = some psk ∧
    earlySecret cfg o .clientEarlyTraffic = some traffic ∧ earlySecret cfg o .earlyExporter = some exporter ∧
    visible x.acts = [.write none (contents x) 0, .secretAvailable .clientEarlyTraffic traffic,
      .reportEarlyHandshakeSuccess psk.maxEarlyDataSize, .secretAvailable .earlyExporter exporter]

end Fizz.ClientSM.Spec

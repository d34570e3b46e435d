import Verif.Server.HelloNeg
import Verif.Codec.WireSpec

/-!
# The reasons for the alerts of a server: specification

Alert numbers are those of RFC 8446, 6: unexpected_message (10), bad_record_mac (20), handshake_failure (40),
illegal_parameter (47), decode_error (50), decrypt_error (51), protocol_version (70), internal_error (80),
missing_extension (109), unsupported_extension (110), certificate_required (116), no_application_protocol (120).
-/

namespace Fizz.Alerts.Spec
open Fizz.Codec Fizz.Crypto Fizz.Server
open Fizz.Ticket (CookieState ResumptionState)

/-- No extension of the type. -/
def Lacks (exts : List Extension) (type : UInt16) : Prop := ∀ e ∈ exts, e.extension_type ≠ type

/-- Nothing in common. -/
def Disjoint {α} (xs ys : List α) : Prop := ∀ x ∈ xs, x ∉ ys

/-- The hello the handshake goes on with, and its bytes: the one received, or what it was decrypted to. -/
def UsedAs (inp : Inp) (received : ClientHello) (orig : Bytes) (used : ClientHello) (bytes : Bytes) : Prop :=
  (used = received ∧ bytes = orig) ∨ (∃ ctx, inp.echDecrypt received = .ok (some (used, bytes, ctx))) ∨
  ∃ key, inp.echDecryptHrr received key = .ok (used, bytes)

/-- The hello the handshake goes on with. -/
def Used (inp : Inp) (received used : ClientHello) : Prop :=
  used = received ∨ (∃ enc ctx, inp.echDecrypt received = .ok (some (used, enc, ctx))) ∨
  ∃ key enc, inp.echDecryptHrr received key = .ok (used, enc)

/-- The server's state in the cookie of the hello. -/
def HasCookie (inp : Inp) (hello : ClientHello) (c : CookieState) : Prop :=
  ∃ x, getCookie hello.extensions = .ok (some x) ∧ inp.cookieDecrypt x.cookie = .ok (some c)

/-- Why a ClientHello is refused with an alert. -/
inductive HelloReason (cfg : Cfg) (inp : Inp) (s : St) (unparsed : Bool) (hello : ClientHello)
    (orig : Bytes) : UInt8 → Prop
  /-- More handshake data behind the hello. -/
  | unexpected_message (h : unparsed = true) : HelloReason cfg inp s unparsed hello orig 10
  /-- A cookie, but no key for cookies; or one that does not decrypt. -/
  | unsupported_extension (h : ¬ Lacks hello.extensions 44) (hc : cfg.hasCookieCipher = false) :
    HelloReason cfg inp s unparsed hello orig 110
  | decrypt_error (x) (h : getCookie hello.extensions = .ok (some x)) (hd : inp.cookieDecrypt x.cookie = .ok none) :
    HelloReason cfg inp s unparsed hello orig 51
  /-- A cookie of our own making that holds half of the ECH parameters, or ECH that was accepted earlier and can no
  longer be decrypted. -/
  | half_cookie (c) (h : HasCookie inp hello c) (hh : c.echCipherSuite.isSome ≠ c.echConfigId.isSome) :
    HelloReason cfg inp s unparsed hello orig 80
  | no_decrypter (h : s.echStatus = .accepted ∨ ∃ c, HasCookie inp hello c ∧ c.echCipherSuite.isSome)
      (hd : cfg.hasEchDecrypter = false) : HelloReason cfg inp s unparsed hello orig 80
  /-- A cookie in a hello that answers a retry this connection sent itself. -/
  | cookie_and_state (c) (h : HasCookie inp hello c) (hs : s.hs.isSome) : HelloReason cfg inp s unparsed hello orig 47
  /-- A second ECH hello that is not like the first. -/
  | ech_changed (e) (h : cfg.getOuterEch hello.extensions = .ok (some e))
      (hd : e.enc ≠ [] ∨ (∃ st, s.echState = some st ∧ (st.cipherSuite ≠ e.cipherSuite ∨ st.configId ≠ e.configId)) ∨
        ∃ c, HasCookie inp hello c ∧ (c.echCipherSuite ≠ some e.cipherSuite ∨ c.echConfigId ≠ some e.configId)) :
    HelloReason cfg inp s unparsed hello orig 47
  /-- What RFC 8446 forbids in a hello. -/
  | compression (c) (hu : Used inp hello c) (h : c.legacy_compression_methods ≠ [0]) :
    HelloReason cfg inp s unparsed hello orig 47
  | duplicate (c) (hu : Used inp hello c) (h : ¬ (c.extensions.map (·.extension_type)).Nodup) :
    HelloReason cfg inp s unparsed hello orig 47
  | duplicate_share (c) (hu : Used inp hello c) (l) (hl : getClientKeyShare c.extensions = .ok (some l))
      (h : ¬ (l.client_shares.map (·.group)).Nodup) : HelloReason cfg inp s unparsed hello orig 47
  | no_binders (c) (hu : Used inp hello c)
      (h : Lacks c.extensions 41 ∨ ∃ p, getClientPresharedKey c.extensions = .ok (some p) ∧ p.binders = []) :
    HelloReason cfg inp s unparsed hello orig 47
  /-- A second hello that leads to other parameters than the first, or still has no share for the group asked for. -/
  | version_changed (v) (hs : s.version = some v) (c) (hu : Used inp hello c)
      (h : ∀ l, getSupportedVersions c.extensions = .ok (some l) →
        Negotiate.negotiateFlat cfg.supportedVersions l.versions ≠ some v) : HelloReason cfg inp s unparsed hello orig 47
  | cipher_changed (v) (hs : s.cipher = some v) (c) (hu : Used inp hello c)
      (h : Negotiate.negotiateTiers cfg.supportedCiphers c.cipher_suites ≠ some v) :
    HelloReason cfg inp s unparsed hello orig 47
  | no_share (c) (hu : Used inp hello c) (group) (l) (hl : getClientKeyShare c.extensions = .ok (some l))
      (h : group ∉ l.client_shares.map (·.group)) (hg : group ∈ cfg.supportedGroups)
      (hr : s.group.isSome ∨ ∃ ck, HasCookie inp hello ck) : HelloReason cfg inp s unparsed hello orig 47
  | group_changed (c) (hu : Used inp hello c) (g : UInt16)
      (h : s.group = some g ∨ ∃ ck, HasCookie inp hello ck ∧ ck.group = some g)
      (hn : (∃ l, getPskKeyExchangeModes c.extensions = .ok (some l) ∧ 0 ∈ l.modes ∧ 0 ∈ cfg.supportedPskModes) ∨
        ∃ l, getSupportedGroups c.extensions = .ok (some l) ∧
          Negotiate.negotiateFlat cfg.supportedGroups l.named_group_list ≠ some g) :
    HelloReason cfg inp s unparsed hello orig 47
  /-- An extension without which the hello makes no sense is missing: psk_key_exchange_modes (45) beside a
  pre_shared_key (41), supported_groups (10), key_share (51), signature_algorithms (13), or
  encrypted_client_hello (0xfe0d) in the second hello or the inner one. -/
  | missing (c) (hu : Used inp hello c)
      (h : (¬ Lacks c.extensions 41 ∧ Lacks c.extensions 45) ∨ Lacks c.extensions 10 ∨ Lacks c.extensions 51 ∨
        Lacks c.extensions 13 ∨ cfg.getInnerEch c.extensions = .ok none) : HelloReason cfg inp s unparsed hello orig 109
  | ech_missing (h : cfg.getOuterEch hello.extensions = .ok none)
      (hr : s.echStatus = .accepted ∨ ∃ c, HasCookie inp hello c ∧ c.echCipherSuite.isSome) :
    HelloReason cfg inp s unparsed hello orig 109
  /-- No version in common, or another than the cookie says. -/
  | protocol_version (c) (hu : Used inp hello c)
      (h : Lacks c.extensions 43 ∨
        ∃ l, getSupportedVersions c.extensions = .ok (some l) ∧ Disjoint cfg.supportedVersions l.versions)
      (hf : cfg.versionFallbackEnabled = false ∨ ¬ Lacks c.extensions 42) : HelloReason cfg inp s unparsed hello orig 70
  | cookie_version (c) (h : HasCookie inp hello c) (u) (hu : Used inp hello u) (l)
      (hl : getSupportedVersions u.extensions = .ok (some l))
      (hv : Negotiate.negotiateFlat cfg.supportedVersions l.versions ≠ some c.version) :
    HelloReason cfg inp s unparsed hello orig 70
  /-- Nothing in common: no cipher suite, another than the cookie says, no group, no certificate. -/
  | no_cipher (c) (hu : Used inp hello c) (h : ∀ tier ∈ cfg.supportedCiphers, Disjoint tier c.cipher_suites) :
    HelloReason cfg inp s unparsed hello orig 40
  | cookie_cipher (c) (h : HasCookie inp hello c) (u) (hu : Used inp hello u)
      (hv : Negotiate.negotiateTiers cfg.supportedCiphers u.cipher_suites ≠ some c.cipher) :
    HelloReason cfg inp s unparsed hello orig 40
  | no_group (c) (hu : Used inp hello c) (l) (hl : getSupportedGroups c.extensions = .ok (some l))
      (h : Disjoint cfg.supportedGroups l.named_group_list) : HelloReason cfg inp s unparsed hello orig 40
  | no_certificate (c) (hu : Used inp hello c) (l) (hl : getSignatureAlgorithms c.extensions = .ok (some l)) (sni)
      (h : inp.getCert sni l.supported_signature_algorithms = .ok none) : HelloReason cfg inp s unparsed hello orig 40
  /-- A PSK that we know, with a binder that is not the HMAC of RFC 8446, 4.2.11.2 over the messages up to it. -/
  | binder (c bytes) (hu : UsedAs inp hello orig c bytes) (p) (hp : getClientPresharedKey c.extensions = .ok (some p))
      (identity identities) (hi : p.identities = identity :: identities) (t) (rs : ResumptionState)
      (h : inp.ticketDecrypt identity.psk_identity = .ok (t, some rs))
      (cipher) (hc : Negotiate.negotiateTiers cfg.supportedCiphers c.cipher_suites = some cipher)
      (alg) (ha : cfg.hashOf cipher = .ok alg) (n) (hn : getBinderLength c = .ok n)
      (b rest) (hb : p.binders = b :: rest)
      (hne : b.binder ≠ Server.Spec.finishedMac alg.spec
        (KS.Spec.earlyValue alg.spec (some rs.resumptionSecret) (alg.digest [])
          (if t = .external then .externalPskBinder else .resumptionPskBinder))
        (alg.digest (Server.Spec.beforeHello inp hello c (match s.hs with | some h => h.transcript | none => []) ++
          bytes.take (bytes.length - n)))) :
    HelloReason cfg inp s unparsed hello orig 20
  /-- A pre_shared_key extension that is not the last, or is not two vectors with 16-bit lengths. -/
  | decode_error (c) (hu : Used inp hello c)
      (h : ∀ e, c.extensions.getLast? = some e → e.extension_type = 41 →
        ¬ ∃ identities binders : Bytes, identities.length < 65536 ∧ binders.length < 65536 ∧
          e.extension_data = vec .u16 identities ++ vec .u16 binders) : HelloReason cfg inp s unparsed hello orig 50
  /-- No application protocol in common, or none offered, where one is required. -/
  | no_application_protocol (c) (hu : Used inp hello c)
      (h : (cfg.alpnMode = .required ∧ Lacks c.extensions 16) ∨
        (cfg.alpnMode ≠ .allowMismatch ∧ ∃ l, getProtocolNameList c.extensions = .ok (some l) ∧
          Disjoint cfg.supportedAlpns (l.protocol_name_list.map (·.name)))) :
    HelloReason cfg inp s unparsed hello orig 120

/-- A failure of what the application or a library supplies: it is passed on with whatever alert it carries. -/
inductive HelloSupplied (cfg : Cfg) (inp : Inp) (hello : ClientHello) : Failure → Prop
  | cookie (x f) (h : inp.cookieDecrypt x = .error f) : HelloSupplied cfg inp hello f
  | ticket (x f) (h : inp.ticketDecrypt x = .error f) : HelloSupplied cfg inp hello f
  | replay (x f) (h : inp.replayCheck x = .error f) : HelloSupplied cfg inp hello f
  | ech (f) (h : inp.echDecrypt hello = .error f) : HelloSupplied cfg inp hello f
  | echHrr (k f) (h : inp.echDecryptHrr hello k = .error f) : HelloSupplied cfg inp hello f
  | confirm (r t m f) (h : inp.echConfirm r t m = .error f) : HelloSupplied cfg inp hello f
  | confirmHrr (r t m f) (h : inp.echConfirmHrr r t m = .error f) : HelloSupplied cfg inp hello f
  | kex (g x f) (h : inp.kex g x = .error f) : HelloSupplied cfg inp hello f
  | extensions (c f) (h : inp.extraExtensions c = .error f) : HelloSupplied cfg inp hello f
  | verifier (f) (h : inp.verifierExtensions = .error f) : HelloSupplied cfg inp hello f
  | certificate (n l f) (h : inp.getCert n l = .error f) : HelloSupplied cfg inp hello f
  | message (c a f) (h : inp.certMessage c a = .error f) : HelloSupplied cfg inp hello f
  | sign (c x t f) (h : inp.sign c x t = .error f) : HelloSupplied cfg inp hello f
  | hash (c f) (h : cfg.hashOf c = .error f) : HelloSupplied cfg inp hello f
  | outer (e f) (h : cfg.getOuterEch e = .error f) : HelloSupplied cfg inp hello f
  | inner (e f) (h : cfg.getInnerEch e = .error f) : HelloSupplied cfg inp hello f

/-- What a server waits for in each state. -/
inductive Awaited : StateEnum → Param → Prop
  | accept : Awaited .uninitialized .accept
  | hello (m orig) : Awaited .expectingClientHello (.sock (.handshake (.clientHello m) orig))
  | earlyData (d) : Awaited .acceptingEarlyData (.sock (.appData d))
  | earlyWrite (t d f) : Awaited .acceptingEarlyData (.appWrite t d f)
  | endOfEarlyData (orig) : Awaited .acceptingEarlyData (.sock (.handshake .endOfEarlyData orig))
  | certificate (m orig) : Awaited .expectingCertificate (.sock (.handshake (.certificate m) orig))
  | certificateVerify (m orig) :
    Awaited .expectingCertificateVerify (.sock (.handshake (.certificateVerify m) orig))
  | halfWrite (t d f) : Awaited .expectingFinished (.appWrite t d f)
  | finished (m orig) : Awaited .expectingFinished (.sock (.handshake (.finished m) orig))
  | ticket (t) : Awaited .acceptingData (.writeNewSessionTicket t)
  | data (d) : Awaited .acceptingData (.sock (.appData d))
  | write (t d f) : Awaited .acceptingData (.appWrite t d f)
  | initiate (r) : Awaited .acceptingData (.keyUpdateInitiation r)
  | keyUpdate (m orig) : Awaited .acceptingData (.sock (.handshake (.keyUpdate m) orig))
  | closeNotify (post) : Awaited .acceptingData (.sock (.closeNotify post))
  | lastClose (post) : Awaited .expectingCloseNotify (.sock (.closeNotify post))

/-- Why an event is refused with an alert. -/
inductive Reason (cfg : Cfg) (inp : Inp) (s : St) (unparsed : Bool) : Param → UInt8 → Prop
  | hello (m orig a) (hs : s.state = .expectingClientHello) (h : HelloReason cfg inp s unparsed m orig a) :
    Reason cfg inp s unparsed (.sock (.handshake (.clientHello m) orig)) a
  /-- An event the state does not wait for; an alert of the peer is not answered. -/
  | unexpected (p) (h : ¬ Awaited s.state p) (ha : ∀ d, p ≠ .sock (.alert d)) : Reason cfg inp s unparsed p 10
  /-- Handshake data behind the last message of a key. -/
  | behind_eoed (orig) (h : unparsed = true) :
    Reason cfg inp s unparsed (.sock (.handshake .endOfEarlyData orig)) 10
  | behind_close (post) (h : unparsed = true) : Reason cfg inp s unparsed (.sock (.closeNotify post)) 10
  /-- A Certificate with a context, with an extension that was not asked for or twice the same, or without
  certificates where one is needed. -/
  | context (m orig) (h : m.certificate_request_context ≠ []) :
    Reason cfg inp s unparsed (.sock (.handshake (.certificate m) orig)) 47
  | certificate_extension (m orig e) (he : e ∈ m.certificate_list)
      (h : (∃ x ∈ e.extensions, x.extension_type ∉ s.certReqExtensions) ∨
        ¬ (e.extensions.map (·.extension_type)).Nodup) :
    Reason cfg inp s unparsed (.sock (.handshake (.certificate m) orig)) 47
  | certificate_required (m orig) (h : m.certificate_list = []) (hr : cfg.clientAuthMode ≠ .optional) :
    Reason cfg inp s unparsed (.sock (.handshake (.certificate m) orig)) 116
  /-- A CertificateVerify with a scheme that was not offered, or for a chain the verifier throws an ordinary
  exception for. -/
  | scheme (m orig) (h : m.algorithm ∉ cfg.supportedSigSchemes) :
    Reason cfg inp s unparsed (.sock (.handshake (.certificateVerify m) orig)) 40
  | bad_certificate (m orig) (hv : cfg.hasClientCertVerifier = true) (chain f)
      (hc : s.unverifiedCertChain = some chain) (h : inp.verifyChain chain = .error f)
      (hf : ∀ t a, f ≠ .err t a .fizz ∧ f ≠ .err t a .verifier) :
    Reason cfg inp s unparsed (.sock (.handshake (.certificateVerify m) orig)) 42

/-- A failure of what the application or a library supplies. -/
inductive Supplied (cfg : Cfg) (inp : Inp) : Param → Failure → Prop
  | hello (m orig f) (h : HelloSupplied cfg inp m f) : Supplied cfg inp (.sock (.handshake (.clientHello m) orig)) f
  | certificate (p e l f) (h : inp.makePeerCert e l = .error f) : Supplied cfg inp p f
  | signature (p l a t x f) (h : inp.verifySig l a t x = .error f) : Supplied cfg inp p f
  | chain (p c f) (h : inp.verifyChain c = .error f) : Supplied cfg inp p f
  | ticket (p r f) (h : inp.ticketEncrypt r = .error f) : Supplied cfg inp p f
  | hash (p c f) (h : cfg.hashOf c = .error f) : Supplied cfg inp p f

/-- The event of a run of the state machine: a message or record received, or a call of the application. -/
inductive Event (i : StepIn) : Conn.Trig → Param → Bool → Prop
  | sock (e u) (h : i.sock = .event e u) : Event i .sock (.sock e) u
  | accept : Event i .accept .accept i.unparsed
  | write (t d f) : Event i (.app (.appWrite t d f)) (.appWrite t d f) i.unparsed
  | earlyWrite (t d f) : Event i (.app (.earlyAppWrite t d f)) (.earlyAppWrite t d f) i.unparsed
  | ticket (x) : Event i (.app (.newSessionTicket x)) (.writeNewSessionTicket x) i.unparsed
  | keyUpdate (r) : Event i (.app (.keyUpdate r)) (.keyUpdateInitiation r) i.unparsed

/-- Why a run of the state machine reports an error with an alert. -/
inductive Cause (cfg : Cfg) (i : StepIn) (s : St) (t : Conn.Trig) : UInt8 → Prop
  /-- The record layer refuses what has been received. -/
  | record (a) (ht : t = .sock) (h : i.sock = .fail (some a)) : Cause cfg i s t a
  /-- A failure from outside, which may carry any alert. -/
  | outside (f a) (h : i.inp.fault = some f ∨ ∃ p u, Event i t p u ∧ Supplied cfg i.inp p f)
      (ha : Server.alertFor f = some a) : Cause cfg i s t a
  /-- A failure without an alert: of the decoders, the encoders, the key schedule or the state. -/
  | unnamed (p u f) (h : Event i t p u) (hf : handle cfg i.inp s u p = .error f)
      (hn : ∀ m a, f ≠ .err m (some a) .fizz ∧ f ≠ .err m (some a) .verifier) : Cause cfg i s t 10
  | reason (p u a) (h : Event i t p u) (hr : Reason cfg i.inp s u p a) : Cause cfg i s t a

end Fizz.Alerts.Spec

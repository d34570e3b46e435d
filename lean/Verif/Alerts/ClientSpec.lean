import Verif.ClientSM.Machine
import Verif.Server.Spec
import Verif.Alerts.ServerSpec

/-!
# The reasons for the alerts of a client: specification

Alert numbers are those of RFC 8446, 6; see `ServerSpec`.
-/

namespace Fizz.Alerts.ClientSpec
open Fizz.Codec Fizz.Crypto Fizz.ClientSM
open Fizz.Alerts.Spec (Lacks)

/-- The version and cipher suite fields of a ServerHello or HelloRetryRequest. -/
inductive FieldReason (cfg : Cfg) (legacy : UInt16) (compression : UInt8) (cipher : UInt16) (exts : List Extension) :
    UInt8 → Prop
  /-- Not TLS 1.3 as offered. -/
  | legacy_version (h : legacy ≠ 0x0303) : FieldReason cfg legacy compression cipher exts 70
  | no_version (h : Lacks exts 43) : FieldReason cfg legacy compression cipher exts 70
  | version (v) (hv : getServerSupportedVersions exts = .ok (some v)) (h : v.selected_version ∉ cfg.supportedVersions) :
    FieldReason cfg legacy compression cipher exts 70
  | compression (h : compression ≠ 0) : FieldReason cfg legacy compression cipher exts 47
  | cipher (h : cipher ∉ cfg.supportedCiphers) : FieldReason cfg legacy compression cipher exts 40
  | duplicate (h : ¬ (exts.map (·.extension_type)).Nodup) : FieldReason cfg legacy compression cipher exts 47

/-- The hash functions of two cipher suites are different. -/
def OtherHash (cfg : Cfg) (a b : UInt16) : Prop :=
  ∃ ha hb, cfg.hashOf a = .ok ha ∧ cfg.hashOf b = .ok hb ∧
    ¬ (ha.hashLen = hb.hashLen ∧ ha.blockSize = hb.blockSize ∧ ha.blankHash = hb.blankHash)

/-- Why a ServerHello is refused with an alert. -/
inductive HelloReason (cfg : Cfg) (inp : Inp) (s : St) (unparsed : Bool) (m : ServerHello) : UInt8 → Prop
  | fields (a) (h : FieldReason cfg m.legacy_version m.legacy_compression_method m.cipher_suite m.extensions a) :
    HelloReason cfg inp s unparsed m a
  /-- An extension that was not requested, or that is none of a ServerHello: pre_shared_key (41),
  supported_versions (43), key_share (51). -/
  | extension (requested) (hr : s.requestedExtensions = some requested) (e) (he : e ∈ m.extensions)
      (h : e.extension_type ∉ requested ∨ e.extension_type ∉ [41, 43, 51]) : HelloReason cfg inp s unparsed m 47
  /-- A share for a group there was no share for, or none although the connection needs one. -/
  | group (shares) (hs : s.keyExchangers = some shares) (k) (hk : getServerKeyShare m.extensions = .ok (some k))
      (h : k.server_share.group ∉ shares.map (·.1)) : HelloReason cfg inp s unparsed m 40
  | no_share (h : Lacks m.extensions 51) (hp : Lacks m.extensions 41) : HelloReason cfg inp s unparsed m 40
  | session_id (h : m.legacy_session_id_echo ≠ some s.legacySessionId) : HelloReason cfg inp s unparsed m 47
  /-- Something else than in the HelloRetryRequest. -/
  | version_changed (v w) (hv : s.version = some v) (hw : getServerSupportedVersions m.extensions = .ok (some w))
      (h : w.selected_version ≠ v) : HelloReason cfg inp s unparsed m 40
  | cipher_changed (c) (hc : s.cipher = some c) (h : m.cipher_suite ≠ c) : HelloReason cfg inp s unparsed m 40
  /-- A PSK that was not offered, or one that does not go with the version, the cipher suite or the modes. -/
  | psk_unoffered (sel) (hs : getServerPresharedKey m.extensions = .ok (some sel))
      (h : s.attemptedPsk = none ∨ sel.selected_identity ≠ 0) : HelloReason cfg inp s unparsed m 47
  | psk_misfit (sel) (hs : getServerPresharedKey m.extensions = .ok (some sel)) (psk) (ho : s.attemptedPsk = some psk)
      (h : (∃ w, getServerSupportedVersions m.extensions = .ok (some w) ∧ w.selected_version ≠ psk.version) ∨
        OtherHash cfg m.cipher_suite psk.cipher ∨ (¬ Lacks m.extensions 51 ∧ 1 ∉ cfg.supportedPskModes) ∨
        (Lacks m.extensions 51 ∧ 0 ∉ cfg.supportedPskModes)) : HelloReason cfg inp s unparsed m 40
  /-- The answer to ECH differs from that in the HelloRetryRequest, or ECH is rejected and the PSK of the inner
  hello selected. -/
  | ech_changed (e) (he : s.echState = some e) (hs : e.status ≠ .requested) (t b)
      (hb : inp.echAccepted e.random t m = .ok b) (h : ¬ (b = true ↔ e.status = .accepted)) :
    HelloReason cfg inp s unparsed m 47
  | ech_psk (e) (he : s.echState = some e) (t) (hb : inp.echAccepted e.random t m = .ok false)
      (hp : ¬ Lacks m.extensions 41) : HelloReason cfg inp s unparsed m 47
  | behind (h : unparsed = true) : HelloReason cfg inp s unparsed m 10

/-- Why a HelloRetryRequest is refused with an alert. -/
inductive RetryReason (cfg : Cfg) (s : St) (m : HelloRetryRequest) : UInt8 → Prop
  | fields (a) (h : FieldReason cfg m.legacy_version m.legacy_compression_method m.cipher_suite m.extensions a) :
    RetryReason cfg s m a
  /-- None of cookie (44), supported_versions (43), key_share (51), or encrypted_client_hello where it was sent. -/
  | extension (requested) (hr : s.requestedExtensions = some requested) (e) (he : e ∈ m.extensions)
      (h : e.extension_type ∉ [43, 44, 51]) (h' : e.extension_type ≠ 0xfe0d ∨ 0xfe0d ∉ requested) :
    RetryReason cfg s m 47
  /-- The second one. -/
  | second (h : s.keyExchangeType ≠ none) : RetryReason cfg s m 10
  | group (k) (hk : getHelloRetryRequestKeyShare m.extensions = .ok (some k)) (h : k.selected_group ∉ cfg.supportedGroups) :
    RetryReason cfg s m 40
  /-- A group there was a share for. -/
  | needless (k) (hk : getHelloRetryRequestKeyShare m.extensions = .ok (some k)) (shares)
      (hs : s.keyExchangers = some shares) (h : k.selected_group ∈ shares.map (·.1)) : RetryReason cfg s m 47

/-- Why EncryptedExtensions are refused with an alert. -/
inductive ExtensionsReason (cfg : Cfg) (s : St) (m : EncryptedExtensions) : UInt8 → Prop
  | extension (requested) (hr : s.requestedExtensions = some requested) (e) (he : e ∈ m.extensions)
      (h : e.extension_type ∈ [13, 41, 43, 44, 45, 51] ∨ e.extension_type ∉ requested) : ExtensionsReason cfg s m 47
  | duplicate (h : ¬ (m.extensions.map (·.extension_type)).Nodup) : ExtensionsReason cfg s m 47
  | no_application_protocol (hr : cfg.requireAlpn = true) (h : Lacks m.extensions 16) : ExtensionsReason cfg s m 120
  /-- Not one of the protocols offered, or not exactly one. -/
  | application_protocol (l) (hl : getProtocolNameList m.extensions = .ok (some l))
      (h : ∀ p, l.protocol_name_list = [p] → p.name ∉ cfg.supportedAlpns) : ExtensionsReason cfg s m 47
  /-- Early data accepted that was not sent, or with other parameters than it was sent with. -/
  | early_data (he : ¬ Lacks m.extensions 42)
      (h : s.earlyDataType ≠ some .attempted ∨ s.earlyDataParams = none ∨ s.pskType = some .rejected ∨
        (s.earlyWrite = none ∧ cfg.omitEarlyRecordLayer = false) ∨
        ∃ p, s.earlyDataParams = some p ∧ (s.cipher ≠ some p.cipher ∨
          (∀ a, p.alpn = some a → ∀ l, getProtocolNameList m.extensions = .ok (some l) →
            l.protocol_name_list ≠ [⟨a⟩]) ∧ ¬ (p.alpn = none ∧ Lacks m.extensions 16))) : ExtensionsReason cfg s m 47

/-- Why a Certificate of the server is refused with an alert. -/
inductive CertificateReason (cfg : Cfg) (inp : Inp) (m : CertificateMsg) : UInt8 → Prop
  | context (h : m.certificate_request_context ≠ []) : CertificateReason cfg inp m 47
  | extension (e) (he : e ∈ m.certificate_list) (x) (hx : x ∈ e.extensions)
      (h : cfg.hasExtensions = false ∨ ∃ requested, inp.extraExtensions = .ok requested ∧
        x.extension_type ∉ requested.map (·.extension_type)) : CertificateReason cfg inp m 47
  | empty (h : m.certificate_list = []) : CertificateReason cfg inp m 47

/-- What a client waits for in each state. -/
inductive Awaited : StateEnum → Param → Prop
  | connect : Awaited .uninitialized .connect
  | retry (m o) : Awaited .expectingServerHello (.sock (.handshake (.helloRetryRequest m) o))
  | hello (m o) : Awaited .expectingServerHello (.sock (.handshake (.serverHello m) o))
  | extensions (m o) : Awaited .expectingEncryptedExtensions (.sock (.handshake (.encryptedExtensions m) o))
  | request (m o) : Awaited .expectingCertificate (.sock (.handshake (.certificateRequest m) o))
  | certificate (m o) : Awaited .expectingCertificate (.sock (.handshake (.certificate m) o))
  | compressed (m o) : Awaited .expectingCertificate (.sock (.handshake (.compressedCertificate m) o))
  | verify (m o) : Awaited .expectingCertificateVerify (.sock (.handshake (.certificateVerify m) o))
  | finished (m o) : Awaited .expectingFinished (.sock (.handshake (.finished m) o))
  | early (st t d f) (h : st ∈ [.expectingServerHello, .expectingEncryptedExtensions, .expectingCertificate,
      .expectingCertificateVerify, .expectingFinished, .established]) : Awaited st (.earlyAppWrite t d f)
  | ticket (m o) : Awaited .established (.sock (.handshake (.newSessionTicket m) o))
  | data (d) : Awaited .established (.sock (.appData d))
  | write (t d f) : Awaited .established (.appWrite t d f)
  | initiate (r) : Awaited .established (.keyUpdateInitiation r)
  | keyUpdate (m o) : Awaited .established (.sock (.handshake (.keyUpdate m) o))
  | close (post) : Awaited .established (.sock (.closeNotify post))
  | lastData (d) : Awaited .writeSideClosed (.sock (.appData d))
  | lastClose (post) : Awaited .writeSideClosed (.sock (.closeNotify post))

/-- Why an event is refused with an alert. -/
inductive Reason (cfg : Cfg) (inp : Inp) (s : St) (unparsed : Bool) : Param → UInt8 → Prop
  | unexpected (p) (h : ¬ Awaited s.state p) (ha : ∀ d, p ≠ .sock (.alert d)) : Reason cfg inp s unparsed p 10
  | hello (m o a) (h : HelloReason cfg inp s unparsed m a) : Reason cfg inp s unparsed (.sock (.handshake (.serverHello m) o)) a
  | retry (m o a) (h : RetryReason cfg s m a) : Reason cfg inp s unparsed (.sock (.handshake (.helloRetryRequest m) o)) a
  | extensions (m o a) (h : ExtensionsReason cfg s m a) :
    Reason cfg inp s unparsed (.sock (.handshake (.encryptedExtensions m) o)) a
  /-- A second CertificateRequest, or one with a context or without signature algorithms. -/
  | second_request (m o) (h : s.clientAuth ≠ none) : Reason cfg inp s unparsed (.sock (.handshake (.certificateRequest m) o)) 10
  | request (m : CertificateRequest) (o) (h : m.certificate_request_context ≠ [] ∨ Lacks m.extensions 13) :
    Reason cfg inp s unparsed (.sock (.handshake (.certificateRequest m) o)) 47
  | certificate (m o a) (h : CertificateReason cfg inp m a) :
    Reason cfg inp s unparsed (.sock (.handshake (.certificate m) o)) a
  /-- A compressed Certificate: not offered, with another algorithm than those offered, broken, or containing one
  that is refused. -/
  | compressed_unoffered (m o) (h : cfg.decompressionAlgorithms = []) :
    Reason cfg inp s unparsed (.sock (.handshake (.compressedCertificate m) o)) 10
  | algorithm (m : CompressedCertificate) (o) (h : m.algorithm ∉ cfg.decompressionAlgorithms) :
    Reason cfg inp s unparsed (.sock (.handshake (.compressedCertificate m) o)) 42
  | decompression (m o f) (h : inp.decompress m = .error f) :
    Reason cfg inp s unparsed (.sock (.handshake (.compressedCertificate m) o)) 42
  | decompressed (m o c a) (hc : inp.decompress m = .ok c) (h : CertificateReason cfg inp c a) :
    Reason cfg inp s unparsed (.sock (.handshake (.compressedCertificate m) o)) a
  /-- A CertificateVerify with a scheme that was not offered, or for a chain the verifier throws an ordinary
  exception for. -/
  | scheme (m : CertificateVerify) (o) (h : m.algorithm ∉ cfg.supportedSigSchemes) :
    Reason cfg inp s unparsed (.sock (.handshake (.certificateVerify m) o)) 47
  | bad_certificate (m o) (hv : cfg.hasVerifier = true) (chain f) (hc : s.unverifiedCertChain = some chain)
      (h : inp.verifyChain chain = .error f) (hf : ∀ t a, f ≠ .err t a .fizz ∧ f ≠ .err t a .verifier) :
    Reason cfg inp s unparsed (.sock (.handshake (.certificateVerify m) o)) 42
  /-- A Finished that is not the HMAC of RFC 8446, 4.4.4 over the transcript. -/
  | finished (m : Finished) (o) (ctx) (hc : s.hs = some ctx) (alg) (ha : cfg.hashOf ctx.cipher = .ok alg) (secret)
      (hs : s.serverHandshakeSecret = some secret)
      (h : secret.length = alg.hashLen →
        m.verify_data ≠ Server.Spec.finishedMac alg.spec secret (alg.digest ctx.transcript)) :
    Reason cfg inp s unparsed (.sock (.handshake (.finished m) o)) 20
  /-- Handshake data behind the last message of a key. -/
  | behind_finished (m o) (h : unparsed = true) : Reason cfg inp s unparsed (.sock (.handshake (.finished m) o)) 10
  | behind_update (m o) (h : unparsed = true) : Reason cfg inp s unparsed (.sock (.handshake (.keyUpdate m) o)) 10
  | behind_initiation (r) (h : unparsed = true) : Reason cfg inp s unparsed (.keyUpdateInitiation r) 10
  | behind_close (post) (h : unparsed = true) : Reason cfg inp s unparsed (.sock (.closeNotify post)) 10

/-- A failure of what the application or a library supplies. -/
inductive Supplied (cfg : Cfg) (inp : Inp) : Failure → Prop
  | keyShare (g f) (h : inp.keyShare g = .error f) : Supplied cfg inp f
  | kex (g a b f) (h : inp.kex g a b = .error f) : Supplied cfg inp f
  | extensions (f) (h : inp.extraExtensions = .error f) : Supplied cfg inp f
  | notify (e f) (h : inp.onEncryptedExtensions e = .error f) : Supplied cfg inp f
  | echSetup (f) (h : inp.echSetup = .error f) : Supplied cfg inp f
  | echEncrypt (a b c f) (h : inp.echEncrypt a b c = .error f) : Supplied cfg inp f
  | greaseEch (n f) (h : inp.greaseEch n = .error f) : Supplied cfg inp f
  | greasePsk (c f) (h : inp.greasePsk c = .error f) : Supplied cfg inp f
  | greasePskHrr (c f) (h : inp.greasePskHrr c = .error f) : Supplied cfg inp f
  | echAccepted (r t m f) (h : inp.echAccepted r t m = .error f) : Supplied cfg inp f
  | echAcceptedHrr (r t m f) (h : inp.echAcceptedHrr r t m = .error f) : Supplied cfg inp f
  | echRetry (e f) (h : inp.echRetry e = .error f) : Supplied cfg inp f
  | getCert (n l e f) (h : inp.getCert n l e = .error f) : Supplied cfg inp f
  | certMessage (c f) (h : inp.certMessage c = .error f) : Supplied cfg inp f
  | sign (c x t f) (h : inp.sign c x t = .error f) : Supplied cfg inp f
  | makePeerCert (e l f) (h : inp.makePeerCert e l = .error f) : Supplied cfg inp f
  | verifySig (c a t x f) (h : inp.verifySig c a t x = .error f) : Supplied cfg inp f
  | verifyChain (c f) (h : inp.verifyChain c = .error f) : Supplied cfg inp f
  | hash (c f) (h : cfg.hashOf c = .error f) : Supplied cfg inp f

/-- The event of a run of the state machine: a message or record received, or a call of the application. -/
inductive Event (i : StepIn) : Conn.Trig → Param → Bool → Prop
  | sock (e u) (h : i.sock = .event e u) : Event i .sock (.sock e) u
  | connect : Event i .accept .connect i.unparsed
  | write (t d f) : Event i (.app (.appWrite t d f)) (.appWrite t d f) i.unparsed
  | earlyWrite (t d f) : Event i (.app (.earlyAppWrite t d f)) (.earlyAppWrite t d f) i.unparsed
  | ticket (x) : Event i (.app (.newSessionTicket x)) .writeNewSessionTicket i.unparsed
  | keyUpdate (r) : Event i (.app (.keyUpdate r)) (.keyUpdateInitiation r) i.unparsed

/-- Why a run of the state machine reports an error with an alert. -/
inductive Cause (cfg : Cfg) (i : StepIn) (s : St) (t : Conn.Trig) : UInt8 → Prop
  /-- The record layer refuses what has been received. -/
  | record (a) (ht : t = .sock) (h : i.sock = .fail (some a)) : Cause cfg i s t a
  /-- The closing alert cannot be written. -/
  | closing (b) (ht : t = .app (.appClose b)) (h : i.inp.alertFails = true) : Cause cfg i s t 50
  /-- The handshake is complete, and ECH was rejected. -/
  | ech_required (e m o u) (h : Event i t (.sock (.handshake (.finished m) o)) u) (hs : s.state = .expectingFinished)
      (he : s.echState = some e) (hr : e.status = .rejected) : Cause cfg i s t 121
  /-- A failure from outside, which may carry any alert. -/
  | outside (f a) (h : i.inp.fault = some f ∨ Supplied cfg i.inp f) (ha : Server.alertFor f = some a) : Cause cfg i s t a
  /-- A failure without an alert: of the decoders, the encoders, the key schedule or the state. -/
  | unnamed (p u f) (h : Event i t p u) (hf : handle cfg i.inp s u p = .error f)
      (hn : ∀ m a, f ≠ .err m (some a) .fizz ∧ f ≠ .err m (some a) .verifier) : Cause cfg i s t 10
  | reason (p u a) (h : Event i t p u) (hr : Reason cfg i.inp s u p a) : Cause cfg i s t a

end Fizz.Alerts.ClientSpec

import Verif.ClientSM.Trace
import Verif.Server.Shape
import Mathlib.Tactic.SplitIfs

/-!
# What one run of the client state machine can do

`Shape` lists, for each entry of the handler table, the actions of a successful run and the facts
that hold then; every other run does nothing or is the error path.
-/

namespace Fizz.ClientSM
open Fizz.Codec Fizz.Crypto
open Fizz.Server (Level RLayer WLayer Content KeyExchangeType HsCtx SockIn PeerCert content alertContent
  alertFor deref derefPtr check ksState ksSecret transcriptHash finishedData verifierFailure
  derefPtr_eq_ok deref_eq_ok check_eq_ok pure_eq_ok)
open Fizz.Conn (Trig)

/-- What one run can do. -/
inductive Shape (cfg : Cfg) (i : StepIn) (s : St) : Trig → List Action → Prop where
  | nothing {t} : Shape cfg i s t []
  | fail {t a b} : s.state ≠ .error →
      Shape cfg i s t (.mutate toError :: (alertWrites s a b ++ [.reportError a]))
  | report {t a} : s.state = .error → Shape cfg i s t [.reportError a]
  | wait : i.sock = .needData → Shape cfg i s .sock [.waitForData]
  | closeNow {w} : s.write = some w →
      Shape cfg i s (.app (.appClose true)) [.mutate toClosed, .write none [alertContent w 0] 0]
  | close {w} : s.write = some w →
      Shape cfg i s (.app (.appClose false)) [.mutate toWriteSideClosed, .write none [alertContent w 0] 0]
  | closed {b} : s.write = none → Shape cfg i s (.app (.appClose b)) [.mutate toClosed]
  | connect {c} : s.state = .uninitialized → prepareConnect cfg i.inp = .ok c →
      Shape cfg i s .accept (connectActions cfg c)
  | retry {m orig u r w} : s.state = .expectingServerHello →
      i.sock = .event (.handshake (.helloRetryRequest m) orig) u →
      processHrr cfg i.inp s m orig = .ok r → s.write = some w →
      Shape cfg i s .sock [.mutate (saveRetry cfg r),
        .write none (firstCcs cfg s ++ [content w 22 r.encoded]) 0, transition .expectingServerHello]
  | serverHello {m orig u r} : s.state = .expectingServerHello →
      i.sock = .event (.handshake (.serverHello m) orig) u →
      processShlo cfg i.inp s u m orig = .ok r →
      Shape cfg i s .sock [.mutate (saveShlo r), .secretAvailable .serverHandshakeTraffic r.serverSecret,
        .secretAvailable .clientHandshakeTraffic r.clientSecret,
        transition .expectingEncryptedExtensions]
  | earlyFailed {t d f} : s.state = .expectingServerHello ∨ s.state = .expectingEncryptedExtensions ∨
        s.state = .expectingCertificate ∨ s.state = .expectingCertificateVerify ∨
        s.state = .expectingFinished ∨ s.state = .established →
      s.earlyDataType = some .rejected →
      Shape cfg i s (.app (.earlyAppWrite t d f)) [.reportEarlyWriteFailed t d f]
  | earlyFirst {t d f w} : s.state = .expectingServerHello ∨ s.state = .expectingEncryptedExtensions ∨
        s.state = .expectingFinished → cfg.omitEarlyRecordLayer = false →
      s.earlyDataType = some .attempted ∨ s.earlyDataType = some .accepted → s.earlyWrite = some w →
      cfg.compatMode = true → s.sentCCS = false →
      Shape cfg i s (.app (.earlyAppWrite t d f))
        [.mutate fun s => { s with sentCCS := true }, .write t [ccs, content w 23 d] f]
  | earlyWrite {t d f w} : s.state = .expectingServerHello ∨ s.state = .expectingEncryptedExtensions ∨
        s.state = .expectingFinished → cfg.omitEarlyRecordLayer = false →
      s.earlyDataType = some .attempted ∨ s.earlyDataType = some .accepted → s.earlyWrite = some w →
      Shape cfg i s (.app (.earlyAppWrite t d f)) [.write t [content w 23 d] f]
  | earlyLate {t d f w} : s.state = .established → s.earlyDataType = some .accepted →
      s.write = some w →
      Shape cfg i s (.app (.earlyAppWrite t d f)) [.write t [content w 23 d] f]
  | encryptedExtensions {m orig u requested ctx alpn early retry t} :
      s.state = .expectingEncryptedExtensions →
      i.sock = .event (.handshake (.encryptedExtensions m) orig) u →
      s.requestedExtensions = some requested → checkEeExtensions m.extensions requested = .ok () →
      s.hs = some ctx → eeAlpn cfg m.extensions = .ok alpn →
      eeEarly cfg s m.extensions alpn = .ok early → eeRetry i.inp s m.extensions = .ok retry →
      eeNotify cfg i.inp m.extensions = .ok () → s.pskType = some t →
      Shape cfg i s .sock
        (.mutate (saveEe orig alpn early retry) :: (retryActions retry ++ [transition (afterEe t)]))
  | certificateRequest {m orig u ctx algs cert} : s.state = .expectingCertificate →
      i.sock = .event (.handshake (.certificateRequest m) orig) u → s.clientAuth = none →
      s.hs = some ctx → m.certificate_request_context = [] →
      getSignatureAlgorithms m.extensions = .ok (some algs) →
      getClientCert cfg i.inp s algs.supported_signature_algorithms m.extensions = .ok cert →
      Shape cfg i s .sock [.mutate (saveRequest orig cert), transition .expectingCertificate]
  | certificate {m orig u ctx chain} : s.state = .expectingCertificate →
      i.sock = .event (.handshake (.certificate m) orig) u → s.hs = some ctx →
      handleCertMsg cfg i.inp m = .ok chain →
      Shape cfg i s .sock [.mutate (saveChain orig chain none), transition .expectingCertificateVerify]
  | compressedCertificate {m orig u ctx cert chain} : s.state = .expectingCertificate →
      i.sock = .event (.handshake (.compressedCertificate m) orig) u → s.hs = some ctx →
      m.algorithm ∈ cfg.decompressionAlgorithms → i.inp.decompress m = .ok cert →
      handleCertMsg cfg i.inp cert = .ok chain →
      Shape cfg i s .sock [.mutate (saveChain orig chain (some m.algorithm)),
        transition .expectingCertificateVerify]
  | certificateVerify {m orig u ctx leaf chain cert h} : s.state = .expectingCertificateVerify →
      i.sock = .event (.handshake (.certificateVerify m) orig) u → s.hs = some ctx →
      s.unverifiedCertChain = some (leaf :: chain) → m.algorithm ∈ cfg.supportedSigSchemes →
      cfg.hashOf ctx.cipher = .ok h →
      i.inp.verifySig leaf m.algorithm (transcriptHash h ctx) m.signature = .ok () →
      verifiedCert cfg i.inp leaf (leaf :: chain) = .ok cert →
      Shape cfg i s .sock [.mutate (saveServerCert orig m.algorithm cert), transition .expectingFinished]
  | finished {m orig u d} : s.state = .expectingFinished →
      i.sock = .event (.handshake (.finished m) orig) u →
      processFinished cfg i.inp s u m orig = .ok d →
      Shape cfg i s .sock ([.mutate (saveFinished cfg d), transition .established,
        .secretAvailable .serverAppTraffic d.read, .secretAvailable .clientAppTraffic d.write,
        .secretAvailable .exporterMaster d.exporter, .secretAvailable .resumptionMaster d.resumption,
        .write none d.flight 0] ++ finalReport i.inp s)
  | ticket {m orig u acts} : s.state = .established →
      i.sock = .event (.handshake (.newSessionTicket m) orig) u →
      onNewSessionTicket cfg i.inp s m = .ok acts → Shape cfg i s .sock acts
  | data {d u} : s.state = .established ∨ s.state = .writeSideClosed → i.sock = .event (.appData d) u →
      Shape cfg i s .sock [.deliver d]
  | appWrite {tok d f w} : s.state = .established → s.write = some w →
      Shape cfg i s (.app (.appWrite tok d f)) [.write tok [content w 23 d] f]
  | keyUpdateInitiation {r enc w h ks ks' secret} : s.state = .established → i.unparsed = false →
      encodeHandshake (.keyUpdate ⟨r⟩) = .ok enc → s.write = some w →
      schedule cfg s = .ok (h, ks) → nextWrite h ks = .ok (ks', secret) →
      Shape cfg i s (.app (.keyUpdate r)) [.mutate (saveWrite ks' secret),
        .secretAvailable .clientAppTraffic secret, .write none [content w 22 enc] 0]
  | keyUpdate {m orig h ks ks' secret} : s.state = .established →
      i.sock = .event (.handshake (.keyUpdate m) orig) false → m.request_update = 0 →
      schedule cfg s = .ok (h, ks) → nextRead h ks = .ok (ks', secret) →
      Shape cfg i s .sock [.mutate (saveRead ks' secret), .secretAvailable .serverAppTraffic secret]
  | keyUpdateAnswered {m orig h ks ks' ks'' enc w read write} : s.state = .established →
      i.sock = .event (.handshake (.keyUpdate m) orig) false → m.request_update ≠ 0 →
      schedule cfg s = .ok (h, ks) → nextRead h ks = .ok (ks', read) →
      encodeHandshake (.keyUpdate ⟨0⟩) = .ok enc → s.write = some w →
      nextWrite h ks' = .ok (ks'', write) →
      Shape cfg i s .sock [.mutate (saveBoth ks'' read write), .secretAvailable .serverAppTraffic read,
        .secretAvailable .clientAppTraffic write, .write none [content w 22 enc] 0]
  | closeNotify {post w} : s.state = .established → i.sock = .event (.closeNotify post) false →
      s.write = some w →
      Shape cfg i s .sock [.write none [alertContent w 0] 0, .mutate clearLayers, transition .closed,
        .endOfData post]
  | expectedCloseNotify {post} : s.state = .writeSideClosed →
      i.sock = .event (.closeNotify post) false →
      Shape cfg i s .sock [.mutate clearLayers, transition .closed, .endOfData post]

theorem outcome_acts (inp : Inp) (a : List Action) : (outcome inp a).acts = a := by
  unfold outcome; split_ifs <;> rfl

theorem handleError_shape {cfg i s t} {a : Option UInt8} {b} :
    Shape cfg i s t (handleError s a b) := by
  by_cases h : s.state = .error
  · rw [handleError, if_pos h]; exact .report h
  · rw [handleError, if_neg h]; exact .fail h

/-- The trigger of an event. -/
def Param.trig (a : Option Bytes) : Param → Trig
  | .connect => .accept
  | .sock _ => .sock
  | .appWrite t d f => .app (.appWrite t d f)
  | .earlyAppWrite t d f => .app (.earlyAppWrite t d f)
  | .writeNewSessionTicket => .app (.newSessionTicket a)
  | .keyUpdateInitiation r => .app (.keyUpdate r)

/-- The event is the one the step contributes. -/
def Param.from (i : StepIn) (u : Bool) : Param → Prop
  | .sock e => i.sock = .event e u
  | _ => i.unparsed = u

theorem ignoreEarly_shape {s t d f acts} (h : ignoreEarly s t d f = .ok acts) :
    s.earlyDataType = some .rejected ∧ acts = [.reportEarlyWriteFailed t d f] := by
  rw [ignoreEarly] at h
  simp only [Res.bind_eq_ok, check_eq_ok, decide_eq_true_eq] at h
  obtain ⟨ty, h1, _, h2, h⟩ := h
  subst h2
  exact ⟨deref_eq_ok.1 h1, (pure_eq_ok.1 h).symm⟩

theorem writeEarly_shape {cfg s t d f acts} (h : writeEarly cfg s t d f = .ok acts) :
    ∃ w, s.earlyWrite = some w ∧
      ((cfg.compatMode = true ∧ s.sentCCS = false ∧
        acts = [.mutate fun s => { s with sentCCS := true }, .write t [ccs, content w 23 d] f]) ∨
       acts = [.write t [content w 23 d] f]) := by
  rw [writeEarly, Res.bind_eq_ok] at h
  obtain ⟨w, hw, h⟩ := h
  refine ⟨w, derefPtr_eq_ok.1 hw, ?_⟩
  split_ifs at h with hc
  · simp only [Bool.and_eq_true, Bool.not_eq_true'] at hc
    exact .inl ⟨hc.1, hc.2, (pure_eq_ok.1 h).symm⟩
  · exact .inr (pure_eq_ok.1 h).symm

theorem handleEarly_shape {cfg i s t d f acts} (hs : s.state = .expectingServerHello ∨
      s.state = .expectingEncryptedExtensions ∨ s.state = .expectingFinished)
    (h : handleEarly cfg s t d f = .ok acts) : Shape cfg i s (.app (.earlyAppWrite t d f)) acts := by
  rw [handleEarly] at h
  simp only [Res.bind_eq_ok, check_eq_ok] at h
  obtain ⟨_, h1, ty, h2, h⟩ := h
  have h2 := deref_eq_ok.1 h2
  have h1 : cfg.omitEarlyRecordLayer = false := by simpa using h1
  have hwr : ∀ {acts}, writeEarly cfg s t d f = .ok acts →
      s.earlyDataType = some .attempted ∨ s.earlyDataType = some .accepted →
      Shape cfg i s (.app (.earlyAppWrite t d f)) acts := by
    intro acts h h3
    obtain ⟨w, hw, ⟨a, b, rfl⟩ | rfl⟩ := writeEarly_shape h
    · exact .earlyFirst hs h1 h3 hw a b
    · exact .earlyWrite hs h1 h3 hw
  cases ty with
  | notAttempted => cases h
  | rejected =>
    obtain ⟨a, rfl⟩ := ignoreEarly_shape h
    refine .earlyFailed ?_ a
    rcases hs with hs | hs | hs <;> simp [hs]
  | attempted => exact hwr h (.inl h2)
  | accepted => exact hwr h (.inr h2)

theorem handle_shape {cfg i s u p acts} (a : Option Bytes) (hp : Param.from i u p)
    (h : handle cfg i.inp s u p = .ok acts) : Shape cfg i s (p.trig a) acts := by
  unfold handle at h
  split at h
  case h_1 hs =>
    rw [onConnect, Res.bind_eq_ok] at h
    obtain ⟨c, hc, h⟩ := h
    cases pure_eq_ok.1 h
    exact .connect hs hc
  case h_2 m orig hs =>
    rw [onHelloRetryRequest] at h
    simp only [Res.bind_eq_ok] at h
    obtain ⟨r, hr, w, hw, h⟩ := h
    cases pure_eq_ok.1 h
    exact .retry hs hp hr (derefPtr_eq_ok.1 hw)
  case h_3 m orig hs =>
    rw [onServerHello, Res.bind_eq_ok] at h
    obtain ⟨r, hr, h⟩ := h
    cases pure_eq_ok.1 h
    exact .serverHello hs hp hr
  case h_4 t d f hs => exact handleEarly_shape (.inl hs) h
  case h_5 m orig hs =>
    rw [onEncryptedExtensions] at h
    simp only [Res.bind_eq_ok] at h
    obtain ⟨rq, h1, _, h2, ctx, h3, al, h4, ea, h5, re, h6, _, h7, t, h8, h⟩ := h
    cases pure_eq_ok.1 h
    exact .encryptedExtensions hs hp (deref_eq_ok.1 h1) h2 (derefPtr_eq_ok.1 h3) h4 h5 h6 h7
      (deref_eq_ok.1 h8)
  case h_6 t d f hs => exact handleEarly_shape (.inr (.inl hs)) h
  case h_7 m orig hs =>
    rw [onCertificateRequest] at h
    simp only [Res.bind_eq_ok, check_eq_ok, Option.isNone_iff_eq_none, List.isEmpty_iff] at h
    obtain ⟨_, h1, ctx, h2, _, h3, al, h4, h⟩ := h
    cases al with
    | none => cases h
    | some al =>
      simp only [Res.bind_eq_ok] at h
      obtain ⟨c, h5, h⟩ := h
      cases pure_eq_ok.1 h
      exact .certificateRequest hs hp h1 (derefPtr_eq_ok.1 h2) h3 h4 h5
  case h_8 m orig hs =>
    rw [onCertificate] at h
    simp only [Res.bind_eq_ok] at h
    obtain ⟨ctx, h1, ch, h2, h⟩ := h
    cases pure_eq_ok.1 h
    exact .certificate hs hp (derefPtr_eq_ok.1 h1) h2
  case h_9 m orig hs =>
    rw [onCompressedCertificate] at h
    simp only [Res.bind_eq_ok, check_eq_ok, decide_eq_true_eq] at h
    obtain ⟨_, -, ctx, h1, _, h2, c, h3, ch, h4, h⟩ := h
    cases pure_eq_ok.1 h
    refine .compressedCertificate hs hp (derefPtr_eq_ok.1 h1) h2 ?_ h4
    unfold decompress at h3
    split at h3 <;> cases h3
    assumption
  case h_10 t d f hs =>
    obtain ⟨a, rfl⟩ := ignoreEarly_shape h
    exact .earlyFailed (by simp [hs]) a
  case h_11 m orig hs =>
    rw [onCertificateVerify] at h
    simp only [Res.bind_eq_ok, check_eq_ok, decide_eq_true_eq] at h
    obtain ⟨_, ha, chain, hch, leaf, hl, ctx, hc, hh, hhh, _, hv, cert, hvc, h⟩ := h
    cases pure_eq_ok.1 h
    cases chain with
    | nil => cases hl
    | cons a l =>
      cases hl
      exact .certificateVerify hs hp (derefPtr_eq_ok.1 hc) (deref_eq_ok.1 hch) ha hhh hv hvc
  case h_12 t d f hs =>
    obtain ⟨a, rfl⟩ := ignoreEarly_shape h
    exact .earlyFailed (by simp [hs]) a
  case h_13 m orig hs =>
    rw [onFinished, Res.bind_eq_ok] at h
    obtain ⟨d, hd, h⟩ := h
    cases pure_eq_ok.1 h
    exact .finished hs hp hd
  case h_14 t d f hs => exact handleEarly_shape (.inr (.inr hs)) h
  case h_15 t d f hs =>
    rw [onEarlyEstablished, Res.bind_eq_ok] at h
    obtain ⟨ty, h1, h⟩ := h
    split_ifs at h with hc
    · rw [onAppWrite, Res.bind_eq_ok] at h
      obtain ⟨w, hw, h⟩ := h
      cases pure_eq_ok.1 h
      subst hc
      exact .earlyLate hs (deref_eq_ok.1 h1) (derefPtr_eq_ok.1 hw)
    · obtain ⟨a, rfl⟩ := ignoreEarly_shape h
      exact .earlyFailed (by simp [hs]) a
  case h_16 m orig hs => exact .ticket hs hp h
  case h_17 d hs => cases h; exact .data (.inl hs) hp
  case h_18 t d f hs =>
    rw [onAppWrite, Res.bind_eq_ok] at h
    obtain ⟨w, hw, h⟩ := h
    cases pure_eq_ok.1 h
    exact .appWrite hs (derefPtr_eq_ok.1 hw)
  case h_19 r hs =>
    rw [onKeyUpdateInitiation] at h
    simp only [Res.bind_eq_ok, check_eq_ok] at h
    obtain ⟨_, hu, enc, he, w, hw, ⟨hh, ks⟩, hk, ⟨ks', sec⟩, hn, h⟩ := h
    cases pure_eq_ok.1 h
    cases u <;> simp at hu
    exact .keyUpdateInitiation hs hp he (derefPtr_eq_ok.1 hw) hk hn
  case h_20 m orig hs =>
    rw [onKeyUpdate] at h
    simp only [Res.bind_eq_ok, check_eq_ok] at h
    obtain ⟨_, hu, ⟨hh, ks⟩, hk, ⟨ks', sec⟩, hn, h⟩ := h
    cases u <;> simp at hu
    split_ifs at h with hr
    · cases pure_eq_ok.1 h
      exact .keyUpdate hs hp hr hk hn
    · rw [answerKeyUpdate] at h
      simp only [Res.bind_eq_ok] at h
      obtain ⟨enc, he, w, hw, ⟨ks'', wr⟩, hn', h⟩ := h
      cases pure_eq_ok.1 h
      exact .keyUpdateAnswered hs hp hr hk hn he (derefPtr_eq_ok.1 hw) hn'
  case h_21 post hs =>
    rw [onCloseNotify] at h
    simp only [Res.bind_eq_ok, check_eq_ok] at h
    obtain ⟨_, hu, w, hw, h⟩ := h
    cases pure_eq_ok.1 h
    cases u <;> simp at hu
    exact .closeNotify hs hp (derefPtr_eq_ok.1 hw)
  case h_22 d hs => cases h; exact .data (.inr hs) hp
  case h_23 post hs =>
    rw [onExpectedCloseNotify] at h
    simp only [Res.bind_eq_ok, check_eq_ok] at h
    obtain ⟨_, hu, h⟩ := h
    cases pure_eq_ok.1 h
    cases u <;> simp at hu
    exact .expectedCloseNotify hs hp
  case h_24 => cases h

theorem processEvent_shape {cfg i s u p} (a : Option Bytes) (hp : Param.from i u p) :
    Shape cfg i s (p.trig a) (processEvent cfg i.inp s u p).acts := by
  unfold processEvent handleOrFault
  cases hf : i.inp.fault with
  | some f =>
    simp only
    split
    · rename_i h; cases h
    · exact .nothing
    · exact .nothing
    · rw [outcome_acts]; exact handleError_shape
  | none =>
    simp only
    split
    · rename_i h
      rw [outcome_acts]; exact handle_shape a hp h
    · exact .nothing
    · exact .nothing
    · rw [outcome_acts]; exact handleError_shape

theorem step_shape (cfg : Cfg) (i : StepIn) (s : St) (t : Trig) :
    Shape cfg i s t (step cfg i s t).acts := by
  unfold step
  split
  · unfold processSocketData
    split
    · simp only [Conn.Outcome.acts]; exact handleError_shape
    · split
      · simp only [Conn.Outcome.acts]; exact handleError_shape
      · exact .wait (by assumption)
      · rename_i hs; exact processEvent_shape (p := .sock _) none hs
  · exact processEvent_shape (p := .connect) none rfl
  · exact .nothing
  · exact processEvent_shape (p := .appWrite _ _ _) none rfl
  · exact processEvent_shape (p := .earlyAppWrite _ _ _) none rfl
  · exact processEvent_shape (p := .writeNewSessionTicket) _ rfl
  · exact processEvent_shape (p := .keyUpdateInitiation _) none rfl
  · unfold handleAppCloseImmediate
    split
    · unfold closing
      split_ifs
      · exact .nothing
      · exact handleError_shape
      · exact .closeNow (by assumption)
    · exact .closed (by assumption)
  · unfold handleAppClose
    split
    · unfold closing
      split_ifs
      · exact .nothing
      · exact handleError_shape
      · exact .close (by assumption)
    · exact .closed (by assumption)

end Fizz.ClientSM

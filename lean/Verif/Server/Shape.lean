import Verif.Server.Trace
import Mathlib.Tactic.SplitIfs

/-!
# What one run of the server state machine can do

`Shape` lists, for each entry of the handler table, the actions of a successful run and the facts
that hold then; every other run does nothing or is the error path.
-/

namespace Fizz.Server
open Fizz.Codec Fizz.Crypto
open Fizz.Conn (Trig)

/-- The ways a ClientHello is handled successfully. -/
inductive HelloShape (cfg : Cfg) (inp : Inp) (s : St) (u : Bool) (m : ClientHello) (orig : Bytes) :
    List Action → Prop where
  | fallback {b sni} : HelloShape cfg inp s u m orig [transition .error, .attemptVersionFallback b sni]
  | retry {p1 p2 group acts} :
      part1 cfg inp s u m orig = .ok (.inr p1) → part2 cfg inp s p1 = .ok p2 →
      p2.pskMode ≠ some psk_ke → negotiateGroup cfg p2.p1.hello.chlo = .ok (group, none) →
      sendRetry inp s p2 group = .ok acts → HelloShape cfg inp s u m orig acts
  | noKex {p1 p2 k f w} :
      part1 cfg inp s u m orig = .ok (.inr p1) → part2 cfg inp s p1 = .ok p2 →
      p2.pskMode = some psk_ke → noKex p2 = .ok k → buildFlight cfg inp s p2 k = .ok f →
      s.write = some w → HelloShape cfg inp s u m orig (helloActions cfg p2 f w)
  | kex {p1 p2 k f w group share} :
      part1 cfg inp s u m orig = .ok (.inr p1) → part2 cfg inp s p1 = .ok p2 →
      p2.pskMode ≠ some psk_ke → negotiateGroup cfg p2.p1.hello.chlo = .ok (group, some share) →
      doKex inp s p2 group share = .ok k → buildFlight cfg inp s p2 k = .ok f →
      s.write = some w → HelloShape cfg inp s u m orig (helloActions cfg p2 f w)

theorem derefPtr_eq_ok {α} {o : Option α} {a : α} : derefPtr o = .ok a ↔ o = some a := by
  cases o <;> simp [derefPtr]

theorem deref_eq_ok {α} {o : Option α} {a : α} : deref o = .ok a ↔ o = some a := by
  cases o <;> simp [deref]

theorem check_eq_ok {b : Bool} {m : String} {a : Option UInt8} {u : Unit} :
    check b m a = .ok u ↔ b = true := by
  cases b <;> simp [check]

theorem pure_eq_ok {α} {a b : α} : (pure a : Res α) = .ok b ↔ a = b := by
  show (Except.ok a : Res α) = _ ↔ _
  simp

theorem onClientHello_shape {cfg inp s u m orig acts}
    (h : onClientHello cfg inp s u m orig = .ok acts) : HelloShape cfg inp s u m orig acts := by
  rw [onClientHello, Res.bind_eq_ok] at h
  obtain ⟨x, hx, h⟩ := h
  rcases x with a | p1
  · cases pure_eq_ok.1 h
    rw [part1] at hx
    simp only [Res.bind_eq_ok] at hx
    obtain ⟨ck, h1, _, h2, hh, h3, _, h4, v, h5, _, h6, hx⟩ := hx
    cases v with
    | some v =>
      simp only [Res.bind_eq_ok] at hx
      obtain ⟨p, -, hx⟩ := hx
      cases pure_eq_ok.1 hx
    | none =>
      simp only [Res.bind_eq_ok] at hx
      obtain ⟨a', h7, hx⟩ := hx
      cases pure_eq_ok.1 hx
      rw [noVersion] at h7
      simp only [Res.bind_eq_ok] at h7
      obtain ⟨e, -, _, -, h7⟩ := h7
      split_ifs at h7
      rw [fallbackActions, Res.bind_eq_ok] at h7
      obtain ⟨sni, -, h7⟩ := h7
      cases pure_eq_ok.1 h7
      exact .fallback
  · simp only [Res.bind_eq_ok] at h
    obtain ⟨p2, h2, h⟩ := h
    rw [kexPart] at h
    split_ifs at h with hm
    · rw [Res.bind_eq_ok] at h
      obtain ⟨k, hk, h⟩ := h
      rw [part3, Res.bind_eq_ok] at h
      obtain ⟨f, hf, h⟩ := h
      rw [Res.bind_eq_ok] at h
      obtain ⟨w, hw, h⟩ := h
      cases pure_eq_ok.1 h
      exact .noKex hx h2 hm hk hf (derefPtr_eq_ok.1 hw)
    · rw [Res.bind_eq_ok] at h
      obtain ⟨⟨g, sh⟩, hg, h⟩ := h
      cases sh with
      | none => exact .retry hx h2 hm hg h
      | some sh =>
        simp only [Res.bind_eq_ok] at h
        obtain ⟨k, hk, h⟩ := h
        rw [part3, Res.bind_eq_ok] at h
        obtain ⟨f, hf, h⟩ := h
        rw [Res.bind_eq_ok] at h
        obtain ⟨w, hw, h⟩ := h
        cases pure_eq_ok.1 h
        exact .kex hx h2 hm hg hk hf (derefPtr_eq_ok.1 hw)

/-- What one run can do. -/
inductive Shape (cfg : Cfg) (i : StepIn) (s : St) : Trig → List Action → Prop where
  | nothing {t} : Shape cfg i s t []
  | fail {t a} : s.state ≠ .error →
      Shape cfg i s t (.mutate toError :: (alertWrites s a i.inp.alertFails ++ [.reportError a]))
  | wait : i.sock = .needData → Shape cfg i s .sock [.waitForData]
  | closeNow {w} : s.write = some w →
      Shape cfg i s (.app (.appClose true)) [.mutate toClosed, .write none [alertContent w 0] 0]
  | close {w} : s.write = some w →
      Shape cfg i s (.app (.appClose false))
        [.mutate toExpectingCloseNotify, .write none [alertContent w 0] 0]
  | closed {b} : s.write = none → Shape cfg i s (.app (.appClose b)) [.mutate toClosed]
  | accept : s.state = .uninitialized → Shape cfg i s .accept onAccept
  | v2 : Shape cfg i s .v2 [transition .error, .attemptVersionFallback i.v2 none]
  | hello {m orig u acts} : s.state = .expectingClientHello →
      i.sock = .event (.handshake (.clientHello m) orig) u →
      HelloShape cfg i.inp s u m orig acts → Shape cfg i s .sock acts
  | earlyData {d u} : s.state = .acceptingEarlyData → i.sock = .event (.appData d) u →
      Shape cfg i s .sock [.deliver d]
  | data {d u} : s.state = .acceptingData → i.sock = .event (.appData d) u →
      Shape cfg i s .sock [.deliver d]
  | appWrite {tok d f w} :
      s.state = .acceptingEarlyData ∨ s.state = .expectingFinished ∨ s.state = .acceptingData →
      s.write = some w → Shape cfg i s (.app (.appWrite tok d f)) [.write tok [content w 23 d] f]
  | endOfEarlyData {orig ctx} : s.state = .acceptingEarlyData →
      i.sock = .event (.handshake .endOfEarlyData orig) false → s.hs = some ctx →
      Shape cfg i s .sock [.mutate (saveEoed orig), transition .expectingFinished]
  | noCertificate {m orig u ctx} : s.state = .expectingCertificate →
      i.sock = .event (.handshake (.certificate m) orig) u → s.hs = some ctx →
      m.certificate_list = [] → cfg.clientAuthMode = .optional →
      Shape cfg i s .sock [.mutate (saveChain orig none), transition .expectingFinished]
  | certificate {m orig u ctx chain} : s.state = .expectingCertificate →
      i.sock = .event (.handshake (.certificate m) orig) u → s.hs = some ctx →
      m.certificate_request_context = [] →
      readChain i.inp s.certReqExtensions true m.certificate_list = .ok chain → chain ≠ [] →
      Shape cfg i s .sock [.mutate (saveChain orig (some chain)), transition .expectingCertificateVerify]
  | certificateVerify {m orig u ctx leaf chain cert h} : s.state = .expectingCertificateVerify →
      i.sock = .event (.handshake (.certificateVerify m) orig) u → s.hs = some ctx →
      s.unverifiedCertChain = some (leaf :: chain) → m.algorithm ∈ cfg.supportedSigSchemes →
      cfg.hashOf ctx.cipher = .ok h →
      i.inp.verifySig leaf m.algorithm (transcriptHash h ctx) m.signature = .ok () →
      verifiedCert cfg i.inp leaf (leaf :: chain) = .ok cert →
      Shape cfg i s .sock [.mutate (saveClientCert orig cert), transition .expectingFinished]
  | finished {m orig ctx secret h hc ks ks' cipher version read rms nst} :
      s.state = .expectingFinished →
      i.sock = .event (.handshake (.finished m) orig) false → s.hs = some ctx →
      s.clientHandshakeSecret = some secret → cfg.hashOf ctx.cipher = .ok h →
      finishedData h ctx secret = .ok m.verify_data →
      s.version = some version → s.ks = some ks → s.cipher = some cipher → cfg.hashOf cipher = .ok hc →
      ksSecret (KS.getApp ks .clientAppTraffic) = .ok read →
      ksSecret (KS.getMaster hc ks .resumptionMaster (transcriptHash h (ctx.append orig))) = .ok rms →
      ksState (KS.clearMasterSecret ks) = .ok ks' →
      finishedTicket cfg i.inp s rms = .ok nst →
      Shape cfg i s .sock (finishedActions cfg read rms ks' nst)
  | ticket {tok acts} : s.state = .acceptingData →
      generateTicket cfg i.inp s s.resumptionMasterSecret tok = .ok acts →
      Shape cfg i s (.app (.newSessionTicket tok)) acts
  | keyUpdateInitiation {r enc w h ks ks' secret} : s.state = .acceptingData → i.unparsed = false →
      encodeHandshake (.keyUpdate ⟨r⟩) = .ok enc → s.write = some w →
      schedule cfg s = .ok (h, ks) → nextWrite h ks = .ok (ks', secret) →
      Shape cfg i s (.app (.keyUpdate r)) [.mutate (saveWrite ks' secret),
        .secretAvailable .serverAppTraffic secret, .write none [content w 22 enc] 0]
  | keyUpdate {m orig h ks ks' secret} : s.state = .acceptingData →
      i.sock = .event (.handshake (.keyUpdate m) orig) false → m.request_update = 0 →
      schedule cfg s = .ok (h, ks) → nextRead h ks = .ok (ks', secret) →
      Shape cfg i s .sock [.mutate (saveRead ks' secret), .secretAvailable .clientAppTraffic secret]
  | keyUpdateAnswered {m orig h ks ks' ks'' enc w read write} : s.state = .acceptingData →
      i.sock = .event (.handshake (.keyUpdate m) orig) false → m.request_update ≠ 0 →
      schedule cfg s = .ok (h, ks) → nextRead h ks = .ok (ks', read) →
      encodeHandshake (.keyUpdate ⟨0⟩) = .ok enc → s.write = some w →
      nextWrite h ks' = .ok (ks'', write) →
      Shape cfg i s .sock [.mutate (saveBoth ks'' read write), .secretAvailable .serverAppTraffic write,
        .secretAvailable .clientAppTraffic read, .write none [content w 22 enc] 0]
  | closeNotify {post w} : s.state = .acceptingData → i.sock = .event (.closeNotify post) false →
      s.write = some w →
      Shape cfg i s .sock [.write none [alertContent w 0] 0, .mutate clearLayers, transition .closed,
        .endOfData post]
  | expectedCloseNotify {post} : s.state = .expectingCloseNotify →
      i.sock = .event (.closeNotify post) false →
      Shape cfg i s .sock [.mutate clearLayers, transition .closed, .endOfData post]

theorem outcome_acts (inp : Inp) (a : List Action) : (outcome inp a).acts = a := by
  unfold outcome; split_ifs <;> rfl

theorem handleError_shape {cfg i s t} {a : Option UInt8} :
    Shape cfg i s t (handleError s a i.inp.alertFails) := by
  by_cases h : s.state = .error
  · rw [handleError, if_pos h]; exact .nothing
  · rw [handleError, if_neg h]; exact .fail h

/-- The trigger of an event. -/
def Param.trig : Param → Trig
  | .accept => .accept
  | .sock _ => .sock
  | .appWrite t d f => .app (.appWrite t d f)
  | .earlyAppWrite t d f => .app (.earlyAppWrite t d f)
  | .writeNewSessionTicket a => .app (.newSessionTicket a)
  | .keyUpdateInitiation r => .app (.keyUpdate r)

/-- The event is the one the step contributes. -/
def Param.from (i : StepIn) (u : Bool) : Param → Prop
  | .sock e => i.sock = .event e u
  | _ => i.unparsed = u

theorem handle_shape {cfg i s u p acts} (hp : Param.from i u p)
    (h : handle cfg i.inp s u p = .ok acts) : Shape cfg i s p.trig acts := by
  unfold handle at h
  split at h
  case h_1 hs => cases h; exact .accept hs
  case h_2 m orig hs => exact .hello hs hp (onClientHello_shape h)
  case h_3 d hs => cases h; exact .earlyData hs hp
  case h_4 t d f hs =>
    rw [onAppWrite, Res.bind_eq_ok] at h
    obtain ⟨w, hw, h⟩ := h
    cases pure_eq_ok.1 h
    exact .appWrite (.inl hs) (derefPtr_eq_ok.1 hw)
  case h_5 orig hs =>
    rw [onEndOfEarlyData] at h
    simp only [Res.bind_eq_ok, check_eq_ok] at h
    obtain ⟨_, hu, ctx, hc, h⟩ := h
    cases pure_eq_ok.1 h
    cases u <;> simp at hu
    exact .endOfEarlyData hs hp (derefPtr_eq_ok.1 hc)
  case h_6 m orig hs =>
    rw [onCertificate] at h
    simp only [Res.bind_eq_ok, check_eq_ok] at h
    obtain ⟨ctx, hc, _, he, chain, hch, h⟩ := h
    split_ifs at h with h1 h2
    · cases pure_eq_ok.1 h
      simp only [List.isEmpty_iff] at h1
      subst h1
      refine .noCertificate hs hp (derefPtr_eq_ok.1 hc) ?_ h2
      cases hl : m.certificate_list with
      | nil => rfl
      | cons a l =>
        rw [hl, readChain] at hch
        simp only [Res.bind_eq_ok] at hch
        obtain ⟨_, -, c, -, cs, -, hch⟩ := hch
        cases pure_eq_ok.1 hch
    · cases pure_eq_ok.1 h
      refine .certificate hs hp (derefPtr_eq_ok.1 hc) (by simpa using he) hch ?_
      simpa using h1
  case h_7 m orig hs =>
    rw [onCertificateVerify] at h
    simp only [Res.bind_eq_ok, check_eq_ok, decide_eq_true_eq] at h
    obtain ⟨_, ha, chain, hch, leaf, hl, ctx, hc, hh, hhh, _, hv, cert, hvc, h⟩ := h
    cases pure_eq_ok.1 h
    cases chain with
    | nil => cases hl
    | cons a l =>
      cases hl
      exact .certificateVerify hs hp (derefPtr_eq_ok.1 hc) (deref_eq_ok.1 hch) ha hhh hv hvc
  case h_8 t d f hs =>
    rw [onAppWrite, Res.bind_eq_ok] at h
    obtain ⟨w, hw, h⟩ := h
    cases pure_eq_ok.1 h
    exact .appWrite (.inr (.inl hs)) (derefPtr_eq_ok.1 hw)
  case h_9 m orig hs =>
    rw [onFinished] at h
    simp only [Res.bind_eq_ok, check_eq_ok, decide_eq_true_eq] at h
    obtain ⟨ctx, hc, sec, hsec, hh, h1, ex, h2, _, h3, _, h4, v, h5, ks, h6, ci, h7, hc', h8, rd, h9,
      rms, h10, ks', h11, nst, h12, h⟩ := h
    cases pure_eq_ok.1 h
    cases u <;> simp at h4
    subst h3
    exact .finished hs hp (derefPtr_eq_ok.1 hc) (deref_eq_ok.1 hsec) h1 h2 (deref_eq_ok.1 h5)
      (derefPtr_eq_ok.1 h6) (deref_eq_ok.1 h7) h8 h9 h10 h11 h12
  case h_10 a hs => exact .ticket hs h
  case h_11 d hs => cases h; exact .data hs hp
  case h_12 t d f hs =>
    rw [onAppWrite, Res.bind_eq_ok] at h
    obtain ⟨w, hw, h⟩ := h
    cases pure_eq_ok.1 h
    exact .appWrite (.inr (.inr hs)) (derefPtr_eq_ok.1 hw)
  case h_13 r hs =>
    rw [onKeyUpdateInitiation] at h
    simp only [Res.bind_eq_ok, check_eq_ok] at h
    obtain ⟨_, hu, enc, he, w, hw, ⟨hh, ks⟩, hk, ⟨ks', sec⟩, hn, h⟩ := h
    cases pure_eq_ok.1 h
    cases u <;> simp at hu
    exact .keyUpdateInitiation hs hp he (derefPtr_eq_ok.1 hw) hk hn
  case h_14 m orig hs =>
    rw [onKeyUpdate] at h
    simp only [Res.bind_eq_ok, check_eq_ok] at h
    obtain ⟨_, hu, ⟨hh, ks⟩, hk, ⟨ks', sec⟩, hn, h⟩ := h
    cases u <;> simp at hu
    split_ifs at h with hr
    · cases pure_eq_ok.1 h
      exact .keyUpdate hs hp hr hk hn
    · rw [answerKeyUpdate] at h
      simp only [Res.bind_eq_ok] at h
      obtain ⟨enc, he, w, hw, ⟨ks'', wr⟩, hn', h⟩ := h
      cases pure_eq_ok.1 h
      exact .keyUpdateAnswered hs hp hr hk hn he (derefPtr_eq_ok.1 hw) hn'
  case h_15 post hs =>
    rw [onCloseNotify] at h
    simp only [Res.bind_eq_ok, check_eq_ok] at h
    obtain ⟨_, hu, w, hw, h⟩ := h
    cases pure_eq_ok.1 h
    cases u <;> simp at hu
    exact .closeNotify hs hp (derefPtr_eq_ok.1 hw)
  case h_16 post hs =>
    rw [onExpectedCloseNotify] at h
    simp only [Res.bind_eq_ok, check_eq_ok] at h
    obtain ⟨_, hu, h⟩ := h
    cases pure_eq_ok.1 h
    cases u <;> simp at hu
    exact .expectedCloseNotify hs hp
  case h_17 => cases h

theorem processEvent_shape {cfg i s u p} (hp : Param.from i u p) :
    Shape cfg i s p.trig (processEvent cfg i.inp s u p).acts := by
  unfold processEvent handleOrFault
  cases hf : i.inp.fault with
  | some f =>
    simp only
    split
    · rename_i h; cases h
    · exact .nothing
    · exact .nothing
    · rw [outcome_acts]; exact handleError_shape
  | none =>
    simp only
    split
    · rename_i h
      rw [outcome_acts]; exact handle_shape hp h
    · exact .nothing
    · exact .nothing
    · rw [outcome_acts]; exact handleError_shape

theorem step_shape (cfg : Cfg) (i : StepIn) (s : St) (t : Trig) :
    Shape cfg i s t (step cfg i s t).acts := by
  unfold step
  split
  · unfold processSocketData
    split
    · simp only [Conn.Outcome.acts]; exact handleError_shape
    · split
      · simp only [Conn.Outcome.acts]; exact handleError_shape
      · exact .wait (by assumption)
      · rename_i hs; exact processEvent_shape (p := .sock _) hs
  · exact processEvent_shape (p := .accept) rfl
  · exact .v2
  · exact processEvent_shape (p := .appWrite _ _ _) rfl
  · exact processEvent_shape (p := .earlyAppWrite _ _ _) rfl
  · exact processEvent_shape (p := .writeNewSessionTicket _) rfl
  · exact processEvent_shape (p := .keyUpdateInitiation _) rfl
  · unfold handleAppCloseImmediate
    split
    · split_ifs
      · exact .nothing
      · exact .closeNow (by assumption)
    · exact .closed (by assumption)
  · unfold handleAppClose
    split
    · split_ifs
      · exact .nothing
      · exact .close (by assumption)
    · exact .closed (by assumption)

end Fizz.Server

import Verif.Channel.Server
import Verif.ClientSM.Props5

/-!
# The client's application traffic (C78)
-/

namespace Fizz.ClientSM
open Fizz.Channel Fizz.Codec Fizz.Record
open Fizz.Server (Level RLayer WLayer Content SockIn content alertContent derefPtr_eq_ok deref_eq_ok pure_eq_ok
  frame_body frame_update)
open Fizz.Conn (Trig)

/-- No application keys yet. -/
def fresh (s : St) : Bool :=
  s.state = .uninitialized || s.state = .expectingServerHello || s.state = .expectingEncryptedExtensions ||
    s.state = .expectingCertificate || s.state = .expectingCertificateVerify || s.state = .expectingFinished

theorem fresh_of {s : St} {e} (h : s.state = e) : fresh s = (e = .uninitialized || e = .expectingServerHello ||
    e = .expectingEncryptedExtensions || e = .expectingCertificate || e = .expectingCertificateVerify ||
    e = .expectingFinished) := by
  subst h; rfl

theorem young {cfg : Cfg} {h p} (hi : Inv cfg h p) (hf : fresh p = true) :
    RLayer.key .appTraffic p.read = none ∧ WLayer.key .appTraffic p.write = none := by
  unfold fresh at hf
  simp only [Bool.or_eq_true, decide_eq_true_eq] at hf
  have hm : midState p.state → RLayer.key .appTraffic p.read = none ∧ WLayer.key .appTraffic p.write = none := by
    intro hm
    obtain ⟨g, hg⟩ := hi.mid hm
    rw [hg.read, hg.write]; exact ⟨rfl, rfl⟩
  rcases hf with ((((hf | hf) | hf) | hf) | hf) | hf
  · rw [(hi.uninit hf).state]; exact ⟨rfl, rfl⟩
  · obtain ⟨_, _, _, hb⟩ := hi.before hf
    rw [hb.read, hb.write]; exact ⟨rfl, rfl⟩
  · exact hm (.inl hf)
  · exact hm (.inr (.inl hf))
  · exact hm (.inr (.inr (.inl hf)))
  · exact hm (.inr (.inr (.inr hf)))

theorem early_level {cfg o1 b s} (h : EarlyInv cfg o1 b s) {w} (hw : s.earlyWrite = some w) : w.level = .earlyData := by
  rw [h.write] at hw
  split_ifs at hw
  cases hk : Spec.earlySecret cfg o1 .clientEarlyTraffic with
  | none => rw [hk] at hw; cases hw
  | some k => rw [hk] at hw; cases Option.some.inj hw; rfl

theorem early_level' {cfg : Cfg} {h p} (hi : Inv cfg h p) (hs : p.state = .expectingServerHello ∨
    p.state = .expectingEncryptedExtensions ∨ p.state = .expectingFinished) {w} (hw : p.earlyWrite = some w) :
    w.level = .earlyData := by
  rcases hs with hs | hs | hs
  · obtain ⟨_, _, _, hb⟩ := hi.before hs
    exact early_level hb.early hw
  · obtain ⟨g, hg⟩ := hi.mid (.inl hs)
    exact early_level hg.early hw
  · obtain ⟨g, hg⟩ := hi.mid (.inr (.inr (.inr hs)))
    exact early_level hg.early hw

theorem fail_view {t i} {s s' : St} {a b} :
    Spec.announced ⟨t, i, s, .mutate toError :: (alertWrites s a b ++ [.reportError a])⟩ = [] ∧
    (Spec.contents ⟨t, i, s, .mutate toError :: (alertWrites s a b ++ [.reportError a])⟩ = [] ∨
      ∃ w d, s.write = some w ∧
        Spec.contents ⟨t, i, s, .mutate toError :: (alertWrites s a b ++ [.reportError a])⟩ = [alertContent w d]) ∧
    applyAll (.mutate toError :: (alertWrites s a b ++ [.reportError a])) s' = toError s' := by
  unfold Spec.announced Spec.contents Spec.writes applyAll alertWrites
  dsimp only
  split
  · split
    · exact ⟨rfl, .inl rfl, rfl⟩
    · rename_i w hw _
      exact ⟨rfl, .inr ⟨w, _, hw, rfl⟩, rfl⟩
  · exact ⟨rfl, .inl rfl, rfl⟩

/-- Nothing is written with an application key. -/
def NoApp (cs : List Content) : Prop := ∀ c ∈ cs, c.layer.level ≠ .appTraffic ∧ c.type ≠ 23

theorem noApp_sent {cs : List Content} (h : ∀ c ∈ cs, c.layer.level ≠ Level.appTraffic) : cs.flatMap (atLevel .appTraffic) = [] := by
  rw [List.flatMap_eq_nil_iff]
  intro c hc
  unfold atLevel
  rw [if_neg (h c hc)]

theorem flight_view {cfg : Cfg} {inp s u m orig d g h} (hm : Mid cfg h g s)
    (hd : processFinished cfg inp s u m orig = .ok d) : NoApp d.flight := by
  unfold processFinished at hd
  simp only [Res.bind_eq_ok] at hd
  obtain ⟨_, -, _, -, _, -, _, -, _, -, _, -, ⟨all, fl, cert⟩, h2, _, -, _, -, _, -, _, -, ⟨_, _, _, _, _⟩, -, hd⟩ := hd
  cases pure_eq_ok.1 hd
  unfold secondFlight at h2
  simp only [Res.bind_eq_ok] at h2
  obtain ⟨⟨ctx, eoed⟩, h3, _, -, _, -, _, -, _, -, _, -, w, h4, h2⟩ := h2
  cases pure_eq_ok.1 h2
  have hw := derefPtr_eq_ok.1 h4
  rw [hm.write] at hw
  cases Option.some.inj hw
  intro c hc
  simp only [List.mem_append, List.mem_singleton] at hc
  rcases hc with hc | hc | rfl
  · rw [firstCcs_ccs c hc]; exact ⟨by decide, by decide⟩
  · unfold endEarly at h3
    split_ifs at h3
    · simp only [Res.bind_eq_ok] at h3
      obtain ⟨_, -, w', h5, h3⟩ := h3
      cases pure_eq_ok.1 h3
      rw [List.mem_singleton.1 hc]
      exact ⟨by show w'.level ≠ _; rw [early_level hm.early (derefPtr_eq_ok.1 h5)]; decide, (by decide : (22 : UInt8) ≠ 23)⟩
    · cases h3; cases hc
  · exact ⟨(by decide : Level.handshake ≠ .appTraffic), (by decide : (22 : UInt8) ≠ 23)⟩

/-- The end of the handshake. -/
theorem finished_view {cfg : Cfg} {i : StepIn} {p : St} {u m orig d g h} (hm : Mid cfg h g p) (hst : p.state = .expectingFinished)
    (hd : processFinished cfg i.inp p u m orig = .ok d) {A}
    (hA : A = [.mutate (saveFinished cfg d), transition .established,
        .secretAvailable .serverAppTraffic d.read, .secretAvailable .clientAppTraffic d.write,
        .secretAvailable .exporterMaster d.exporter, .secretAvailable .resumptionMaster d.resumption,
        .write none d.flight 0] ++ finalReport i.inp p) :
    Spec.announced ⟨.sock, i, p, A⟩ = [(.serverAppTraffic, d.read), (.clientAppTraffic, d.write),
      (.exporterMaster, d.exporter), (.resumptionMaster, d.resumption)] ∧
    NoApp (Spec.contents ⟨.sock, i, p, A⟩) ∧
    Spec.delivered ⟨.sock, i, p, A⟩ = [] ∧ (∀ b, .endOfData b ∉ A) ∧
    fresh (applyAll A p) = false ∧
    (RLayer.key .appTraffic (applyAll A p).read = some d.read ∧ WLayer.key .appTraffic (applyAll A p).write = some d.write ∨
      RLayer.key .appTraffic (applyAll A p).read = none ∧ WLayer.key .appTraffic (applyAll A p).write = none) := by
  subst hA
  have hfl := flight_view hm hd
  by_cases hr : echRejected p
  · rw [finalReport, if_pos hr, handleError, if_neg (by rw [hst]; simp)]
    have hpost : applyAll ([.mutate (saveFinished cfg d), transition .established,
        .secretAvailable .serverAppTraffic d.read, .secretAvailable .clientAppTraffic d.write,
        .secretAvailable .exporterMaster d.exporter, .secretAvailable .resumptionMaster d.resumption,
        .write none d.flight 0] ++ .mutate toError :: (alertWrites p (some 121) i.inp.alertFails ++ [.reportError (some 121)])) p =
          toError { saveFinished cfg d p with state := .established } := by
      unfold alertWrites applyAll
      repeat' split
      all_goals rfl
    rw [hpost]
    unfold alertWrites
    rw [hm.write]
    dsimp only
    split
    · refine ⟨rfl, ?_, rfl, by simp [transition], rfl, .inr ⟨rfl, rfl⟩⟩
      intro c hc
      simp [Spec.contents, Spec.writes, transition] at hc
      exact hfl c hc
    · refine ⟨rfl, ?_, rfl, by simp [transition], rfl, .inr ⟨rfl, rfl⟩⟩
      intro c hc
      simp [Spec.contents, Spec.writes, transition] at hc
      rcases hc with hc | rfl
      · exact hfl c hc
      · exact ⟨(by decide : Level.handshake ≠ .appTraffic), (by decide : (21 : UInt8) ≠ 23)⟩
  · rw [finalReport, if_neg hr]
    refine ⟨rfl, ?_, rfl, by simp [transition], rfl, .inl ⟨rfl, rfl⟩⟩
    intro c hc
    simp [Spec.contents, Spec.writes, transition] at hc
    exact hfl c hc

theorem connect_view {cfg : Cfg} {c i p} :
    ((Spec.announced ⟨.accept, i, p, connectActions cfg c⟩).filter (·.1 = .clientAppTraffic)).map (·.2) = [] ∧
    ((Spec.announced ⟨.accept, i, p, connectActions cfg c⟩).filter (·.1 = .serverAppTraffic)).map (·.2) = [] ∧
    NoApp (Spec.contents ⟨.accept, i, p, connectActions cfg c⟩) ∧ fresh (applyAll (connectActions cfg c) p) = true ∧
    (∀ d, .deliver d ∉ connectActions cfg c) ∧ (∀ b, .endOfData b ∉ connectActions cfg c) ∧
    terminal (applyAll (connectActions cfg c) p) = false := by
  have hc : ∀ e, NoApp [content ⟨.plaintext, []⟩ 22 e] := by
    intro e c hc
    rw [List.mem_singleton.1 hc]
    exact ⟨(by decide : Level.plaintext ≠ .appTraffic), (by decide : (22 : UInt8) ≠ 23)⟩
  unfold connectActions
  dsimp only
  split
  · exact ⟨rfl, rfl, hc _, rfl, by simp [transition], by simp [transition], rfl⟩
  · exact ⟨rfl, rfl, hc _, rfl, by simp [transition], by simp [transition], rfl⟩

theorem retry_contents {cfg s e} {w : WLayer} (hw : w.level ≠ .appTraffic) : NoApp (firstCcs cfg s ++ [content w 22 e]) := by
  intro c hc
  rcases List.mem_append.1 hc with hc | hc
  · rw [firstCcs_ccs c hc]; exact ⟨by decide, by decide⟩
  · rw [List.mem_singleton.1 hc]; exact ⟨hw, (by decide : (22 : UInt8) ≠ 23)⟩

theorem step_sends {cfg : Cfg} (hok : ∀ c a, cfg.hashOf c = .ok a → a.Ok) {x : Step} {h s}
    (hr : Run cfg (x :: h) s) :
    Sends (fresh x.pre) (WLayer.key .appTraffic x.pre.write)
      (((Spec.announced x).filter (·.1 = .clientAppTraffic)).map (·.2))
      ((Spec.contents x).flatMap (atLevel .appTraffic)) (fresh s) (WLayer.key .appTraffic s.write) := by
  obtain ⟨r1, r2, r3, -⟩ := hr.split (newer := [])
  have := r2.det hr
  subst this
  have hi := run_inv hok r1
  have hi' := run_inv hok r2
  obtain ⟨T, i, p, A⟩ := x
  simp only at *
  show Sends _ _ _ _ (fresh (applyAll A p)) (WLayer.key _ (applyAll A p).write)
  change Inv cfg _ (applyAll A p) at hi'
  have hsame : ∀ {B : List Action}, fresh p = true → fresh (applyAll B p) = true →
      Inv cfg (⟨T, i, p, B⟩ :: h) (applyAll B p) →
      ((Spec.announced ⟨T, i, p, B⟩).filter (·.1 = .clientAppTraffic)).map (·.2) = [] →
      (∀ c ∈ Spec.contents ⟨T, i, p, B⟩, c.layer.level ≠ .appTraffic) →
      Sends (fresh p) (WLayer.key .appTraffic p.write)
      (((Spec.announced ⟨T, i, p, B⟩).filter (·.1 = .clientAppTraffic)).map (·.2))
      ((Spec.contents ⟨T, i, p, B⟩).flatMap (atLevel .appTraffic))
      (fresh (applyAll B p)) (WLayer.key .appTraffic (applyAll B p).write) := by
    intro B h1 h2 h3 h4 h5
    rw [(young hi h1).2, (young h3 h2).2, h4, h1, noApp_sent h5]
    exact .idle (fun _ => rfl) (.inl rfl)
  have hnil : ∀ {L : List Content}, L = [] → ∀ c ∈ L, c.layer.level ≠ .appTraffic := by
    intro L hL c hc; rw [hL] at hc; cases hc
  cases r3 with
  | nothing => exact .idle id (.inl rfl)
  | @fail _ a b _ =>
    obtain ⟨h1, h2, h3⟩ := fail_view (t := T) (i := i) (s := p) (s' := p) (a := a) (b := b)
    rw [h3, h1]
    rcases h2 with h2 | ⟨w, d, hw, h2⟩
    · rw [h2]; exact .idle (by intro h; cases h) (.inr rfl)
    · rw [h2, hw]; exact sends_alert (by intro h; cases h)
  | report => exact .idle id (.inl rfl)
  | wait => exact .idle id (.inl rfl)
  | closeNow hw => rw [hw]; exact sends_alert (by intro h; cases h)
  | close hw => rw [hw]; exact sends_alert (by intro h; cases h)
  | closed => exact .idle (by intro h; cases h) (.inr rfl)
  | connect hs =>
    obtain ⟨h1, -, h3, h4, -⟩ := connect_view (cfg := cfg) (i := i) (p := p)
    exact hsame (by rw [fresh_of hs]; rfl) h4 hi' h1 fun c hc => (h3 c hc).1
  | @retry _ _ _ r w hs _ _ hw =>
    have hy := (young hi (by rw [fresh_of hs]; rfl)).2
    rw [hw, wkey_some] at hy
    have hl : w.level ≠ .appTraffic := by
      intro hl; rw [if_pos hl] at hy; cases hy
    refine hsame (by rw [fresh_of hs]; rfl) rfl hi' rfl ?_
    intro c hc
    refine (retry_contents hl (cfg := cfg) (s := p) (e := r.encoded) c ?_).1
    simpa [Spec.contents, Spec.writes, transition] using hc
  | serverHello hs => exact hsame (by rw [fresh_of hs]; rfl) rfl hi' rfl (hnil rfl)
  | earlyFailed => exact .idle id (.inl rfl)
  | @earlyFirst t d f w hs _ _ hw =>
    have hl := early_level' hi hs hw
    have hf : fresh p = true := by rcases hs with hs | hs | hs <;> (rw [fresh_of hs]; rfl)
    refine hsame hf hf hi' rfl ?_
    intro c hc
    simp only [Spec.contents, Spec.writes, List.flatMap_cons, List.flatMap_nil, List.nil_append, List.append_nil,
      List.mem_cons, List.not_mem_nil, or_false] at hc
    rcases hc with rfl | rfl
    · decide
    · show w.level ≠ _; rw [hl]; decide
  | @earlyWrite t d f w hs _ _ hw =>
    have hl := early_level' hi hs hw
    have hf : fresh p = true := by rcases hs with hs | hs | hs <;> (rw [fresh_of hs]; rfl)
    refine hsame hf hf hi' rfl ?_
    intro c hc
    simp only [Spec.contents, Spec.writes, List.flatMap_cons, List.flatMap_nil, List.append_nil,
      List.mem_cons, List.not_mem_nil, or_false] at hc
    rw [hc]
    show w.level ≠ _; rw [hl]; decide
  | earlyLate _ _ hw => rw [hw]; exact sends_body id (body_data _) (.inl (by rw [← hw]; rfl))
  | @encryptedExtensions _ _ _ _ _ _ _ retry t hs =>
    refine hsame (by rw [fresh_of hs]; rfl) ?_ hi' ?_ (hnil ?_)
    · cases retry <;> cases t <;> rfl
    · cases retry <;> rfl
    · cases retry <;> rfl
  | certificateRequest hs => exact hsame (by rw [fresh_of hs]; rfl) rfl hi' rfl (hnil rfl)
  | certificate hs => exact hsame (by rw [fresh_of hs]; rfl) rfl hi' rfl (hnil rfl)
  | compressedCertificate hs => exact hsame (by rw [fresh_of hs]; rfl) rfl hi' rfl (hnil rfl)
  | certificateVerify hs => exact hsame (by rw [fresh_of hs]; rfl) rfl hi' rfl (hnil rfl)
  | @finished m orig u d hs _ hd =>
    obtain ⟨g, hg⟩ := hi.mid (.inr (.inr (.inr hs)))
    obtain ⟨e1, e2, -, -, e5, e6⟩ := finished_view hg hs hd rfl
    rw [e1, e5, noApp_sent fun c hc => (e2 c hc).1, fresh_of hs]
    refine .first ?_
    rcases e6 with e6 | e6
    · exact .inl e6.2
    · exact .inr e6.2
  | ticket hs _ ha =>
    obtain ⟨psk, rfl⟩ := ticket_shape ha
    exact .idle id (.inl rfl)
  | data => exact .idle id (.inl rfl)
  | appWrite _ hw => rw [hw]; exact sends_body id (body_data _) (.inl (by rw [← hw]; rfl))
  | keyUpdateInitiation h1 h2 h3 h4 h5 h6 =>
    obtain ⟨g, th, e, hg⟩ := hi.live h1
    have hw := hg.write
    rw [h4] at hw
    cases Option.some.inj hw
    rw [h4]
    have hf : fresh p = false := by rw [fresh_of h1]; rfl
    show Sends (fresh p) _ _ _ (fresh p) _
    rw [hf]
    exact .update (frame_update h3)
  | keyUpdate => exact .idle id (.inl rfl)
  | @keyUpdateAnswered m o ha ks ks' ks'' enc w read write h1 h2 h3 h4 h5 h6 h7 h8 =>
    obtain ⟨g, th, e, hg⟩ := hi.live h1
    have hw := hg.write
    rw [h7] at hw
    cases Option.some.inj hw
    rw [h7]
    have hf : fresh p = false := by rw [fresh_of h1]; rfl
    show Sends (fresh p) _ _ _ (fresh p) _
    rw [hf]
    exact .update (frame_update h6)
  | closeNotify _ _ hw => rw [hw]; exact sends_alert (by intro h; cases h)
  | expectedCloseNotify => exact .idle (by intro h; cases h) (.inr rfl)

theorem step_hears {cfg : Cfg} (hok : ∀ c a, cfg.hashOf c = .ok a → a.Ok) {x : Step} {h s}
    (hr : Run cfg (x :: h) s) :
    Hears (fresh x.pre) (RLayer.key .appTraffic x.pre.read)
      (((Spec.announced x).filter (·.1 = .serverAppTraffic)).map (·.2))
      (under (RLayer.key .appTraffic x.pre.read) (message x.trig x.env.sock x.acts.isEmpty))
      (fresh s) (RLayer.key .appTraffic s.read) := by
  obtain ⟨r1, r2, r3, -⟩ := hr.split (newer := [])
  have := r2.det hr
  subst this
  have hi := run_inv hok r1
  have hi' := run_inv hok r2
  obtain ⟨T, i, p, A⟩ := x
  simp only at *
  show Hears _ _ _ _ (fresh (applyAll A p)) (RLayer.key _ (applyAll A p).read)
  change Inv cfg _ (applyAll A p) at hi'
  have hsame : ∀ {B : List Action}, fresh p = true → fresh (applyAll B p) = true →
      Inv cfg (⟨T, i, p, B⟩ :: h) (applyAll B p) →
      ((Spec.announced ⟨T, i, p, B⟩).filter (·.1 = .serverAppTraffic)).map (·.2) = [] →
      Hears (fresh p) (RLayer.key .appTraffic p.read)
      (((Spec.announced ⟨T, i, p, B⟩).filter (·.1 = .serverAppTraffic)).map (·.2))
      (under (RLayer.key .appTraffic p.read) (message T i.sock B.isEmpty))
      (fresh (applyAll B p)) (RLayer.key .appTraffic (applyAll B p).read) := by
    intro B h1 h2 h3 h4
    rw [(young hi h1).1, (young h3 h2).1, h4, h1]
    exact .idle (fun _ => rfl) (.inl rfl)
  cases r3 with
  | nothing => exact hears_any id (.inl rfl)
  | @fail _ a b _ =>
    obtain ⟨h1, h2, h3⟩ := fail_view (t := T) (i := i) (s := p) (s' := p) (a := a) (b := b)
    rw [h3, h1]
    exact hears_any (by intro h; cases h) (.inr rfl)
  | report => exact hears_any id (.inl rfl)
  | wait => exact hears_any id (.inl rfl)
  | closeNow hw => exact hears_any (by intro h; cases h) (.inr rfl)
  | close hw => exact hears_any (by intro h; cases h) (.inl rfl)
  | closed => exact hears_any (by intro h; cases h) (.inr rfl)
  | connect hs =>
    obtain ⟨-, h1, -, h4, -⟩ := connect_view (cfg := cfg) (i := i) (p := p)
    exact hsame (by rw [fresh_of hs]; rfl) h4 hi' h1
  | retry hs => exact hsame (by rw [fresh_of hs]; rfl) rfl hi' rfl
  | serverHello hs => exact hsame (by rw [fresh_of hs]; rfl) rfl hi' rfl
  | earlyFailed => exact hears_any id (.inl rfl)
  | earlyFirst => exact hears_any id (.inl rfl)
  | earlyWrite => exact hears_any id (.inl rfl)
  | earlyLate => exact hears_any id (.inl rfl)
  | @encryptedExtensions _ _ _ _ _ _ _ retry t hs =>
    refine hsame (by rw [fresh_of hs]; rfl) ?_ hi' ?_
    · cases retry <;> cases t <;> rfl
    · cases retry <;> rfl
  | certificateRequest hs => exact hsame (by rw [fresh_of hs]; rfl) rfl hi' rfl
  | certificate hs => exact hsame (by rw [fresh_of hs]; rfl) rfl hi' rfl
  | compressedCertificate hs => exact hsame (by rw [fresh_of hs]; rfl) rfl hi' rfl
  | certificateVerify hs => exact hsame (by rw [fresh_of hs]; rfl) rfl hi' rfl
  | @finished m orig u d hs _ hd =>
    obtain ⟨g, hg⟩ := hi.mid (.inr (.inr (.inr hs)))
    obtain ⟨e1, -, -, -, e5, e6⟩ := finished_view hg hs hd rfl
    rw [e1, e5, (young hi (by rw [fresh_of hs]; rfl)).1, fresh_of hs]
    refine .first ?_
    rcases e6 with e6 | e6
    · exact .inl e6.1
    · exact .inr e6.1
  | ticket hs _ ha =>
    obtain ⟨psk, rfl⟩ := ticket_shape ha
    exact hears_any id (.inl rfl)
  | data => exact hears_any id (.inl rfl)
  | appWrite _ hw => exact hears_any id (.inl rfl)
  | keyUpdateInitiation h1 h2 h3 h4 h5 h6 => exact hears_any id (.inl rfl)
  | @keyUpdate m o ha ks ks' secret h1 h2 h3 h4 h5 =>
    obtain ⟨g, th, e, hg⟩ := hi.live h1
    have hf : fresh p = false := by rw [fresh_of h1]; rfl
    show Hears (fresh p) _ _ _ (fresh p) _
    rw [hf, hg.read, h2]
    exact .update
  | @keyUpdateAnswered m o ha ks ks' ks'' enc w read write h1 h2 h3 h4 h5 h6 h7 h8 =>
    obtain ⟨g, th, e, hg⟩ := hi.live h1
    have hf : fresh p = false := by rw [fresh_of h1]; rfl
    show Hears (fresh p) _ _ _ (fresh p) _
    rw [hf, hg.read, h2]
    exact .update
  | closeNotify _ _ hw => exact hears_any (by intro h; cases h) (.inr rfl)
  | expectedCloseNotify => exact hears_any (by intro h; cases h) (.inr rfl)

theorem hist_cons {α} (f : Step → List α) (x : Step) (h : List Step) :
    (x :: h).reverse.flatMap f = h.reverse.flatMap f ++ f x := by
  simp

theorem run_sender {cfg : Cfg} (hok : ∀ c a, cfg.hashOf c = .ok a → a.Ok) {h s} (hr : Run cfg h s) :
    Sender (Hist.keys .clientAppTraffic h) (Hist.sent .appTraffic h) (fresh s) (WLayer.key .appTraffic s.write) := by
  induction h generalizing s with
  | nil => cases hr; exact .start
  | cons x h ih =>
    obtain ⟨r1, -⟩ := hr.split (newer := [])
    unfold Hist.keys Hist.sent
    rw [hist_cons, hist_cons]
    exact (ih r1).step (step_sends hok hr)

theorem run_receiver {cfg : Cfg} (hok : ∀ c a, cfg.hashOf c = .ok a → a.Ok) {h s} (hr : Run cfg h s) :
    Receiver (Hist.keys .serverAppTraffic h) (Hist.arrived .appTraffic h) (fresh s) (RLayer.key .appTraffic s.read) := by
  induction h generalizing s with
  | nil => cases hr; exact .start
  | cons x h ih =>
    obtain ⟨r1, -⟩ := hr.split (newer := [])
    unfold Hist.keys Hist.arrived
    rw [hist_cons, hist_cons]
    exact (ih r1).step (step_hears hok hr)

/-! ## What is given to the application -/

/-- A step either fails, or gives all application data of its message to the application. -/
theorem delivers {cfg : Cfg} {h i s t acts} (hi : Inv cfg h s) (hsh : Shape cfg i s t acts)
    (ht : t = .sock ∨ (∃ e, t = .app e) → terminal s = false) :
    (terminal (applyAll acts s) = false → terminal s = false ∧
      (Spec.delivered ⟨t, i, s, acts⟩).flatten = appData (message t i.sock acts.isEmpty)) ∧
    ((Spec.delivered ⟨t, i, s, acts⟩).flatten = [] ∨
      (Spec.delivered ⟨t, i, s, acts⟩).flatten = appData (message t i.sock acts.isEmpty)) ∧
    ((∃ b, .endOfData b ∈ acts) → terminal s = false ∧ terminal (applyAll acts s) = true ∧
      (∃ b, message t i.sock acts.isEmpty = [.closeNotify b]) ∧ Spec.delivered ⟨t, i, s, acts⟩ = []) := by
  have hlive : ∀ {e}, s.state = e → (e ≠ .error ∧ e ≠ .closed) → terminal s = false := by
    intro e h1 h2; simp [terminal, h1, h2.1, h2.2]
  cases hsh with
  | nothing =>
    have hm : message t i.sock true = [] := by
      rcases Fizz.Server.message_le t i.sock true with h | ⟨_, _, _, _, h, _⟩
      · exact h
      · cases h
    show (terminal s = false → terminal s = false ∧ _ = appData (message t i.sock true)) ∧ _ ∧ _
    rw [hm]
    exact ⟨fun h => ⟨h, rfl⟩, .inl rfl, by rintro ⟨b, hb⟩; cases hb⟩
  | @fail _ a b _ =>
    obtain ⟨-, -, h3⟩ := fail_view (t := t) (i := i) (s := s) (s' := s) (a := a) (b := b)
    rw [h3]
    have hd : Spec.delivered ⟨t, i, s, .mutate toError :: (alertWrites s a b ++ [.reportError a])⟩ = [] := by
      unfold Spec.delivered alertWrites
      dsimp only
      repeat' split
      all_goals rfl
    rw [hd]
    refine ⟨(by intro h; cases h), .inl rfl, ?_⟩
    rintro ⟨b, hb⟩
    unfold alertWrites at hb
    repeat' split at hb
    all_goals simp at hb
  | report hs =>
    refine ⟨fun h => ?_, .inl rfl, by rintro ⟨b, hb⟩; simp at hb⟩
    have h : terminal s = false := h
    simp [terminal, hs] at h
  | wait hs =>
    rw [hs]
    exact ⟨fun h => ⟨h, rfl⟩, .inl rfl, by rintro ⟨b, hb⟩; simp at hb⟩
  | closeNow hw => exact ⟨(by intro h; cases h), .inl rfl, by rintro ⟨b, hb⟩; simp at hb⟩
  | close hw => exact ⟨fun _ => ⟨ht (.inr ⟨_, rfl⟩), rfl⟩, .inl rfl, by rintro ⟨b, hb⟩; simp at hb⟩
  | closed => exact ⟨(by intro h; cases h), .inl rfl, by rintro ⟨b, hb⟩; simp at hb⟩
  | @connect c hs =>
    obtain ⟨-, -, -, -, h1, h2, -⟩ := connect_view (cfg := cfg) (c := c) (i := i) (p := s)
    have hd : Spec.delivered ⟨.accept, i, s, connectActions cfg c⟩ = [] := by
      unfold Spec.delivered
      rw [List.flatMap_eq_nil_iff]
      intro a ha
      cases a with
      | deliver d => exact absurd ha (h1 d)
      | _ => rfl
    rw [hd]
    exact ⟨fun _ => ⟨hlive hs (by simp), rfl⟩, .inl rfl, by rintro ⟨b, hb⟩; exact absurd hb (h2 b)⟩
  | retry hs h2 =>
    rw [h2]
    exact ⟨fun _ => ⟨hlive hs (by simp), rfl⟩, .inl rfl, by rintro ⟨b, hb⟩; simp [transition] at hb⟩
  | serverHello hs h2 =>
    rw [h2]
    exact ⟨fun _ => ⟨hlive hs (by simp), rfl⟩, .inl rfl, by rintro ⟨b, hb⟩; simp [transition] at hb⟩
  | earlyFailed => exact ⟨fun h => ⟨h, rfl⟩, .inl rfl, by rintro ⟨b, hb⟩; simp at hb⟩
  | earlyFirst => exact ⟨fun h => ⟨h, rfl⟩, .inl rfl, by rintro ⟨b, hb⟩; simp at hb⟩
  | earlyWrite => exact ⟨fun h => ⟨h, rfl⟩, .inl rfl, by rintro ⟨b, hb⟩; simp at hb⟩
  | earlyLate => exact ⟨fun h => ⟨h, rfl⟩, .inl rfl, by rintro ⟨b, hb⟩; simp at hb⟩
  | @encryptedExtensions _ _ _ _ _ _ _ retry t hs h2 =>
    rw [h2]
    refine ⟨fun _ => ⟨hlive hs (by simp), ?_⟩, .inl ?_, ?_⟩
    · cases retry <;> rfl
    · cases retry <;> rfl
    · rintro ⟨b, hb⟩; cases retry <;> simp [transition, retryActions] at hb
  | certificateRequest hs h2 =>
    rw [h2]
    exact ⟨fun _ => ⟨hlive hs (by simp), rfl⟩, .inl rfl, by rintro ⟨b, hb⟩; simp [transition] at hb⟩
  | certificate hs h2 =>
    rw [h2]
    exact ⟨fun _ => ⟨hlive hs (by simp), rfl⟩, .inl rfl, by rintro ⟨b, hb⟩; simp [transition] at hb⟩
  | compressedCertificate hs h2 =>
    rw [h2]
    exact ⟨fun _ => ⟨hlive hs (by simp), rfl⟩, .inl rfl, by rintro ⟨b, hb⟩; simp [transition] at hb⟩
  | certificateVerify hs h2 =>
    rw [h2]
    exact ⟨fun _ => ⟨hlive hs (by simp), rfl⟩, .inl rfl, by rintro ⟨b, hb⟩; simp [transition] at hb⟩
  | @finished m orig u d hs h2 hd =>
    obtain ⟨g, hg⟩ := hi.mid (.inr (.inr (.inr hs)))
    obtain ⟨-, -, e3, e4, -⟩ := finished_view hg hs hd rfl
    rw [e3, h2]
    exact ⟨fun _ => ⟨hlive hs (by simp), rfl⟩, .inl rfl, by rintro ⟨b, hb⟩; exact absurd hb (e4 b)⟩
  | ticket hs h2 ha =>
    obtain ⟨psk, rfl⟩ := ticket_shape ha
    rw [h2]
    exact ⟨fun h => ⟨h, rfl⟩, .inl rfl, by rintro ⟨b, hb⟩; simp at hb⟩
  | @data d u _ hs =>
    have : (Spec.delivered ⟨.sock, i, s, [.deliver d]⟩).flatten = appData (message .sock i.sock false) := by
      rw [hs]; simp [Spec.delivered, message, appData]
    exact ⟨fun h => ⟨h, this⟩, .inr this, by rintro ⟨b, hb⟩; simp at hb⟩
  | appWrite _ hw => exact ⟨fun h => ⟨h, rfl⟩, .inl rfl, by rintro ⟨b, hb⟩; simp at hb⟩
  | keyUpdateInitiation h1 h2 h3 h4 h5 h6 =>
    exact ⟨fun _ => ⟨hlive h1 (by simp), rfl⟩, .inl rfl, by rintro ⟨b, hb⟩; simp at hb⟩
  | keyUpdate h1 h2 =>
    rw [h2]
    exact ⟨fun _ => ⟨hlive h1 (by simp), rfl⟩, .inl rfl, by rintro ⟨b, hb⟩; simp at hb⟩
  | keyUpdateAnswered h1 h2 =>
    rw [h2]
    exact ⟨fun _ => ⟨hlive h1 (by simp), rfl⟩, .inl rfl, by rintro ⟨b, hb⟩; simp at hb⟩
  | closeNotify h1 h2 =>
    rw [h2]
    exact ⟨(by intro h; cases h), .inl rfl, fun _ => ⟨hlive h1 (by simp), rfl, ⟨_, rfl⟩, rfl⟩⟩
  | expectedCloseNotify h1 h2 =>
    rw [h2]
    exact ⟨(by intro h; cases h), .inl rfl, fun _ => ⟨hlive h1 (by simp), rfl, ⟨_, rfl⟩, rfl⟩⟩

/-- Nothing is lost while the connection lives. -/
theorem run_delivers {cfg : Cfg} (hok : ∀ c a, cfg.hashOf c = .ok a → a.Ok) {h s} (hr : Run cfg h s) (L : Level) :
    (terminal s = false → Hist.delivered L h = appData ((Hist.arrived L h).map (·.2))) ∧
    Hist.delivered L h <+: appData ((Hist.arrived L h).map (·.2)) ∧
    (Hist.ended L h → terminal s = true ∧ Hist.delivered L h = appData ((Hist.arrived L h).map (·.2)) ∧
      ∃ e ∈ (Hist.arrived L h).map (·.2), Channel.Final e) := by
  induction h generalizing s with
  | nil => exact ⟨fun _ => rfl, List.nil_prefix, by rintro ⟨x, hx, -⟩; cases hx⟩
  | cons x h ih =>
    obtain ⟨r1, r2, r3, r4⟩ := hr.split (newer := [])
    have := r2.det hr
    subst this
    obtain ⟨i1, i2, i3⟩ := ih r1
    obtain ⟨d1, d2, d3⟩ := delivers (run_inv hok r1) r3 r4
    have e1 : Hist.delivered L (x :: h) = Hist.delivered L h ++
        (if RLayer.key L x.pre.read = none then [] else (Spec.delivered x).flatten) := hist_cons _ _ _
    have e2 : Hist.arrived L (x :: h) = Hist.arrived L h ++
        under (RLayer.key L x.pre.read) (message x.trig x.env.sock x.acts.isEmpty) := hist_cons _ _ _
    rw [e1, e2, List.map_append, appData_append]
    have hdead : terminal x.pre = true → message x.trig x.env.sock x.acts.isEmpty = [] := by
      intro ht
      rcases Fizz.Server.message_le x.trig x.env.sock x.acts.isEmpty with h | ⟨_, _, h, _⟩
      · exact h
      · rw [r4 (.inl h)] at ht; cases ht
    cases hk : RLayer.key L x.pre.read with
    | none =>
      simp only [if_pos, under, List.map_nil, List.append_nil, show appData [] = [] from rfl]
      refine ⟨fun ht => i1 (d1 ht).1, i2, ?_⟩
      rintro ⟨y, hy, hz, hb⟩
      rcases List.mem_cons.1 hy with rfl | hy
      · exact absurd hk hz
      · obtain ⟨j1, j2, j3⟩ := i3 ⟨y, hy, hz, hb⟩
        refine ⟨?_, j2, j3⟩
        cases ht : terminal (Spec.post x) with
        | true => rfl
        | false => rw [(d1 ht).1] at j1; cases j1
    | some Z =>
      have hv : (under (some Z) (message x.trig x.env.sock x.acts.isEmpty)).map (·.2) =
          message x.trig x.env.sock x.acts.isEmpty := by
        simp [under, Function.comp_def]
      rw [hv, if_neg (by simp)]
      refine ⟨fun ht => ?_, ?_, ?_⟩
      · obtain ⟨k1, k2⟩ := d1 ht
        rw [i1 k1]
        exact congrArg _ k2
      · cases ht : terminal x.pre with
        | false =>
          rw [i1 ht]
          rcases d2 with k | k
          · rw [show (Spec.delivered x).flatten = [] from k, List.append_nil]; exact List.prefix_append _ _
          · rw [show (Spec.delivered x).flatten = _ from k]; exact List.prefix_rfl
        | true =>
          have hm := hdead ht
          have hd : (Spec.delivered x).flatten = [] := by
            rcases d2 with k | k
            · exact k
            · rw [hm] at k; exact k
          rw [hd, hm]
          simpa [appData] using i2
      · rintro ⟨y, hy, hz, hb⟩
        rcases List.mem_cons.1 hy with rfl | hy
        · obtain ⟨k1, k2, ⟨b, k3⟩, k4⟩ := d3 hb
          rw [k3, k4, i1 k1]
          exact ⟨k2, by simp [appData], .closeNotify b, by simp, trivial⟩
        · obtain ⟨j1, j2, j3⟩ := i3 ⟨y, hy, hz, hb⟩
          have hm := hdead j1
          have hd : (Spec.delivered x).flatten = [] := by
            rcases d2 with k | k
            · exact k
            · rw [hm] at k; exact k
          rw [hd, hm]
          refine ⟨?_, by simpa [appData] using j2, by simpa using j3⟩
          cases ht : terminal (Spec.post x) with
          | true => rfl
          | false => rw [(d1 ht).1] at j1; cases j1


/-! ## What the application asked to write -/

theorem step_wrote {cfg : Cfg} (hok : ∀ c a, cfg.hashOf c = .ok a → a.Ok) {x : Step} {h s}
    (hr : Run cfg (x :: h) s) :
    NoData (Spec.contents x) ∨ ∃ pre w, NoData pre ∧ Spec.contents x = pre ++ [content w 23 (requested x.trig)] := by
  obtain ⟨r1, r2, r3, -⟩ := hr.split (newer := [])
  have hi := run_inv hok r1
  obtain ⟨T, i, p, A⟩ := x
  simp only at *
  have hal : ∀ w d, NoData [alertContent w d] := by
    intro w d c hc
    rw [List.mem_singleton.1 hc]
    exact (by decide : (21 : UInt8) ≠ 23)
  have hhs : ∀ w d, NoData [content w 22 d] := by
    intro w d c hc
    rw [List.mem_singleton.1 hc]
    exact (by decide : (22 : UInt8) ≠ 23)
  have hnil : NoData [] := by intro c hc; cases hc
  cases r3 with
  | nothing => exact .inl hnil
  | @fail _ a b _ =>
    obtain ⟨-, h2, -⟩ := fail_view (t := T) (i := i) (s := p) (s' := p) (a := a) (b := b)
    rcases h2 with h2 | ⟨w, d, hw, h2⟩
    · rw [h2]; exact .inl hnil
    · rw [h2]; exact .inl (hal _ _)
  | report => exact .inl hnil
  | wait => exact .inl hnil
  | closeNow hw => exact .inl (hal _ _)
  | close hw => exact .inl (hal _ _)
  | closed => exact .inl hnil
  | connect =>
    obtain ⟨-, -, h1, -⟩ := connect_view (cfg := cfg) (i := i) (p := p)
    exact .inl fun c hc => (h1 c hc).2
  | @retry _ _ _ r w hs =>
    refine .inl ?_
    intro c hc
    have hc : c ∈ firstCcs cfg p ++ [content w 22 r.encoded] := by simpa [Spec.contents, Spec.writes, transition] using hc
    rcases List.mem_append.1 hc with hc | hc
    · rw [firstCcs_ccs c hc]; decide
    · exact hhs _ _ c hc
  | serverHello => exact .inl hnil
  | earlyFailed => exact .inl hnil
  | @earlyFirst t d f w =>
    refine .inr ⟨[ccs], w, ?_, rfl⟩
    intro c hc; rw [List.mem_singleton.1 hc]; decide
  | earlyWrite => exact .inr ⟨[], _, hnil, rfl⟩
  | earlyLate => exact .inr ⟨[], _, hnil, rfl⟩
  | @encryptedExtensions _ _ _ _ _ _ _ retry t hs => cases retry <;> exact .inl hnil
  | certificateRequest => exact .inl hnil
  | certificate => exact .inl hnil
  | compressedCertificate => exact .inl hnil
  | certificateVerify => exact .inl hnil
  | @finished m orig u d hs _ hd =>
    obtain ⟨g, hg⟩ := hi.mid (.inr (.inr (.inr hs)))
    obtain ⟨-, e2, -⟩ := finished_view hg hs hd rfl
    exact .inl fun c hc => (e2 c hc).2
  | ticket hs _ ha =>
    obtain ⟨psk, rfl⟩ := ticket_shape ha
    exact .inl hnil
  | data => exact .inl hnil
  | appWrite _ hw => exact .inr ⟨[], _, hnil, rfl⟩
  | keyUpdateInitiation => exact .inl (hhs _ _)
  | keyUpdate => exact .inl hnil
  | keyUpdateAnswered => exact .inl (hhs _ _)
  | closeNotify _ _ hw => exact .inl (hal _ _)
  | expectedCloseNotify => exact .inl hnil

theorem run_wrote {cfg : Cfg} (hok : ∀ c a, cfg.hashOf c = .ok a → a.Ok) {h s} (hr : Run cfg h s) (L : Level) :
    Hist.wrote L h = appBytes ((Hist.sent L h).map (·.2)) := by
  induction h generalizing s with
  | nil => rfl
  | cons x h ih =>
    obtain ⟨r1, -⟩ := hr.split (newer := [])
    unfold Hist.wrote Hist.sent at ih ⊢
    rw [hist_cons, hist_cons, List.map_append, appBytes_append, ih r1]
    exact congrArg _ (wrote_step (step_wrote hok hr))

end Fizz.ClientSM

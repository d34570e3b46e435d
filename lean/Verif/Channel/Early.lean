import Verif.Channel.Client

/-!
# Early data (C78)
-/

namespace Fizz.ClientSM
open Fizz.Channel Fizz.Codec Fizz.Record
open Fizz.Server (Level RLayer WLayer Content SockIn content alertContent derefPtr_eq_ok deref_eq_ok pure_eq_ok
  frame_body frame_update)
open Fizz.Conn (Trig)

/-- The write layer is never one for early data. -/
theorem write_level {cfg : Cfg} (hok : ∀ c a, cfg.hashOf c = .ok a → a.Ok) {h s} (hr : Run cfg h s) {w}
    (hw : s.write = some w) : w.level ≠ .earlyData := by
  have hi := run_inv hok hr
  have hmid : midState s.state → w.level ≠ .earlyData := by
    intro hm
    obtain ⟨g, hg⟩ := hi.mid hm
    rw [hg.write] at hw
    cases Option.some.inj hw; exact (by decide : Level.handshake ≠ .earlyData)
  cases hs : s.state with
  | uninitialized => rw [(hi.uninit hs).state] at hw; cases hw
  | expectingServerHello =>
    obtain ⟨_, _, _, hb⟩ := hi.before hs
    rw [hb.write] at hw
    cases Option.some.inj hw; exact (by decide : Level.plaintext ≠ .earlyData)
  | expectingEncryptedExtensions => exact hmid (.inl hs)
  | expectingCertificate => exact hmid (.inr (.inl hs))
  | expectingCertificateVerify => exact hmid (.inr (.inr (.inl hs)))
  | expectingFinished => exact hmid (.inr (.inr (.inr hs)))
  | established =>
    obtain ⟨g, th, e, hg⟩ := hi.live hs
    rw [hg.write] at hw
    cases Option.some.inj hw; exact (by decide : Level.appTraffic ≠ .earlyData)
  | writeSideClosed => rw [(hi.closing hs).1] at hw; cases hw
  | closed => rw [(hi.closed hs).1] at hw; cases hw
  | error => rw [(C53_keys hr (by rw [terminal, hs]; rfl)).2] at hw; cases hw

theorem other_level {L : Level} {cs : List Content} (h : ∀ c ∈ cs, c.layer.level ≠ L) : cs.flatMap (atLevel L) = [] := by
  rw [List.flatMap_eq_nil_iff]
  intro c hc
  unfold atLevel
  rw [if_neg (h c hc)]

theorem flight_early {cfg : Cfg} {inp s u m orig d g h} (hm : Mid cfg h g s)
    (hd : processFinished cfg inp s u m orig = .ok d) :
    d.flight.flatMap (atLevel .earlyData) = [] ∨
    ∃ w enc, s.earlyWrite = some w ∧ w.level = .earlyData ∧ Frame 5 enc ∧
      d.flight.flatMap (atLevel .earlyData) = [(w.secret, (22, [enc]))] := by
  unfold processFinished at hd
  simp only [Res.bind_eq_ok] at hd
  obtain ⟨_, -, _, -, _, -, _, -, _, -, _, -, ⟨all, fl, cert⟩, h2, _, -, _, -, _, -, _, -, ⟨_, _, _, _, _⟩, -, hd⟩ := hd
  cases pure_eq_ok.1 hd
  unfold secondFlight at h2
  simp only [Res.bind_eq_ok] at h2
  obtain ⟨⟨ctx, eoed⟩, h3, _, -, _, -, _, -, _, -, _, -, w, h4, h2⟩ := h2
  cases pure_eq_ok.1 h2
  have hw := derefPtr_eq_ok.1 h4
  rw [hm.write] at hw
  cases Option.some.inj hw
  simp only [List.flatMap_append]
  have h5 : (firstCcs cfg s).flatMap (atLevel .earlyData) = [] :=
    other_level fun c hc => by rw [firstCcs_ccs c hc]; decide
  have h6 : ∀ e, [content ⟨.handshake, g.clientHandshake⟩ 22 e].flatMap (atLevel .earlyData) = [] := fun e => rfl
  rw [h5, h6, List.nil_append, List.append_nil]
  unfold endEarly at h3
  split_ifs at h3
  · simp only [Res.bind_eq_ok] at h3
    obtain ⟨enc, he, w', h5, h3⟩ := h3
    cases pure_eq_ok.1 h3
    have hl := early_level hm.early (derefPtr_eq_ok.1 h5)
    refine .inr ⟨w', enc, derefPtr_eq_ok.1 h5, hl, frame_encoded he, ?_⟩
    simp [atLevel, content, hl]
  · cases h3; exact .inl rfl

theorem final_early {cfg : Cfg} {i : StepIn} {p : St} {u m orig d g h} (hm : Mid cfg h g p) (hst : p.state = .expectingFinished)
    (hd : processFinished cfg i.inp p u m orig = .ok d) {A}
    (hA : A = [.mutate (saveFinished cfg d), transition .established,
        .secretAvailable .serverAppTraffic d.read, .secretAvailable .clientAppTraffic d.write,
        .secretAvailable .exporterMaster d.exporter, .secretAvailable .resumptionMaster d.resumption,
        .write none d.flight 0] ++ finalReport i.inp p) :
    (Spec.contents ⟨.sock, i, p, A⟩).flatMap (atLevel .earlyData) = d.flight.flatMap (atLevel .earlyData) ∧
    (applyAll A p).earlyWrite = none ∧ (applyAll A p).state ≠ .uninitialized := by
  subst hA
  by_cases hr : echRejected p
  · rw [finalReport, if_pos hr, handleError, if_neg (by rw [hst]; simp)]
    unfold alertWrites
    rw [hm.write]
    dsimp only
    split
    · exact ⟨by simp [Spec.contents, Spec.writes, transition], rfl, by intro h; cases h⟩
    · refine ⟨?_, rfl, by intro h; cases h⟩
      simp only [Spec.contents, Spec.writes, transition, List.cons_append, List.flatMap_cons, List.nil_append,
        List.flatMap_nil, List.append_nil, List.flatMap_append]
      have : atLevel .earlyData (alertContent ⟨.handshake, g.clientHandshake⟩ 121) = [] := rfl
      rw [this, List.append_nil]
  · rw [finalReport, if_neg hr]
    exact ⟨by simp [Spec.contents, Spec.writes, transition], rfl, by intro h; cases h⟩

/-- Whether `connect` is still to come. -/
def unused (s : St) : Bool := s.state = .uninitialized

theorem unused_of {s : St} {e} (h : s.state = e) : unused s = decide (e = .uninitialized) := by subst h; rfl

/-- What one step does with the early key: data, and at the end EndOfEarlyData. -/
inductive SendsEarly : Bool → Option Bytes → List Bytes → List (Bytes × Item) → Bool → Option Bytes → Prop where
  | idle {v k v' k'} : (v' = true → v = true) → k' = k ∨ k' = none → SendsEarly v k [] [] v' k'
  | first {k Z k'} : k' = some Z ∨ k' = none → SendsEarly true k [Z] [] false k'
  | data {v v' Z c} : (v' = true → v = true) → c.1 = 23 → SendsEarly v (some Z) [] [(Z, c)] v' (some Z)
  | last {v v' Z c} : (v' = true → v = true) → c.1 = 22 → Frame 5 c.2.flatten →
      SendsEarly v (some Z) [] [(Z, c)] v' none

theorem SendsEarly.sends {v k ann out v' k'} (h : SendsEarly v k ann out v' k') : Sends v k ann out v' k' := by
  cases h with
  | idle h1 h2 => exact .idle h1 h2
  | first h1 => exact .first h1
  | data h1 h2 => exact .body h1 (.inl rfl) (.inl h2)
  | last h1 h2 h3 => exact .body h1 (.inr rfl) (.inr ⟨h2, 5, by decide, h3⟩)

theorem sends_early {v v' : Bool} {w : WLayer} {d k'} (hv : v' = true → v = true) (hl : w.level = .earlyData)
    (hk : k' = some w.secret) :
    SendsEarly v (WLayer.key .earlyData (some w)) [] ([content w 23 d].flatMap (atLevel .earlyData)) v' k' := by
  rw [wkey_some, if_pos hl, hk]
  simp only [List.flatMap_cons, List.flatMap_nil, List.append_nil, atLevel, content, if_pos hl]
  exact .data hv rfl

theorem step_sends_early {cfg : Cfg} (hok : ∀ c a, cfg.hashOf c = .ok a → a.Ok) {x : Step} {h s}
    (hr : Run cfg (x :: h) s) :
    SendsEarly (unused x.pre) (WLayer.key .earlyData x.pre.earlyWrite)
      (((Spec.announced x).filter (·.1 = .clientEarlyTraffic)).map (·.2))
      ((Spec.contents x).flatMap (atLevel .earlyData)) (unused s) (WLayer.key .earlyData s.earlyWrite) := by
  obtain ⟨r1, r2, r3, -⟩ := hr.split (newer := [])
  have := r2.det hr
  subst this
  have hi := run_inv hok r1
  have hwl := fun w hw => write_level hok r1 (w := w) hw
  obtain ⟨T, i, p, A⟩ := x
  simp only at *
  show SendsEarly _ _ _ _ (unused (applyAll A p)) (WLayer.key _ (applyAll A p).earlyWrite)
  have hone : ∀ {w : WLayer} {t d}, p.write = some w → [content w t d].flatMap (atLevel .earlyData) = [] := by
    intro w t d hw
    refine other_level ?_
    intro c hc
    rw [List.mem_singleton.1 hc]
    exact hwl w hw
  cases r3 with
  | nothing => exact .idle id (.inl rfl)
  | @fail _ a b _ =>
    obtain ⟨h1, h2, h3⟩ := fail_view (t := T) (i := i) (s := p) (s' := p) (a := a) (b := b)
    rw [h3, h1]
    rcases h2 with h2 | ⟨w, d, hw, h2⟩
    · rw [h2]; exact .idle (by intro h; cases h) (.inl rfl)
    · rw [h2, alertContent, hone hw]; exact .idle (by intro h; cases h) (.inl rfl)
  | report => exact .idle id (.inl rfl)
  | wait => exact .idle id (.inl rfl)
  | @closeNow w hw =>
    have : (Spec.contents ⟨.app (.appClose true), i, p, [.mutate toClosed, .write none [alertContent w 0] 0]⟩).flatMap
      (atLevel .earlyData) = [] := hone hw
    rw [this]; exact .idle (by intro h; cases h) (.inl rfl)
  | @close w hw =>
    have : (Spec.contents ⟨.app (.appClose false), i, p, [.mutate toWriteSideClosed, .write none [alertContent w 0] 0]⟩).flatMap
      (atLevel .earlyData) = [] := hone hw
    rw [this]; exact .idle (by intro h; cases h) (.inl rfl)
  | closed => exact .idle (by intro h; cases h) (.inl rfl)
  | @connect c hs =>
    rw [(hi.uninit hs).state]
    unfold connectActions
    dsimp only
    split
    · rename_i traffic exporter _ _
      refine .first (Z := traffic) ?_
      have hk : ∀ k, k = (if cfg.omitEarlyRecordLayer then none else some (WLayer.mk .earlyData traffic)) →
          WLayer.key .earlyData k = some traffic ∨ WLayer.key .earlyData k = none := by
        intro k hk
        subst hk
        split_ifs
        · exact .inr rfl
        · exact .inl rfl
      exact hk _ rfl
    · exact .idle (by intro h; cases h) (.inl rfl)
  | @retry _ _ _ r w hs _ _ hw =>
    have : (Spec.contents ⟨.sock, i, p, [.mutate (saveRetry cfg r),
        .write none (firstCcs cfg p ++ [content w 22 r.encoded]) 0, transition .expectingServerHello]⟩).flatMap
        (atLevel .earlyData) = [] := by
      refine other_level ?_
      intro c hc
      have hc : c ∈ firstCcs cfg p ++ [content w 22 r.encoded] := by simpa [Spec.contents, Spec.writes, transition] using hc
      rcases List.mem_append.1 hc with hc | hc
      · rw [firstCcs_ccs c hc]; decide
      · rw [List.mem_singleton.1 hc]; exact hwl w hw
    rw [this]
    exact .idle (by intro h; cases h) (.inr rfl)
  | @serverHello _ _ _ r =>
    refine .idle (by intro h; cases h) (.inl ?_)
    show WLayer.key .earlyData (saveShlo r p).earlyWrite = _
    have : (saveShlo r p).earlyWrite = p.earlyWrite := by
      unfold saveShlo shloEch
      split <;> rfl
    rw [this]
  | earlyFailed => exact .idle id (.inl rfl)
  | @earlyFirst t d f w hs _ _ hw =>
    have hl := early_level' hi hs hw
    rw [hw]
    refine sends_early id hl ?_
    show WLayer.key .earlyData p.earlyWrite = _
    rw [hw, wkey_some, if_pos hl]
  | @earlyWrite t d f w hs _ _ hw =>
    have hl := early_level' hi hs hw
    rw [hw]
    refine sends_early id hl ?_
    show WLayer.key .earlyData p.earlyWrite = _
    rw [hw, wkey_some, if_pos hl]
  | @earlyLate t d f w _ _ hw =>
    have : (Spec.contents ⟨.app (.earlyAppWrite t d f), i, p, [.write t [content w 23 d] f]⟩).flatMap (atLevel .earlyData) = [] := hone hw
    rw [this]; exact .idle id (.inl rfl)
  | @encryptedExtensions _ _ _ _ _ _ _ retry t hs =>
    cases retry <;> exact .idle (by cases t <;> (intro h; cases h)) (.inl rfl)
  | certificateRequest hs => exact .idle (by intro h; cases h) (.inl rfl)
  | certificate hs => exact .idle (by intro h; cases h) (.inl rfl)
  | compressedCertificate hs => exact .idle (by intro h; cases h) (.inl rfl)
  | certificateVerify hs => exact .idle (by intro h; cases h) (.inl rfl)
  | @finished m orig u d hs _ hd =>
    obtain ⟨g, hg⟩ := hi.mid (.inr (.inr (.inr hs)))
    obtain ⟨e1, -⟩ := finished_view hg hs hd rfl
    obtain ⟨e2, e3, e4⟩ := final_early hg hs hd rfl
    rw [e1, e2, e3, show unused (applyAll _ p) = false by unfold unused; simpa using e4]
    rcases flight_early hg hd with h | ⟨w, enc, h1, h2, h3, h4⟩
    · rw [h]; exact .idle (by intro h; cases h) (.inr rfl)
    · rw [h4, h1, wkey_some, if_pos h2]
      exact .last (by intro h; cases h) rfl (by simpa using h3)
  | ticket hs _ ha =>
    obtain ⟨psk, rfl⟩ := ticket_shape ha
    exact .idle id (.inl rfl)
  | data => exact .idle id (.inl rfl)
  | @appWrite tok d f w _ hw =>
    have : (Spec.contents ⟨.app (.appWrite tok d f), i, p, [.write tok [content w 23 d] f]⟩).flatMap (atLevel .earlyData) = [] := hone hw
    rw [this]; exact .idle id (.inl rfl)
  | @keyUpdateInitiation r enc w ha ks ks' secret h1 h2 h3 hw h5 h6 =>
    have : (Spec.contents ⟨.app (.keyUpdate r), i, p, [.mutate (saveWrite ks' secret),
        .secretAvailable .clientAppTraffic secret, .write none [content w 22 enc] 0]⟩).flatMap (atLevel .earlyData) = [] := hone hw
    rw [this]; exact .idle id (.inl rfl)
  | keyUpdate => exact .idle id (.inl rfl)
  | @keyUpdateAnswered m o ha ks ks' ks'' enc w read write h1 h2 h3 h4 h5 h6 hw h8 =>
    have : (Spec.contents ⟨.sock, i, p, [.mutate (saveBoth ks'' read write), .secretAvailable .serverAppTraffic read,
        .secretAvailable .clientAppTraffic write, .write none [content w 22 enc] 0]⟩).flatMap (atLevel .earlyData) = [] := hone hw
    rw [this]; exact .idle id (.inl rfl)
  | @closeNotify post w _ _ hw =>
    have : (Spec.contents ⟨.sock, i, p, [.write none [alertContent w 0] 0, .mutate clearLayers, transition .closed,
        .endOfData post]⟩).flatMap (atLevel .earlyData) = [] := hone hw
    rw [this]; exact .idle (by intro h; cases h) (.inl rfl)
  | expectedCloseNotify => exact .idle (by intro h; cases h) (.inl rfl)

theorem run_sender_early {cfg : Cfg} (hok : ∀ c a, cfg.hashOf c = .ok a → a.Ok) {h s} (hr : Run cfg h s) :
    Sender (Hist.keys .clientEarlyTraffic h) (Hist.sent .earlyData h) (unused s) (WLayer.key .earlyData s.earlyWrite) := by
  induction h generalizing s with
  | nil => cases hr; exact .start
  | cons x h ih =>
    obtain ⟨r1, -⟩ := hr.split (newer := [])
    unfold Hist.keys Hist.sent
    rw [hist_cons, hist_cons]
    exact (ih r1).step (step_sends_early hok hr).sends

end Fizz.ClientSM

namespace Fizz.Server
open Fizz.Channel Fizz.Codec Fizz.Record
open Spec (Neg)

theorem step_hears_early {cfg : Cfg} (hok : ∀ c a, cfg.hashOf c = .ok a → a.Ok) {x : Step} {h s}
    (hr : Run cfg (x :: h) s) :
    Hears (freshW x.pre) (RLayer.key .earlyData x.pre.read) (ofKind .clientEarlyTraffic (Spec.announced x))
      (under (RLayer.key .earlyData x.pre.read) (message x.trig x.env.sock x.acts.isEmpty))
      (freshW s) (RLayer.key .earlyData s.read) := by
  obtain ⟨r1, r2, r3, -⟩ := hr.split (newer := [])
  have := r2.det hr
  subst this
  have hi := run_inv hok r1
  have hi' := run_inv hok r2
  obtain ⟨T, i, p, A⟩ := x
  simp only at *
  show Hears _ _ _ _ (freshW (applyAll A p)) (RLayer.key _ (applyAll A p).read)
  change Inv cfg _ (applyAll A p) at hi'
  cases r3 with
  | nothing => exact hears_any id (.inl rfl)
  | @fail _ a _ =>
    obtain ⟨h1, h2, h3⟩ := fail_view (t := T) (i := i) (s := p) (s' := p) (a := a) (b := i.inp.alertFails)
    rw [h3, h1]
    exact hears_any (by intro h; cases h) (.inr rfl)
  | wait => exact hears_any id (.inl rfl)
  | closeNow hw => exact hears_any (by intro h; cases h) (.inr rfl)
  | close hw => exact hears_any (by intro h; cases h) (.inl rfl)
  | closed => exact hears_any (by intro h; cases h) (.inr rfl)
  | accept hs => exact hears_any (by rw [freshW_of hs]; intro _; rfl) (.inr rfl)
  | v2 => exact hears_any (by intro h; cases h) (.inl rfl)
  | earlyData => exact hears_any id (.inl rfl)
  | data => exact hears_any id (.inl rfl)
  | appWrite _ hw => exact hears_any id (.inl rfl)
  | endOfEarlyData hs =>
    refine hears_any (by intro h; cases h) (.inr ?_)
    obtain ⟨g, hg⟩ := hi'.mid (.inr (.inr (.inr rfl)))
    obtain ⟨k, hk, -⟩ := hg.late (by intro h; cases h)
    rw [hk]; rfl
  | noCertificate hs => exact hears_any (by intro h; cases h) (.inl rfl)
  | certificate hs => exact hears_any (by intro h; cases h) (.inl rfl)
  | certificateVerify hs => exact hears_any (by intro h; cases h) (.inl rfl)
  | closeNotify _ _ hw => exact hears_any (by intro h; cases h) (.inr rfl)
  | expectedCloseNotify => exact hears_any (by intro h; cases h) (.inr rfl)
  | @ticket tok _ h1 h2 =>
    rcases ticket_frame h2 with rfl | ⟨w, enc, hw, rfl, hf⟩
    · exact hears_any id (.inl rfl)
    · exact hears_any id (.inl rfl)
  | hello hst hs hsh =>
    have hf : freshW p = true := by rw [freshW_of hst]; rfl
    obtain ⟨-, -, ⟨k, hk⟩, -⟩ := hi.hello hst
    rw [hk, hf]
    rcases hello_view hok r1 hs hst hsh with ⟨g, hg, ha⟩ | ⟨h1, h2, -, ⟨k, h3⟩, h4⟩
    · rw [hg.secrets]
      have hfr : freshW (applyAll A p) = false := by
        have := ha.phase
        rcases this with ⟨-, -, h1, -⟩ | ⟨-, skip, -, -, ⟨-, -, h1⟩ | ⟨-, -, h1⟩ | ⟨-, -, h1⟩⟩ <;>
          (rw [freshW_of h1]; rfl)
      rw [hfr]
      have hn : g.early = true → RLayer.key .earlyData (applyAll A p).read = some g.clientEarly ∨
          RLayer.key .earlyData (applyAll A p).read = none := by
        intro _
        rcases ha.phase with ⟨-, -, -, h1, -⟩ | ⟨-, skip, h1, -⟩
        · rw [h1]; exact .inl rfl
        · rw [h1]; exact .inr rfl
      cases he : g.early with
      | true => exact .first (hn he)
      | false =>
        refine .idle (by intro h; cases h) (.inr ?_)
        rcases ha.phase with ⟨h2, -⟩ | ⟨-, skip, h1, -⟩
        · rw [he] at h2; cases h2
        · rw [h1]; rfl
    · rw [h1, h3]
      exact .idle (fun _ => rfl) (.inr rfl)
  | @finished m orig ctx secret ha hc ks ks' cipher version read rms nst h1 h2 h3 h4 h5 h6 h7 h8 h9 h10 h11 h12 h13 h14 =>
    obtain ⟨e1, e2, e3, -⟩ := finished_view (read := read) (ks := ks') h14
    rw [e1, e3]
    exact hears_any (by intro h; cases h) (.inr rfl)
  | keyUpdateInitiation h1 h2 h3 h4 h5 h6 => exact hears_any id (.inl rfl)
  | @keyUpdate m o ha ks ks' secret h1 h2 h3 h4 h5 => exact hears_any id (.inr rfl)
  | @keyUpdateAnswered m o ha ks ks' ks'' enc w read write h1 h2 h3 h4 h5 h6 h7 h8 => exact hears_any id (.inr rfl)

theorem run_receiver_early {cfg : Cfg} (hok : ∀ c a, cfg.hashOf c = .ok a → a.Ok) {h s} (hr : Run cfg h s) :
    Receiver (Hist.keys .clientEarlyTraffic h) (Hist.arrived .earlyData h) (freshW s) (RLayer.key .earlyData s.read) := by
  induction h generalizing s with
  | nil => cases hr; exact .start
  | cons x h ih =>
    obtain ⟨r1, -⟩ := hr.split (newer := [])
    unfold Hist.keys Hist.arrived
    rw [hist_cons, hist_cons]
    exact (ih r1).step (step_hears_early hok hr)

end Fizz.Server

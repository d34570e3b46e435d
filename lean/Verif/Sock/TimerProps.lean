import Verif.Sock.TimerInv

/-!
# C105: the handshake timer of the client
-/

namespace Fizz.Sock

open Spec

/-- The timer only adds to what the socket does: without it, the history is one of `Verif/Sock`. -/
theorem C105_socket {cfg t} (h : TReach cfg t) : Reach cfg t.s ∧ base t.log = t.s.log := by
  induction h with
  | init g e c => exact ⟨.init g e c, rfl⟩
  | @step t t' o _ hs ih =>
    obtain ⟨hr, hb⟩ := ih
    cases o with
    | connect c v ms =>
      simp only [tstep, Option.map_eq_some_iff] at hs
      obtain ⟨s', h1, rfl⟩ := hs
      refine ⟨hr.step h1, ?_⟩
      have : base (if starts cfg t.s v ms then [TObs.started] else []) = [] := by split <;> rfl
      simp only [base_append, hb, this, List.append_nil]
      exact base_news (kind_prefix (step_kind h1))
    | expire =>
      simp only [tstep] at hs
      split at hs
      · simp only [Option.map_eq_some_iff] at hs
        obtain ⟨s', h1, rfl⟩ := hs
        refine ⟨hr.step h1, ?_⟩
        simp only [base_append, hb, base]
        exact base_news (kind_prefix (step_kind h1))
      · cases hs
    | other o =>
      cases o with
      | connect c v => cases hs
      | _ =>
        simp only [tstep, Option.map_eq_some_iff] at hs
        obtain ⟨s', h1, rfl⟩ := hs
        refine ⟨hr.step h1, ?_⟩
        simp only [base_append, hb]
        exact base_news (kind_prefix (step_kind h1))

/-- A server has no handshake timer. -/
theorem C105_server {cfg t} (hsv : cfg.server = true) (h : TReach cfg t) :
    t.armed = false ∧ .started ∉ t.log ∧ .fired ∉ t.log := by
  induction h with
  | init g e c => simp
  | @step t t' o _ hs ih =>
    obtain ⟨ha, h1, h2⟩ := ih
    cases o with
    | connect c v ms =>
      simp only [tstep, Option.map_eq_some_iff] at hs
      obtain ⟨s', hst, rfl⟩ := hs
      simp [ha, h1, h2, starts, hsv, news_started, news_fired]
    | expire => simp [tstep, ha] at hs
    | other o =>
      cases o with
      | connect c v => cases hs
      | _ =>
        simp only [tstep, Option.map_eq_some_iff] at hs
        obtain ⟨s', hst, rfl⟩ := hs
        simp [ha, h1, h2, news_started, news_fired]

/-- `connect` starts the timer exactly when it was given a time limit, and, when no address is given,
the transport is good. -/
theorem C105_starts {cfg t t' c v ms} (hcl : cfg.server = false) (h : TReach cfg t)
    (hs : tstep cfg t (.connect c v ms) = some t') :
    .started ∈ t'.log ↔ ms ≠ 0 ∧ (v = true ∨ t.s.tGood = true) := by
  simp only [tstep, Option.map_eq_some_iff] at hs
  obtain ⟨s', h1, rfl⟩ := hs
  have hn : .started ∉ t.log := fun m => by
    have := (h.inv hcl).conn m
    simp only [step] at h1
    split at h1
    · rename_i q; simp [this] at q
    · cases h1
  have hst : starts cfg t.s v ms = true ↔ ms ≠ 0 ∧ (v = true ∨ t.s.tGood = true) := by
    simp [starts, hcl]
  rw [← hst]
  cases hq : starts cfg t.s v ms <;> simp [hn, news_started]

/-- The timer is started at most once and expires at most once for it. -/
theorem C105_once {cfg t} (h : TReach cfg t) : t.log.count .fired ≤ t.log.count .started ∧ t.log.count .started ≤ 1 := by
  cases hc : cfg.server with
  | false =>
    have := h.inv hc
    exact ⟨Nat.le_trans (Nat.le_add_right _ _) this.bal, this.one⟩
  | true =>
    have := C105_server hc h
    rw [List.count_eq_zero_of_not_mem this.2.1, List.count_eq_zero_of_not_mem this.2.2]
    omega

/-- When the timer expires it had been started, it had not expired before, full success had not been
reported, no failure had been told to the handshake callback, and the connection had not failed —
unless early success had been reported. -/
theorem C105_due {cfg t} (h : TReach cfg t) {pre suf} (hl : t.log = pre ++ .fired :: suf) :
    .started ∈ pre ∧ .fired ∉ pre ∧ .fired ∉ suf ∧ ¬ Complete (base pre) ∧ .hsErr ∉ base pre ∧
      (.error ∈ base pre → EarlyStarted (base pre)) := by
  cases hc : cfg.server with
  | false =>
    have d := (h.inv hc).due pre suf hl
    refine ⟨d.started, d.once, ?_, d.open_, d.untold, d.clean⟩
    have h1 := C105_once h
    rw [hl, List.count_append, List.count_cons] at h1
    simp only [beq_self_eq_true, if_true] at h1
    intro m
    have := List.count_pos_iff.2 m
    omega
  | true => exact absurd (by rw [hl]; simp) (C105_server hc h).2.2

/-- A handshake that was given a time limit and has neither completed nor failed can always still time
out. -/
theorem C105_pending {cfg t} (h : TReach cfg t) (hidle : t.s.stack = []) (hst : .started ∈ t.log)
    (hopen : ¬ Complete (base t.log)) (hok : .error ∉ base t.log) : ∃ t', tstep cfg t .expire = some t' := by
  cases hc : cfg.server with
  | false =>
    have i := h.inv hc
    rw [i.base] at hopen hok
    have ha : t.armed = true := by
      cases ha : t.armed with
      | true => rfl
      | false => exact ((i.off hst ha).elim hopen hok).elim
    have hcon := i.conn hst
    have hstep : step cfg t.s .transportError = some t.s.fail := by simp [step, St.outside, hidle, hcon]
    exact ⟨{ s := t.s.fail, armed := false, log := t.log ++ .fired :: news t.s t.s.fail }, by simp [tstep, ha, hstep]⟩
  | true => exact absurd hst (C105_server hc h).2.1

/-- Once the timer has expired and everything has returned, the connection has failed, and the
handshake callback has been called exactly once: with an error, unless early success had been told. -/
theorem C105_tells {cfg t} (h : TReach cfg t) (hidle : t.s.stack = []) (hf : .fired ∈ t.log) :
    .error ∈ base t.log ∧ (.connect true ∈ base t.log → hsCalls (base t.log) = 1 ∧
      (¬ EarlyStarted (base t.log) → .hsErr ∈ base t.log)) := by
  cases hc : cfg.server with
  | false =>
    have i := h.inv hc
    rw [i.base]
    obtain ⟨h1, h2⟩ := i.told hf
    refine ⟨h1, fun hcon => ⟨C75_handshake_called i.reach hidle hcon (.inr h1), fun hne => ?_⟩⟩
    rcases h2 with w | w | w | ⟨_, r, w⟩
    · exact w
    · exact absurd w hne
    · exact absurd hcon w
    · rw [hidle] at w; cases w
  | true => exact absurd hf (C105_server hc h).2.2

end Fizz.Sock

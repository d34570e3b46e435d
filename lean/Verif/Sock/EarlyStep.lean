import Verif.Sock.EarlyInv

/-!
# Early data: the reports of the state machine
-/

namespace Fizz.Sock

open Spec

/-- What full success does to a client. -/
structure SuccEff (cfg : Cfg) (s t : St) (a : Bool) (n q : Params) : Prop where
  log : ∃ l, t.log = s.log ++ .success a n q :: l ∧
    (∀ o ∈ l, subEntry o = true ∨ o = .removePsk ∨ o = .error) ∧
    (t.early = none ∨ (.removePsk ∈ l ∧ .error ∈ l))
  efl : Spec.early t.log = Spec.early s.log
  phase : t.phase = 2
  rcb : t.replayCb = s.replayCb
  guard : t.guard = s.guard
  alt : (t.early = none ∧ t.stack = [.hsCb, .replay] ++ s.stack ∧
      (s.early = none ∨ a = true ∨ (cfg.policy = .resend ∧ SameParams n q))) ∨
    (t.early = s.early ∧ s.early ≠ none ∧ a = false ∧ ¬ (cfg.policy = .resend ∧ SameParams n q) ∧
      t.stack = [.err .hs, .out] ++ s.stack)

theorem successEarly_eff {cfg} {u : St} {a n q} :
    (∃ l, (u.successEarly cfg a n q).log = u.log ++ l ∧
      (∀ o ∈ l, subEntry o = true ∨ o = .removePsk ∨ o = .error) ∧
      ((u.successEarly cfg a n q).early = none ∨ (.removePsk ∈ l ∧ .error ∈ l))) ∧
    Spec.early (u.successEarly cfg a n q).log = Spec.early u.log ∧
    (((u.successEarly cfg a n q).early = none ∧ (u.successEarly cfg a n q).stack = [.hsCb, .replay] ++ u.stack ∧
      (u.early = none ∨ a = true ∨ (cfg.policy = .resend ∧ SameParams n q))) ∨
    ((u.successEarly cfg a n q).early = u.early ∧ u.early ≠ none ∧ a = false ∧ ¬ (cfg.policy = .resend ∧ SameParams n q) ∧
      (u.successEarly cfg a n q).stack = [.err .hs, .out] ++ u.stack)) := by
  have sub : ∀ t : St, SubLog u t → ∃ l, t.log = u.log ++ l ∧ (∀ o ∈ l, subEntry o = true ∨ o = .removePsk ∨ o = .error) := by
    rintro t ⟨l, h1, h2⟩
    exact ⟨l, h1, fun o m => .inl (h2 o m)⟩
  unfold St.successEarly
  split
  · rename_i e0
    exact ⟨⟨[], by simp, by simp, .inl e0⟩, rfl, .inl ⟨e0, rfl, .inl e0⟩⟩
  · rename_i e e0
    split
    · rename_i ha
      obtain ⟨l, h1, h2⟩ := sub _ (SubLog.flush cfg e.pend u)
      exact ⟨⟨l, h1, h2, .inl rfl⟩, (flush_flow cfg e.pend u).2.1, .inl ⟨rfl, by simp [St.push], .inr (.inl ha)⟩⟩
    · rename_i ha
      split
      · rename_i hm
        simp only [Bool.and_eq_true, decide_eq_true_eq, paramsMatch_iff] at hm
        simp only []
        split
        · obtain ⟨l, h1, h2⟩ := sub _ (SubLog.flush cfg e.pend u)
          exact ⟨⟨l, h1, h2, .inl rfl⟩, (flush_flow cfg e.pend u).2.1, .inl ⟨rfl, by simp [St.push], .inr (.inr hm)⟩⟩
        · obtain ⟨l, h1, h2⟩ := sub _ ((SubLog.flush1 cfg u ⟨none, e.resend⟩).trans (SubLog.flush cfg e.pend _))
          exact ⟨⟨l, h1, h2, .inl rfl⟩, (flush_flow cfg (⟨none, e.resend⟩ :: e.pend) u).2.1, .inl ⟨rfl, by simp [St.push], .inr (.inr hm)⟩⟩
      · rename_i hm
        simp only [Bool.and_eq_true, decide_eq_true_eq, paramsMatch_iff] at hm
        refine ⟨⟨[.removePsk, .error], by simp [St.fail, St.push, St.say], by simp, .inr (by simp)⟩, ?_,
          .inr ⟨by simp, by simp [e0], by simpa using ha, hm, rfl⟩⟩
        simp [St.fail, St.push, St.say, early, earlyBy]

theorem success_eff {cfg} {s : St} {a n q} :
    SuccEff cfg s (St.successClient cfg (St.say { s with phase := 2 } (.success a n q)) a n q) a n q := by
  have hp : (St.successClient cfg (St.say { s with phase := 2 } (.success a n q)) a n q).phase = 2 := by simp
  have hr : (St.successClient cfg (St.say { s with phase := 2 } (.success a n q)) a n q).replayCb = s.replayCb := by simp
  have hg : (St.successClient cfg (St.say { s with phase := 2 } (.success a n q)) a n q).guard = s.guard := by simp
  revert hp hr hg
  show St.phase (St.successEarly cfg (St.flush cfg { St.say { s with phase := 2 } (.success a n q) with hsPend := [] } s.hsPend) a n q) = 2 →
    St.replayCb (St.successEarly cfg (St.flush cfg { St.say { s with phase := 2 } (.success a n q) with hsPend := [] } s.hsPend) a n q) = s.replayCb →
    St.guard (St.successEarly cfg (St.flush cfg { St.say { s with phase := 2 } (.success a n q) with hsPend := [] } s.hsPend) a n q) = s.guard →
    SuccEff cfg s (St.successEarly cfg (St.flush cfg { St.say { s with phase := 2 } (.success a n q) with hsPend := [] } s.hsPend) a n q) a n q
  have f := (flush_flow cfg s.hsPend { St.say { s with phase := 2 } (.success a n q) with hsPend := [] }).2.1
  have f2 : early (St.log { St.say { s with phase := 2 } (.success a n q) with hsPend := [] }) = early s.log := by
    simp [St.say, early, earlyBy]
  rw [f2] at f
  have g1 : ∃ l, (St.flush cfg { St.say { s with phase := 2 } (.success a n q) with hsPend := [] } s.hsPend).log =
      s.log ++ .success a n q :: l ∧ ∀ o ∈ l, subEntry o = true := by
    obtain ⟨l, h1, h2⟩ := SubLog.flush cfg s.hsPend { St.say { s with phase := 2 } (.success a n q) with hsPend := [] }
    exact ⟨l, by rw [h1]; simp [St.say], h2⟩
  have g2 : (St.flush cfg { St.say { s with phase := 2 } (.success a n q) with hsPend := [] } s.hsPend).early = s.early := by simp
  have g3 : (St.flush cfg { St.say { s with phase := 2 } (.success a n q) with hsPend := [] } s.hsPend).stack = s.stack := by simp [St.say]
  revert f g1 g2 g3
  generalize St.flush cfg { St.say { s with phase := 2 } (.success a n q) with hsPend := [] } s.hsPend = u
  rintro f ⟨l, g1, g1'⟩ g2 g3 hp hr hg
  obtain ⟨⟨l', e1, e2, e3⟩, e4, e5⟩ := successEarly_eff (cfg := cfg) (u := u) (a := a) (n := n) (q := q)
  rw [g2, g3] at e5
  refine ⟨⟨l ++ l', by rw [e1, g1]; simp, ?_, ?_⟩, e4.trans f, hp, hr, hg, e5⟩
  · intro o m
    rcases List.mem_append.1 m with w | w
    · exact .inl (g1' o w)
    · exact e2 o w
  · exact e3.imp id fun w => ⟨List.mem_append_right _ w.1, List.mem_append_right _ w.2⟩

/-- A report followed by the handshake callback or by failure. -/
structure RepEff (s t : St) (o : Obs) : Prop where
  log : ∃ l, t.log = s.log ++ o :: l ∧ ∀ x ∈ l, x = .hsOk ∨ x = .error
  stack : ∃ fs, t.stack = fs ++ s.stack ∧ .replay ∉ fs
  rcb : t.replayCb = s.replayCb

theorem hsSuccess_rep {s u : St} {o} (hl : u.log = s.log ++ [o]) (hs : u.stack = s.stack) (hr : u.replayCb = s.replayCb) :
    RepEff s u.hsSuccess o := by
  obtain ⟨fs, h1, h2⟩ := hsSuccess_stack u
  refine ⟨?_, ⟨fs, by rw [h1, hs], fun m => by simpa using h2 _ m⟩, by simpa using hr⟩
  unfold St.hsSuccess
  split
  · exact ⟨[], hl, by simp⟩
  · exact ⟨[.hsOk], by simp [St.push, St.say, hl], by simp⟩
  · exact ⟨[], hl, by simp⟩

theorem fail_rep {s u : St} {o} (hl : u.log = s.log ++ [o]) (hs : u.stack = s.stack) (hr : u.replayCb = s.replayCb) :
    RepEff s u.fail o :=
  ⟨⟨[.error], by simp [St.fail, St.push, St.say, hl], by simp⟩, ⟨[.err .hs], by simp [St.fail, St.push, hs], by simp⟩, hr⟩

theorem earlyOk_eff {cfg} {s : St} {m} : RepEff s (s.visit cfg (.earlyOk m)) (.earlyOk m) ∧
    (s.visit cfg (.earlyOk m)).phase = 1 ∧
    (s.visit cfg (.earlyOk m)).early = (if cfg.server then s.early else some { remaining := m }) := by
  refine ⟨?_, visit_phase cfg s _, ?_⟩
  · simp only [St.visit]
    split
    · split
      · exact hsSuccess_rep rfl rfl rfl
      · exact fail_rep rfl rfl rfl
    · exact hsSuccess_rep rfl rfl rfl
  · simp only [St.visit]
    split
    · split <;> simp
    · simp

theorem serverSuccess_eff {cfg} {s : St} {a n q} (hsv : cfg.server = true) :
    RepEff s (s.visit cfg (.success a n q)) (.success a n q) ∧
    (s.visit cfg (.success a n q)).phase = 2 ∧ (s.visit cfg (.success a n q)).early = s.early := by
  refine ⟨?_, visit_phase cfg s _, ?_⟩
  · simp only [St.visit, hsv, if_true]
    split
    · exact hsSuccess_rep rfl rfl rfl
    · exact fail_rep rfl rfl rfl
  · simp only [St.visit, hsv, if_true]
    split <;> simp

theorem clientSuccess_eff {cfg} {s : St} {a n q} (hcl : cfg.server = false) :
    SuccEff cfg s (s.visit cfg (.success a n q)) a n q := by
  simp only [St.visit, hcl, Bool.false_eq_true, if_false]
  exact success_eff

theorem RepEff.early {s t : St} {o} (h : RepEff s t o) (ho : earlyBy o = []) : Spec.early t.log = Spec.early s.log := by
  obtain ⟨l, e, hl⟩ := h.log
  rw [e, early_app]
  have : Spec.early (o :: l) = [] := by
    refine List.flatMap_eq_nil_iff.2 fun x m => ?_
    rcases List.mem_cons.1 m with rfl | m
    · exact ho
    · rcases hl x m with rfl | rfl <;> rfl
  rw [this]; simp

theorem EarlyInv.noRep {cfg s} (h : EarlyInv cfg s) (hp : s.phase ≤ 1) : s.stack.count .replay = 0 ∧ s.log.countP isRep = 0 := by
  have := h.once
  rw [if_neg (by omega)] at this
  omega

theorem EarlyInv.earlyOk {cfg s m} (h : EarlyInv cfg s) (hi : Inv cfg s) (hm : s.mayVisit cfg (.earlyOk m) = true) :
    EarlyInv cfg (s.visit cfg (.earlyOk m)) := by
  simp [St.mayVisit] at hm
  obtain ⟨hr, hp, he⟩ := earlyOk_eff (cfg := cfg) (s := s) (m := m)
  have hfl := hr.early rfl
  obtain ⟨l, hlog, hl⟩ := hr.log
  obtain ⟨fs, hst, hfs⟩ := hr.stack
  have hrcb := hr.rcb
  have hns := hi.calls.ph1 hm.1
  obtain ⟨n1, n2⟩ := h.noRep (by omega)
  have hlim : s.early = none ∧ Spec.early s.log = [] := by
    rcases h.lim with w | ⟨m, w, _⟩
    · exact w
    · exact absurd ⟨m, w⟩ hns
  revert hlog hst hrcb hp he hfl
  generalize s.visit cfg (.earlyOk m) = t
  intro hp he hfl hlog hst hrcb
  have hstart : EarlyStarted t.log := ⟨m, by rw [hlog]; simp⟩
  have hc : l.countP isRep = 0 := by
    rw [List.countP_eq_zero]; intro o z; rcases hl o z with rfl | rfl <;> simp [isRep]
  have hrl : t.log.countP isRep = 0 := by
    rw [hlog, List.countP_append, List.countP_cons, hc, n2]; rfl
  have hrs : t.stack.count .replay = 0 := by
    rw [hst, List.count_append, List.count_eq_zero_of_not_mem hfs, n1]
  refine ⟨?_, ?_, ?_, fun _ => hstart, ?_, ?_, by omega, ?_⟩
  · cases hsv : cfg.server with
    | true =>
      rw [hsv] at he
      exact .inl ⟨he.trans hlim.1, hfl.trans hlim.2⟩
    | false =>
      rw [hsv] at he
      refine .inr ⟨m, by rw [hlog]; simp, ?_⟩
      rw [hfl, hlim.2, St.rem, he]; simp
  · intro hcl _
    rw [he, hcl]; simp
  · intro hcl z
    rw [he, hcl] at z; simp at z
  · intro z
    have := List.count_pos_iff.2 z
    omega
  · intro pre suf e
    rw [e, List.countP_append, List.countP_cons] at hrl
    simp [isRep] at hrl
  · intro z
    exfalso
    rw [hrcb] at z
    exact hns (h.rcb z)

theorem EarlyInv.success {cfg s a n q} (h : EarlyInv cfg s) (hi : Inv cfg s) (hm : s.mayVisit cfg (.success a n q) = true) :
    EarlyInv cfg (s.visit cfg (.success a n q)) := by
  simp [St.mayVisit] at hm
  obtain ⟨n1, n2⟩ := h.noRep hm.1
  cases hsv : cfg.server with
  | true =>
    obtain ⟨hr, hp, he⟩ := serverSuccess_eff (cfg := cfg) (s := s) (a := a) (n := n) (q := q) hsv
    have hfl := hr.early rfl
    obtain ⟨l, hlog, hl⟩ := hr.log
    obtain ⟨fs, hst, hfs⟩ := hr.stack
    have hrcb := hr.rcb
    revert hlog hst hrcb hp he hfl
    generalize s.visit cfg (.success a n q) = t
    intro hp he hfl hlog hst hrcb
    have hc : l.countP isRep = 0 := by
      rw [List.countP_eq_zero]; intro o z; rcases hl o z with rfl | rfl <;> simp [isRep]
    have hrl : t.log.countP isRep = 0 := by
      rw [hlog, List.countP_append, List.countP_cons, hc, n2]; rfl
    have hrs : t.stack.count .replay = 0 := by
      rw [hst, List.count_append, List.count_eq_zero_of_not_mem hfs, n1]
    have m1 : ∀ {o}, o ∈ s.log → o ∈ t.log := fun m => by rw [hlog]; exact List.mem_append_left _ m
    have hne : s.early = none := by
      cases hq : s.early with
      | none => rfl
      | some e => have := (hi.shape.early (by rw [hq]; simp)).1; rw [hsv] at this; cases this
    refine ⟨?_, fun z => (by rw [hsv] at z; cases z), fun z => (by rw [hsv] at z; cases z), ?_, ?_, ?_, by omega, ?_⟩
    · rcases h.lim with ⟨x, y⟩ | ⟨m, x, y⟩
      · exact .inl ⟨he.trans x, hfl.trans y⟩
      · exact .inr ⟨m, m1 x, by rw [hfl, St.rem, he]; exact y⟩
    · intro z
      obtain ⟨m, x⟩ := h.rcb (hrcb ▸ z)
      exact ⟨m, m1 x⟩
    · intro z
      have := List.count_pos_iff.2 z
      omega
    · intro pre suf e
      rw [e, List.countP_append, List.countP_cons] at hrl
      simp [isRep] at hrl
    · intro z
      exfalso
      rw [hrcb] at z
      rcases h.kept z with w | w
      · exact w hne
      · have := List.count_pos_iff.2 w
        omega
  | false =>
    obtain ⟨⟨l, hlog, hl, _⟩, hfl, hp, hrcb, _, halt⟩ := clientSuccess_eff (cfg := cfg) (s := s) (a := a) (n := n) (q := q) hsv
    revert hlog hrcb hp halt hfl
    generalize s.visit cfg (.success a n q) = t
    intro hfl hp hrcb halt hlog
    have m1 : ∀ {o}, o ∈ s.log → o ∈ t.log := fun m => by rw [hlog]; exact List.mem_append_left _ m
    have hc : l.countP isRep = 0 := by
      rw [List.countP_eq_zero]; intro o z
      rcases hl o z with w | rfl | rfl
      · cases o <;> simp_all [isRep, subEntry]
      · simp [isRep]
      · simp [isRep]
    have hrl : t.log.countP isRep = 0 := by
      rw [hlog, List.countP_append, List.countP_cons, hc, n2]; rfl
    have st : EarlyStarted t.log → EarlyStarted s.log := by
      rintro ⟨m, w⟩
      rw [hlog] at w
      rcases List.mem_append.1 w with w | w
      · exact ⟨m, w⟩
      · rcases List.mem_cons.1 w with w | w
        · cases w
        · rcases hl _ w with z | z | z <;> simp [subEntry] at z
    have hrem : t.rem ≤ s.rem := by
      rcases halt with ⟨x, _⟩ | ⟨x, _⟩
      · simp [St.rem, x]
      · simp [St.rem, x]
    refine ⟨?_, fun _ z => (by omega), ?_, ?_, ?_, ?_, ?_, ?_⟩
    · rw [hfl]
      rcases h.lim with ⟨x, y⟩ | ⟨m, x, y⟩
      · refine .inl ⟨?_, y⟩
        rcases halt with ⟨z, _⟩ | ⟨z, _⟩
        · exact z
        · exact z.trans x
      · exact .inr ⟨m, m1 x, by omega⟩
    · intro _ z hs
      have hs := st hs
      have hme : Obs.success a n q ∈ t.log := by rw [hlog]; simp
      rcases halt with ⟨_, _, w⟩ | ⟨w, w', _⟩
      · rcases w with w | w
        · -- nothing was pending: then early data had not started
          exfalso
          have hp0 : s.phase = 0 := by
            have : s.phase ≠ 1 := fun z => h.one hsv z w
            omega
          exact hi.calls.ph1 hp0 hs
        · exact ⟨a, n, q, hme, w⟩
      · exact absurd (w ▸ z) w'
    · intro z
      obtain ⟨m, x⟩ := h.rcb (hrcb ▸ z)
      exact ⟨m, m1 x⟩
    · intro z
      refine ⟨hsv, ?_⟩
      rcases halt with ⟨w, _⟩ | ⟨_, _, _, _, w⟩
      · exact w
      · rw [w] at z
        have : Frame.replay ∈ s.stack := by simpa using z
        have := List.count_pos_iff.2 this
        omega
    · intro pre suf e
      rw [e, List.countP_append, List.countP_cons] at hrl
      simp [isRep] at hrl
    · rw [hrl, hp]
      rcases halt with ⟨_, w, _⟩ | ⟨_, _, _, _, w⟩ <;> rw [w, List.count_append, n1] <;> decide
    · intro _
      rcases halt with ⟨_, w, _⟩ | ⟨w, w', _⟩
      · right; rw [w]; simp
      · left; rw [w]; exact w'

theorem Reach.earlyInv {cfg s} (h : Reach cfg s) : EarlyInv cfg s := by
  induction h with
  | init g e c =>
    refine ⟨.inl ⟨rfl, rfl⟩, (fun _ z => by cases z), ?_, (fun z => by cases z), (fun z => by cases z), ?_, by simp, (fun z => by cases z)⟩
    · rintro _ _ ⟨m, w⟩; cases w
    · intro pre suf e; simp at e
  | step hr hs ih =>
    have k := step_kind hs
    cases kind_gen k with
    | mild q => exact ih.mild q
    | write d c hg => exact ih.write hg hr.inv.shape
    | badWrite d c hg => exact ih.badWrite hg
    | take e q => exact ih.take
    | replay rest hst hrc => exact ih.replay hst hrc
    | earlyOk m rest hs hm => exact ih.earlyOk hr.inv hm
    | success a n q rest hs hm => exact ih.success hr.inv hm

/-- Early data that was turned down for good ends the connection. -/
def Refused (cfg : Cfg) (s : St) : Prop :=
  EarlyStarted s.log → ∀ pre n q suf, s.log = pre ++ .success false n q :: suf →
    ¬ (cfg.policy = .resend ∧ SameParams n q) → .removePsk ∈ suf ∧ .error ∈ suf ∧ (∀ e, .take e ∉ suf) ∧ Doomed s

theorem Refused.old {cfg s t l} (h : Refused cfg s) (hlog : t.log = s.log ++ l)
    (hl : ∀ o ∈ l, (∀ m, o ≠ .earlyOk m) ∧ (∀ a n q, o ≠ .success a n q))
    (htake : Doomed s → ∀ e, .take e ∉ l) (hd : Doomed s → Doomed t) : Refused cfg t := by
  intro hs pre n q suf e hno
  rw [hlog] at e
  obtain ⟨suf', e1, e2⟩ := split_old e (fun m => (hl _ m).2 _ _ _ rfl)
  have hs' : EarlyStarted s.log := by
    obtain ⟨m, w⟩ := hs
    rw [hlog] at w
    rcases List.mem_append.1 w with w | w
    · exact ⟨m, w⟩
    · exact absurd rfl ((hl _ w).1 m)
  obtain ⟨a, b, c, d⟩ := h hs' pre n q suf' e1 hno
  rw [e2]
  refine ⟨List.mem_append_left _ a, List.mem_append_left _ b, ?_, hd d⟩
  intro e m
  rcases List.mem_append.1 m with w | w
  · exact c e w
  · exact htake d e w

theorem Doomed.blocked {s : St} (h : Doomed s) : ¬ (s.guard = false ∧ s.terminal = false) := by
  rintro ⟨a, b⟩
  rcases h with h | ⟨h, _⟩
  · simp [St.terminal, h] at b
  · rw [h] at a; cases a

theorem Reach.refused {cfg s} (h : Reach cfg s) (hcl : cfg.server = false) : Refused cfg s := by
  induction h with
  | init g e c => intro ⟨m, w⟩; cases w
  | @step s s' o hr hs ih =>
    have k := step_kind hs
    have hd : Doomed s → Doomed s' := fun w => w.kind hr.inv.guarded k
    revert hd
    generalize hk' : s' = t at *
    intro hd
    cases kind_gen k with
    | mild q =>
      obtain ⟨l, h1, h2⟩ := q.log
      refine ih.old h1 ?_ ?_ hd
      · intro o m; have := h2 o m; cases o <;> simp_all [Fizz.Sock.mild, dull]
      · intro _ e m; have := h2 _ m; simp [Fizz.Sock.mild] at this
    | write d c hg =>
      obtain ⟨l, h1, h2⟩ := (write_eff (d := d) (c := c) hg hr.inv.shape).log
      refine ih.old h1 ?_ ?_ hd
      · intro o m; have := h2 o m; cases o <;> simp_all [subEntry]
      · intro _ e m; have := h2 _ m; simp [subEntry] at this
    | badWrite d c hg =>
      obtain ⟨l, h1, h2, _⟩ := badWrite_eq (cfg := cfg) (d := d) (c := c) hg
      refine ih.old h1 ?_ ?_ hd
      · rw [h2]; cases c <;> simp
      · rw [h2]; cases c <;> simp
    | take e q h1 h2 => exact ih.old (l := [.take e]) rfl (by simp) (fun w => absurd ⟨h1, h2⟩ w.blocked) hd
    | replay rest hs hr => exact ih.old (l := [.replaySafe]) rfl (by simp) (by simp) hd
    | earlyOk m rest hst hm =>
      simp [St.mayVisit] at hm
      have hno : ∀ a n q, .success a n q ∉ s.log := fun a n q w => hr.inv.calls.ph0 (.inl hm.1) ⟨a, n, q, w⟩
      obtain ⟨⟨⟨l, h1, h2⟩, _, _⟩, _, _⟩ := earlyOk_eff (cfg := cfg) (s := s) (m := m)
      intro _ pre n q suf e _
      exfalso
      have : Obs.success false n q ∈ s.log ++ .earlyOk m :: l := by rw [← h1, e]; simp
      rcases List.mem_append.1 this with w | w
      · exact hno _ _ _ w
      · rcases List.mem_cons.1 w with w | w
        · cases w
        · rcases h2 _ w with z | z <;> cases z
    | success a n q rest hst hm =>
      simp [St.mayVisit] at hm
      have hno : ∀ a n q, .success a n q ∉ s.log := fun a n q w => hr.inv.calls.ph0 (by omega) ⟨a, n, q, w⟩
      obtain ⟨⟨l, hlog, hl, hl2⟩, hfl, hp, hrcb, hgu, halt⟩ := clientSuccess_eff (cfg := cfg) (s := s) (a := a) (n := n) (q := q) hcl
      intro hstart pre n' q' suf e hnr
      rw [hlog] at e
      -- the report is the new one
      have hpre : pre = s.log ∧ n' = n ∧ q' = q ∧ a = false ∧ suf = l := by
        have nol : Obs.success false n' q' ∉ l := by
          intro w; rcases hl _ w with z | z | z <;> simp [subEntry] at z
        rcases List.append_eq_append_iff.1 e with ⟨x, x1, x2⟩ | ⟨x, x1, x2⟩
        · cases x with
          | nil =>
            simp at x2
            exact ⟨by simpa using x1, x2.1.2.1.symm, x2.1.2.2.symm, x2.1.1, x2.2.symm⟩
          | cons y x =>
            injection x2 with _ x2
            exact absurd (by rw [x2]; simp) nol
        · cases x with
          | nil =>
            simp at x2
            exact ⟨by simpa using x1.symm, x2.1.2.1, x2.1.2.2, x2.1.1, x2.2⟩
          | cons y x =>
            injection x2 with x2 _
            exact absurd (by rw [x1, ← x2]; simp) (hno false n' q')
      obtain ⟨rfl, rfl, rfl, rfl, rfl⟩ := hpre
      have hearly : s.early ≠ none := by
        have hst' : EarlyStarted s.log := by
          obtain ⟨m, w⟩ := hstart
          rw [hlog] at w
          rcases List.mem_append.1 w with w | w
          · exact ⟨m, w⟩
          · rcases List.mem_cons.1 w with w | w
            · cases w
            · rcases hl _ w with z | z | z <;> simp [subEntry] at z
        refine hr.earlyInv.one hcl ?_
        have : s.phase ≠ 0 := fun z => hr.inv.calls.ph1 z hst'
        omega
      rcases halt with ⟨_, _, w⟩ | ⟨w, _, _, _, hstk⟩
      · exfalso
        rcases w with w | w | w
        · exact hearly w
        · cases w
        · exact hnr w
      · have hl2 := hl2.resolve_left (by rw [w]; exact hearly)
        refine ⟨hl2.1, hl2.2, ?_, .inr ⟨hgu.trans (hr.inv.guarded.acts hst), [.err .hs, .out], rest, ?_, by simp, .hs, .inl rfl, by simp⟩⟩
        · intro e w; rcases hl _ w with z | z | z <;> simp [subEntry] at z
        · rw [hstk, hst]

end Fizz.Sock

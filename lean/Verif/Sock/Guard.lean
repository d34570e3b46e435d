import Verif.Sock.CallsStep

/-!
# The action guard, and the invariants put together
-/

namespace Fizz.Sock

open Spec

theorem close_stack (s : St) (k) : ∃ fs, (s.close k).stack = fs ++ s.stack ∧
    ∀ f ∈ fs, f = .loop ∨ f = .out ∨ f = .doFail ∨ f = .err .hs := by
  cases k <;> simp only [St.close] <;> split
  · obtain ⟨fs, h, hl⟩ := enter_stack (s.submit (.close true))
    exact ⟨fs, h, fun f hf => .inl (hl f hf)⟩
  · exact ⟨[.err .hs, .out], rfl, by simp⟩
  · obtain ⟨fs, h, hl⟩ := enter_stack ((s.push [.doFail, .out]).submit (.close true))
    refine ⟨fs ++ [.doFail, .out], by rw [h]; simp [St.push], fun f hf => ?_⟩
    rcases List.mem_append.1 hf with q | q
    · exact .inl (hl f q)
    · simp at q; rcases q with q | q <;> simp [q]
  · exact ⟨[.err .hs, .out], rfl, by simp⟩
  · obtain ⟨fs, h, hl⟩ := enter_stack ((s.push [.out]).submit (.close false))
    refine ⟨fs ++ [.out], by rw [h]; simp [St.push], fun f hf => ?_⟩
    rcases List.mem_append.1 hf with q | q
    · exact .inl (hl f q)
    · simp at q; simp [q]
  · exact ⟨[.out], rfl, by simp⟩

theorem successEarly_stack (cfg) (s : St) (a n q) : ∃ fs, (s.successEarly cfg a n q).stack = fs ++ s.stack ∧
    ((fs = [.hsCb, .replay]) ∨ (fs = [.err .hs, .out] ∧ ∃ e, s.early = some e ∧ a = false ∧
      (decide (cfg.policy = .resend) && earlyParametersMatch n q) = false)) := by
  unfold St.successEarly
  split
  · exact ⟨_, rfl, .inl rfl⟩
  · rename_i e he
    split
    · exact ⟨[.hsCb, .replay], by simp [St.push], .inl rfl⟩
    · rename_i ha
      split
      · refine ⟨[.hsCb, .replay], ?_, .inl rfl⟩
        simp only []
        split <;> simp [St.push]
      · rename_i hm
        exact ⟨[.err .hs, .out], rfl, .inr ⟨rfl, e, he, by simpa using ha, by simpa using hm⟩⟩

theorem successClient_stack (cfg) (s : St) (a n q) : ∃ fs, (s.successClient cfg a n q).stack = fs ++ s.stack ∧
    ((fs = [.hsCb, .replay]) ∨ (fs = [.err .hs, .out] ∧ ∃ e, s.early = some e ∧ a = false ∧
      (decide (cfg.policy = .resend) && earlyParametersMatch n q) = false)) := by
  obtain ⟨fs, h, hl⟩ := successEarly_stack cfg (St.flush cfg { s with hsPend := [] } s.hsPend) a n q
  refine ⟨fs, ?_, ?_⟩
  · show (St.successEarly cfg (St.flush cfg { s with hsPend := [] } s.hsPend) a n q).stack = _
    rw [h]; simp
  · simpa using hl

theorem visit_stack (cfg) (s : St) (a) : ∃ fs, (s.visit cfg a).stack = fs ++ s.stack ∧
    ∀ f ∈ fs, f = .out ∨ f = .err .hs ∨ f = .hsCb ∨ f = .replay := by
  have hh : ∀ t : St, t.stack = s.stack → ∃ fs, t.hsSuccess.stack = fs ++ s.stack ∧
      ∀ f ∈ fs, f = .out ∨ f = .err .hs ∨ f = .hsCb ∨ f = .replay := by
    intro t ht
    obtain ⟨fs, h, hl⟩ := hsSuccess_stack t
    exact ⟨fs, by rw [h, ht], fun f hf => .inl (hl f hf)⟩
  cases a with
  | earlyOk m =>
    simp only [St.visit]
    split
    · split
      · exact hh _ rfl
      · exact ⟨[.err .hs], rfl, by simp⟩
    · exact hh _ rfl
  | success a now old =>
    simp only [St.visit]
    split
    · split
      · exact hh _ rfl
      · exact ⟨[.err .hs], rfl, by simp⟩
    · obtain ⟨fs, h, hl⟩ := successClient_stack cfg (St.say { s with phase := 2 } (.success a now old)) a now old
      refine ⟨fs, h, fun f hf => ?_⟩
      rcases hl with rfl | ⟨rfl, _⟩ <;> simp at hf <;> rcases hf with hf | hf <;> simp [hf]
  | error => exact ⟨[.err .hs], rfl, by simp⟩
  | fallback =>
    simp only [St.visit]
    split
    · split
      · exact ⟨[.out], rfl, by simp⟩
      · exact ⟨[], rfl, by simp⟩
    · exact ⟨[], rfl, by simp⟩
  | earlyFailed t =>
    cases t with
    | none => exact ⟨[], rfl, by simp⟩
    | some i => exact ⟨[.out], rfl, by simp⟩
  | mutate e c => exact ⟨[], rfl, by simp⟩
  | other => exact ⟨[.out], rfl, by simp⟩

theorem connect_stack (cfg) (s : St) (c v) : ∃ f, (s.connect cfg c v).stack = f :: s.stack ∧
    ((f = .acts ∧ (s.connect cfg c v).guard = true) ∨
      ((f = .out ∨ f = .err .hs) ∧ (s.connect cfg c v).guard = s.guard)) := by
  unfold St.connect
  simp only []
  split
  · exact ⟨_, rfl, .inl ⟨rfl, rfl⟩⟩
  · split
    · exact ⟨_, rfl, .inr ⟨.inl rfl, rfl⟩⟩
    · split
      · exact ⟨_, rfl, .inl ⟨rfl, rfl⟩⟩
      · exact ⟨_, rfl, .inr ⟨.inr rfl, rfl⟩⟩

/-- What `deliverAllErrors` leaves in place of its frame. -/
theorem errStep_stack (s : St) (rest p) : ∃ fs, (s.errStep rest p).stack = fs ++ rest ∧
    (∀ f ∈ fs, f = .out ∨ ∃ p', f = .err p') ∧
    (∀ f ∈ fs, f = .err .drain ∨ f = .err .fin → (s.errStep rest p).extErr = true ∨ p = .drain) ∧
    (Early1 p → (s.errStep rest p).extErr = true ∨ ∃ p', Early1 p' ∧ .err p' ∈ fs) := by
  have outs : ∀ (fs : List Frame) (q : Ph), (∀ f ∈ fs, f = .out) →
      ∀ f ∈ fs ++ [.err q], f = .out ∨ ∃ p', f = .err p' := by
    intro fs q h f hf
    rcases List.mem_append.1 hf with w | w
    · exact .inl (h f w)
    · exact .inr ⟨q, List.mem_singleton.1 w⟩
  have nod : ∀ (fs : List Frame) (q : Ph) {P : Prop}, (∀ f ∈ fs, f = .out) → (q ≠ .drain ∧ q ≠ .fin) →
      ∀ f ∈ fs ++ [.err q], f = .err .drain ∨ f = .err .fin → P := by
    intro fs q P h hq f hf hor
    exfalso
    rcases List.mem_append.1 hf with w | w
    · rw [h f w] at hor; simp at hor
    · rw [List.mem_singleton.1 w] at hor
      rcases hor with z | z <;> injection z with z
      · exact hq.1 z
      · exact hq.2 z
  cases p with
  | hs =>
    obtain ⟨fs, h, hl⟩ := hsError_stack { s with stack := .err .unreplay :: rest }
    refine ⟨fs ++ [.err .unreplay], by simpa [St.errStep] using h, outs fs _ hl, nod fs _ hl (by simp), ?_⟩
    exact fun _ => .inr ⟨.unreplay, by simp [Early1], by simp⟩
  | unreplay =>
    refine ⟨[.err .pendHs], rfl, by simp, by simp, fun _ => .inr ⟨.pendHs, by simp [Early1], by simp⟩⟩
  | pendHs =>
    simp only [St.errStep]
    rcases list_cases s.hsPend with hq | ⟨w, ws, hq⟩
    · rw [pendHs1_nil hq]
      exact ⟨[.err .pendEarly], rfl, by simp, by simp, fun _ => .inr ⟨.pendEarly, by simp [Early1], by simp⟩⟩
    · rw [pendHs1_cons hq]
      obtain ⟨fs, h, hl⟩ := failW_stack { s with hsPend := ws, stack := .err .pendHs :: rest } w.token
      refine ⟨fs ++ [.err .pendHs], by simpa using h, outs fs _ hl, nod fs _ hl (by simp), ?_⟩
      exact fun _ => .inr ⟨.pendHs, by simp [Early1], by simp⟩
  | pendEarly =>
    simp only [St.errStep]
    rcases earlyPend_cases s with he0 | ⟨e, w, ws, he, hq⟩
    · rw [pendEarly1_nil he0]
      exact ⟨[.err .move], rfl, by simp, by simp, fun _ => .inr ⟨.move, by simp [Early1], by simp⟩⟩
    · rw [pendEarly1_cons he hq]
      obtain ⟨fs, h, hl⟩ := failW_stack { s with early := some { e with pend := ws }, stack := .err .pendEarly :: rest } w.token
      refine ⟨fs ++ [.err .pendEarly], by simpa using h, outs fs _ hl, nod fs _ hl (by simp), ?_⟩
      exact fun _ => .inr ⟨.pendEarly, by simp [Early1], by simp⟩
  | move =>
    simp only [St.errStep]
    split
    · rename_i q
      exact ⟨[.err .fin], rfl, by simp, fun _ _ _ => .inl q, fun _ => .inl q⟩
    · exact ⟨[.err .drain], rfl, by simp, fun _ _ _ => .inl rfl, fun _ => .inl rfl⟩
  | drain =>
    simp only [St.errStep]
    rcases list_cases s.queue with hq | ⟨e, q, hq⟩
    · rw [drain1_nil hq]
      exact ⟨[.err .fin], rfl, by simp, fun _ _ _ => .inr trivial, fun z => by simp [Early1] at z⟩
    · rw [drain1_cons hq]
      obtain ⟨fs, h, hl⟩ := failW_stack { s with queue := q, stack := .err .drain :: rest } e.token
      exact ⟨fs ++ [.err .drain], by simpa using h, outs fs _ hl, fun _ _ _ => .inr trivial, fun z => by simp [Early1] at z⟩
  | fin => exact ⟨[.out], rfl, by simp, by simp, fun z => by simp [Early1] at z⟩

theorem errStep_guard (s : St) (rest p) : (s.errStep rest p).guard = s.guard ∧ (s.errStep rest p).susp = s.susp ∧
    (s.extErr = true → (s.errStep rest p).extErr = true) := by
  cases p with
  | hs => simp [St.errStep]
  | unreplay => simp [St.errStep]
  | pendHs =>
    simp only [St.errStep]
    rcases list_cases s.hsPend with hq | ⟨w, ws, hq⟩
    · rw [pendHs1_nil hq]; simp
    · rw [pendHs1_cons hq]; simp
  | pendEarly =>
    simp only [St.errStep]
    rcases earlyPend_cases s with he0 | ⟨e, w, ws, he, hq⟩
    · rw [pendEarly1_nil he0]; simp
    · rw [pendEarly1_cons he hq]; simp
  | move => simp only [St.errStep]; split <;> simp
  | drain =>
    simp only [St.errStep]
    rcases list_cases s.queue with hq | ⟨e, q, hq⟩
    · rw [drain1_nil hq]; simp
    · rw [drain1_cons hq]; simp
  | fin => simp [St.errStep, St.say]

/-- The stack changes: `fs` are pushed where `old` was popped. -/
structure Delta (s t : St) (old fs : List Frame) : Prop where
  before : ∃ rest, s.stack = old ++ rest ∧ t.stack = fs ++ rest
  ext : s.extErr = true → t.extErr = true
  small : old = [] ∨ ∃ g, old = [g]

/-- How each step changes the stack, for the frames that matter below. -/
theorem kind_delta {cfg s s'} (k : Kind cfg s s') :
    ∃ old fs, Delta s s' old fs ∧
      (∀ f ∈ fs, f = .err .drain ∨ f = .err .fin → s'.extErr = true ∨ .err .drain ∈ old) ∧
      ((.acts ∉ old ∧ .acts ∉ fs ∧ s'.guard = s.guard ∧ s'.susp = s.susp) ∨
        (old = [] ∧ fs = [.acts] ∧ s'.guard = true ∧ s'.susp = s.susp ∧ s.guard = false) ∨
        (∃ gs, old = [.acts] ∧ fs = gs ∧ .acts ∉ gs ∧ s'.guard = false ∧ s'.susp = s.susp) ∨
        (old = [.acts] ∧ fs = [] ∧ s'.guard = s.guard ∧ s'.susp = true) ∨
        (old = [] ∧ fs = [.acts] ∧ s'.guard = s.guard ∧ s'.susp = false ∧ s.susp = true)) := by
  have grow : ∀ fs, s'.stack = fs ++ s.stack → s'.extErr = s.extErr → s'.guard = s.guard → s'.susp = s.susp →
      (∀ f ∈ fs, f ≠ .acts ∧ f ≠ .err .drain ∧ f ≠ .err .fin) →
      ∃ old fs, Delta s s' old fs ∧
      (∀ f ∈ fs, f = .err .drain ∨ f = .err .fin → s'.extErr = true ∨ .err .drain ∈ old) ∧
      ((.acts ∉ old ∧ .acts ∉ fs ∧ s'.guard = s.guard ∧ s'.susp = s.susp) ∨
        (old = [] ∧ fs = [.acts] ∧ s'.guard = true ∧ s'.susp = s.susp ∧ s.guard = false) ∨
        (∃ gs, old = [.acts] ∧ fs = gs ∧ .acts ∉ gs ∧ s'.guard = false ∧ s'.susp = s.susp) ∨
        (old = [.acts] ∧ fs = [] ∧ s'.guard = s.guard ∧ s'.susp = true) ∨
        (old = [] ∧ fs = [.acts] ∧ s'.guard = s.guard ∧ s'.susp = false ∧ s.susp = true)) := by
    intro fs h1 h2 h3 h4 h5
    refine ⟨[], fs, ⟨⟨s.stack, rfl, h1⟩, fun q => by rw [h2]; exact q, by simp⟩, ?_, .inl ⟨by simp, ?_, h3, h4⟩⟩
    · intro f hf hor
      rcases hor with q | q
      · exact absurd q (h5 f hf).2.1
      · exact absurd q (h5 f hf).2.2
    · exact fun m => (h5 _ m).1 rfl
  have pop : ∀ g rest fs, s.stack = g :: rest → g ≠ .acts → s'.stack = fs ++ rest → s'.extErr = s.extErr →
      s'.guard = s.guard → s'.susp = s.susp →
      (∀ f ∈ fs, f ≠ .acts ∧ f ≠ .err .drain ∧ f ≠ .err .fin) →
      ∃ old fs, Delta s s' old fs ∧
      (∀ f ∈ fs, f = .err .drain ∨ f = .err .fin → s'.extErr = true ∨ .err .drain ∈ old) ∧
      ((.acts ∉ old ∧ .acts ∉ fs ∧ s'.guard = s.guard ∧ s'.susp = s.susp) ∨
        (old = [] ∧ fs = [.acts] ∧ s'.guard = true ∧ s'.susp = s.susp ∧ s.guard = false) ∨
        (∃ gs, old = [.acts] ∧ fs = gs ∧ .acts ∉ gs ∧ s'.guard = false ∧ s'.susp = s.susp) ∨
        (old = [.acts] ∧ fs = [] ∧ s'.guard = s.guard ∧ s'.susp = true) ∨
        (old = [] ∧ fs = [.acts] ∧ s'.guard = s.guard ∧ s'.susp = false ∧ s.susp = true)) := by
    intro g rest fs h0 hg h1 h2 h3 h4 h5
    refine ⟨[g], fs, ⟨⟨rest, h0, h1⟩, fun q => by rw [h2]; exact q, by simp⟩, ?_, .inl ⟨by simpa using fun q => hg q.symm, ?_, h3, h4⟩⟩
    · intro f hf hor
      rcases hor with q | q
      · exact absurd q (h5 f hf).2.1
      · exact absurd q (h5 f hf).2.2
    · exact fun m => (h5 _ m).1 rfl
  cases k with
  | connect c v _ _ hg =>
    obtain ⟨f, h, hl⟩ := connect_stack cfg s c v
    rcases hl with ⟨rfl, hg'⟩ | ⟨hf, hg'⟩
    · exact ⟨[], [.acts], ⟨⟨s.stack, rfl, h⟩, fun q => by simpa using q, by simp⟩, by simp,
        .inr (.inl ⟨rfl, rfl, hg', by simp, hg⟩)⟩
    · refine grow [f] h (by simp) hg' (by simp) ?_
      rcases hf with rfl | rfl <;> simp
  | sockConnected _ _ hg =>
    exact ⟨[], [.acts], ⟨⟨s.stack, rfl, rfl⟩, id, by simp⟩, by simp, .inr (.inl ⟨rfl, rfl, rfl, rfl, hg⟩)⟩
  | write d c =>
    obtain ⟨fs, h, hl⟩ := write_stack cfg s d c
    refine grow fs h (by simp) (by simp) (by simp) fun f hf => ?_
    rcases hl f hf with q | q | ⟨n, q⟩ <;> simp [q]
  | close k =>
    obtain ⟨fs, h, hl⟩ := close_stack s k
    refine grow fs h (by simp) (by simp) (by simp) fun f hf => ?_
    rcases hl f hf with q | q | q | q <;> simp [q]
  | submit e =>
    obtain ⟨fs, h, hl⟩ := enter_stack (s.submit e)
    exact grow fs h (by simp) (by simp) (by simp) fun f hf => by simp [hl f hf]
  | setReplay b => exact grow [] rfl rfl rfl rfl (by simp)
  | transportError => exact grow [.err .hs] rfl rfl rfl rfl (by simp)
  | data =>
    obtain ⟨fs, h, hl⟩ := enter_stack s
    exact grow fs h (by simp) (by simp) (by simp) fun f hf => by simp [hl f hf]
  | env g e c => exact grow [] rfl rfl rfl rfl (by simp)
  | ret rest hs => exact pop _ rest [] hs (by simp) rfl rfl rfl rfl (by simp)
  | count n rest hs => exact pop _ rest [] hs (by simp) rfl rfl rfl rfl (by simp)
  | countFires n rest hs =>
    obtain ⟨fs, h, hl⟩ := enter_stack (St.submit { s with stack := rest, bytes := 0 } (.keyUpdate true))
    exact pop _ rest fs hs (by simp) h (by simp) (by simp) (by simp) fun f hf => by simp [hl f hf]
  | doFail rest hs => exact pop _ rest [.err .hs] hs (by simp) rfl rfl rfl rfl (by simp)
  | err p rest hs =>
    obtain ⟨fs, h, h1, h2, _⟩ := errStep_stack s rest p
    obtain ⟨g1, g2, g3⟩ := errStep_guard s rest p
    refine ⟨[.err p], fs, ⟨⟨rest, hs, h⟩, g3, by simp⟩, ?_, .inl ⟨by simp, ?_, g1, g2⟩⟩
    · intro f hf hor
      exact (h2 f hf hor).imp id fun q => by simp [q]
    · intro m
      rcases h1 _ m with q | ⟨p', q⟩ <;> cases q
  | hsCb rest hs =>
    obtain ⟨fs, h, hl⟩ := hsSuccess_stack { s with stack := rest }
    exact pop _ rest fs hs (by simp) h (by simp) (by simp) (by simp) fun f hf => by simp [hl f hf]
  | replay rest hs => exact pop _ rest [.out] hs (by simp) rfl rfl rfl rfl (by simp)
  | noReplay rest hs => exact pop _ rest [] hs (by simp) rfl rfl rfl rfl (by simp)
  | take e q rest hs hq hg =>
    exact ⟨[], [.acts], ⟨⟨s.stack, rfl, rfl⟩, id, by simp⟩, by simp, .inr (.inl ⟨rfl, rfl, rfl, rfl, hg⟩)⟩
  | sock rest hs hg =>
    exact ⟨[], [.acts], ⟨⟨s.stack, rfl, rfl⟩, id, by simp⟩, by simp, .inr (.inl ⟨rfl, rfl, rfl, rfl, hg⟩)⟩
  | stop rest hs => exact pop _ rest [] hs (by simp) rfl rfl rfl rfl (by simp)
  | visit a rest hs hm =>
    obtain ⟨fs, h, hl⟩ := visit_stack cfg s a
    have e1 : (s.visit cfg a).extErr = s.extErr ∧ (s.visit cfg a).guard = s.guard ∧ (s.visit cfg a).susp = s.susp := by
      cases a <;> simp only [St.visit]
      · split
        · split <;> simp
        · simp
      · split
        · split <;> simp
        · simp
      · simp
      · split
        · split <;> simp
        · simp
      · rename_i t; cases t <;> simp
      · simp
      · simp
    refine grow fs h e1.1 e1.2.1 e1.2.2 fun f hf => ?_
    rcases hl f hf with q | q | q | q <;> simp [q]
  | done rest hs =>
    obtain ⟨fs, h, hl⟩ := enter_stack { s with stack := rest, guard := false }
    refine ⟨[.acts], fs, ⟨⟨rest, hs, h⟩, fun q => by simpa using q, by simp⟩, ?_, .inr (.inr (.inl ⟨fs, rfl, rfl, ?_, by simp, by simp⟩))⟩
    · intro f hf hor
      rw [hl f hf] at hor; simp at hor
    · intro m; have := hl _ m; cases this
  | suspend rest hs =>
    exact ⟨[.acts], [], ⟨⟨rest, hs, rfl⟩, id, by simp⟩, by simp, .inr (.inr (.inr (.inl ⟨rfl, rfl, rfl, rfl⟩)))⟩
  | resumed ho hsu =>
    exact ⟨[], [.acts], ⟨⟨s.stack, rfl, rfl⟩, id, by simp⟩, by simp, .inr (.inr (.inr (.inr ⟨rfl, rfl, rfl, rfl, hsu⟩)))⟩

theorem Drained.kind {cfg s s'} (h : Drained s) (k : Kind cfg s s') : Drained s' := by
  obtain ⟨old, fs, ⟨⟨rest, h1, h2⟩, hx, _⟩, hd, _⟩ := kind_delta k
  intro f hf hor
  rw [h2] at hf
  rcases List.mem_append.1 hf with q | q
  · rcases hd f q hor with w | w
    · exact w
    · exact hx (h _ (by rw [h1]; exact List.mem_append_left _ w) (.inl rfl))
  · exact hx (h f (by rw [h1]; exact List.mem_append_right _ q) hor)

/-- One if true. -/
def one (b : Bool) : Nat := if b then 1 else 0

/-- The actions being visited, or in flight, hold the guard. -/
def Guarded (s : St) : Prop := s.stack.count .acts + one s.susp = one s.guard

theorem Guarded.kind {cfg s s'} (h : Guarded s) (k : Kind cfg s s') : Guarded s' := by
  have hone : ∀ b, one b ≤ 1 := by intro b; cases b <;> simp [one]
  obtain ⟨old, fs, ⟨⟨rest, h1, h2⟩, _⟩, _, hg⟩ := kind_delta k
  unfold Guarded at h ⊢
  rw [h1, List.count_append] at h
  rw [h2, List.count_append]
  rcases hg with ⟨a, b, c, d⟩ | ⟨rfl, rfl, c, d, e⟩ | ⟨gs, rfl, rfl, b, c, d⟩ | ⟨rfl, rfl, c, d⟩ | ⟨rfl, rfl, c, d, e⟩
  · rw [List.count_eq_zero_of_not_mem a] at h
    rw [List.count_eq_zero_of_not_mem b, c, d]; omega
  · rw [c, d]
    rw [e] at h
    have h4 : List.count Frame.acts [Frame.acts] = 1 := rfl
    have h5 : one true = 1 := rfl
    have h7 : one false = 0 := rfl
    have h6 : List.count Frame.acts [] = 0 := rfl
    omega
  · rw [List.count_eq_zero_of_not_mem b, c, d]
    have h3 := hone s.guard
    have h4 : List.count Frame.acts [Frame.acts] = 1 := rfl
    have h5 : one false = 0 := rfl
    omega
  · rw [c, d]
    have h3 := hone s.guard
    have h4 : List.count Frame.acts [Frame.acts] = 1 := rfl
    have h5 : one true = 1 := rfl
    have h6 : List.count Frame.acts [] = 0 := rfl
    omega
  · rw [c, d]
    rw [e] at h
    have h3 := hone s.guard
    have h4 : List.count Frame.acts [Frame.acts] = 1 := rfl
    have h5 : one true = 1 := rfl
    have h7 : one false = 0 := rfl
    have h6 : List.count Frame.acts [] = 0 := rfl
    omega

/-- While actions are visited the guard is set: what `St.flush1` relies on. -/
theorem Guarded.acts {s : St} {rest} (h : Guarded s) (hs : s.stack = .acts :: rest) : s.guard = true := by
  unfold Guarded at h
  rw [hs] at h
  cases hg : s.guard with
  | true => rfl
  | false => simp [hg, one] at h

/-- All the invariants. -/
structure Inv (cfg : Cfg) (s : St) : Prop where
  shape : Shape cfg s
  acc : Acc s []
  calls : Calls s
  drained : Drained s
  guarded : Guarded s

theorem Reach.inv {cfg s} (h : Reach cfg s) : Inv cfg s := by
  induction h with
  | init g e c =>
    refine ⟨⟨by simp, by simp, by simp, by simp, by simp⟩, ⟨by simp, by simp, by simp [St.gone, St.held, St.earlyPend, toks]⟩,
      ⟨fun _ => ⟨rfl, rfl, rfl, rfl, rfl, rfl, rfl, rfl, rfl⟩, rfl, by simp, by simp, by simp, by simp [Complete],
        by simp [Complete], by simp [EarlyStarted], by simp, by simp⟩, by simp [Drained], by simp [Guarded, one]⟩
  | step _ hs ih =>
    have k := step_kind hs
    exact ⟨ih.shape.kind k, ih.acc.kind ih.shape k, ih.calls.kind ih.drained k, ih.drained.kind k, ih.guarded.kind k⟩

end Fizz.Sock

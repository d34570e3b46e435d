import Verif.Sock.Calls

/-!
# The handshake callback, and the progress of an error: every step
-/

namespace Fizz.Sock

open Spec

/-- Starting to fail, among other things. -/
theorem Calls.failing {s t : St} (h : Calls s) (hk : s.connected = true) (hc : t.connected = s.connected)
    (hl : ∃ l, t.log = s.log ++ l ∧ ∀ o ∈ l, lowEntry o = true ∨ o = .error) (hcb : t.cb = s.cb)
    (hp : t.phase = s.phase) (hm : .err .hs ∈ t.stack) : Calls t := by
  obtain ⟨l, hl, hq⟩ := hl
  have cnt : ∀ p : Obs → Bool, (∀ o, lowEntry o = true → p o = false) → p .error = false →
      t.log.countP p = s.log.countP p := by
    intro p h1 h2
    rw [hl, List.countP_append]
    have : l.countP p = 0 := by
      rw [List.countP_eq_zero]
      intro o ho
      rcases hq o ho with q | q
      · simp [h1 o q]
      · simp [q, h2]
    omega
  have mm : ∀ o, lowEntry o = false → o ≠ .error → (o ∈ t.log ↔ o ∈ s.log) := by
    intro o h1 h2
    rw [hl, List.mem_append]
    refine ⟨fun m => m.elim id fun m => ?_, .inl⟩
    rcases hq o m with q | q
    · rw [h1] at q; cases q
    · exact absurd q h2
  have e1 : hsCalls t.log = hsCalls s.log := cnt _ (fun o ho => by cases o <;> first | rfl | cases ho) rfl
  have e2 : t.log.countP isConn = s.log.countP isConn := cnt _ (fun o ho => by cases o <;> first | rfl | cases ho) rfl
  have e3 : Complete t.log ↔ Complete s.log := by
    constructor <;> rintro ⟨a, b, c, m⟩
    · exact ⟨a, b, c, (mm _ rfl (by simp)).1 m⟩
    · exact ⟨a, b, c, (mm _ rfl (by simp)).2 m⟩
  have e4 : EarlyStarted t.log ↔ EarlyStarted s.log := by
    constructor <;> rintro ⟨a, m⟩
    · exact ⟨a, (mm _ rfl (by simp)).1 m⟩
    · exact ⟨a, (mm _ rfl (by simp)).2 m⟩
  refine ⟨fun q => ?_, ?_, ?_, fun _ => .inr ⟨.hs, .inl rfl, hm⟩, fun _ => .inr hm,
    fun _ => .inr (.inr hm), ?_, ?_, ?_, ?_⟩
  · rw [hc, hk] at q; cases q
  · rw [e1, e2, cbNow, hcb]; exact h.bal
  · rw [e2]; exact h.once
  · rw [hp, e3]; exact h.ph0
  · rw [hp, e4]; exact h.ph1
  · rw [hp, e4]; exact h.ph2
  · rw [hp, e3]; exact h.ph3

/-- The state after the report of full success, with a frame that still has to deal with the
callback. -/
def afterOk (s : St) (f : Frame) (a : Bool) (n q : Params) : St :=
  { s with phase := 2, log := s.log ++ [.success a n q], stack := f :: s.stack }

theorem Calls.afterOk {s : St} {a n q} (f : Frame) (h : Calls s) (hk : s.connected = true)
    (hf : f = .hsCb ∨ f = .err .hs) : Calls (afterOk s f a n q) := by
  refine h.phase (o := .success a n q) rfl rfl hk rfl rfl (fun _ => List.mem_cons_of_mem _)
    (.inr ⟨a, n, q, rfl, rfl, ?_⟩)
  rcases hf with rfl | rfl
  · exact .inr (.inl List.mem_cons_self)
  · exact .inr (.inr List.mem_cons_self)

theorem LowLog.ex {s t : St} {l0} (h : LowLog s t) (hs : s.log = l0) :
    ∃ l, t.log = l0 ++ l ∧ ∀ o ∈ l, lowEntry o = true := by
  obtain ⟨l, a, b⟩ := h
  exact ⟨l, by rw [a, hs], b⟩

theorem Calls.successClient {s : St} {cfg a n q} (h : Calls s) (hk : s.connected = true) :
    Calls (St.successClient cfg (St.say { s with phase := 2 } (.success a n q)) a n q) := by
  have hA := h.afterOk (a := a) (n := n) (q := q) .hsCb hk (.inl rfl)
  have hE := h.afterOk (a := a) (n := n) (q := q) (.err .hs) hk (.inr rfl)
  show Calls (St.successEarly cfg (St.flush cfg { St.say { s with phase := 2 } (.success a n q) with hsPend := [] } s.hsPend) a n q)
  have g1 : ∃ l, (St.flush cfg { St.say { s with phase := 2 } (.success a n q) with hsPend := [] } s.hsPend).log =
      (s.log ++ [.success a n q]) ++ l ∧ ∀ o ∈ l, lowEntry o = true := (LowLog.flush cfg s.hsPend _).ex rfl
  have g2 : (St.flush cfg { St.say { s with phase := 2 } (.success a n q) with hsPend := [] } s.hsPend).stack = s.stack := by simp [St.say]
  have g3 : (St.flush cfg { St.say { s with phase := 2 } (.success a n q) with hsPend := [] } s.hsPend).cb = s.cb := by simp
  have g4 : (St.flush cfg { St.say { s with phase := 2 } (.success a n q) with hsPend := [] } s.hsPend).connected = s.connected := by simp
  have g5 : (St.flush cfg { St.say { s with phase := 2 } (.success a n q) with hsPend := [] } s.hsPend).extErr = s.extErr := by simp
  have g6 : (St.flush cfg { St.say { s with phase := 2 } (.success a n q) with hsPend := [] } s.hsPend).phase = 2 := by simp
  revert g1 g2 g3 g4 g5 g6
  generalize St.flush cfg { St.say { s with phase := 2 } (.success a n q) with hsPend := [] } s.hsPend = t
  intro g1 g2 g3 g4 g5 g6
  have ok : ∀ u : St, LowLog t u → u.stack = t.stack → u.cb = t.cb → u.connected = t.connected →
      u.extErr = t.extErr → u.phase = t.phase → Calls (u.push [.hsCb, .replay]) := by
    intro u hl a1 a2 a3 a4 a5
    refine hA.lower ?_ (a3.trans g4) hk (a2.trans g3) (a4.trans g5) (a5.trans g6) ?_
    · obtain ⟨l, b1, b2⟩ := g1
      obtain ⟨m, c1, c2⟩ := hl
      refine ⟨l ++ m, ?_, ?_⟩
      · show u.log = _
        rw [c1, b1, List.append_assoc]; rfl
      · intro o ho
        rcases List.mem_append.1 ho with w | w
        · exact b2 o w
        · exact c2 o w
    · intro f hf _
      show f ∈ [Frame.hsCb, .replay] ++ u.stack
      rw [a1, g2]
      rcases List.mem_cons.1 hf with w | w
      · simp [w]
      · simp [w]
  unfold St.successEarly
  split
  · exact ok t (.rfl' rfl) rfl rfl rfl rfl rfl
  · rename_i e he
    split
    · refine ok { t.flush cfg e.pend with early := none } ?_ (by simp) (by simp) (by simp) (by simp) (by simp)
      exact LowLog.flush cfg e.pend t
    · split
      · simp only []
        split
        · refine ok { t.flush cfg e.pend with early := none } ?_ (by simp) (by simp) (by simp) (by simp) (by simp)
          exact LowLog.flush cfg e.pend t
        · refine ok { (t.flush1 cfg ⟨none, e.resend⟩).flush cfg e.pend with early := none } ?_ (by simp) (by simp) (by simp) (by simp) (by simp)
          exact (LowLog.flush1 cfg t _).trans (LowLog.flush cfg e.pend _)
      · refine hE.failing hk g4 ?_ g3 g6 (by simp [St.fail, St.push])
        obtain ⟨l, b1, b2⟩ := g1
        refine ⟨l ++ [.removePsk, .error], ?_, ?_⟩
        · show (t.log ++ [.removePsk]) ++ [.error] = _
          rw [b1]; simp [Fizz.Sock.afterOk]
        · intro o ho
          rcases List.mem_append.1 ho with w | w
          · exact .inl (b2 o w)
          · rcases List.mem_cons.1 w with w | w
            · exact .inl (by rw [w]; rfl)
            · exact .inr (List.mem_singleton.1 w)

theorem Calls.serverSuccess {s : St} {a n q} (h : Calls s) (hk : s.connected = true) :
    Calls (St.hsSuccess (St.say { s with phase := 2 } (.success a n q))) := by
  have hA := h.afterOk (a := a) (n := n) (q := q) .hsCb hk (.inl rfl)
  rcases cb_cases s with c | c | c
  · rw [hsSuccess_none (by exact c)]
    exact h.phase (o := .success a n q) rfl rfl hk rfl rfl (fun _ => id) (.inr ⟨a, n, q, rfl, rfl, .inl c⟩)
  · rw [hsSuccess_true (by exact c)]
    refine hA.report hk (o := .hsOk) rfl c rfl rfl rfl rfl rfl ?_
    rintro f hf ⟨p, w, rfl⟩
    refine ⟨p, w, List.mem_cons_of_mem _ ?_⟩
    rcases List.mem_cons.1 hf with z | z
    · cases z
    · exact z
  · rw [hsSuccess_false (by exact c)]
    refine hA.unset hk (by rw [show (Fizz.Sock.afterOk s .hsCb a n q).cb = s.cb from rfl, c]; simp) rfl rfl rfl rfl rfl ?_
    rintro f hf ⟨p, w, rfl⟩
    refine ⟨p, w, ?_⟩
    rcases List.mem_cons.1 hf with z | z
    · cases z
    · exact z

theorem Calls.visit {cfg s a rest} (h : Calls s) (hs : s.stack = .acts :: rest) (hm : s.mayVisit cfg a = true) :
    Calls (s.visit cfg a) := by
  have hk := h.live hs
  cases a with
  | earlyOk m =>
    have h0 : s.phase = 0 := by simp [St.mayVisit] at hm; exact hm.1
    have h1 : Calls (St.say { s with phase := 1 } (.earlyOk m)) :=
      h.phase (o := .earlyOk m) rfl rfl hk rfl rfl (fun _ => id) (.inl ⟨m, rfl, h0, rfl⟩)
    simp only [St.visit]
    split
    · split
      · exact h1.hsSuccess hk
      · exact h1.fail hk
    · refine Calls.hsSuccess ?_ hk
      exact h1.grow (fs := []) (.rfl' rfl) rfl hk rfl rfl rfl rfl
  | success a now old =>
    simp only [St.visit]
    split
    · split
      · exact h.serverSuccess hk
      · have hE := h.afterOk (a := a) (n := now) (q := old) (.err .hs) hk (.inr rfl)
        refine hE.failing hk rfl ⟨[.error], rfl, by simp⟩ rfl rfl List.mem_cons_self
    · exact h.successClient hk
  | error => exact h.fail hk
  | fallback =>
    simp only [St.visit]
    split
    · rename_i c
      split
      · exact h.report hk (o := .hsFallback) rfl c rfl rfl rfl rfl rfl
          (fun f hf ⟨p, a, b⟩ => ⟨p, a, List.mem_cons_of_mem _ (b ▸ hf)⟩)
      · exact h
    · exact h
  | earlyFailed t =>
    cases t with
    | none => exact h
    | some i => exact h.grow (fs := [.out]) ⟨[.wOk i], rfl, by simp [lowEntry]⟩ rfl hk rfl rfl rfl rfl
  | mutate e c => exact h.grow (fs := []) (.rfl' rfl) rfl hk rfl rfl rfl rfl
  | other => exact h.grow (fs := [.out]) (.rfl' rfl) rfl hk rfl rfl rfl rfl

/-- A step of `deliverAllErrors` that is not the callback and not the move. -/
theorem Calls.errMove {s t : St} {p p' rest fs} (h : Calls s) (hs : s.stack = .err p :: rest)
    (hp' : Early1 p') (hhs : p ≠ .hs) (hl : LowLog s t) (hc : t.connected = s.connected) (hcb : t.cb = s.cb)
    (hp : t.phase = s.phase) (hst : t.stack = fs ++ .err p' :: rest) : Calls t := by
  have hk := h.live hs
  have e1 : hsCalls t.log = hsCalls s.log := hl.countP (fun o ho => by cases o <;> first | rfl | cases ho)
  have e2 : t.log.countP isConn = s.log.countP isConn :=
    hl.countP (fun o ho => by cases o <;> first | rfl | cases ho)
  have keep : ∀ f ∈ s.stack, f ≠ .err p → f ∈ t.stack := by
    intro f hf hn
    rw [hs] at hf
    rcases List.mem_cons.1 hf with q | q
    · exact absurd q hn
    · rw [hst]; simp [q]
  refine ⟨fun q => ?_, ?_, ?_, ?_, ?_, ?_, ?_, ?_, ?_, ?_⟩
  · rw [hc, hk] at q; cases q
  · rw [e1, e2, cbNow, hcb]; exact h.bal
  · rw [e2]; exact h.once
  · exact fun _ => .inr ⟨p', hp', by rw [hst]; simp⟩
  · intro m
    rw [hcb]
    refine (h.cbErr ((hl.mem rfl).1 m)).imp id fun b => keep _ b ?_
    intro q
    injection q with q
    exact hhs q.symm
  · intro m
    rw [hcb]
    refine (h.cbOk (hl.complete.1 m)).imp id (Or.imp (fun b => keep _ b (by simp)) fun b => keep _ b ?_)
    intro q
    injection q with q
    exact hhs q.symm
  · rw [hp, hl.complete]; exact h.ph0
  · rw [hp, hl.started]; exact h.ph1
  · rw [hp, hl.started]; exact h.ph2
  · rw [hp, hl.complete]; exact h.ph3

/-- A step of `deliverAllErrors` from the move on. -/
theorem Calls.errRest {s t : St} {p rest fs} (h : Calls s) (hs : s.stack = .err p :: rest)
    (hhs : p ≠ .hs) (hl : LowLog s t) (hc : t.connected = s.connected) (hcb : t.cb = s.cb)
    (hx : t.extErr = true) (hp : t.phase = s.phase) (hst : t.stack = fs ++ rest) : Calls t := by
  have hk := h.live hs
  have e1 : hsCalls t.log = hsCalls s.log := hl.countP (fun o ho => by cases o <;> first | rfl | cases ho)
  have e2 : t.log.countP isConn = s.log.countP isConn :=
    hl.countP (fun o ho => by cases o <;> first | rfl | cases ho)
  have keep : ∀ f ∈ s.stack, f ≠ .err p → f ∈ t.stack := by
    intro f hf hn
    rw [hs] at hf
    rcases List.mem_cons.1 hf with q | q
    · exact absurd q hn
    · rw [hst]; simp [q]
  refine ⟨fun q => ?_, ?_, ?_, ?_, ?_, ?_, ?_, ?_, ?_, ?_⟩
  · rw [hc, hk] at q; cases q
  · rw [e1, e2, cbNow, hcb]; exact h.bal
  · rw [e2]; exact h.once
  · exact fun _ => .inl hx
  · intro m
    rw [hcb]
    refine (h.cbErr ((hl.mem rfl).1 m)).imp id fun b => keep _ b ?_
    intro q
    injection q with q
    exact hhs q.symm
  · intro m
    rw [hcb]
    refine (h.cbOk (hl.complete.1 m)).imp id (Or.imp (fun b => keep _ b (by simp)) fun b => keep _ b ?_)
    intro q
    injection q with q
    exact hhs q.symm
  · rw [hp, hl.complete]; exact h.ph0
  · rw [hp, hl.started]; exact h.ph1
  · rw [hp, hl.started]; exact h.ph2
  · rw [hp, hl.complete]; exact h.ph3

/-- `.err .drain` or `.err .fin` is on the stack only after the move. -/
def Drained (s : St) : Prop := ∀ f ∈ s.stack, f = .err .drain ∨ f = .err .fin → s.extErr = true

theorem Calls.errStep {s : St} {p rest} (h : Calls s) (hd : Drained s) (hs : s.stack = .err p :: rest) :
    Calls (s.errStep rest p) := by
  have hk := h.live hs
  have hext : p = .drain ∨ p = .fin → s.extErr = true := fun q =>
    hd (.err p) (by rw [hs]; exact List.mem_cons_self) (q.imp (by rintro rfl; rfl) (by rintro rfl; rfl))
  cases p with
  | hs =>
    simp only [St.errStep]
    have hsub : ∀ f ∈ s.stack, (∃ p, Early1 p ∧ f = .err p) →
        ∃ p, Early1 p ∧ .err p ∈ Frame.err .unreplay :: rest :=
      fun _ _ _ => ⟨.unreplay, .inr (.inl rfl), List.mem_cons_self⟩
    rcases cb_cases s with c | c | c
    · rw [hsError_none (by exact c)]
      refine ⟨fun q => ?_, h.bal, h.once, fun _ => .inr ⟨.unreplay, .inr (.inl rfl), List.mem_cons_self⟩,
        fun _ => .inl c, fun _ => .inl c, h.ph0, h.ph1, h.ph2, h.ph3⟩
      rw [show ({ s with stack := .err .unreplay :: rest } : St).connected = s.connected from rfl, hk] at q
      cases q
    · rw [hsError_true (by exact c)]
      exact h.report hk (o := .hsErr) rfl c rfl rfl rfl rfl rfl
        (fun f hf w => (hsub f hf w).elim fun p z => ⟨p, z.1, List.mem_cons_of_mem _ z.2⟩)
    · rw [hsError_false (by exact c)]
      exact h.unset hk (by rw [c]; simp) rfl rfl rfl rfl rfl hsub
  | unreplay =>
    exact h.errMove hs (p' := .pendHs) (fs := []) (by simp [Early1]) (by simp) (.rfl' rfl) rfl rfl rfl rfl
  | pendHs =>
    simp only [St.errStep]
    rcases list_cases s.hsPend with hq | ⟨w, ws, hq⟩
    · rw [pendHs1_nil hq]
      exact h.errMove hs (p' := .pendEarly) (fs := []) (by simp [Early1]) (by simp) (.rfl' rfl) rfl rfl rfl rfl
    · rw [pendHs1_cons hq]
      obtain ⟨fs, hfs, _⟩ := failW_stack { s with hsPend := ws, stack := .err .pendHs :: rest } w.token
      refine h.errMove hs (p' := .pendHs) (fs := fs) (by simp [Early1]) (by simp) ?_ (by simp) (by simp) (by simp) hfs
      exact LowLog.trans (t := { s with hsPend := ws, stack := .err .pendHs :: rest }) (.rfl' rfl) (.failW _ _)
  | pendEarly =>
    simp only [St.errStep]
    rcases earlyPend_cases s with he0 | ⟨e, w, ws, he, hq⟩
    · rw [pendEarly1_nil he0]
      exact h.errMove hs (p' := .move) (fs := []) (by simp [Early1]) (by simp) (.rfl' rfl) rfl rfl rfl rfl
    · rw [pendEarly1_cons he hq]
      obtain ⟨fs, hfs, _⟩ := failW_stack { s with early := some { e with pend := ws }, stack := .err .pendEarly :: rest } w.token
      refine h.errMove hs (p' := .pendEarly) (fs := fs) (by simp [Early1]) (by simp) ?_ (by simp) (by simp) (by simp) hfs
      exact LowLog.trans (t := { s with early := some { e with pend := ws }, stack := .err .pendEarly :: rest }) (.rfl' rfl) (.failW _ _)
  | move =>
    simp only [St.errStep]
    split
    · rename_i q
      exact h.errRest hs (fs := [.err .fin]) (by simp) (.rfl' rfl) rfl rfl q rfl rfl
    · exact h.errRest hs (fs := [.err .drain]) (by simp) (.rfl' rfl) rfl rfl rfl rfl rfl
  | drain =>
    simp only [St.errStep]
    have hx := hext (.inl rfl)
    rcases list_cases s.queue with hq | ⟨e, q, hq⟩
    · rw [drain1_nil hq]
      exact h.errRest hs (fs := [.err .fin]) (by simp) (.rfl' rfl) rfl rfl hx rfl rfl
    · rw [drain1_cons hq]
      obtain ⟨fs, hfs, _⟩ := failW_stack { s with queue := q, stack := .err .drain :: rest } e.token
      refine h.errRest hs (fs := fs ++ [.err .drain]) (by simp) ?_ (by simp) (by simp) (by simpa using hx) (by simp) (by simpa using hfs)
      exact LowLog.trans (t := { s with queue := q, stack := .err .drain :: rest }) (.rfl' rfl) (.failW _ _)
  | fin =>
    exact h.errRest hs (fs := [.out]) (by simp) ⟨[.errorDone], rfl, by simp [lowEntry]⟩ rfl rfl (hext (.inr rfl)) rfl rfl

theorem Calls.connect {cfg s c v} (h : Calls s) (hk : s.connected = false) : Calls (s.connect cfg c v) := by
  have hf := h.fresh hk
  -- a state whose whole log is `connect`, possibly followed by `error`
  have gen : ∀ t : St, t.connected = true → (t.log = [.connect c] ∨ t.log = [.connect c, .error] ∧ .err .hs ∈ t.stack) →
      cbNow t = (if c then 1 else 0) → t.phase = 0 → Calls t := by
    intro t t1 t2 t3 t4
    have e1 : hsCalls t.log = 0 := by rcases t2 with q | ⟨q, _⟩ <;> rw [q] <;> rfl
    have e2 : t.log.countP isConn = if c then 1 else 0 := by
      rcases t2 with q | ⟨q, _⟩ <;> rw [q] <;> cases c <;> rfl
    have e3 : ¬ Complete t.log := by rintro ⟨a, b, d, m⟩; rcases t2 with q | ⟨q, _⟩ <;> rw [q] at m <;> simp at m
    have e4 : ¬ EarlyStarted t.log := by rintro ⟨a, m⟩; rcases t2 with q | ⟨q, _⟩ <;> rw [q] at m <;> simp at m
    have e5 : .error ∈ t.log → .err .hs ∈ t.stack := by
      intro m
      rcases t2 with q | ⟨q, w⟩
      · rw [q] at m; simp at m
      · exact w
    refine ⟨?_, ?_, ?_,
      fun m => .inr ⟨.hs, .inl rfl, e5 m⟩, fun m => .inr (e5 m), fun m => absurd m e3, fun _ => e3,
      fun _ => e4, ?_, fun q => absurd t4 q⟩
    · intro q; rw [t1] at q; cases q
    · rw [e1, e2, t3]; simp
    · rw [e2]; split <;> omega
    · intro q; omega
  have l1 : (St.say { s with connected := true } (.connect c)).log = [.connect c] := by
    simp [St.say, hf.log]
  have cb2 : ∀ r : Option Bool, r = some c → (if r = some true then 1 else 0 : Nat) = if c then 1 else 0 := by
    rintro r rfl; cases c <;> rfl
  unfold St.connect
  simp only []
  split
  · refine gen _ rfl (.inl l1) ?_ hf.phase
    cases c <;> rfl
  · split
    · exact gen _ rfl (.inl l1) (cb2 _ rfl) hf.phase
    · split
      · exact gen _ rfl (.inl l1) (cb2 _ rfl) hf.phase
      · refine gen _ rfl (.inr ⟨?_, List.mem_cons_self⟩) (cb2 _ rfl) hf.phase
        show (St.say { s with connected := true } (.connect c)).log ++ [.error] = _
        rw [l1]; rfl

theorem performAppWrite_stack (s : St) (w) : ∃ fs, (s.performAppWrite w).stack = fs ++ s.stack ∧
    ∀ f ∈ fs, f = .loop ∨ f = .count w.data.length := by
  unfold St.performAppWrite
  obtain ⟨fs, h, hl⟩ := enter_stack (St.push (s.submit (.app w.token w.data)) [.count w.data.length])
  refine ⟨fs ++ [.count w.data.length], ?_, ?_⟩
  · rw [h]; simp [St.push]
  · intro f hf
    rcases List.mem_append.1 hf with q | q
    · exact .inl (hl f q)
    · exact .inr (List.mem_singleton.1 q)

theorem writeEarly_stack (cfg) (s : St) (e w) : ∃ fs, (s.writeEarly cfg e w).stack = fs ++ s.stack ∧
    ∀ f ∈ fs, f = .loop := by
  unfold St.writeEarly
  split
  · exact ⟨[], rfl, by simp⟩
  · exact enter_stack (St.submit _ _)

theorem writeGood_stack (cfg) (s : St) (w) : ∃ fs, (s.writeGood cfg w).stack = fs ++ s.stack ∧
    ∀ f ∈ fs, f = .loop ∨ ∃ n, f = .count n := by
  unfold St.writeGood
  split
  · obtain ⟨fs, h, hl⟩ := performAppWrite_stack s w
    exact ⟨fs, h, fun f hf => (hl f hf).imp id fun q => ⟨_, q⟩⟩
  · split
    · obtain ⟨fs, h, hl⟩ := writeEarly_stack cfg s _ w
      exact ⟨fs, h, fun f hf => .inl (hl f hf)⟩
    · split
      · exact ⟨[], rfl, by simp⟩
      · obtain ⟨fs, h, hl⟩ := performAppWrite_stack s w
        exact ⟨fs, h, fun f hf => (hl f hf).imp id fun q => ⟨_, q⟩⟩

theorem write_stack (cfg) (s : St) (d c) : ∃ fs, (s.write cfg d c).stack = fs ++ s.stack ∧
    ∀ f ∈ fs, f = .loop ∨ f = .out ∨ ∃ n, f = .count n := by
  unfold St.write
  simp only []
  split
  · obtain ⟨fs, h, hl⟩ := writeGood_stack cfg (St.say { s with nextId := s.nextId + 1 } (.write s.nextId d c s.good))
      ⟨if c then some s.nextId else none, d⟩
    exact ⟨fs, h, fun f hf => (hl f hf).imp id .inr⟩
  · split
    · exact ⟨[.out], rfl, by simp⟩
    · exact ⟨[], rfl, by simp⟩

theorem Calls.kind {cfg s s'} (h : Calls s) (hd : Drained s) (k : Kind cfg s s') : Calls s' := by
  cases k with
  | connect c v _ hk => exact h.connect hk
  | sockConnected _ hk => exact h.grow (fs := [.acts]) (.rfl' rfl) rfl hk rfl rfl rfl rfl
  | write d c _ hk =>
    obtain ⟨fs, hfs, _⟩ := write_stack cfg s d c
    exact h.grow (LowLog.write cfg s d c) (by simp) hk (by simp) (by simp) (by simp) hfs
  | close k _ hk =>
    cases k <;> simp only [St.close] <;> split
    · obtain ⟨fs, hfs, _⟩ := enter_stack (s.submit (.close true))
      exact h.grow ((LowLog.submit s _).trans (.enter _)) (by simp) hk (by simp) (by simp) (by simp) hfs
    · exact Calls.fail (h.grow (fs := [.out]) (.rfl' rfl) rfl hk rfl rfl rfl rfl) hk
    · obtain ⟨fs, hfs, _⟩ := enter_stack ((s.push [.doFail, .out]).submit (.close true))
      refine h.grow (fs := fs ++ [.doFail, .out]) ?_ (by simp) hk (by simp) (by simp) (by simp) ?_
      · exact LowLog.trans (t := (s.push [.doFail, .out]).submit (.close true)) ⟨[.submit (.close true)], rfl, by simp [lowEntry]⟩ (.enter _)
      · rw [hfs]; simp [St.push]
    · exact Calls.fail (h.grow (fs := [.out]) (.rfl' rfl) rfl hk rfl rfl rfl rfl) hk
    · obtain ⟨fs, hfs, _⟩ := enter_stack ((s.push [.out]).submit (.close false))
      refine h.grow (fs := fs ++ [.out]) ?_ (by simp) hk (by simp) (by simp) (by simp) ?_
      · exact LowLog.trans (t := (s.push [.out]).submit (.close false)) ⟨[.submit (.close false)], rfl, by simp [lowEntry]⟩ (.enter _)
      · rw [hfs]; simp [St.push]
    · exact h.grow (fs := [.out]) (.rfl' rfl) rfl hk rfl rfl rfl rfl
  | submit e _ hk =>
    obtain ⟨fs, hfs, _⟩ := enter_stack (s.submit e)
    exact h.grow ((LowLog.submit s _).trans (.enter _)) (by simp) hk (by simp) (by simp) (by simp) hfs
  | setReplay b _ hk => exact h.grow (fs := []) (.rfl' rfl) rfl hk rfl rfl rfl rfl
  | transportError _ hk => exact h.fail hk
  | data _ hk =>
    obtain ⟨fs, hfs, _⟩ := enter_stack s
    exact h.grow (LowLog.enter s) (by simp) hk (by simp) (by simp) (by simp) hfs
  | env g e c _ _ =>
    refine ⟨fun q => ?_, h.bal, h.once, h.err, h.cbErr, h.cbOk, h.ph0, h.ph1, h.ph2, h.ph3⟩
    have := h.fresh q
    exact ⟨this.1, this.2, this.3, this.4, this.5, this.6, this.7, this.8, this.9⟩
  | ret rest hs => exact h.pop (fs := []) (.rfl' rfl) rfl (h.live hs) rfl rfl rfl hs (by simp) rfl
  | count n rest hs => exact h.pop (fs := []) (.rfl' rfl) rfl (h.live hs) rfl rfl rfl hs (by simp) rfl
  | countFires n rest hs =>
    obtain ⟨fs, hfs, _⟩ := enter_stack (St.submit { s with stack := rest, bytes := 0 } (.keyUpdate true))
    refine h.pop (fs := fs) ?_ (by simp) (h.live hs) (by simp) (by simp) (by simp) hs (by simp) hfs
    exact LowLog.trans (t := St.submit { s with stack := rest, bytes := 0 } (.keyUpdate true)) ⟨[.submit (.keyUpdate true)], rfl, by simp [lowEntry]⟩ (.enter _)
  | doFail rest hs =>
    have hk := h.live hs
    exact Calls.fail (h.pop (fs := []) (.rfl' rfl) rfl hk rfl rfl rfl hs (by simp) rfl) hk
  | err p rest hs => exact h.errStep hd hs
  | hsCb rest hs =>
    have hk := h.live hs
    have keep : ∀ f ∈ s.stack, (∃ p, Early1 p ∧ f = .err p) → ∃ p, Early1 p ∧ .err p ∈ rest := by
      rintro f hf ⟨p, a, rfl⟩
      rw [hs] at hf
      rcases List.mem_cons.1 hf with q | q
      · cases q
      · exact ⟨p, a, q⟩
    rcases cb_cases s with c | c | c
    · rw [hsSuccess_none (by exact c)]
      exact h.unset hk (by rw [c]; simp) rfl rfl c rfl rfl keep
    · rw [hsSuccess_true (by exact c)]
      exact h.report hk (o := .hsOk) rfl c rfl rfl rfl rfl rfl
        (fun f hf w => (keep f hf w).elim fun p z => ⟨p, z.1, List.mem_cons_of_mem _ z.2⟩)
    · rw [hsSuccess_false (by exact c)]
      exact h.unset hk (by rw [c]; simp) rfl rfl rfl rfl rfl keep
  | replay rest hs =>
    exact h.pop (fs := [.out]) ⟨[.replaySafe], rfl, by simp [lowEntry]⟩ rfl (h.live hs) rfl rfl rfl hs (by simp) rfl
  | noReplay rest hs => exact h.pop (fs := []) (.rfl' rfl) rfl (h.live hs) rfl rfl rfl hs (by simp) rfl
  | take e q rest hs =>
    exact h.grow (fs := [.acts]) ⟨[.take e], rfl, by simp [lowEntry]⟩ rfl (h.live hs) rfl rfl rfl rfl
  | sock rest hs => exact h.grow (fs := [.acts]) (.rfl' rfl) rfl (h.live hs) rfl rfl rfl rfl
  | stop rest hs => exact h.pop (fs := []) (.rfl' rfl) rfl (h.live hs) rfl rfl rfl hs (by simp) rfl
  | visit a rest hs hm => exact h.visit hs hm
  | done rest hs =>
    obtain ⟨fs, hfs, _⟩ := enter_stack { s with stack := rest, guard := false }
    exact h.pop (fs := fs) (LowLog.trans (t := { s with stack := rest, guard := false }) (.rfl' rfl) (.enter _))
      (by simp) (h.live hs) (by simp) (by simp) (by simp) hs (by simp) hfs
  | suspend rest hs => exact h.pop (fs := []) (.rfl' rfl) rfl (h.live hs) rfl rfl rfl hs (by simp) rfl
  | resumed ho hsu =>
    have hk : s.connected = true := by
      cases hc : s.connected with
      | true => rfl
      | false => have := (h.fresh hc).susp; rw [hsu] at this; cases this
    exact h.grow (fs := [.acts]) (.rfl' rfl) rfl hk rfl rfl rfl rfl

end Fizz.Sock

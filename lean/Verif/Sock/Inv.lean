import Verif.Sock.Spec

/-!
# Accounting of write callbacks

Every write callback is in exactly one place: still held in one of the three queues, reported failed
by this layer, or taken by the state machine together with its data.
-/

namespace Fizz.Sock

open Spec

/-- How often `some i` occurs in a list of tokens. -/
def toks (i : Nat) (l : List (Option Nat)) : Nat := l.count (some i)

/-- The writes waiting for early data to be resolved. -/
def St.earlyPend (s : St) : List W := (s.early.map (·.pend)).getD []

/-- How often the callback of write `i` is held by this layer or by the state machine's queue. -/
def St.held (s : St) (i : Nat) : Nat :=
  toks i (s.hsPend.map (·.token)) + toks i (s.earlyPend.map (·.token)) +
  toks i (s.queue.map (·.token))

/-- Reported by this layer or handed over. -/
def St.gone (s : St) (i : Nat) : Nat := s.log.countP (isErr i) + s.log.countP (isTake i)

/-- Writes are numbered in order, and each callback is in exactly one place; `x` are the callbacks
in the hands of the code that is running. -/
structure Acc (s : St) (x : List (Option Nat)) : Prop where
  fresh : ∀ i, s.nextId ≤ i → s.log.countP (isWrite i) = 0
  once : ∀ i, s.log.countP (isWrite i) ≤ 1
  bal : ∀ i, s.log.countP (isWrite i) = s.gone i + s.held i + toks i x

/-- What accounting depends on. -/
structure Same (s t : St) : Prop where
  log : t.log = s.log
  hs : t.hsPend = s.hsPend
  early : t.earlyPend = s.earlyPend
  queue : t.queue = s.queue
  next : t.nextId = s.nextId

theorem Acc.same {s t x} (h : Acc s x) (q : Same s t) : Acc t x := by
  refine ⟨?_, ?_, ?_⟩
  · intro i hi; rw [q.log]; exact h.fresh i (q.next ▸ hi)
  · intro i; rw [q.log]; exact h.once i
  · intro i
    have := h.bal i
    simpa [St.gone, St.held, q.log, q.hs, q.early, q.queue] using this

/-- Entries that accounting does not see. -/
def Quiet (o : Obs) : Prop := ∀ i, isWrite i o = false ∧ isErr i o = false ∧ isTake i o = false

theorem Acc.say {s x} (h : Acc s x) {o} (ho : Quiet o) : Acc (s.say o) x := by
  have e : ∀ i, (s.say o).log.countP (isWrite i) = s.log.countP (isWrite i) ∧
      (s.say o).log.countP (isErr i) = s.log.countP (isErr i) ∧
      (s.say o).log.countP (isTake i) = s.log.countP (isTake i) := by
    intro i
    simp [St.say, List.countP_append, List.countP_cons, ho i]
  refine ⟨?_, ?_, ?_⟩
  · intro i hi; rw [(e i).1]; exact h.fresh i hi
  · intro i; rw [(e i).1]; exact h.once i
  · intro i
    have := h.bal i
    rw [(e i).1, St.gone, (e i).2.1, (e i).2.2]
    exact this

theorem Acc.push {s x fs} (h : Acc s x) : Acc (s.push fs) x := h.same ⟨rfl, rfl, rfl, rfl, rfl⟩

theorem Acc.enter {s x} (h : Acc s x) : Acc s.enter x := by
  unfold St.enter; split
  · exact h
  · exact Acc.push (h.same ⟨rfl, rfl, rfl, rfl, rfl⟩)

/-- The queues and the log change; counts move. -/
theorem Acc.move {s t x y} (h : Acc s x) (hn : t.nextId = s.nextId)
    (hw : ∀ i, t.log.countP (isWrite i) = s.log.countP (isWrite i))
    (hm : ∀ i, t.gone i + t.held i + toks i y = s.gone i + s.held i + toks i x) : Acc t y :=
  ⟨fun i hi => by rw [hw]; exact h.fresh i (hn ▸ hi), fun i => by rw [hw]; exact h.once i,
    fun i => by rw [hw, hm]; exact h.bal i⟩

theorem toks_append (i a b) : toks i (a ++ b) = toks i a + toks i b := by simp [toks]

theorem toks_cons (i a l) : toks i (a :: l) = toks i [a] + toks i l := by
  rw [← toks_append]; rfl

theorem toks_none (i) : toks i [none] = 0 := by simp [toks]

theorem toks_nil (i) : toks i [] = 0 := rfl

theorem toks_some (i j) : toks i [some j] = if j == i then 1 else 0 := by
  simp [toks, List.count_cons]

theorem quiet_submit (e) : Quiet (.submit e) := fun _ => ⟨rfl, rfl, rfl⟩

theorem Acc.submit {s x} (e : Ev) (h : Acc s (e.token :: x)) : Acc (s.submit e) x := by
  refine Acc.say (h.move (t := { s with queue := s.queue ++ [e] }) rfl (fun _ => rfl) ?_)
    (quiet_submit e)
  intro i
  rw [toks_cons i e.token x]
  simp only [St.gone, St.held, St.earlyPend, List.map_append, toks_append, List.map_cons, List.map_nil]
  omega

theorem Acc.nil {s x} (h : Acc s x) : Acc s (none :: x) :=
  h.move rfl (fun _ => rfl) (fun i => by rw [toks_cons, toks_none]; omega)

theorem Acc.count {cfg s x n} (h : Acc s x) : Acc (s.count cfg n) x := by
  unfold St.count; split
  · exact Acc.submit (.keyUpdate true) (Acc.nil (h.same ⟨rfl, rfl, rfl, rfl, rfl⟩))
  · exact h.same ⟨rfl, rfl, rfl, rfl, rfl⟩

theorem Acc.flush1 {cfg s x w} (h : Acc s (w.token :: x)) : Acc (s.flush1 cfg w) x :=
  (Acc.submit (.app w.token w.data) h).count

theorem Acc.flush {cfg} : ∀ {ws s x}, Acc s (ws.map (·.token) ++ x) → Acc (s.flush cfg ws) x
  | [], _, _, h => h
  | _ :: ws, _, _, h => Acc.flush (ws := ws) (Acc.flush1 (w := _) h)

theorem Acc.performAppWrite {s x w} (h : Acc s (w.token :: x)) : Acc (s.performAppWrite w) x :=
  ((Acc.submit (.app w.token w.data) h).push).enter

theorem Acc.fail {s x} (h : Acc s x) : Acc s.fail x :=
  (h.say fun _ => ⟨rfl, rfl, rfl⟩).push

/-- Reporting a failure resolves the callback. -/
theorem Acc.wErr {s x j} (h : Acc s (some j :: x)) : Acc (s.say (.wErr j)) x := by
  refine h.move rfl (fun i => by simp [St.say, List.countP_append, isWrite]) ?_
  intro i
  rw [toks_cons, toks_some]
  simp only [St.gone, St.held, St.say, St.earlyPend, List.countP_append, List.countP_cons, List.countP_nil,
    isErr, isTake]
  by_cases hj : (j == i) = true <;> simp [hj] <;> omega

theorem Acc.failW {s x t} (h : Acc s (t :: x)) : Acc (s.failW t) x := by
  cases t with
  | none => exact h.move rfl (fun _ => rfl) (fun i => by rw [toks_cons i none, toks_none, St.failW]; omega)
  | some j => exact h.wErr.push

theorem Acc.writeEarly {cfg s x e w} (he : s.early = some e) (h : Acc s (w.token :: x)) :
    Acc (s.writeEarly cfg e w) x := by
  unfold St.writeEarly
  split
  · refine h.move rfl (fun _ => rfl) ?_
    intro i
    rw [toks_cons i w.token x]
    simp only [St.gone, St.held, St.earlyPend, he, Option.map_some, Option.getD_some, List.map_append,
      toks_append, List.map_cons, List.map_nil]
    omega
  · refine Acc.enter (Acc.submit (.early w.token w.data) ?_)
    refine h.same ⟨rfl, rfl, ?_, rfl, rfl⟩
    simp [St.earlyPend, he]

theorem Acc.writeGood {cfg s x w} (h : Acc s (w.token :: x)) : Acc (s.writeGood cfg w) x := by
  unfold St.writeGood
  split
  · exact h.performAppWrite
  · split
    · rename_i e he
      exact h.writeEarly he
    · split
      · refine h.move rfl (fun _ => rfl) ?_
        intro i
        rw [toks_cons i w.token x]
        simp only [St.gone, St.held, St.earlyPend, List.map_append, toks_append, List.map_cons, List.map_nil]
        omega
      · exact h.performAppWrite

/-- The entry of a call of `writeAppData`. -/
theorem Acc.newWrite {s d c g} (h : Acc s []) :
    Acc (St.say { s with nextId := s.nextId + 1 } (.write s.nextId d c g))
      [if c then some s.nextId else none] := by
  have e : ∀ i, (St.say { s with nextId := s.nextId + 1 } (.write s.nextId d c g)).log.countP (isWrite i) =
      s.log.countP (isWrite i) + toks i [if c then some s.nextId else none] := by
    intro i
    cases c <;> simp [St.say, List.countP_append, List.countP_cons, isWrite, toks_some, toks_none]
  refine ⟨?_, ?_, ?_⟩
  · intro i hi
    rw [e, h.fresh i (by simp [St.say] at hi; omega)]
    have : (s.nextId == i) = false := by simp [St.say] at hi; simp; omega
    cases c <;> simp [toks_some, toks_none, this]
  · intro i
    rw [e]
    by_cases hi : s.nextId = i
    · rw [h.fresh i (by omega)]
      cases c
      · simp [toks_none]
      · simp only [if_true, toks_some]; split <;> omega
    · have := h.once i
      have q : (s.nextId == i) = false := by simpa using hi
      cases c <;> simp [toks_some, toks_none, q] <;> exact this
  · intro i
    rw [e, h.bal i]
    simp [St.gone, St.held, St.earlyPend, St.say, List.countP_append, isErr, isTake, toks_nil]

theorem Acc.write {cfg s d c} (h : Acc s []) : Acc (s.write cfg d c) [] := by
  unfold St.write
  simp only []
  split
  · exact h.newWrite.writeGood
  · cases c with
    | true => exact (Acc.wErr (by simpa using h.newWrite (d := d) (c := true) (g := s.good))).push
    | false =>
      have := h.newWrite (d := d) (c := false) (g := s.good)
      exact this.move rfl (fun _ => rfl) (fun i => by simp [toks_none, toks_nil])

theorem Acc.startMachine {s x} (h : Acc s x) : Acc s.startMachine x :=
  Acc.push (h.same ⟨rfl, rfl, rfl, rfl, rfl⟩)

theorem Acc.connect {cfg s x c v} (h : Acc s x) : Acc (s.connect cfg c v) x := by
  unfold St.connect
  simp only []
  have h1 : Acc (St.say { s with connected := true } (.connect c)) x := by
    refine Acc.say ?_ fun _ => ⟨rfl, rfl, rfl⟩
    exact h.same ⟨rfl, rfl, rfl, rfl, rfl⟩
  have h2 : ∀ b, Acc { St.say { s with connected := true } (.connect c) with cb := b } x :=
    fun b => h1.same ⟨rfl, rfl, rfl, rfl, rfl⟩
  split
  · exact (h2 _).startMachine
  · split
    · exact (h2 _).push
    · split
      · exact (h2 _).startMachine
      · exact (h2 _).fail

theorem Acc.close {s x k} (h : Acc s x) : Acc (s.close k) x := by
  unfold St.close
  cases k <;> simp only [] <;> split
  · exact (Acc.submit (.close true) h.nil).enter
  · exact h.push.fail
  · exact (Acc.submit (.close true) h.push.nil).enter
  · exact h.push.fail
  · exact (Acc.submit (.close false) h.push.nil).enter
  · exact h.push

theorem Acc.hsSuccess {s x} (h : Acc s x) : Acc s.hsSuccess x := by
  unfold St.hsSuccess; split
  · exact h
  · refine Acc.push (Acc.say ?_ fun _ => ⟨rfl, rfl, rfl⟩)
    exact h.same ⟨rfl, rfl, rfl, rfl, rfl⟩
  · exact h.same ⟨rfl, rfl, rfl, rfl, rfl⟩

theorem Acc.hsError {s x} (h : Acc s x) : Acc s.hsError x := by
  unfold St.hsError; split
  · exact h
  · refine Acc.push (Acc.say ?_ fun _ => ⟨rfl, rfl, rfl⟩)
    exact h.same ⟨rfl, rfl, rfl, rfl, rfl⟩
  · exact h.same ⟨rfl, rfl, rfl, rfl, rfl⟩

@[simp] theorem count_early {cfg s n} : (St.count cfg s n).early = s.early := by
  unfold St.count; split <;> rfl

@[simp] theorem flush1_early {cfg s w} : (St.flush1 cfg s w).early = s.early := by
  simp [St.flush1, St.submit, St.say]

@[simp] theorem flush_early {cfg} : ∀ {ws s}, (St.flush cfg s ws).early = s.early
  | [], _ => rfl
  | w :: ws, s => by
    rw [show St.flush cfg s (w :: ws) = St.flush cfg (s.flush1 cfg w) ws from rfl, flush_early,
      flush1_early]

/-- Taking the waiting writes out of the early-data state. -/
theorem Acc.clearEarly {s x} (h : Acc s x) :
    Acc { s with early := none } (s.earlyPend.map (·.token) ++ x) := by
  refine h.move rfl (fun _ => rfl) ?_
  intro i
  simp only [St.gone, St.held, St.earlyPend, toks_append, Option.map_none, Option.getD_none, List.map_nil,
    toks_nil]
  omega

@[simp] theorem flush1_clear {cfg s w} :
    St.flush1 cfg { s with early := none } w = { St.flush1 cfg s w with early := none } := by
  unfold St.flush1 St.count
  rw [show (St.submit { s with early := none } (.app w.token w.data)).bytes =
    (St.submit s (.app w.token w.data)).bytes from rfl]
  cases fires cfg (St.submit s (.app w.token w.data)).bytes w.data.length <;> rfl

theorem flush_clear {cfg} : ∀ {ws s},
    St.flush cfg { s with early := none } ws = { St.flush cfg s ws with early := none }
  | [], _ => rfl
  | w :: ws, s => by
    rw [show St.flush cfg { s with early := none } (w :: ws) =
      St.flush cfg (St.flush1 cfg { s with early := none } w) ws from rfl, flush1_clear, flush_clear]
    rfl

/-- A flush of the early-data state. -/
theorem Acc.flushEarly {cfg s x e} (he : s.early = some e) (h : Acc s x) :
    Acc { s.flush cfg e.pend with early := none } x := by
  rw [← flush_clear]
  refine Acc.flush ?_
  have := h.clearEarly
  rwa [St.earlyPend, he, Option.map_some, Option.getD_some] at this

theorem Acc.successEarly {cfg s x a now old} (h : Acc s x) : Acc (s.successEarly cfg a now old) x := by
  unfold St.successEarly
  split
  · exact h.push
  · rename_i e he
    split
    · exact (h.flushEarly he).push
    · split
      · refine Acc.push ?_
        simp only []
        split
        · exact h.flushEarly he
        · exact (Acc.flush1 (w := ⟨none, e.resend⟩) h.nil).flushEarly (by simpa using he)
      · exact Acc.fail (Acc.push (h.say fun _ => ⟨rfl, rfl, rfl⟩))

theorem Acc.successClient {cfg s x a now old} (h : Acc s x) : Acc (s.successClient cfg a now old) x := by
  unfold St.successClient
  refine Acc.successEarly (Acc.flush (h.move rfl (fun _ => rfl) ?_))
  intro i
  simp only [St.gone, St.held, St.earlyPend, toks_append, List.map_nil, toks_nil]
  omega

theorem Acc.visit {cfg s x a} (h : Acc s x) (hm : s.mayVisit cfg a = true)
    (h0 : s.phase = 0 → s.earlyPend = []) : Acc (s.visit cfg a) x := by
  cases a with
  | earlyOk m =>
    have h1 : Acc (St.say { s with phase := 1 } (.earlyOk m)) x := by
      refine Acc.say ?_ fun _ => ⟨rfl, rfl, rfl⟩
      exact h.same ⟨rfl, rfl, rfl, rfl, rfl⟩
    simp only [St.visit]
    split
    · split
      · exact h1.hsSuccess
      · exact h1.fail
    · refine Acc.hsSuccess (h1.same ⟨rfl, rfl, ?_, rfl, rfl⟩)
      have : s.earlyPend = [] := h0 (by simp [St.mayVisit] at hm; exact hm.1)
      rw [show (St.say { s with phase := 1 } (.earlyOk m)).earlyPend = s.earlyPend from rfl, this]
      rfl
  | success a now old =>
    have h1 : Acc (St.say { s with phase := 2 } (.success a now old)) x := by
      refine Acc.say ?_ fun _ => ⟨rfl, rfl, rfl⟩
      exact h.same ⟨rfl, rfl, rfl, rfl, rfl⟩
    simp only [St.visit]
    split
    · split
      · exact h1.hsSuccess
      · exact h1.fail
    · exact h1.successClient
  | error => exact h.fail
  | fallback =>
    simp only [St.visit]
    split
    · split
      · refine Acc.push (Acc.say ?_ fun _ => ⟨rfl, rfl, rfl⟩)
        exact h.same ⟨rfl, rfl, rfl, rfl, rfl⟩
      · exact h
    · exact h
  | earlyFailed t =>
    cases t with
    | none => exact h
    | some i => exact Acc.push (h.say fun _ => ⟨rfl, rfl, rfl⟩)
  | mutate e c => exact h.same ⟨rfl, rfl, rfl, rfl, rfl⟩
  | other => exact h.push

theorem Acc.errStep {s x rest p} (h : Acc s x) : Acc (s.errStep rest p) x := by
  have hs : ∀ r b, Acc { s with stack := r, replayCb := b } x := fun _ _ => h.same ⟨rfl, rfl, rfl, rfl, rfl⟩
  cases p with
  | hs => exact Acc.hsError (h.same ⟨rfl, rfl, rfl, rfl, rfl⟩)
  | unreplay => exact hs _ _
  | pendHs =>
    simp only [St.errStep, St.pendHs1]
    split
    · exact h.same ⟨rfl, rfl, rfl, rfl, rfl⟩
    · rename_i w ws hq
      refine Acc.failW (h.move rfl (fun _ => rfl) ?_)
      intro i
      rw [toks_cons i w.token x]
      simp only [St.gone, St.held, St.earlyPend, hq, List.map_cons]
      rw [toks_cons i w.token (ws.map _)]
      omega
  | pendEarly =>
    simp only [St.errStep, St.pendEarly1]
    split
    · exact h.same ⟨rfl, rfl, rfl, rfl, rfl⟩
    · rename_i e he
      split
      · exact h.same ⟨rfl, rfl, rfl, rfl, rfl⟩
      · rename_i w ws hq
        refine Acc.failW (h.move rfl (fun _ => rfl) ?_)
        intro i
        rw [toks_cons i w.token x]
        simp only [St.gone, St.held, St.earlyPend, he, Option.map_some, Option.getD_some, hq, List.map_cons]
        rw [toks_cons i w.token (ws.map _)]
        omega
  | move =>
    simp only [St.errStep]
    split <;> exact h.same ⟨rfl, rfl, rfl, rfl, rfl⟩
  | drain =>
    simp only [St.errStep, St.drain1]
    split
    · exact h.same ⟨rfl, rfl, rfl, rfl, rfl⟩
    · rename_i e q hq
      refine Acc.failW (h.move rfl (fun _ => rfl) ?_)
      intro i
      rw [toks_cons i e.token x]
      simp only [St.gone, St.held, St.earlyPend, hq, List.map_cons]
      rw [toks_cons i e.token (q.map _)]
      omega
  | fin =>
    refine Acc.say ?_ fun _ => ⟨rfl, rfl, rfl⟩
    exact h.same ⟨rfl, rfl, rfl, rfl, rfl⟩

theorem Acc.tau {cfg s s' x} (h : Acc s x) (ht : s.tau cfg = some s') : Acc s' x := by
  unfold St.tau at ht
  split at ht
  · rename_i n rest _
    cases Option.some.inj ht
    have hr : Acc (St.count cfg { s with stack := rest } n) x := by
      refine Acc.count ?_
      exact h.same ⟨rfl, rfl, rfl, rfl, rfl⟩
    split
    · exact hr.enter
    · exact hr
  · cases Option.some.inj ht
    exact Acc.fail (h.same ⟨rfl, rfl, rfl, rfl, rfl⟩)
  · cases Option.some.inj ht
    exact h.errStep
  · cases Option.some.inj ht
    exact Acc.hsSuccess (h.same ⟨rfl, rfl, rfl, rfl, rfl⟩)
  · cases Option.some.inj ht
    split
    · refine Acc.push (Acc.say ?_ fun _ => ⟨rfl, rfl, rfl⟩)
      exact h.same ⟨rfl, rfl, rfl, rfl, rfl⟩
    · exact h.same ⟨rfl, rfl, rfl, rfl, rfl⟩
  · cases ht

/-- Handing an event to the state machine resolves the callback. -/
theorem Acc.take {s x e q} (h : Acc s x) (hq : s.queue = e :: q) :
    Acc (St.say { s with queue := q } (.take e)) x := by
  refine h.move rfl (fun i => by simp [St.say, List.countP_append, isWrite]) ?_
  intro i
  have q1 : List.countP (isTake i) [Obs.take e] = toks i [e.token] := by
    simp [isTake, toks, List.countP_cons, List.count_cons]
  have q2 : List.countP (isErr i) [Obs.take e] = 0 := rfl
  simp only [St.gone, St.held, St.say, St.earlyPend, hq, List.countP_append, q1, q2, List.map_cons]
  rw [toks_cons i e.token (q.map _)]
  omega

end Fizz.Sock

import Verif.Sock.Step

/-!
# The handshake callback, and the progress of an error
-/

namespace Fizz.Sock

open Spec

/-- Entries that say nothing about the handshake or an error. -/
def lowEntry : Obs → Bool
  | .write .. => true
  | .submit _ => true
  | .take _ => true
  | .wErr _ => true
  | .wOk _ => true
  | .errorDone => true
  | .removePsk => true
  | .replaySafe => true
  | _ => false

/-- Only such entries were added. -/
def LowLog (s t : St) : Prop := ∃ l, t.log = s.log ++ l ∧ ∀ o ∈ l, lowEntry o = true

theorem LowLog.rfl' {s t : St} (h : t.log = s.log) : LowLog s t := ⟨[], by simp [h], by simp⟩

theorem LowLog.trans {s t u : St} (h : LowLog s t) (k : LowLog t u) : LowLog s u := by
  obtain ⟨l, hl, hp⟩ := h
  obtain ⟨m, hm, hq⟩ := k
  refine ⟨l ++ m, by rw [hm, hl, List.append_assoc], ?_⟩
  intro o ho
  rcases List.mem_append.1 ho with h | h
  · exact hp o h
  · exact hq o h

theorem LowLog.say {s : St} {o} (h : lowEntry o = true) : LowLog s (s.say o) :=
  ⟨[o], rfl, by simpa using h⟩

theorem LowLog.enter (s : St) : LowLog s s.enter := .rfl' (by simp)

theorem LowLog.submit (s : St) (e) : LowLog s (s.submit e) := ⟨[.submit e], rfl, by simp [lowEntry]⟩

theorem LowLog.count (cfg) (s : St) (n) : LowLog s (s.count cfg n) := by
  unfold St.count; split
  · exact ⟨[.submit (.keyUpdate true)], rfl, by simp [lowEntry]⟩
  · exact .rfl' rfl

theorem LowLog.flush1 (cfg) (s : St) (w) : LowLog s (s.flush1 cfg w) :=
  (LowLog.submit s _).trans (LowLog.count cfg _ _)

theorem LowLog.flush (cfg) : ∀ (ws) (s : St), LowLog s (s.flush cfg ws)
  | [], _ => .rfl' rfl
  | w :: ws, s => (LowLog.flush1 cfg s w).trans (LowLog.flush cfg ws _)

theorem LowLog.performAppWrite (s : St) (w) : LowLog s (s.performAppWrite w) :=
  (LowLog.submit s (.app w.token w.data)).trans ((LowLog.rfl' (t := St.push _ _) rfl).trans (LowLog.enter _))

theorem LowLog.writeGood (cfg) (s : St) (w) : LowLog s (s.writeGood cfg w) := by
  unfold St.writeGood
  split
  · exact .performAppWrite s w
  · split
    · unfold St.writeEarly
      split
      · exact .rfl' rfl
      · exact LowLog.trans (t := St.submit _ _) ⟨[.submit _], rfl, by simp [lowEntry]⟩ (LowLog.enter _)
    · split
      · exact .rfl' rfl
      · exact .performAppWrite s w

theorem LowLog.write (cfg) (s : St) (d c) : LowLog s (s.write cfg d c) := by
  unfold St.write
  simp only []
  have h1 : LowLog s (St.say { s with nextId := s.nextId + 1 } (.write s.nextId d c s.good)) :=
    ⟨[_], rfl, by simp [lowEntry]⟩
  split
  · exact h1.trans (.writeGood cfg _ _)
  · split
    · exact ⟨[.write s.nextId d c s.good, .wErr s.nextId], by simp [St.push, St.say], by simp [lowEntry]⟩
    · exact h1

theorem LowLog.failW (s : St) (t) : LowLog s (s.failW t) := by
  unfold St.failW; split
  · exact ⟨[.wErr _], rfl, by simp [lowEntry]⟩
  · exact .rfl' rfl

theorem LowLog.countP {s t : St} (h : LowLog s t) {p : Obs → Bool} (hp : ∀ o, lowEntry o = true → p o = false) :
    t.log.countP p = s.log.countP p := by
  obtain ⟨l, hl, hq⟩ := h
  rw [hl, List.countP_append]
  have : l.countP p = 0 := by
    rw [List.countP_eq_zero]
    intro o ho
    simp [hp o (hq o ho)]
  omega

theorem LowLog.mem {s t : St} (h : LowLog s t) {o} (ho : lowEntry o = false) : o ∈ t.log ↔ o ∈ s.log := by
  obtain ⟨l, hl, hq⟩ := h
  rw [hl, List.mem_append]
  refine ⟨fun m => m.elim id fun m => ?_, .inl⟩
  rw [hq o m] at ho; cases ho

theorem LowLog.complete {s t : St} (h : LowLog s t) : Complete t.log ↔ Complete s.log := by
  constructor <;> rintro ⟨a, b, c, m⟩
  · exact ⟨a, b, c, (h.mem rfl).1 m⟩
  · exact ⟨a, b, c, (h.mem rfl).2 m⟩

theorem LowLog.started {s t : St} (h : LowLog s t) : EarlyStarted t.log ↔ EarlyStarted s.log := by
  constructor <;> rintro ⟨a, m⟩
  · exact ⟨a, (h.mem rfl).1 m⟩
  · exact ⟨a, (h.mem rfl).2 m⟩

/-- Phases of `deliverAllErrors` before `moveToErrorState` is done. -/
def Early1 (p : Ph) : Prop := p = .hs ∨ p = .unreplay ∨ p = .pendHs ∨ p = .pendEarly ∨ p = .move

/-- `connect` with a callback. -/
def isConn : Obs → Bool
  | .connect true => true
  | _ => false

/-- Whether `callback_` holds a callback. -/
def cbNow (s : St) : Nat := if s.cb = some true then 1 else 0

/-- Nothing happened yet. -/
structure Fresh (s : St) : Prop where
  log : s.log = []
  stack : s.stack = []
  cb : s.cb = none
  phase : s.phase = 0
  susp : s.susp = false
  guard : s.guard = false
  queue : s.queue = []
  hs : s.hsPend = []
  bytes : s.bytes = 0

/-- The handshake callback and the error delivery. -/
structure Calls (s : St) : Prop where
  fresh : s.connected = false → Fresh s
  bal : hsCalls s.log + cbNow s = s.log.countP isConn
  once : s.log.countP isConn ≤ 1
  err : .error ∈ s.log → s.extErr = true ∨ ∃ p, Early1 p ∧ .err p ∈ s.stack
  cbErr : .error ∈ s.log → s.cb = none ∨ .err .hs ∈ s.stack
  cbOk : Complete s.log → s.cb = none ∨ .hsCb ∈ s.stack ∨ .err .hs ∈ s.stack
  ph0 : s.phase = 0 ∨ s.phase = 1 → ¬ Complete s.log
  ph1 : s.phase = 0 → ¬ EarlyStarted s.log
  ph2 : s.phase = 1 → EarlyStarted s.log
  ph3 : s.phase ≠ 0 → s.phase ≠ 1 → Complete s.log

/-- Calling something. -/
theorem Calls.lower {s t : St} (h : Calls s) (hl : LowLog s t) (hc : t.connected = s.connected) (hk : s.connected = true)
    (hcb : t.cb = s.cb) (hx : t.extErr = s.extErr) (hp : t.phase = s.phase)
    (hst : ∀ f ∈ s.stack, f = .hsCb ∨ (∃ p, Early1 p ∧ f = .err p) → f ∈ t.stack) : Calls t := by
  have e1 : hsCalls t.log = hsCalls s.log := hl.countP (fun o ho => by cases o <;> first | rfl | cases ho)
  have e2 : t.log.countP isConn = s.log.countP isConn :=
    hl.countP (fun o ho => by cases o <;> first | rfl | cases ho)
  refine ⟨?_, ?_, ?_, ?_, ?_, ?_, ?_, ?_, ?_, ?_⟩
  · intro q; rw [hc, hk] at q; cases q
  · rw [e1, e2, cbNow, hcb]; exact h.bal
  · rw [e2]; exact h.once
  · intro m
    rw [hx]
    refine (h.err ((hl.mem rfl).1 m)).imp id ?_
    rintro ⟨p, a, b⟩
    exact ⟨p, a, hst _ b (.inr ⟨p, a, rfl⟩)⟩
  · intro m
    rw [hcb]
    exact (h.cbErr ((hl.mem rfl).1 m)).imp id fun b => hst _ b (.inr ⟨.hs, .inl rfl, rfl⟩)
  · intro m
    rw [hcb]
    refine (h.cbOk (hl.complete.1 m)).imp id (Or.imp (fun b => hst _ b (.inl rfl)) fun b => hst _ b (.inr ⟨.hs, .inl rfl, rfl⟩))
  · rw [hp, hl.complete]; exact h.ph0
  · rw [hp, hl.started]; exact h.ph1
  · rw [hp, hl.started]; exact h.ph2
  · rw [hp, hl.complete]; exact h.ph3

theorem Calls.grow {s t : St} {fs} (h : Calls s) (hl : LowLog s t) (hc : t.connected = s.connected) (hk : s.connected = true)
    (hcb : t.cb = s.cb) (hx : t.extErr = s.extErr) (hp : t.phase = s.phase)
    (hst : t.stack = fs ++ s.stack) : Calls t :=
  h.lower hl hc hk hcb hx hp fun f hf _ => by rw [hst]; exact List.mem_append_right _ hf

theorem Calls.pop {s t : St} {f rest fs} (h : Calls s) (hl : LowLog s t) (hc : t.connected = s.connected)
    (hk : s.connected = true) (hcb : t.cb = s.cb) (hx : t.extErr = s.extErr) (hp : t.phase = s.phase)
    (hs : s.stack = f :: rest) (hf : f ≠ .hsCb ∧ ∀ p, Early1 p → f ≠ .err p) (hst : t.stack = fs ++ rest) :
    Calls t := by
  refine h.lower hl hc hk hcb hx hp fun g hg hor => ?_
  rw [hs] at hg
  rcases List.mem_cons.1 hg with rfl | hg
  · rcases hor with q | ⟨p, a, b⟩
    · exact absurd q hf.1
    · exact absurd b (hf.2 p a)
  · rw [hst]; exact List.mem_append_right _ hg

/-- Something is on the stack only after `connect`. -/
theorem Calls.live {s : St} {f rest} (h : Calls s) (hs : s.stack = f :: rest) : s.connected = true := by
  cases hc : s.connected with
  | true => rfl
  | false => have := (h.fresh hc).stack; rw [hs] at this; cases this

theorem Calls.fail {s : St} (h : Calls s) (hk : s.connected = true) : Calls s.fail := by
  have e1 : hsCalls s.fail.log = hsCalls s.log := by
    simp [hsCalls, St.fail, St.push, St.say, List.countP_append, isHs]
  have e2 : s.fail.log.countP isConn = s.log.countP isConn := by
    simp [St.fail, St.push, St.say, List.countP_append, isConn]
  have e3 : Complete s.fail.log ↔ Complete s.log := by
    simp [Complete, St.fail, St.push, St.say]
  have e4 : EarlyStarted s.fail.log ↔ EarlyStarted s.log := by
    simp [EarlyStarted, St.fail, St.push, St.say]
  have m : Frame.err .hs ∈ s.fail.stack := by simp [St.fail, St.push]
  refine ⟨fun q => ?_, ?_, ?_, ?_, ?_, ?_, ?_, ?_, ?_, ?_⟩
  · rw [show s.fail.connected = s.connected from rfl, hk] at q; cases q
  · rw [e1, e2]; exact h.bal
  · rw [e2]; exact h.once
  · exact fun _ => .inr ⟨.hs, .inl rfl, m⟩
  · exact fun _ => .inr m
  · exact fun _ => .inr (.inr m)
  · rw [e3]; exact h.ph0
  · rw [e4]; exact h.ph1
  · rw [e4]; exact h.ph2
  · rw [e3]; exact h.ph3

/-- Calling the handshake callback with `o`. -/
theorem Calls.report {s t : St} {o} (h : Calls s) (hk : s.connected = true) (ho : isHs o = true)
    (hcb : s.cb = some true) (hlog : t.log = s.log ++ [o]) (hc : t.connected = s.connected)
    (hcb' : t.cb = none) (hx : t.extErr = s.extErr) (hp : t.phase = s.phase)
    (hst : ∀ f ∈ s.stack, (∃ p, Early1 p ∧ f = .err p) → (∃ p, Early1 p ∧ .err p ∈ t.stack)) : Calls t := by
  have e2 : t.log.countP isConn = s.log.countP isConn := by
    rw [hlog, List.countP_append]
    cases o <;> first | rfl | cases ho
  have e3 : Complete t.log ↔ Complete s.log := by
    simp only [Complete, hlog, List.mem_append, List.mem_singleton]
    cases o <;> first | (cases ho; done) | simp
  have e4 : EarlyStarted t.log ↔ EarlyStarted s.log := by
    simp only [EarlyStarted, hlog, List.mem_append, List.mem_singleton]
    cases o <;> first | (cases ho; done) | simp
  have e5 : .error ∈ t.log ↔ .error ∈ s.log := by
    simp only [hlog, List.mem_append, List.mem_singleton]
    cases o <;> first | (cases ho; done) | simp
  refine ⟨fun q => ?_, ?_, ?_, ?_, ?_, ?_, ?_, ?_, ?_, ?_⟩
  · rw [hc, hk] at q; cases q
  · rw [e2, ← h.bal, hsCalls, hlog, List.countP_append, cbNow, hcb', cbNow, hcb]
    simp [hsCalls, List.countP_cons, ho]
  · rw [e2]; exact h.once
  · intro m
    rw [hx]
    refine (h.err (e5.1 m)).imp id ?_
    rintro ⟨p, a, b⟩
    exact hst _ b ⟨p, a, rfl⟩
  · exact fun _ => .inl hcb'
  · exact fun _ => .inl hcb'
  · rw [hp, e3]; exact h.ph0
  · rw [hp, e4]; exact h.ph1
  · rw [hp, e4]; exact h.ph2
  · rw [hp, e3]; exact h.ph3

/-- Dropping a null callback. -/
theorem Calls.unset {s t : St} (h : Calls s) (hk : s.connected = true)
    (hcb : s.cb ≠ some true) (hlog : t.log = s.log) (hc : t.connected = s.connected)
    (hcb' : t.cb = none) (hx : t.extErr = s.extErr) (hp : t.phase = s.phase)
    (hst : ∀ f ∈ s.stack, (∃ p, Early1 p ∧ f = .err p) → (∃ p, Early1 p ∧ .err p ∈ t.stack)) : Calls t := by
  refine ⟨fun q => ?_, ?_, ?_, ?_, ?_, ?_, ?_, ?_, ?_, ?_⟩
  · rw [hc, hk] at q; cases q
  · rw [hlog, ← h.bal, cbNow, hcb', cbNow, if_neg hcb]; simp
  · rw [hlog]; exact h.once
  · intro m
    rw [hx]
    refine (h.err (hlog ▸ m)).imp id ?_
    rintro ⟨p, a, b⟩
    exact hst _ b ⟨p, a, rfl⟩
  · exact fun _ => .inl hcb'
  · exact fun _ => .inl hcb'
  · rw [hp, hlog]; exact h.ph0
  · rw [hp, hlog]; exact h.ph1
  · rw [hp, hlog]; exact h.ph2
  · rw [hp, hlog]; exact h.ph3

/-- `callback_` is empty, a null pointer or a callback. -/
theorem cb_cases (s : St) : s.cb = none ∨ s.cb = some true ∨ s.cb = some false := by
  cases s.cb with
  | none => exact .inl rfl
  | some b => cases b <;> simp

theorem hsSuccess_none {s : St} (h : s.cb = none) : s.hsSuccess = s := by unfold St.hsSuccess; rw [h]
theorem hsSuccess_true {s : St} (h : s.cb = some true) :
    s.hsSuccess = St.push (St.say { s with cb := none } .hsOk) [.out] := by unfold St.hsSuccess; rw [h]
theorem hsSuccess_false {s : St} (h : s.cb = some false) : s.hsSuccess = { s with cb := none } := by
  unfold St.hsSuccess; rw [h]
theorem hsError_none {s : St} (h : s.cb = none) : s.hsError = s := by unfold St.hsError; rw [h]
theorem hsError_true {s : St} (h : s.cb = some true) :
    s.hsError = St.push (St.say { s with cb := none } .hsErr) [.out] := by unfold St.hsError; rw [h]
theorem hsError_false {s : St} (h : s.cb = some false) : s.hsError = { s with cb := none } := by
  unfold St.hsError; rw [h]

theorem Calls.hsSuccess {s : St} (h : Calls s) (hk : s.connected = true) : Calls s.hsSuccess := by
  rcases cb_cases s with q | q | q
  · rw [hsSuccess_none q]; exact h
  · rw [hsSuccess_true q]
    exact h.report hk (o := .hsOk) rfl q rfl rfl rfl rfl rfl
      (fun f hf ⟨p, a, b⟩ => ⟨p, a, List.mem_cons_of_mem _ (b ▸ hf)⟩)
  · rw [hsSuccess_false q]
    exact h.unset hk (by rw [q]; simp) rfl rfl rfl rfl rfl (fun f hf ⟨p, a, b⟩ => ⟨p, a, b ▸ hf⟩)

/-- Progress to a report of (early) success. -/
theorem Calls.phase {s t : St} {o} (h : Calls s) (hlog : t.log = s.log ++ [o]) (hc : t.connected = s.connected)
    (hk : s.connected = true)
    (hcb : t.cb = s.cb) (hx : t.extErr = s.extErr) (hst : ∀ f ∈ s.stack, f ∈ t.stack)
    (ho : (∃ m, o = .earlyOk m ∧ s.phase = 0 ∧ t.phase = 1) ∨
      (∃ a n q, o = .success a n q ∧ t.phase = 2 ∧ (t.cb = none ∨ .hsCb ∈ t.stack ∨ .err .hs ∈ t.stack))) : Calls t := by
  have e1 : hsCalls t.log = hsCalls s.log := by
    rw [hsCalls, hlog, List.countP_append]
    rcases ho with ⟨m, rfl, _⟩ | ⟨a, n, q, rfl, _⟩ <;> rfl
  have e2 : t.log.countP isConn = s.log.countP isConn := by
    rw [hlog, List.countP_append]
    rcases ho with ⟨m, rfl, _⟩ | ⟨a, n, q, rfl, _⟩ <;> rfl
  have e5 : .error ∈ t.log ↔ .error ∈ s.log := by
    simp only [hlog, List.mem_append, List.mem_singleton]
    rcases ho with ⟨m, rfl, _⟩ | ⟨a, n, q, rfl, _⟩ <;> simp
  refine ⟨fun q => ?_, ?_, ?_, ?_, ?_, ?_, ?_, ?_, ?_, ?_⟩
  · rw [hc, hk] at q; cases q
  · rw [e1, e2, cbNow, hcb]; exact h.bal
  · rw [e2]; exact h.once
  · intro m
    rw [hx]
    refine (h.err (e5.1 m)).imp id ?_
    rintro ⟨p, a, b⟩
    exact ⟨p, a, hst _ b⟩
  · intro m
    rw [hcb]
    exact (h.cbErr (e5.1 m)).imp id (hst _)
  · rcases ho with ⟨m, rfl, h0, _⟩ | ⟨a, n, q, rfl, _, hor⟩
    · rintro ⟨a, b, c, m'⟩
      rw [hlog] at m'
      simp only [List.mem_append, List.mem_singleton, reduceCtorEq, or_false] at m'
      exact absurd ⟨a, b, c, m'⟩ (h.ph0 (.inl h0))
    · exact fun _ => hor
  · rcases ho with ⟨m, rfl, h0, _⟩ | ⟨a, n, q, rfl, h2, _⟩
    · intro _ ⟨a, b, c, m'⟩
      rw [hlog] at m'
      simp only [List.mem_append, List.mem_singleton, reduceCtorEq, or_false] at m'
      exact h.ph0 (.inl h0) ⟨a, b, c, m'⟩
    · intro q; omega
  · rcases ho with ⟨m, rfl, h0, h1⟩ | ⟨a, n, q, rfl, h2, _⟩
    · intro q; omega
    · intro q; omega
  · rcases ho with ⟨m, rfl, h0, h1⟩ | ⟨a, n, q, rfl, h2, _⟩
    · intro _; exact ⟨m, by rw [hlog]; simp⟩
    · intro q; omega
  · rcases ho with ⟨m, rfl, h0, h1⟩ | ⟨a, n, q, rfl, h2, _⟩
    · intro _ q; omega
    · intro _ _; exact ⟨a, n, q, by rw [hlog]; simp⟩

end Fizz.Sock

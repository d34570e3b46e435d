import Verif.Async.Pressure

/-!
# C97: back-pressure
-/

namespace Fizz.Async

/-- Bytes held by the object for an application that does not take them. -/
def buffered (s : St) : Nat := s.tbuf + (s.appBuf.getD []).length

/-- Neither buffer has reached 64 KiB. -/
def small (s : St) : Prop := s.tbuf < 65536 ∧ (s.appBuf.getD []).length < 65536

instance (s : St) : Decidable (small s) := by unfold small; infer_instance

/-- Reading is switched on although a buffer is full, and no check will follow: by `attachEventBase`, or by waiting for more
handshake data outside a read callback. -/
def Sys.late (x : Sys) : POp → Nat
  | .wait => if x.mid = false ∧ ¬ small x.s then 1 else 0
  | .attach => if ¬ small x.s then 1 else 0
  | _ => 0

/-- How often that happens. -/
def Sys.lateCount (x : Sys) : List POp → Nat
  | [] => 0
  | o :: os => x.late o + Sys.lateCount (x.step o) os

/-- No read callback is installed, nothing is injected, zero-copy reading is off, and a read brings at most `R` bytes. -/
def Unread (R : Nat) : POp → Prop
  | .got n => n ≤ R
  | .zeroCopy _ => False
  | .other (.setReadCB (some _)) => False
  | .other (.preReceived _) => False
  | _ => True

/-! ## Bytes in transit -/

def Frame.holds : Frame → Nat
  | .deliver d => (d.getD []).length
  | .loop d => (d.getD []).length
  | .inBuf _ d => d.length
  | _ => 0

def held : List Frame → Nat
  | [] => 0
  | f :: k => f.holds + held k

theorem held_append (a b : List Frame) : held (a ++ b) = held a + held b := by
  induction a with
  | nil => simp [held]
  | cons f a ih => simp [held, ih]; omega

def bytes (s : St) : Nat := buffered s + held s.stack

/-- Frames that matter to neither invariant. -/
def Frame.dullP : Frame → Bool
  | .deliver _ | .loop _ | .inBuf _ _ | .setRest | .err1 _ _ | .destroy2 => false
  | _ => true

theorem held_dull : ∀ {fs : List Frame}, fs.all Frame.dullP = true → held fs = 0
  | [], _ => rfl
  | f :: k, h => by
    rw [List.all_cons, Bool.and_eq_true] at h
    have := held_dull h.2
    have h1 := h.1
    cases f <;> simp [Frame.dullP] at h1 <;> simp [held, Frame.holds, this]

/-- The fields these invariants look at. -/
structure PView where
  cb : Option Rcb
  reads : Bool
  tbuf : Nat
  app : Option Bytes
  alive : Bool
  dc : Bool
  dp : Bool
  deriving DecidableEq

def St.pview (s : St) : PView := ⟨s.readCb, s.reads, s.tbuf, s.appBuf, s.alive, s.destroyCalled, s.destroyPending⟩

/-- A step that does nothing to the read side. -/
def Plain (s t : St) : Prop := t.pview = s.pview ∧ ∃ fs, t.stack = fs ++ s.stack ∧ fs.all Frame.dullP = true

theorem Plain.refl (s : St) : Plain s s := ⟨rfl, [], rfl, rfl⟩

theorem advance_plain (s : St) (r : Nat) (q : Req) :
    (s.advanceOnBase r q).pview = s.pview ∧ (s.advanceOnBase r q).stack = s.stack := by
  unfold St.advanceOnBase
  split
  · split
    · exact ⟨rfl, rfl⟩
    · split <;> exact ⟨rfl, rfl⟩
  · exact ⟨rfl, rfl⟩

theorem handDown_plain (s : St) (r : Nat) (b : Bytes) (f : Flags) : Plain s (s.handDown r b f) := ⟨rfl, [.out], rfl, rfl⟩

theorem start_plain (s : St) (r : Nat) : Plain s (s.startWriting r) := by
  unfold St.startWriting
  split
  · exact .refl s
  · rename_i q _
    by_cases h : (!q.base || !s.alive) = true
    · rw [if_pos h]; exact .refl s
    · rw [if_neg h]
      dsimp only
      split
      · exact ⟨rfl, [], rfl, rfl⟩
      · split
        · exact ⟨rfl, [], rfl, rfl⟩
        · exact ⟨(handDown_plain _ r _ _).1, (handDown_plain _ r _ _).2⟩

theorem errReq_plain (s : St) (r : Option Nat) (ex : Ex) : Plain s (s.errReq r ex) := by
  unfold St.errReq
  split
  · exact .refl s
  · split
    · exact .refl s
    · rename_i r _ q _
      have := advance_plain s r q
      refine ⟨this.1, (if q.cb then [.out] else []) ++ [.errReq q.next ex], ?_, ?_⟩
      · show _ ++ (s.advanceOnBase r q).stack = _
        rw [this.2]
      · cases q.cb <;> rfl

theorem succ_plain (s : St) (r : Nat) : Plain s (s.succ r) := by
  unfold St.succ
  split
  · exact .refl s
  · rename_i q _
    by_cases h : q.data ≠ []
    · rw [if_pos h]; exact ⟨rfl, [.start r], rfl, rfl⟩
    · rw [if_neg h]
      by_cases h2 : (!q.base || !s.alive) = true
      · rw [if_pos h2]; exact .refl s
      · rw [if_neg h2]
        have := advance_plain s r q
        refine ⟨this.1, (if q.cb then [.out] else []) ++ [.succ2 q.next, .unguard], ?_, ?_⟩
        · show _ ++ (s.advanceOnBase r q).stack = _
          rw [this.2]
        · cases q.cb <;> rfl

theorem succ2_plain (s : St) (n : Option Nat) : Plain s (s.succ2 n) := by
  unfold St.succ2
  split
  · exact .refl s
  · split
    · exact ⟨rfl, [.start _], rfl, rfl⟩
    · exact .refl s

theorem err2_plain (s : St) (ex : Ex) (c d : Bool) : Plain s (s.err2 ex c d) := by
  unfold St.err2
  split
  · exact ⟨rfl, [_, _], rfl, rfl⟩
  · exact ⟨rfl, [_], rfl, rfl⟩

theorem err3_plain (s : St) (c d : Bool) : Plain s (s.err3 c d) := by
  unfold St.err3
  cases c
  · exact ⟨rfl, [_], rfl, rfl⟩
  · exact ⟨rfl, [_, _], rfl, rfl⟩

theorem err4_plain (s : St) (d : Bool) : Plain s (s.err4 d) := by
  unfold St.err4
  cases d <;> exact ⟨rfl, [], rfl, rfl⟩

theorem err1_plain {s : St} (h : s.readCb = none) (ex : Ex) (c : Bool) : Plain s (s.err1 ex c) := by
  unfold St.err1
  split
  · rename_i h1; rw [h] at h1; cases h1
  · cases s.pendingEx <;> exact ⟨rfl, [_], rfl, rfl⟩

theorem writeChain_plain (s : St) (data : Bytes) (fl : Flags) (cb a b c d : Bool) :
    Plain s (s.writeChain data fl cb a b c d) := by
  unfold St.writeChain
  dsimp only
  split
  · split
    · exact ⟨rfl, [], rfl, rfl⟩
    · split <;> exact ⟨rfl, [], rfl, rfl⟩
  · split
    · exact ⟨rfl, [.start _], rfl, rfl⟩
    · exact ⟨rfl, [.out], rfl, rfl⟩

/-- A dying object reads nothing; the rest is as before. -/
theorem dtor_pview (s : St) : s.dtor.pview = { s.pview with reads := false, alive := false } ∧ s.dtor.stack = s.stack := by
  unfold St.dtor
  dsimp only
  split
  · exact ⟨rfl, rfl⟩
  · split <;> exact ⟨rfl, rfl⟩

theorem small_congr {s t : St} (h1 : t.tbuf = s.tbuf) (h2 : t.appBuf = s.appBuf) : small t ↔ small s := by
  unfold small; rw [h1, h2]

/-! ## The bound -/

structure PInv (R B : Nat) (x : Sys) : Prop where
  cb : x.s.readCb = none
  frames : ∀ f ∈ x.s.stack, f ≠ .setRest
  total : bytes x.s ≤ B
  base : 131070 + R ≤ B
  calm : x.s.reads = true → x.mid = false → small x.s ∨ Async.bytes x.s + R ≤ B

theorem frames_dull {fs : List Frame} (h : fs.all Frame.dullP = true) : ∀ f ∈ fs, f ≠ .setRest ∧ f ≠ .destroy2 := by
  intro f hf
  have := List.all_eq_true.1 h f hf
  constructor <;> rintro rfl <;> cases this

/-- General preservation. -/
theorem PInv.move {R B : Nat} {x y : Sys} (h : PInv R B x) (hcb : y.s.readCb = none)
    (hf : ∀ f ∈ y.s.stack, f ≠ .setRest) (ht : Async.bytes y.s ≤ Async.bytes x.s)
    (hc : y.s.reads = true → y.mid = false → small y.s ∨ (x.s.reads = true ∧ x.mid = false ∧ (small x.s → small y.s))) :
    PInv R B y where
  cb := hcb
  frames := hf
  total := Nat.le_trans ht h.total
  base := h.base
  calm hr hm := by
    rcases hc hr hm with h1 | ⟨h1, h2, h3⟩
    · exact .inl h1
    · rcases h.calm h1 h2 with h4 | h4
      · exact .inl (h3 h4)
      · exact .inr (by omega)

theorem Plain.pinv {R B : Nat} {m dt : Bool} {s t : St} (h : PInv R B ⟨s, m, dt⟩) (hp : Plain s t) :
    PInv R B ⟨t, m, dt⟩ := by
  obtain ⟨hv, fs, hst, hd⟩ := hp
  obtain ⟨v1, v2, v3, v4, -⟩ := PView.mk.inj hv
  refine h.move (v1.trans h.cb) ?_ ?_ ?_
  · intro f hf
    show f ≠ _
    simp only [hst, List.mem_append] at hf
    rcases hf with hf | hf
    · exact (frames_dull hd f hf).1
    · exact h.frames f hf
  · simp only [Async.bytes, buffered, v3, v4, hst, held_append, held_dull hd]; omega
  · intro h1 h2
    exact .inr ⟨v2 ▸ h1, h2, (small_congr v3 v4).2⟩

theorem pop_pinv {R B : Nat} {x : Sys} (h : PInv R B x) {f : Frame} {k : List Frame} (hs : x.s.stack = f :: k) :
    PInv R B { x with s := { x.s with stack := k } } := by
  refine h.move h.cb (fun g hg => h.frames g (by rw [hs]; exact List.mem_cons_of_mem _ hg)) ?_ ?_
  · simp only [Async.bytes, buffered, hs, held]; omega
  · intro h1 h2
    exact .inr ⟨h1, h2, id⟩

theorem check_small {s : St} (hc : s.readCb = none) (h : s.checkBufLen.reads = true) : small s ∧ s.reads = true := by
  unfold St.checkBufLen at h
  rw [hc] at h
  unfold small
  split at h
  · cases h
  · rename_i h1
    have e : maxBuf = 65536 := rfl
    simp only [Option.isNone_none, Bool.true_and, Bool.or_eq_true, decide_eq_true_eq, e] at h1
    exact ⟨⟨by omega, by omega⟩, h⟩

theorem check_same (s : St) : s.checkBufLen.readCb = s.readCb ∧ s.checkBufLen.tbuf = s.tbuf ∧
    s.checkBufLen.appBuf = s.appBuf ∧ s.checkBufLen.stack = s.stack ∧ s.checkBufLen.destroyCalled = s.destroyCalled ∧
    s.checkBufLen.destroyPending = s.destroyPending ∧ s.checkBufLen.alive = s.alive ∧ (s.readCb.isSome → s.checkBufLen.reads = s.reads) := by
  unfold St.checkBufLen
  split
  · rename_i h
    refine ⟨rfl, rfl, rfl, rfl, rfl, rfl, rfl, ?_⟩
    intro h'
    cases hc : s.readCb with
    | none => rw [hc] at h'; cases h'
    | some c => rw [hc] at h; cases h
  · exact ⟨rfl, rfl, rfl, rfl, rfl, rfl, rfl, fun _ => rfl⟩

theorem loop_pinv {R B : Nat} {x : Sys} (h : PInv R B x) {d : Option Bytes} {k : List Frame}
    (hs : x.s.stack = .loop d :: k) : PInv R B { x with s := St.loop { x.s with stack := k } d } := by
  have hfr : ∀ f ∈ k, f ≠ .setRest := fun g hg => h.frames g (by rw [hs]; exact List.mem_cons_of_mem _ hg)
  have hcb := h.cb
  have main : ∀ a : Option Bytes, (a.getD []).length ≤ (x.s.appBuf.getD []).length + (d.getD []).length →
      PInv R B { x with s := St.checkBufLen { x.s with stack := k, appBuf := a } } := by
    intro a ha
    obtain ⟨c1, c2, c3, c4, -⟩ := check_same { x.s with stack := k, appBuf := a }
    refine h.move (c1.trans h.cb) (fun f hf => hfr f (by simpa only [c4] using hf)) ?_ ?_
    · simp only [Async.bytes, buffered, c2, c3, c4, hs, held, Frame.holds]; omega
    · intro h1 h2
      exact .inl ((small_congr c2 c3).2 (check_small (s := { x.s with stack := k, appBuf := a }) h.cb h1).1)
  cases d with
  | none =>
    have := main x.s.appBuf (by simp)
    simpa only [St.loop, hcb] using this
  | some d =>
    have := main (some d) (by simp)
    simpa only [St.loop, hcb] using this

theorem deliver_pinv {R B : Nat} {x : Sys} (h : PInv R B x) {d : Option Bytes} {k : List Frame}
    (hs : x.s.stack = .deliver d :: k) : PInv R B { x with s := St.deliver { x.s with stack := k } d } := by
  have hfr : ∀ f ∈ k, f ≠ .setRest := fun g hg => h.frames g (by rw [hs]; exact List.mem_cons_of_mem _ hg)
  unfold St.deliver
  cases ha : x.s.appBuf with
  | none =>
    simp only [ha]
    refine h.move h.cb ?_ ?_ ?_
    · intro f hf
      simp only [St.push, List.cons_append, List.nil_append, List.mem_cons] at hf
      rcases hf with rfl | hf
      · simp
      · exact hfr f hf
    · simp [Async.bytes, buffered, hs, held, Frame.holds, St.push, ha]
    · intro h1 h2
      refine .inr ⟨h1, h2, fun h3 => ?_⟩
      unfold small at h3 ⊢
      rw [ha] at h3
      exact h3
  | some b =>
    simp only [ha]
    refine h.move h.cb ?_ ?_ ?_
    · intro f hf
      simp only [St.push, List.cons_append, List.nil_append, List.mem_cons] at hf
      rcases hf with rfl | hf
      · simp
      · exact hfr f hf
    · simp [Async.bytes, buffered, hs, held, Frame.holds, St.push, ha]; omega
    · intro h1 h2
      refine .inr ⟨h1, h2, fun h3 => ?_⟩
      unfold small at h3 ⊢
      exact ⟨h3.1, by simp [St.push]⟩

/-- Pushing frames without bytes. -/
theorem push_pinv {R B : Nat} {m dt : Bool} {s : St} (h : PInv R B ⟨s, m, dt⟩) (fs : List Frame) (h0 : held fs = 0)
    (hf : ∀ f ∈ fs, f ≠ .setRest) : PInv R B ⟨s.push fs, m, dt⟩ := by
  refine h.move h.cb ?_ ?_ ?_
  · intro f hf'
    simp only [St.push, List.mem_append] at hf'
    rcases hf' with h1 | h1
    · exact hf f h1
    · exact h.frames f h1
  · simp only [Async.bytes, buffered, St.push, held_append, h0]; omega
  · intro h1 h2
    exact .inr ⟨h1, h2, (small_congr rfl rfl).2⟩

/-- Only the log, the pending exception and the like change. -/
theorem view_pinv {R B : Nat} {m dt : Bool} {s t : St} (h : PInv R B ⟨s, m, dt⟩) (hv : t.readCb = s.readCb ∧
    t.tbuf = s.tbuf ∧ t.appBuf = s.appBuf ∧ t.stack = s.stack) (hr : t.reads = true → s.reads = true) :
    PInv R B ⟨t, m, dt⟩ := by
  refine h.move (hv.1.trans h.cb) (fun f hf => h.frames f (hv.2.2.2 ▸ hf)) ?_ ?_
  · simp [Async.bytes, buffered, hv.2.1, hv.2.2.1, hv.2.2.2]
  · intro h1 h2
    exact .inr ⟨hr h1, h2, (small_congr hv.2.1 hv.2.2.1).2⟩

theorem dtor_pinv {R B : Nat} {x : Sys} {s : St} (h : PInv R B { x with s := s }) : PInv R B { x with s := s.dtor } := by
  obtain ⟨h1, h2⟩ := dtor_pview s
  obtain ⟨v1, v2, v3, v4, -⟩ := PView.mk.inj h1
  exact view_pinv h ⟨v1, v3, v4, h2⟩ (fun h => by rw [v2] at h; cases h)

theorem tau_pinv {R B : Nat} {x : Sys} (h : PInv R B x) : PInv R B { x with s := step x.s .tau } := by
  show PInv R B { x with s := match x.s.stack with
    | f :: k => { x.s with stack := k }.runFrame f
    | [] => x.s }
  cases hs : x.s.stack with
  | nil => exact h
  | cons f k =>
    have hp := pop_pinv h hs
    have hcr : PInv R B { x with s := St.crashed { x.s with stack := k } } := view_pinv hp ⟨rfl, rfl, rfl, rfl⟩ id
    simp only
    cases f with
    | deliver d => simp only [St.runFrame]; split
                   · exact deliver_pinv h hs
                   · exact hcr
    | loop d => simp only [St.runFrame]; split
                · exact loop_pinv h hs
                · exact hcr
    | setRest => exact absurd rfl (h.frames _ (by rw [hs]; exact List.mem_cons_self))
    | err1 ex c =>
      simp only [St.runFrame]; split
      · exact (err1_plain (s := { x.s with stack := k }) h.cb _ _).pinv hp
      · exact hcr
    | err2 ex c d => simp only [St.runFrame]; split
                     · exact (err2_plain _ _ _ _).pinv hp
                     · exact hcr
    | err3 c d => simp only [St.runFrame]; split
                  · exact (err3_plain _ _ _).pinv hp
                  · exact hcr
    | err4 d => simp only [St.runFrame]; split
                · exact (err4_plain _ _).pinv hp
                · exact hcr
    | start r => exact (start_plain _ _).pinv hp
    | errReq r ex => exact (errReq_plain _ _ _).pinv hp
    | succ r => exact (succ_plain _ _).pinv hp
    | succ2 n => simp only [St.runFrame]; split
                 · exact (succ2_plain _ _).pinv hp
                 · exact hcr
    | unguard =>
      simp only [St.runFrame]; split
      · unfold St.unguard
        split
        · exact dtor_pinv hp
        · exact hp
      · exact hcr
    | destroy2 =>
      simp only [St.runFrame]; split
      · have hq : PInv R B { x with s := { x.s with stack := k, reads := false, destroyPending := true } } :=
          view_pinv hp ⟨rfl, rfl, rfl, rfl⟩ (fun h => by cases h)
        unfold St.destroy2
        dsimp only
        split
        · exact dtor_pinv hq
        · exact hq
      · exact hcr
    | inBuf _ _ => exact hp
    | inRead => exact hp
    | out => exact hp

theorem other_pinv {R B : Nat} {x : Sys} (h : PInv R B x) {o : Op} (ha : x.allowed (.other o)) (hu : Unread R (.other o)) :
    PInv R B (x.step (.other o)) := by
  show PInv R B { x with s := step x.s o }
  cases o with
  | tau => exact tau_pinv h
  | ret =>
    show PInv R B { x with s := match x.s.stack with
      | .inRead :: k => { x.s with stack := k }.say .gaveRet
      | .out :: k => { x.s with stack := k }
      | _ => x.s }
    split
    · rename_i k hk
      exact view_pinv (pop_pinv h hk) ⟨rfl, rfl, rfl, rfl⟩ id
    · rename_i k hk
      exact pop_pinv h hk
    · exact h
  | retBuf r =>
    show PInv R B { x with s := match x.s.stack with
      | .inBuf c d :: k =>
        match (generalizing := false) r with
        | .threw ex => (St.say { x.s with stack := k } (.bufFail c ex)).callError ex true
        | .bad => (St.say { x.s with stack := k } (.bufFail c badArgs)).callError badArgs true
        | .room n => (St.say { x.s with stack := k } (.gave c (d.take (n + 1)))).push
            [.inRead, .loop (if d.drop (n + 1) = [] then none else some (d.drop (n + 1)))]
      | _ => x.s }
    split
    · rename_i c d k hk
      have hp := pop_pinv h hk
      cases r with
      | threw ex =>
        exact push_pinv (s := (St.say { x.s with stack := k } (.bufFail c ex)))
          (view_pinv hp ⟨rfl, rfl, rfl, rfl⟩ id) [.err1 ex true, .unguard] rfl (by simp)
      | bad =>
        exact push_pinv (s := (St.say { x.s with stack := k } (.bufFail c badArgs)))
          (view_pinv hp ⟨rfl, rfl, rfl, rfl⟩ id) [.err1 badArgs true, .unguard] rfl (by simp)
      | room n =>
        refine h.move h.cb ?_ ?_ ?_
        · intro f hf
          simp only [St.push, List.cons_append, List.nil_append, List.mem_cons] at hf
          rcases hf with rfl | rfl | hf
          · simp
          · simp
          · exact h.frames f (by rw [hk]; exact List.mem_cons_of_mem _ hf)
        · have : ((if d.drop (n + 1) = [] then none else some (d.drop (n + 1))).getD ([] : Bytes)).length ≤ d.length := by
            split <;> simp
          simp only [Async.bytes, buffered, hk, held, Frame.holds, St.push, St.say, List.cons_append, List.nil_append]
          omega
        · intro h1 h2
          exact .inr ⟨h1, h2, (small_congr rfl rfl).2⟩
    · exact h
  | writeChain d f cb a b c e => exact (writeChain_plain _ _ _ _ _ _ _ _).pinv h
  | setReadCB c =>
    cases c with
    | none =>
      refine view_pinv h ⟨?_, rfl, rfl, rfl⟩ id
      rw [h.cb]; rfl
    | some c => exact absurd hu (by simp [Unread])
  | preReceived d => exact absurd hu (by simp [Unread])
  | destroy =>
    exact push_pinv (s := { x.s with destroyCalled := true })
      (view_pinv h ⟨rfl, rfl, rfl, rfl⟩ id) [.out, .destroy2] rfl (by simp)
  | setNoPartial b => exact view_pinv h ⟨rfl, rfl, rfl, rfl⟩ id
  | setSecretCb _ => exact view_pinv h ⟨rfl, rfl, rfl, rfl⟩ id
  | arrive d => exact absurd ha.2 (by simp)
  | error ex close =>
    exact push_pinv (s := x.s.say (.error ex))
      (view_pinv h ⟨rfl, rfl, rfl, rfl⟩ id) [.err1 ex close, .unguard] rfl (by simp)
  | compOk r =>
    exact push_pinv (s := St.say { x.s with flying := x.s.flying.erase r } (.compOk r))
      (view_pinv h ⟨rfl, rfl, rfl, rfl⟩ id) [.succ r] rfl (by simp)
  | compErr r ex =>
    exact push_pinv (s := St.say { x.s with flying := x.s.flying.erase r } (.compErr r ex))
      (view_pinv h ⟨rfl, rfl, rfl, rfl⟩ id) [.errReq (some r) ex] rfl (by simp)
  | transport a b => exact absurd ha.2 (by simp)
  | transportRead => exact absurd ha.2 (by simp)

theorem PInv.step {R B : Nat} {x : Sys} (h : PInv R B x) {o : POp} (ha : x.allowed o) (hu : Unread R o) :
    PInv R (B + R * x.late o) (x.step o) := by
  have wide : ∀ {B' y}, PInv R B y → B ≤ B' → PInv R B' y := fun hy hb =>
    ⟨hy.cb, hy.frames, Nat.le_trans hy.total hb, Nat.le_trans hy.base hb, fun a b => (hy.calm a b).imp_right (by omega)⟩
  cases o with
  | got n =>
    refine wide ?_ (Nat.le_add_right _ _)
    refine ⟨h.cb, h.frames, ?_, h.base, fun _ h2 => by cases h2⟩
    obtain ⟨h1, h2, h3, h4⟩ := ha
    have hn : n ≤ R := hu
    have hb := h.base
    show (x.s.tbuf + n) + (x.s.appBuf.getD []).length + held x.s.stack ≤ B
    rcases h.calm h1 h4 with h5 | h5
    · unfold small at h5
      rw [h3]
      simp only [held]
      omega
    · simp only [Async.bytes, buffered] at h5
      omega
  | done =>
    refine wide ?_ (Nat.le_add_right _ _)
    obtain ⟨c1, c2, c3, c4, -⟩ := check_same x.s
    refine h.move (c1.trans h.cb) (fun f hf => h.frames f (c4 ▸ hf)) ?_ ?_
    · show buffered x.s.checkBufLen + held x.s.checkBufLen.stack ≤ _
      simp only [Async.bytes, buffered, c2, c3, c4]; omega
    · intro h1 _
      exact .inl ((small_congr c2 c3).2 (check_small h.cb h1).1)
  | zeroCopy n => exact absurd hu (by simp [Unread])
  | take c d =>
    refine wide ?_ (Nat.le_add_right _ _)
    obtain ⟨h1, h2, -⟩ := ha
    cases d with
    | none =>
      refine h.move h.cb h.frames ?_ ?_
      · simp only [Sys.step, Async.bytes, buffered]; omega
      · intro h3 h4
        refine .inr ⟨h3, h4, fun h5 => ?_⟩
        unfold small at h5 ⊢
        exact ⟨Nat.lt_of_le_of_lt (Nat.sub_le _ _) h5.1, h5.2⟩
    | some d =>
      refine h.move h.cb ?_ ?_ ?_
      · intro f hf
        simp only [Sys.step, Async.step, St.push, St.say, List.cons_append, List.nil_append, List.mem_cons] at hf
        rcases hf with rfl | rfl | hf
        · simp
        · simp
        · exact h.frames f hf
      · simp only [Option.getD_some] at h2
        simp only [Sys.step, Async.step, St.push, St.say, List.cons_append, List.nil_append, Async.bytes, buffered, held,
          Frame.holds, Option.getD_some]
        omega
      · intro h3 h4
        refine .inr ⟨h3, h4, fun h5 => ?_⟩
        unfold small at h5 ⊢
        exact ⟨Nat.lt_of_le_of_lt (Nat.sub_le _ _) h5.1, h5.2⟩
  | wait =>
    by_cases hl : x.mid = false ∧ ¬ small x.s
    · refine ⟨h.cb, h.frames, ?_, ?_, ?_⟩
      · exact Nat.le_trans h.total (Nat.le_add_right _ _)
      · exact Nat.le_trans h.base (Nat.le_add_right _ _)
      · intro _ _
        right
        have := h.total
        simp only [Sys.late, if_pos hl]
        show Async.bytes x.s + R ≤ _
        omega
    · refine wide ?_ (Nat.le_add_right _ _)
      refine h.move h.cb h.frames (Nat.le_refl _) ?_
      intro _ h2
      refine .inl ?_
      show small x.s
      have h2 : x.mid = false := h2
      exact Decidable.not_not.1 fun h3 => hl ⟨h2, h3⟩
  | attach =>
    by_cases hl : ¬ small x.s
    · have e : (x.step .attach).s.readCb = x.s.readCb ∧ (x.step .attach).s.stack = x.s.stack ∧
          Async.bytes (x.step .attach).s = Async.bytes x.s := by
        simp only [Sys.step]; split <;> exact ⟨rfl, rfl, rfl⟩
      refine ⟨e.1.trans h.cb, fun f hf => h.frames f (e.2.1 ▸ hf), ?_, ?_, ?_⟩
      · rw [e.2.2]; exact Nat.le_trans h.total (Nat.le_add_right _ _)
      · exact Nat.le_trans h.base (Nat.le_add_right _ _)
      · intro _ _
        right
        have := h.total
        simp only [Sys.late, if_pos hl]
        rw [e.2.2]
        omega
    · refine wide ?_ (Nat.le_add_right _ _)
      have e : (x.step .attach).s.readCb = x.s.readCb ∧ (x.step .attach).s.stack = x.s.stack ∧
          Async.bytes (x.step .attach).s = Async.bytes x.s ∧ (small (x.step .attach).s ↔ small x.s) := by
        simp only [Sys.step]; split <;> exact ⟨rfl, rfl, rfl, Iff.rfl⟩
      exact h.move (e.1.trans h.cb) (fun f hf => h.frames f (e.2.1 ▸ hf)) (by omega)
        (fun _ _ => .inl (e.2.2.2.2 (Decidable.not_not.1 hl)))
  | detach =>
    refine wide ?_ (Nat.le_add_right _ _)
    exact h.move h.cb h.frames (Nat.le_refl _) (fun h1 => by cases h1)
  | good b =>
    refine wide ?_ (Nat.le_add_right _ _)
    exact view_pinv (t := Async.step x.s (.transport b x.s.tbuf)) h ⟨rfl, rfl, rfl, rfl⟩ id
  | other o =>
    exact wide (other_pinv h ha hu) (Nat.le_add_right _ _)

/-- **Bounded.**  As long as the application has no read callback, the object holds at most 128 KiB (less two bytes), or what
it held at the beginning, plus one read - and one more for every time reading was switched on again although a buffer was
full. -/
theorem C97_bounded {R : Nat} {x y : Sys} {ops : List POp} (h : Sys.Run x ops y) (hcb : x.s.readCb = none)
    (hst : x.s.stack = []) (hops : ∀ o ∈ ops, Unread R o) :
    buffered y.s ≤ max (buffered x.s) 131070 + R * (1 + x.lateCount ops) := by
  have key : ∀ {x y : Sys} {ops}, Sys.Run x ops y → ∀ B, PInv R B x → (∀ o ∈ ops, Unread R o) →
      buffered y.s ≤ B + R * x.lateCount ops := by
    intro x y ops h
    induction h with
    | nil x =>
      intro B hB _
      have := hB.total
      simp only [Async.bytes] at this
      omega
    | cons ha _ ih =>
      intro B hB hu
      have := ih _ (hB.step ha (hu _ List.mem_cons_self)) fun o ho => hu o (List.mem_cons_of_mem _ ho)
      simp only [Sys.lateCount, Nat.mul_add] at this ⊢
      omega
  have h0 : PInv R (max (buffered x.s) 131070 + R) x := by
    refine ⟨hcb, by simp [hst], ?_, by omega, fun _ _ => .inr ?_⟩ <;> simp only [Async.bytes, hst, held] <;> omega
  have := key h _ h0 hops
  rw [Nat.mul_add]
  omega

/-! ## Reading goes on -/

structure Flow (x : Sys) : Prop where
  alive : x.s.alive = true
  pending : x.s.destroyPending = false
  frames : .destroy2 ∉ x.s.stack
  on : x.s.readCb.isSome = true → x.detached = true ∨ x.s.reads = true ∨ .setRest ∈ x.s.stack ∨
    ∃ ex c, .err1 ex c ∈ x.s.stack

/-- The object is being destroyed, or reading goes on. -/
def Flows (x : Sys) : Prop := x.s.destroyCalled = true ∨ Flow x

theorem Plain.flows {m dt : Bool} {s t : St} (h : Flows ⟨s, m, dt⟩) (hp : Plain s t) : Flows ⟨t, m, dt⟩ := by
  obtain ⟨hv, fs, hst, hd⟩ := hp
  obtain ⟨v1, v2, -, -, v5, v6, v7⟩ := PView.mk.inj hv
  rcases h with h | h
  · exact .inl (v6.trans h)
  · refine .inr ⟨v5.trans h.alive, v7.trans h.pending, ?_, ?_⟩
    · show _ ∉ t.stack
      rw [hst, List.mem_append]
      rintro (h1 | h1)
      · exact (frames_dull hd _ h1).2 rfl
      · exact h.frames h1
    · intro h1
      rcases h.on (v1 ▸ h1) with h2 | h2 | h2 | ⟨ex, c, h2⟩
      · exact .inl h2
      · exact .inr (.inl (v2.trans h2))
      · exact .inr (.inr (.inl (by show _ ∈ t.stack; rw [hst]; exact List.mem_append_right _ h2)))
      · exact .inr (.inr (.inr ⟨ex, c, by show _ ∈ t.stack; rw [hst]; exact List.mem_append_right _ h2⟩))

/-- Popping a frame that the invariant does not rely on. -/
theorem pop_flows {x : Sys} (h : Flows x) {f : Frame} {k : List Frame} (hs : x.s.stack = f :: k) (h1 : f ≠ .setRest)
    (h2 : ∀ ex c, f ≠ .err1 ex c) : Flows { x with s := { x.s with stack := k } } := by
  rcases h with h | h
  · exact .inl h
  · refine .inr ⟨h.alive, h.pending, fun h3 => h.frames (by rw [hs]; exact List.mem_cons_of_mem _ h3), fun h3 => ?_⟩
    rcases h.on h3 with h4 | h4 | h4 | ⟨ex, c, h4⟩
    · exact .inl h4
    · exact .inr (.inl h4)
    · rw [hs, List.mem_cons] at h4
      exact .inr (.inr (.inl (h4.resolve_left fun h => h1 h.symm)))
    · rw [hs, List.mem_cons] at h4
      exact .inr (.inr (.inr ⟨ex, c, h4.resolve_left fun h => h2 _ _ h.symm⟩))

/-- What is left after popping any frame. -/
theorem pop_rest {x : Sys} (h : Flow x) {f : Frame} {k : List Frame} (hs : x.s.stack = f :: k) : .destroy2 ∉ k :=
  fun h3 => h.frames (by rw [hs]; exact List.mem_cons_of_mem _ h3)

/-- Pushing frames, and changing fields the invariant does not look at. -/
theorem push_flows {m dt : Bool} {s t : St} (h : Flows ⟨s, m, dt⟩) (fs : List Frame) (h1 : .destroy2 ∉ fs)
    (hv : t.readCb = s.readCb ∧ t.stack = fs ++ s.stack ∧ t.alive = s.alive ∧ t.destroyPending = s.destroyPending ∧
      t.destroyCalled = s.destroyCalled)
    (hr : s.readCb.isSome = true → s.reads = true → t.reads = true) : Flows ⟨t, m, dt⟩ := by
  obtain ⟨v1, v2, v3, v4, v5⟩ := hv
  rcases h with h | h
  · exact .inl (v5.trans h)
  · refine .inr ⟨v3.trans h.alive, v4.trans h.pending, ?_, fun h3 => ?_⟩
    · show _ ∉ t.stack
      rw [v2, List.mem_append]
      rintro (h2 | h2)
      · exact h1 h2
      · exact h.frames h2
    · rcases h.on (v1 ▸ h3) with h4 | h4 | h4 | ⟨ex, c, h4⟩
      · exact .inl h4
      · exact .inr (.inl (hr (v1 ▸ h3) h4))
      · exact .inr (.inr (.inl (by show _ ∈ t.stack; rw [v2]; exact List.mem_append_right _ h4)))
      · exact .inr (.inr (.inr ⟨ex, c, by show _ ∈ t.stack; rw [v2]; exact List.mem_append_right _ h4⟩))

theorem view_flows {m dt : Bool} {s t : St} (h : Flows ⟨s, m, dt⟩) (hv : t.readCb = s.readCb ∧ t.stack = s.stack ∧
    t.alive = s.alive ∧ t.destroyPending = s.destroyPending ∧ t.destroyCalled = s.destroyCalled)
    (hr : s.readCb.isSome = true → s.reads = true → t.reads = true) : Flows ⟨t, m, dt⟩ :=
  push_flows h [] (by simp) hv hr

theorem check_flows {m dt : Bool} {s : St} (h : Flows ⟨s, m, dt⟩) : Flows ⟨s.checkBufLen, m, dt⟩ := by
  obtain ⟨c1, -, -, c4, c5, c6, c7, c8⟩ := check_same s
  exact view_flows h ⟨c1, c4, c7, c6, c5⟩ fun h1 h2 => (c8 h1).trans h2

theorem setRest_dc (s : St) : s.setRest.destroyCalled = s.destroyCalled := by
  unfold St.setRest; split
  · rfl
  · split <;> rfl

theorem err1_dc (s : St) (ex : Ex) (c : Bool) : (s.err1 ex c).destroyCalled = s.destroyCalled := by
  unfold St.err1; split
  · rfl
  · cases s.pendingEx <;> rfl

theorem dtor_dc (s : St) : s.dtor.destroyCalled = s.destroyCalled := by
  obtain ⟨-, -, -, -, -, h, -⟩ := PView.mk.inj (dtor_pview s).1
  exact h

theorem tau_flows {x : Sys} (h : Flows x) : Flows { x with s := step x.s .tau } := by
  show Flows { x with s := match x.s.stack with
    | f :: k => { x.s with stack := k }.runFrame f
    | [] => x.s }
  cases hs : x.s.stack with
  | nil => exact h
  | cons f k =>
    have hp := fun a b => pop_flows h hs a b
    have hcr : f ≠ .setRest → (∀ ex c, f ≠ .err1 ex c) → Flows { x with s := St.crashed { x.s with stack := k } } :=
      fun a b => view_flows (hp a b) ⟨rfl, rfl, rfl, rfl, rfl⟩ fun _ h => h
    simp only
    cases f with
    | deliver d =>
      have hq := hp (by simp) (by simp)
      simp only [St.runFrame]; split
      · unfold St.deliver
        split
        · exact push_flows hq [.loop _] (by simp) ⟨rfl, rfl, rfl, rfl, rfl⟩ fun _ h => h
        · exact push_flows hq [.loop _] (by simp) ⟨rfl, rfl, rfl, rfl, rfl⟩ fun _ h => h
      · exact hcr (by simp) (by simp)
    | loop d =>
      have hq := hp (by simp) (by simp)
      simp only [St.runFrame]; split
      · unfold St.loop
        split
        · split
          · exact push_flows hq [.out] (by simp) ⟨rfl, rfl, rfl, rfl, rfl⟩ fun _ h => h
          · split
            · exact check_flows hq
            · exact push_flows hq [.inBuf _ _] (by simp) ⟨rfl, rfl, rfl, rfl, rfl⟩ fun _ h => h
        · exact check_flows hq
        · exact check_flows (view_flows hq ⟨rfl, rfl, rfl, rfl, rfl⟩ fun _ h => h)
        · exact check_flows hq
      · exact hcr (by simp) (by simp)
    | setRest =>
      rcases h with h | h
      · left
        simp only [St.runFrame]; split
        · rw [setRest_dc]; exact h
        · exact h
      · have hk := pop_rest h hs
        simp only [St.runFrame]; rw [if_pos h.alive]
        refine .inr ?_
        have herr : ∀ (s : St) ex, s.alive = true → s.destroyPending = false → .destroy2 ∉ s.stack →
            Flow { x with s := s.callError ex true } := by
          intro s ex h0 h1 h2
          refine ⟨h0, h1, ?_, fun _ => .inr (.inr (.inr ⟨ex, true, ?_⟩))⟩
          · simp only [St.callError, St.push, List.cons_append, List.nil_append, List.mem_cons]
            rintro (h3 | h3 | h3)
            · cases h3
            · cases h3
            · exact h2 h3
          · simp [St.callError, St.push]
        unfold St.setRest
        split
        · exact herr _ _ h.alive h.pending hk
        · split
          · exact herr _ _ h.alive h.pending hk
          · exact ⟨h.alive, h.pending, by simpa [St.push] using hk, fun _ => .inr (.inl rfl)⟩
    | err1 ex c =>
      rcases h with h | h
      · left
        simp only [St.runFrame]; split
        · rw [err1_dc]; exact h
        · exact h
      · have hk := pop_rest h hs
        simp only [St.runFrame]; rw [if_pos h.alive]
        refine .inr ?_
        unfold St.err1
        split
        · exact ⟨h.alive, h.pending, by simpa [St.push, St.say] using hk, fun h1 => by cases h1⟩
        · rename_i hn
          have hn : x.s.readCb = none := hn
          have e : ∀ s : St, s.readCb = none → s.alive = true → s.destroyPending = false → s.stack = k →
              Flow { x with s := s.push [.err2 ex c false] } := by
            intro s e1 e2 e3 e4
            refine ⟨e2, e3, ?_, fun h1 => ?_⟩
            · simpa [St.push, e4] using hk
            · simp only [St.push, e1] at h1
              cases h1
          split
          · exact e _ hn h.alive h.pending rfl
          · exact e _ hn h.alive h.pending rfl
    | err2 ex c d => simp only [St.runFrame]; split
                     · exact (err2_plain _ _ _ _).flows (hp (by simp) (by simp))
                     · exact hcr (by simp) (by simp)
    | err3 c d => simp only [St.runFrame]; split
                  · exact (err3_plain _ _ _).flows (hp (by simp) (by simp))
                  · exact hcr (by simp) (by simp)
    | err4 d => simp only [St.runFrame]; split
                · exact (err4_plain _ _).flows (hp (by simp) (by simp))
                · exact hcr (by simp) (by simp)
    | start r => exact (start_plain _ _).flows (hp (by simp) (by simp))
    | errReq r ex => exact (errReq_plain _ _ _).flows (hp (by simp) (by simp))
    | succ r => exact (succ_plain _ _).flows (hp (by simp) (by simp))
    | succ2 n => simp only [St.runFrame]; split
                 · exact (succ2_plain _ _).flows (hp (by simp) (by simp))
                 · exact hcr (by simp) (by simp)
    | unguard =>
      have hq := hp (by simp) (by simp)
      simp only [St.runFrame]; split
      · unfold St.unguard
        split
        · rename_i h1
          rcases h with h | h
          · exact .inl ((dtor_dc _).trans h)
          · rw [Bool.and_eq_true] at h1
            rw [show x.s.destroyPending = false from h.pending] at h1
            cases h1.1
        · exact hq
      · exact hcr (by simp) (by simp)
    | destroy2 =>
      rcases h with h | h
      · left
        simp only [St.runFrame]; split
        · unfold St.destroy2
          dsimp only
          split
          · exact (dtor_dc _).trans h
          · exact h
        · exact h
      · exact absurd (by rw [hs]; exact List.mem_cons_self) h.frames
    | inBuf _ _ => exact hp (by simp) (by simp)
    | inRead => exact hp (by simp) (by simp)
    | out => exact hp (by simp) (by simp)

theorem Flows.step {x : Sys} (h : Flows x) {o : POp} (ha : x.allowed o) : Flows (x.step o) := by
  have hm : ∀ m, Flows ⟨x.s, m, x.detached⟩ := fun m => h.imp id fun h => ⟨h.alive, h.pending, h.frames, h.on⟩
  cases o with
  | got n => exact view_flows (hm true) ⟨rfl, rfl, rfl, rfl, rfl⟩ fun _ h => h
  | done => exact check_flows (hm false)
  | zeroCopy n => exact view_flows (s := x.s) h ⟨rfl, rfl, rfl, rfl, rfl⟩ fun _ h => h
  | take c d =>
    cases d with
    | none => exact view_flows (s := x.s) h ⟨rfl, rfl, rfl, rfl, rfl⟩ fun _ h => h
    | some d => exact push_flows (s := x.s) h [.deliver (some d), .unguard] (by simp) ⟨rfl, rfl, rfl, rfl, rfl⟩ fun _ h => h
  | wait => exact view_flows (s := x.s) h ⟨rfl, rfl, rfl, rfl, rfl⟩ fun _ _ => rfl
  | attach =>
    rcases h with h | h
    · left
      show St.destroyCalled (if x.s.good || x.s.readCb.isSome then { x.s with reads := true } else x.s) = true
      split <;> exact h
    · right
      simp only [Sys.step]
      split
      · exact ⟨h.alive, h.pending, h.frames, fun _ => .inr (.inl rfl)⟩
      · rename_i h1
        refine ⟨h.alive, h.pending, h.frames, fun h2 => ?_⟩
        simp only [Bool.or_eq_true, not_or] at h1
        exact absurd h2 h1.2
  | detach =>
    rcases h with h | h
    · exact .inl h
    · exact .inr ⟨h.alive, h.pending, h.frames, fun _ => .inl rfl⟩
  | good b => exact view_flows (s := x.s) h ⟨rfl, rfl, rfl, rfl, rfl⟩ fun _ h => h
  | other o =>
    show Flows { x with s := Async.step x.s o }
    cases o with
    | tau => exact tau_flows h
    | ret =>
      show Flows { x with s := match x.s.stack with
        | .inRead :: k => { x.s with stack := k }.say .gaveRet
        | .out :: k => { x.s with stack := k }
        | _ => x.s }
      split
      · rename_i k hk
        exact view_flows (pop_flows h hk (by simp) (by simp)) ⟨rfl, rfl, rfl, rfl, rfl⟩ fun _ h => h
      · rename_i k hk
        exact pop_flows h hk (by simp) (by simp)
      · exact h
    | retBuf r =>
      show Flows { x with s := match x.s.stack with
        | .inBuf c d :: k =>
          match (generalizing := false) r with
          | .threw ex => (St.say { x.s with stack := k } (.bufFail c ex)).callError ex true
          | .bad => (St.say { x.s with stack := k } (.bufFail c badArgs)).callError badArgs true
          | .room n => (St.say { x.s with stack := k } (.gave c (d.take (n + 1)))).push
              [.inRead, .loop (if d.drop (n + 1) = [] then none else some (d.drop (n + 1)))]
        | _ => x.s }
      split
      · rename_i c d k hk
        have hq := pop_flows h hk (by simp) (by simp)
        cases r with
        | threw ex => exact push_flows hq [.err1 ex true, .unguard] (by simp) ⟨rfl, rfl, rfl, rfl, rfl⟩ fun _ h => h
        | bad => exact push_flows hq [.err1 badArgs true, .unguard] (by simp) ⟨rfl, rfl, rfl, rfl, rfl⟩ fun _ h => h
        | room n => exact push_flows hq [.inRead, .loop _] (by simp) ⟨rfl, rfl, rfl, rfl, rfl⟩ fun _ h => h
      · exact h
    | writeChain d f cb a b c e => exact (writeChain_plain _ _ _ _ _ _ _ _).flows h
    | setReadCB c =>
      rcases h with h | h
      · left
        simp only [Async.step, St.setReadCB]
        split
        · split <;> exact h
        · exact h
      · right
        cases c with
        | none =>
          refine ⟨h.alive, h.pending, h.frames, fun h1 => ?_⟩
          cases h1
        | some c =>
          simp only [Async.step, St.setReadCB, Option.isSome_some, if_true]
          have hf : Frame.destroy2 ∉ x.s.stack := h.frames
          split
          · exact ⟨h.alive, h.pending, by simpa [St.push, St.say] using hf,
              fun _ => .inr (.inr (.inl (by simp [St.push, St.say])))⟩
          · exact ⟨h.alive, h.pending, by simpa [St.push, St.say] using hf,
              fun _ => .inr (.inr (.inl (by simp [St.push, St.say])))⟩
    | preReceived d => exact view_flows (s := x.s) h ⟨rfl, rfl, rfl, rfl, rfl⟩ fun _ h => h
    | destroy => exact .inl rfl
    | setNoPartial b => exact view_flows (s := x.s) h ⟨rfl, rfl, rfl, rfl, rfl⟩ fun _ h => h
    | setSecretCb _ => exact view_flows (s := x.s) h ⟨rfl, rfl, rfl, rfl, rfl⟩ fun _ h => h
    | arrive d => exact absurd ha.2 (by simp)
    | error ex close =>
      exact push_flows (s := x.s) h [.err1 ex close, .unguard] (by simp) ⟨rfl, rfl, rfl, rfl, rfl⟩ fun _ h => h
    | compOk r => exact push_flows (s := x.s) h [.succ r] (by simp) ⟨rfl, rfl, rfl, rfl, rfl⟩ fun _ h => h
    | compErr r ex => exact push_flows (s := x.s) h [.errReq (some r) ex] (by simp) ⟨rfl, rfl, rfl, rfl, rfl⟩ fun _ h => h
    | transport a b => exact absurd ha.2 (by simp)
    | transportRead => exact absurd ha.2 (by simp)

/-- **Resumed.**  Back-pressure never outlives its cause: once all calls have returned, an object that has a read callback, is
attached to its event base and was not destroyed is reading from its transport - whatever happened before. -/
theorem C97_reading {x : Sys} {ops : List POp} (h : Sys.Run {} ops x) (hcb : x.s.readCb ≠ none) (hst : x.s.stack = [])
    (hd : x.s.destroyCalled = false) (ha : x.detached = false) : x.s.reads = true := by
  have key : ∀ {x y : Sys} {ops}, Sys.Run x ops y → Flows x → Flows y := by
    intro x y ops h
    induction h with
    | nil x => exact id
    | cons ha _ ih => exact fun hx => ih (hx.step ha)
  rcases key h (.inr ⟨rfl, rfl, by simp, fun h => by cases h⟩) with h1 | h1
  · rw [hd] at h1; cases h1
  · rcases h1.on (by cases h : x.s.readCb with
      | none => exact absurd h hcb
      | some c => rfl) with h2 | h2 | h2 | ⟨_, _, h2⟩
    · rw [ha] at h2; cases h2
    · exact h2
    · rw [hst] at h2; cases h2
    · rw [hst] at h2; cases h2

/-! ## Where the bound does not hold -/

/-- **Finding.**  With zero-copy reading there is no bound: while the derived class is suspended, every read is accepted. -/
theorem C97_zeroCopy_unbounded (N : Nat) : ∃ ops y, Sys.Run {} (.wait :: ops) y ∧ y.s.readCb = none ∧ y.s.reads = true ∧
    N ≤ buffered y.s ∧ ∀ o ∈ ops, o = .zeroCopy 16384 := by
  have key : ∀ n (s : St), s.reads = true → s.alive = true → s.stack = [] → s.readCb = none →
      ∃ y : Sys, Sys.Run ⟨s, false, false⟩ (List.replicate n (.zeroCopy 16384)) y ∧ y.s.readCb = none ∧ y.s.reads = true ∧
        s.tbuf + n ≤ y.s.tbuf := by
    intro n
    induction n with
    | zero => exact fun s h1 _ _ h2 => ⟨_, .nil _, h2, h1, by simp⟩
    | succ n ih =>
      intro s h1 h2 h3 h4
      obtain ⟨y, hy, h5, h6, h7⟩ := ih { s with tbuf := s.tbuf + 16384 } h1 h2 h3 h4
      refine ⟨y, .cons ⟨h1, h2, h3, rfl⟩ hy, h5, h6, ?_⟩
      dsimp only at h7
      omega
  obtain ⟨y, hy, h1, h2, h3⟩ := key N { reads := true } rfl rfl rfl rfl
  refine ⟨_, y, .cons ⟨rfl, rfl⟩ hy, h1, h2, ?_, fun o ho => (List.mem_replicate.1 ho).2⟩
  unfold buffered
  simp only at h3
  omega

/-- **Finding.**  Nor is there a bound on the undecrypted bytes once a read callback is installed: while the derived class is
suspended the callback gets nothing, but reading goes on. -/
theorem C97_installed_unbounded (N : Nat) : ∃ ops y, Sys.Run {} ops y ∧ y.s.readCb ≠ none ∧ y.s.reads = true ∧
    N ≤ y.s.tbuf ∧ ∀ n, .got n ∈ ops → n ≤ 16384 := by
  have key : ∀ n (s : St), s.reads = true → s.alive = true → s.stack = [] → s.readCb.isSome = true →
      ∃ ops, ∃ y : Sys, Sys.Run ⟨s, false, false⟩ ops y ∧ y.s.readCb ≠ none ∧ y.s.reads = true ∧
        s.tbuf + n ≤ y.s.tbuf ∧ ∀ n, .got n ∈ ops → n ≤ 16384 := by
    intro n
    induction n with
    | zero =>
      refine fun s h1 _ _ h2 => ⟨[], _, .nil _, ?_, h1, by simp, by simp⟩
      intro h; rw [show s.readCb = none from h] at h2; cases h2
    | succ n ih =>
      intro s h1 h2 h3 h4
      have he : St.checkBufLen { s with tbuf := s.tbuf + 16384 } = { s with tbuf := s.tbuf + 16384 } := by
        unfold St.checkBufLen
        rw [if_neg]
        cases hc : s.readCb with
        | none => rw [hc] at h4; cases h4
        | some c => simp
      obtain ⟨ops, y, hy, h5, h6, h7, h8⟩ := ih { s with tbuf := s.tbuf + 16384 } h1 h2 h3 h4
      refine ⟨.got 16384 :: .done :: ops, y, .cons ⟨h1, h2, h3, rfl⟩ (.cons ⟨rfl, h2, h3⟩ ?_), h5, h6, ?_, ?_⟩
      · show Sys.Run ⟨St.checkBufLen { s with tbuf := s.tbuf + 16384 }, false, false⟩ _ _
        rw [he]; exact hy
      · dsimp only at h7
        omega
      · intro m hm
        simp only [List.mem_cons, POp.got.injEq, reduceCtorEq, false_or] at hm
        rcases hm with rfl | hm
        · omega
        · exact h8 m hm
  obtain ⟨ops, y, hy, h1, h2, h3, h4⟩ := key N
    { reads := true, readCb := some ⟨0, true⟩, log := [.install (some ⟨0, true⟩)] } rfl rfl rfl rfl
  refine ⟨.other (.setReadCB (some ⟨0, true⟩)) :: .other .tau :: .other .ret :: ops, y,
    .cons ⟨rfl, trivial⟩ (.cons ⟨rfl, trivial⟩ (.cons ⟨rfl, trivial⟩ hy)), h1, h2, by simpa using h3, ?_⟩
  intro n hn
  simp only [List.mem_cons, reduceCtorEq, false_or] at hn
  exact h4 n hn

/-! ## A case -/

/-- The derived class is suspended in the handshake; after two reads 70 000 bytes wait, and reading stops. -/
def story : List POp := [.wait, .got 40000, .done, .got 30000, .done]

/-- The derived class resumes and takes everything; then a read callback is installed. -/
def resumed : List POp := [.take 70000 none, .other (.setReadCB (some ⟨7, true⟩)), .other .tau, .other .ret]

example : ∃ y z, Sys.Run {} story y ∧ y.s.readCb = none ∧ y.s.stack = [] ∧ y.s.reads = false ∧ buffered y.s = 70000 ∧
    (∀ o ∈ story, Unread 40000 o) ∧ Sys.lateCount {} story = 0 ∧
    Sys.Run y resumed z ∧ z.s.readCb = some ⟨7, true⟩ ∧ z.s.stack = [] ∧ z.s.reads = true := by
  refine ⟨_, _, .cons ⟨rfl, rfl⟩ (.cons ⟨rfl, rfl, rfl, rfl⟩ (.cons ⟨rfl, rfl, rfl⟩ (.cons ⟨rfl, rfl, rfl, rfl⟩
    (.cons ⟨rfl, rfl, rfl⟩ (.nil _))))), rfl, rfl, rfl, rfl, ?_, rfl,
    .cons ⟨by decide, by decide, rfl⟩ (.cons ⟨rfl, trivial⟩ (.cons ⟨rfl, trivial⟩ (.cons ⟨rfl, trivial⟩ (.nil _)))),
    rfl, rfl, rfl⟩
  simp [story, Unread]

end Fizz.Async

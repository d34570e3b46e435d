import Verif.Conn.Spec
import Mathlib.Data.List.Induction

/-!
# C24, C25: the connection driver
-/

namespace Fizz.Conn
open Spec
variable {M : Machine}

/-! ## How each view of a history grows -/

section grow
variable {A : Type} (L : List (Entry A)) (e : Entry A)

@[simp] theorem submitted_snoc : submitted (L ++ [e]) = submitted L ++ submitted [e] := by
  simp [submitted]
@[simp] theorem handed_snoc : handed (L ++ [e]) = handed L ++ handed [e] := by simp [handed]
@[simp] theorem dropped_snoc : dropped (L ++ [e]) = dropped L ++ dropped [e] := by simp [dropped]
@[simp] theorem failed_snoc : failedTokens (L ++ [e]) = failedTokens L ++ failedTokens [e] := by
  simp [failedTokens]
@[simp] theorem visited_snoc : visited (L ++ [e]) = visited L ++ visited [e] := by simp [visited]
theorem paused_snoc : paused (L ++ [e]) =
    (match e with | .pause => true | .resume => false | _ => paused L) := by
  simp [paused, List.foldl_append]; rfl
theorem data_snoc : dataAvailable (L ++ [e]) =
    (match e with | .data => true | .wait => false | _ => dataAvailable L) := by
  simp [dataAvailable, List.foldl_append]; rfl
theorem errored_snoc : errored (L ++ [e]) = (match e with | .moveErr => true | _ => errored L) := by
  simp [errored, List.foldl_append]; rfl
theorem busy_snoc : busy (L ++ [e]) =
    (match e with | .start _ => true | .done => false | _ => busy L) := by
  simp [busy, List.foldl_append]; rfl
theorem blocks_snoc : blocks (L ++ [e]) =
    (match e with
      | .start t => (t, []) :: blocks L
      | .act a => addAct a (blocks L)
      | _ => blocks L) := by
  simp [blocks, List.foldl_append]; rfl

end grow

theorem stateAfter_snoc (s0 : M.S) (L : List (Entry M.A)) (e : Entry M.A) :
    stateAfter M s0 (L ++ [e]) =
      (match e with | .act a => M.apply a (stateAfter M s0 L) | _ => stateAfter M s0 L) := by
  cases e <;> simp [stateAfter, visited]

/-! ## The invariant -/

/-- The conditions under which the state machine may be run after history `P`. -/
structure StartOk (M : Machine) (s0 : M.S) (P : List (Entry M.A)) (t : Trig) : Prop where
  idle : busy P = false
  live : t = .sock ∨ (∃ e, t = .app e) →
    paused P = false ∧ errored P = false ∧ M.terminal (stateAfter M s0 P) = false
  app : (∃ e, t = .app e) → dataAvailable P = false
  sock : t = .sock → dataAvailable P = true

structure Inv (s0 : M.S) (c : C M) : Prop where
  fifo : submitted c.log = handed c.log ++ dropped c.log ++ c.queue
  noDrop : errored c.log = false → dropped c.log = []
  failed : failedTokens c.log = (dropped c.log).filterMap AppEv.token
  paused : c.paused = paused c.log
  wait : c.wait = !dataAvailable c.log
  err : c.extErr = errored c.log
  st : c.st = stateAfter M s0 c.log
  starts : ∀ P t Q, c.log = P ++ .start t :: Q → StartOk M s0 P t
  guard : c.guard = busy c.log
  flat : visited c.log = (blocks c.log).reverse.flatMap Prod.snd

theorem flat_snoc {A : Type} {L : List (Entry A)} {e : Entry A}
    (h : visited L = (blocks L).reverse.flatMap Prod.snd) (ha : (∀ a, e ≠ .act a) ∨ blocks L ≠ []) :
    visited (L ++ [e]) = (blocks (L ++ [e])).reverse.flatMap Prod.snd := by
  rw [visited_snoc, blocks_snoc, h]
  cases e <;> simp [visited]
  rename_i a
  rcases ha with ha | ha
  · exact absurd rfl (ha a)
  · cases hb : blocks L with
    | nil => exact absurd hb ha
    | cons b bs => obtain ⟨t, as⟩ := b; simp [addAct]

/-- What the machine may answer. -/
def Proc (E : Env M) (s : M.S) (t : Trig) (o : Outcome M.A) : Prop := ∃ L, o = E.proc L s t

/-- In the middle of an event: `rem` are the actions still to be visited. -/
def Mid (E : Env M) (s0 : M.S) (c : C M) (rem : List M.A) : Prop :=
  ∃ t as bs s o, blocks c.log = (t, as) :: bs ∧ Exec M (Proc E) s0 bs s ∧
    (t = .sock ∨ (∃ e, t = .app e) → M.terminal s = false) ∧ Proc E s t o ∧
    c.st = as.foldl (fun s a => M.apply a s) s ∧ as ++ rem = o.acts

structure Ok (E : Env M) (s0 : M.S) (c : C M) : Prop where
  inv : Inv s0 c
  idle : c.guard = false → Exec M (Proc E) s0 (blocks c.log) c.st ∧ c.pending = none
  mid : c.guard = true → ∃ rem, Mid E s0 c rem ∧ ∀ p, c.pending = some p → p = rem

/-- Nothing is waiting to be done. -/
def Settled (c : C M) : Prop :=
  c.guard = true ∨ c.terminal = true ∨ c.paused = true ∨ (c.wait = true ∧ c.queue = [])

structure Frame (c c' : C M) : Prop where
  guard : c'.guard = c.guard
  st : c'.st = c.st
  blocks : blocks c'.log = blocks c.log
  pending : c'.pending = c.pending
  busy : busy c'.log = busy c.log
  handed : handed c'.log = handed c.log

structure Post (E : Env M) (s0 : M.S) (c c' : C M) : Prop where
  ok : Ok E s0 c'
  frame : c.guard = true → Frame c c'
  inProc : c'.inProc = c.inProc
  ext : c.extErr = true → c'.extErr = true
  log : c.log <+: c'.log
  settled : c.inProc = false → Settled c → Settled c'

theorem Frame.rfl (c : C M) : Frame c c := ⟨_root_.rfl, _root_.rfl, _root_.rfl, _root_.rfl, _root_.rfl, _root_.rfl⟩

theorem Frame.trans {a b c : C M} (h : Frame a b) (k : Frame b c) : Frame a c :=
  ⟨k.guard.trans h.guard, k.st.trans h.st, k.blocks.trans h.blocks, k.pending.trans h.pending,
    k.busy.trans h.busy, k.handed.trans h.handed⟩

theorem Post.rfl {E : Env M} {s0 : M.S} {c : C M} (h : Ok E s0 c) : Post E s0 c c :=
  ⟨h, fun _ => Frame.rfl c, _root_.rfl, fun h => h, List.prefix_refl _, fun _ h => h⟩

theorem Post.trans {E : Env M} {s0 : M.S} {a b c : C M} (h : Post E s0 a b) (k : Post E s0 b c) :
    Post E s0 a c where
  ok := k.ok
  frame g := (h.frame g).trans (k.frame ((h.frame g).guard.trans g))
  inProc := k.inProc.trans h.inProc
  ext g := k.ext (h.ext g)
  log := h.log.trans k.log
  settled i s := k.settled (h.inProc.trans i) (h.settled i s)

theorem starts_snoc {s0 : M.S} {L : List (Entry M.A)} {e : Entry M.A}
    (h : ∀ P t Q, L = P ++ .start t :: Q → StartOk M s0 P t)
    (he : ∀ t, e = .start t → StartOk M s0 L t) :
    ∀ P t Q, L ++ [e] = P ++ .start t :: Q → StartOk M s0 P t := by
  intro P t Q hs
  rcases List.eq_nil_or_concat Q with rfl | ⟨Q', x, rfl⟩
  · have := List.append_inj' hs (by simp)
    obtain ⟨rfl, h2⟩ := this
    simp at h2
    exact he t h2
  · have h2 : L ++ [e] = (P ++ .start t :: Q') ++ [x] := by simpa using hs
    have := List.append_inj' h2 (by simp)
    exact h P t Q' this.1

/-- A step that neither runs the machine nor visits an action keeps everything about executions. -/
theorem Ok.note {E : Env M} {s0 : M.S} {c c' : C M} (h : Ok E s0 c) (inv : Inv s0 c')
    (f : Frame c c') : Ok E s0 c' where
  inv := inv
  idle g := by
    have := h.idle (f.guard ▸ g)
    rw [f.blocks, f.st, f.pending]; exact this
  mid g := by
    obtain ⟨rem, ⟨t, as, bs, s, o, h1, h2, h3, h4, h5, h6⟩, hp⟩ := h.mid (f.guard ▸ g)
    exact ⟨rem, ⟨t, as, bs, s, o, f.blocks.trans h1, h2, h3, h4, f.st.trans h5, h6⟩,
      by rw [f.pending]; exact hp⟩

/-- The part of `Post` that also holds of a step that may start an event. -/
structure Post0 (E : Env M) (s0 : M.S) (c c' : C M) : Prop where
  ok : Ok E s0 c'
  inProc : c'.inProc = c.inProc
  ext : c.extErr = true → c'.extErr = true
  log : c.log <+: c'.log
  settled : c.inProc = false → Settled c'

theorem Post0.toPost {E : Env M} {s0 : M.S} {c c' : C M} (h : Post0 E s0 c c')
    (g : c.guard = false) : Post E s0 c c' :=
  ⟨h.ok, fun g' => by simp [g] at g', h.inProc, h.ext, h.log, fun i _ => h.settled i⟩

/-- What `start` needs: after recording the start, the invariant holds and the block is open. -/
structure Pre (E : Env M) (s0 : M.S) (t : Trig) (c : C M) : Prop where
  inv : Inv s0 (c.note (.start t))
  mid : Mid E s0 (c.note (.start t)) (E.proc (c.log ++ [.start t]) c.st t).acts
  guard : c.guard = true
  pending : c.pending = none

theorem Pre.of {E : Env M} {s0 : M.S} {t : Trig} {c c1 : C M} (h : Ok E s0 c) (g : c.guard = false)
    (hs : StartOk M s0 c.log t)
    (hq : submitted c.log = handed (c.log ++ [.start t]) ++ dropped c.log ++ c1.queue)
    (h1 : c1.log = c.log) (h2 : c1.st = c.st) (h3 : c1.guard = true) (h4 : c1.pending = c.pending)
    (h5 : c1.paused = c.paused) (h6 : c1.wait = c.wait) (h7 : c1.extErr = c.extErr) :
    Pre E s0 t c1 := by
  obtain ⟨hx, hp⟩ := h.idle g
  have i := h.inv
  refine ⟨?_, ?_, h3, h4.trans hp⟩
  · constructor
    · show submitted (c1.log ++ [.start t]) = _
      rw [h1, submitted_snoc, hq]
      simp [submitted, dropped, C.note, h1]
    · show errored (c1.log ++ [.start t]) = false → dropped (c1.log ++ [.start t]) = []
      rw [h1, errored_snoc, dropped_snoc]
      simpa [dropped] using i.noDrop
    · show failedTokens (c1.log ++ [.start t]) =
        (dropped (c1.log ++ [.start t])).filterMap AppEv.token
      rw [h1, dropped_snoc, failed_snoc]
      simpa [dropped, failedTokens] using i.failed
    · show c1.paused = paused (c1.log ++ [.start t])
      rw [h1, paused_snoc, h5]; exact i.paused
    · show c1.wait = !dataAvailable (c1.log ++ [.start t])
      rw [h1, data_snoc, h6]; exact i.wait
    · show c1.extErr = errored (c1.log ++ [.start t])
      rw [h1, errored_snoc, h7]; exact i.err
    · show c1.st = stateAfter M s0 (c1.log ++ [.start t])
      rw [h1, stateAfter_snoc, h2]; exact i.st
    · show ∀ P t' Q, c1.log ++ [.start t] = _ → _
      rw [h1]
      exact starts_snoc i.starts (by rintro t' h'; cases h'; exact hs)
    · show c1.guard = busy (c1.log ++ [.start t])
      rw [h1, busy_snoc]; exact h3
    · show visited (c1.log ++ [.start t]) = (blocks (c1.log ++ [.start t])).reverse.flatMap Prod.snd
      rw [h1]; exact flat_snoc i.flat (.inl (by simp))
  · refine ⟨t, [], blocks c.log, c.st, E.proc (c1.log ++ [.start t]) c1.st t, ?_, hx, ?_, ?_, ?_, ?_⟩
    · show blocks (c1.log ++ [.start t]) = _
      rw [blocks_snoc, h1]
    · intro ht; rw [i.st]; exact (hs.live ht).2.2
    · exact ⟨_, by rw [h2]⟩
    · show c1.st = _
      rw [h2]; rfl
    · rfl

/-- Recording a flag change keeps the invariant. -/
theorem Inv.flag {s0 : M.S} {c c' : C M} (i : Inv s0 c) (e : Entry M.A) (hl : c'.log = c.log ++ [e])
    (hs : submitted (c.log ++ [e]) = handed (c.log ++ [e]) ++ dropped (c.log ++ [e]) ++ c'.queue)
    (hd : errored (c.log ++ [e]) = false → dropped (c.log ++ [e]) = [])
    (hf : failedTokens (c.log ++ [e]) = (dropped (c.log ++ [e])).filterMap AppEv.token)
    (hp : c'.paused = Spec.paused (c.log ++ [e])) (hw : c'.wait = !dataAvailable (c.log ++ [e]))
    (he : c'.extErr = errored (c.log ++ [e])) (ht : c'.st = stateAfter M s0 (c.log ++ [e]))
    (hst : ∀ t, e ≠ .start t) (hg : c'.guard = busy (c.log ++ [e]))
    (ha : (∀ a, e ≠ .act a) ∨ blocks c.log ≠ [] := by exact Or.inl (by simp)) : Inv s0 c' where
  fifo := by rw [hl]; exact hs
  noDrop := by rw [hl]; exact hd
  failed := by rw [hl]; exact hf
  paused := by rw [hl]; exact hp
  wait := by rw [hl]; exact hw
  err := by rw [hl]; exact he
  st := by rw [hl]; exact ht
  starts := by
    rw [hl]; exact starts_snoc i.starts (fun t h => absurd h (hst t))
  guard := by rw [hl]; exact hg
  flat := by rw [hl]; exact flat_snoc i.flat ha

section flags
variable {E : Env M} {s0 : M.S} {c : C M}

theorem frame_of {c c' : C M} (e : Entry M.A) (hl : c'.log = c.log ++ [e]) (hg : c'.guard = c.guard)
    (hs : c'.st = c.st) (hp : c'.pending = c.pending) (h1 : ∀ t, e ≠ .start t)
    (h2 : ∀ a, e ≠ .act a) (h3 : e ≠ .done) : Frame c c' := by
  refine ⟨hg, hs, ?_, hp, ?_, ?_⟩
  · rw [hl, blocks_snoc]; cases e <;> simp_all
  · rw [hl, busy_snoc]; cases e <;> simp_all
  · rw [hl]; cases e <;> simp_all [handed]

theorem ok_submit (h : Ok E s0 c) (e : AppEv) :
    Ok E s0 { c with queue := c.queue ++ [e], log := c.log ++ [.submit e] } := by
  have f : Frame c { c with queue := c.queue ++ [e], log := c.log ++ [.submit e] } :=
    frame_of (.submit e) rfl rfl rfl rfl (by simp) (by simp) (by simp)
  obtain ⟨i1, i2, i3, i4, i5, i6, i7, i8, i9, i10⟩ := h.inv
  refine h.note (h.inv.flag (.submit e) rfl ?_ ?_ ?_ ?_ ?_ ?_ ?_ (by simp) ?_) f
  · rw [submitted_snoc, handed_snoc, dropped_snoc, i1]; simp [submitted, handed, dropped]
  · rw [errored_snoc, dropped_snoc]; simpa [dropped] using i2
  · rw [failed_snoc, dropped_snoc]; simpa [dropped, failedTokens] using i3
  · rw [paused_snoc]; exact i4
  · rw [data_snoc]; exact i5
  · rw [errored_snoc]; exact i6
  · rw [stateAfter_snoc]; exact i7
  · rw [busy_snoc]; exact i9

theorem ok_wait (h : Ok E s0 c) :
    Ok E s0 { c with wait := true, log := c.log ++ [.wait] } := by
  have f : Frame c { c with wait := true, log := c.log ++ [.wait] } :=
    frame_of .wait rfl rfl rfl rfl (by simp) (by simp) (by simp)
  obtain ⟨i1, i2, i3, i4, i5, i6, i7, i8, i9, i10⟩ := h.inv
  refine h.note (h.inv.flag .wait rfl ?_ ?_ ?_ ?_ ?_ ?_ ?_ (by simp) ?_) f
  · rw [submitted_snoc, handed_snoc, dropped_snoc, i1]; simp [submitted, handed, dropped]
  · rw [errored_snoc, dropped_snoc]; simpa [dropped] using i2
  · rw [failed_snoc, dropped_snoc]; simpa [dropped, failedTokens] using i3
  · rw [paused_snoc]; exact i4
  · rw [data_snoc]; rfl
  · rw [errored_snoc]; exact i6
  · rw [stateAfter_snoc]; exact i7
  · rw [busy_snoc]; exact i9

theorem ok_data (h : Ok E s0 c) :
    Ok E s0 { c with checkV2 := false, wait := false, log := c.log ++ [.data] } := by
  have f : Frame c { c with checkV2 := false, wait := false, log := c.log ++ [.data] } :=
    frame_of .data rfl rfl rfl rfl (by simp) (by simp) (by simp)
  obtain ⟨i1, i2, i3, i4, i5, i6, i7, i8, i9, i10⟩ := h.inv
  refine h.note (h.inv.flag .data rfl ?_ ?_ ?_ ?_ ?_ ?_ ?_ (by simp) ?_) f
  · rw [submitted_snoc, handed_snoc, dropped_snoc, i1]; simp [submitted, handed, dropped]
  · rw [errored_snoc, dropped_snoc]; simpa [dropped] using i2
  · rw [failed_snoc, dropped_snoc]; simpa [dropped, failedTokens] using i3
  · rw [paused_snoc]; exact i4
  · rw [data_snoc]; rfl
  · rw [errored_snoc]; exact i6
  · rw [stateAfter_snoc]; exact i7
  · rw [busy_snoc]; exact i9

theorem ok_pause (h : Ok E s0 c) :
    Ok E s0 { c with paused := true, log := c.log ++ [.pause] } := by
  have f : Frame c { c with paused := true, log := c.log ++ [.pause] } :=
    frame_of .pause rfl rfl rfl rfl (by simp) (by simp) (by simp)
  obtain ⟨i1, i2, i3, i4, i5, i6, i7, i8, i9, i10⟩ := h.inv
  refine h.note (h.inv.flag .pause rfl ?_ ?_ ?_ ?_ ?_ ?_ ?_ (by simp) ?_) f
  · rw [submitted_snoc, handed_snoc, dropped_snoc, i1]; simp [submitted, handed, dropped]
  · rw [errored_snoc, dropped_snoc]; simpa [dropped] using i2
  · rw [failed_snoc, dropped_snoc]; simpa [dropped, failedTokens] using i3
  · rw [paused_snoc]
  · rw [data_snoc]; exact i5
  · rw [errored_snoc]; exact i6
  · rw [stateAfter_snoc]; exact i7
  · rw [busy_snoc]; exact i9

theorem ok_resume (h : Ok E s0 c) :
    Ok E s0 { c with paused := false, log := c.log ++ [.resume] } := by
  have f : Frame c { c with paused := false, log := c.log ++ [.resume] } :=
    frame_of .resume rfl rfl rfl rfl (by simp) (by simp) (by simp)
  obtain ⟨i1, i2, i3, i4, i5, i6, i7, i8, i9, i10⟩ := h.inv
  refine h.note (h.inv.flag .resume rfl ?_ ?_ ?_ ?_ ?_ ?_ ?_ (by simp) ?_) f
  · rw [submitted_snoc, handed_snoc, dropped_snoc, i1]; simp [submitted, handed, dropped]
  · rw [errored_snoc, dropped_snoc]; simpa [dropped] using i2
  · rw [failed_snoc, dropped_snoc]; simpa [dropped, failedTokens] using i3
  · rw [paused_snoc]
  · rw [data_snoc]; exact i5
  · rw [errored_snoc]; exact i6
  · rw [stateAfter_snoc]; exact i7
  · rw [busy_snoc]; exact i9

theorem ok_moveErr (h : Ok E s0 c) :
    Ok E s0 { c with extErr := true, log := c.log ++ [.moveErr] } := by
  have f : Frame c { c with extErr := true, log := c.log ++ [.moveErr] } :=
    frame_of .moveErr rfl rfl rfl rfl (by simp) (by simp) (by simp)
  obtain ⟨i1, i2, i3, i4, i5, i6, i7, i8, i9, i10⟩ := h.inv
  refine h.note (h.inv.flag .moveErr rfl ?_ ?_ ?_ ?_ ?_ ?_ ?_ (by simp) ?_) f
  · rw [submitted_snoc, handed_snoc, dropped_snoc, i1]; simp [submitted, handed, dropped]
  · rw [errored_snoc]; simp
  · rw [failed_snoc, dropped_snoc]; simpa [dropped, failedTokens] using i3
  · rw [paused_snoc]; exact i4
  · rw [data_snoc]; exact i5
  · rw [errored_snoc]
  · rw [stateAfter_snoc]; exact i7
  · rw [busy_snoc]; exact i9

theorem ok_drop (h : Ok E s0 c) (he : c.extErr = true) {e : AppEv} {q : List AppEv}
    (hq : c.queue = e :: q) (ht : e.token = none) :
    Ok E s0 { c with queue := q, log := c.log ++ [.drop e] } := by
  have f : Frame c { c with queue := q, log := c.log ++ [.drop e] } :=
    frame_of (.drop e) rfl rfl rfl rfl (by simp) (by simp) (by simp)
  obtain ⟨i1, i2, i3, i4, i5, i6, i7, i8, i9, i10⟩ := h.inv
  refine h.note (h.inv.flag (.drop e) rfl ?_ ?_ ?_ ?_ ?_ ?_ ?_ (by simp) ?_) f
  · rw [submitted_snoc, handed_snoc, dropped_snoc, i1, hq]; simp [submitted, handed, dropped]
  · rw [errored_snoc]; intro hh; rw [i6] at he; simp only [he] at hh; cases hh
  · rw [failed_snoc, dropped_snoc]
    simp only [dropped, failedTokens] at i3 ⊢
    simp [i3, ht]
  · rw [paused_snoc]; exact i4
  · rw [data_snoc]; exact i5
  · rw [errored_snoc]; exact i6
  · rw [stateAfter_snoc]; exact i7
  · rw [busy_snoc]; exact i9

theorem frame_drop_failed {e : AppEv} {q : List AppEv} {t : Nat} :
    Frame c { c with queue := q, log := c.log ++ [.drop e, .failed t] } := by
  have f1 : Frame c { c with queue := q, log := c.log ++ [.drop e] } :=
    frame_of (.drop e) rfl rfl rfl rfl (by simp) (by simp) (by simp)
  refine f1.trans (frame_of (.failed t) ?_ rfl rfl rfl (by simp) (by simp) (by simp))
  simp

theorem ok_drop_failed (h : Ok E s0 c) (he : c.extErr = true) {e : AppEv} {q : List AppEv} {t : Nat}
    (hq : c.queue = e :: q) (ht : e.token = some t) :
    Ok E s0 { c with queue := q, log := c.log ++ [.drop e, .failed t] } := by
  obtain ⟨i1, i2, i3, i4, i5, i6, i7, i8, i9, i10⟩ := h.inv
  have hl : c.log ++ [.drop e, .failed t] = (c.log ++ [.drop e]) ++ [.failed t] := by simp
  refine h.note ⟨?_, ?_, ?_, ?_, ?_, ?_, ?_, ?_, ?_, ?_⟩ frame_drop_failed
  · simp only [hl, submitted_snoc, handed_snoc, dropped_snoc, i1, hq]
    simp [submitted, handed, dropped]
  · simp only [hl, errored_snoc]; intro hh; rw [i6] at he; simp only [he] at hh; cases hh
  · simp only [hl, failed_snoc, dropped_snoc]
    simp only [dropped, failedTokens] at i3 ⊢
    simp [i3, ht]
  · simp only [hl, paused_snoc]; exact i4
  · simp only [hl, data_snoc]; exact i5
  · simp only [hl, errored_snoc]; exact i6
  · simp only [hl, stateAfter_snoc]; exact i7
  · simp only [hl]
    exact starts_snoc (starts_snoc i8 (by simp)) (by simp)
  · simp only [hl, busy_snoc]; exact i9
  · simp only [hl]
    exact flat_snoc (flat_snoc i10 (.inl (by simp))) (.inl (by simp))

theorem settled_ext {c : C M} (h : c.extErr = true) : Settled c := by
  right; left; simp [C.terminal, h]

end flags

/-! ## Every function keeps the invariant -/

/-- What visiting needs and keeps. -/
structure Vis (E : Env M) (s0 : M.S) (c : C M) (rem : List M.A) : Prop where
  inv : Inv s0 c
  guard : c.guard = true
  mid : Mid E s0 c rem
  pending : c.pending = none

theorem Vis.ok {E : Env M} {s0 : M.S} {c : C M} {rem} (h : Vis E s0 c rem) : Ok E s0 c :=
  ⟨h.inv, fun g => by simp [h.guard] at g, fun _ => ⟨rem, h.mid, by simp [h.pending]⟩⟩

theorem Vis.frame {E : Env M} {s0 : M.S} {c c' : C M} {rem} (h : Vis E s0 c rem)
    (k : Post E s0 c c') : Vis E s0 c' rem := by
  have f := k.frame h.guard
  obtain ⟨t, as, bs, s, o, h1, h2, h3, h4, h5, h6⟩ := h.mid
  exact ⟨k.ok.inv, f.guard.trans h.guard,
    ⟨t, as, bs, s, o, f.blocks.trans h1, h2, h3, h4, f.st.trans h5, h6⟩, f.pending.trans h.pending⟩

/-- Induction hypothesis: the claims about every function at fuel `n`. -/
structure IH (E : Env M) (s0 : M.S) (n : Nat) : Prop where
  call : ∀ k c c', Ok E s0 c → call E n k c = some c' → Post E s0 c c'
  calls : ∀ ks c c', Ok E s0 c → calls E n ks c = some c' → Post E s0 c c'
  drain : ∀ c c', Ok E s0 c → c.extErr = true → drain E n c = some c' →
    Post E s0 c c' ∧ c'.queue = []
  pp : ∀ c c', Ok E s0 c → processPending E n c = some c' →
    Post E s0 c c' ∧ (c.inProc = false → Settled c')
  loop : ∀ c c', Ok E s0 c → c.inProc = true → loop E n c = some c' → Post E s0 c c' ∧ Settled c'
  start : ∀ t c c', Pre E s0 t c → start E n t c = some c' → Post0 E s0 c c'
  pa : ∀ acts c c', Vis E s0 c acts → processActions E n acts c = some c' → Post0 E s0 c c'
  va : ∀ acts c c', Vis E s0 c acts → visitAll E n acts c = some c' →
    Vis E s0 c' [] ∧ c'.inProc = c.inProc ∧ (c.extErr = true → c'.extErr = true) ∧ c.log <+: c'.log

theorem ih_zero (E : Env M) (s0 : M.S) : IH E s0 0 := by
  constructor <;>
    (intros; simp_all [call, calls, drain, processPending, loop, start, processActions, visitAll])

/-- A recorded flag change followed by whatever `Post` says. -/
theorem post_of {E : Env M} {s0 : M.S} {c c1 c' : C M} (k : Post E s0 c1 c') (f : Frame c c1) (hi : c1.inProc = c.inProc)
    (hx : c.extErr = true → c1.extErr = true) (hl : c.log <+: c1.log)
    (hs : c.inProc = false → Settled c → Settled c') : Post E s0 c c' :=
  ⟨k.ok, fun g => f.trans (k.frame (f.guard.trans g)), k.inProc.trans hi, fun g => k.ext (hx g),
    hl.trans k.log, hs⟩

attribute [local irreducible] processPending drain loop start processActions visitAll call calls

theorem ih_call {E : Env M} {s0 : M.S} {n : Nat} (I : IH E s0 n) (k : Call) (c c' : C M)
    (h : Ok E s0 c) (hc : call E (n + 1) k c = some c') : Post E s0 c c' := by
  cases k with
  | submit e =>
    rw [call] at hc
    obtain ⟨p, s⟩ := I.pp _ _ (ok_submit h e) hc
    exact post_of p (frame_of (.submit e) rfl rfl rfl rfl (by simp) (by simp) (by simp)) rfl (fun g => g)
      (List.prefix_append _ _) (fun i _ => s i)
  | waitForData =>
    rw [call] at hc
    cases hc
    refine post_of (Post.rfl (ok_wait h)) (frame_of .wait rfl rfl rfl rfl (by simp) (by simp) (by simp)) rfl (fun g => g)
      (List.prefix_append _ _) (fun _ s => ?_)
    rcases s with g | g | g | ⟨-, g⟩
    · exact Or.inl g
    · exact Or.inr (Or.inl g)
    · exact Or.inr (Or.inr (Or.inl g))
    · exact Or.inr (Or.inr (Or.inr ⟨rfl, g⟩))
  | newTransportData =>
    rw [call] at hc
    split at hc
    · rename_i hg
      have hg : c.guard = false := by
        cases hh : c.guard <;> simp_all
      have pre : Pre E s0 .v2 { c with guard := true } := by
        refine Pre.of h hg ?_ ?_ rfl rfl rfl rfl rfl rfl rfl
        · exact ⟨by rw [← h.inv.guard]; exact hg, by simp, by simp, by simp⟩
        · rw [h.inv.fifo]; simp [handed]
      have := I.start _ _ _ pre hc
      exact Post0.toPost ⟨this.ok, this.inProc, this.ext, this.log, this.settled⟩ hg
    · obtain ⟨p, s⟩ := I.pp _ _ (ok_data h) hc
      exact post_of p (frame_of .data rfl rfl rfl rfl (by simp) (by simp) (by simp)) rfl (fun g => g)
        (List.prefix_append _ _) (fun i _ => s i)
  | moveToErrorState =>
    rw [call] at hc
    split at hc
    · rename_i he
      cases hc
      have h2 := ok_moveErr h
      have he' : ({ c with extErr := true, log := c.log ++ [.moveErr] } : C M) = c.note .moveErr := by
        simp [C.note, ← he]
      rw [he'] at h2
      exact post_of (Post.rfl h2) (frame_of .moveErr rfl rfl rfl rfl (by simp) (by simp) (by simp)) rfl
        (fun g => g) (List.prefix_append _ _)
        (fun _ _ => settled_ext he)
    · obtain ⟨p, s⟩ := I.drain _ _ (ok_moveErr h) rfl hc
      exact post_of p (frame_of .moveErr rfl rfl rfl rfl (by simp) (by simp) (by simp)) rfl
        (fun g => rfl) (List.prefix_append _ _) (fun _ _ => settled_ext (p.ext rfl))
  | pause =>
    rw [call] at hc
    cases hc
    exact post_of (Post.rfl (ok_pause h)) (frame_of .pause rfl rfl rfl rfl (by simp) (by simp) (by simp)) rfl (fun g => g)
      (List.prefix_append _ _) (fun _ _ => Or.inr (Or.inr (Or.inl rfl)))
  | resume =>
    rw [call] at hc
    obtain ⟨p, s⟩ := I.pp _ _ (ok_resume h) hc
    exact post_of p (frame_of .resume rfl rfl rfl rfl (by simp) (by simp) (by simp)) rfl (fun g => g)
      (List.prefix_append _ _) (fun i _ => s i)

theorem ih_calls {E : Env M} {s0 : M.S} {n : Nat} (I : IH E s0 n) (ks : List Call) (c c' : C M)
    (h : Ok E s0 c) (hc : calls E (n + 1) ks c = some c') : Post E s0 c c' := by
  cases ks with
  | nil => rw [calls] at hc; cases hc; exact Post.rfl h
  | cons k ks =>
    rw [calls] at hc
    split at hc
    · cases hc
    · rename_i c1 h1
      have p := I.call _ _ _ h h1
      exact p.trans (I.calls _ _ _ p.ok hc)

theorem ih_drain {E : Env M} {s0 : M.S} {n : Nat} (I : IH E s0 n) (c c' : C M)
    (h : Ok E s0 c) (he : c.extErr = true) (hc : drain E (n + 1) c = some c') :
    Post E s0 c c' ∧ c'.queue = [] := by
  rw [drain] at hc
  split at hc
  · rename_i hq; cases hc; exact ⟨Post.rfl h, hq⟩
  · rename_i e q hq
    split at hc
    · rename_i ht
      obtain ⟨p, s⟩ := I.drain _ _ (ok_drop h he hq ht) he hc
      exact ⟨post_of p (frame_of (.drop e) rfl rfl rfl rfl (by simp) (by simp) (by simp)) rfl
        (fun g => g) (List.prefix_append _ _) (fun _ _ => settled_ext (p.ext he)), s⟩
    · rename_i t ht
      split at hc
      · cases hc
      · rename_i c1 h1
        have p1 := I.calls _ _ _ (ok_drop_failed h he hq ht) h1
        obtain ⟨p, s⟩ := I.drain _ _ p1.ok (p1.ext he) hc
        exact ⟨post_of (p1.trans p) frame_drop_failed rfl (fun g => g) (List.prefix_append _ _)
          (fun _ _ => settled_ext (p.ext (p1.ext he))), s⟩

theorem ok_inProc {E : Env M} {s0 : M.S} {c : C M} (h : Ok E s0 c) (b : Bool) :
    Ok E s0 { c with inProc := b } :=
  h.note ⟨h.inv.fifo, h.inv.noDrop, h.inv.failed, h.inv.paused, h.inv.wait, h.inv.err, h.inv.st,
    h.inv.starts, h.inv.guard, h.inv.flat⟩ ⟨rfl, rfl, rfl, rfl, rfl, rfl⟩

theorem ih_pp {E : Env M} {s0 : M.S} {n : Nat} (I : IH E s0 n) (c c' : C M)
    (h : Ok E s0 c) (hc : processPending E (n + 1) c = some c') :
    Post E s0 c c' ∧ (c.inProc = false → Settled c') := by
  rw [processPending] at hc
  split at hc
  · rename_i hi; cases hc; exact ⟨Post.rfl h, fun g => by simp [hi] at g⟩
  · rename_i hi
    have hi : c.inProc = false := by simpa using hi
    split at hc
    · cases hc
    · rename_i c1 h1
      cases hc
      obtain ⟨p, s⟩ := I.loop _ _ (ok_inProc h true) rfl h1
      have s' : Settled { c1 with inProc := false } := s
      exact ⟨⟨ok_inProc p.ok false, fun g => by
          obtain ⟨a, b, d, e, f, g⟩ := p.frame g; exact ⟨a, b, d, e, f, g⟩,
        hi.symm, p.ext, p.log, fun _ _ => s'⟩, fun _ => s'⟩

theorem ih_loop {E : Env M} {s0 : M.S} {n : Nat} (I : IH E s0 n) (c c' : C M)
    (h : Ok E s0 c) (hi : c.inProc = true) (hc : loop E (n + 1) c = some c') :
    Post E s0 c c' ∧ Settled c' := by
  rw [loop] at hc
  split at hc
  · rename_i hcond
    simp only [Bool.and_eq_true, Bool.not_eq_eq_eq_not, Bool.not_true] at hcond
    obtain ⟨⟨hg, ht⟩, hp⟩ := hcond
    have ht' : M.terminal c.st = false ∧ c.extErr = false := by simpa [C.terminal] using ht
    have live : paused c.log = false ∧ errored c.log = false ∧
        M.terminal (stateAfter M s0 c.log) = false :=
      ⟨by rw [← h.inv.paused]; exact hp, by rw [← h.inv.err]; exact ht'.2,
        by rw [← h.inv.st]; exact ht'.1⟩
    have idle : busy c.log = false := by rw [← h.inv.guard]; exact hg
    split at hc
    · rename_i hw
      have hw : c.wait = false := by simpa using hw
      split at hc
      · cases hc
      · rename_i c1 h1
        have pre : Pre E s0 .sock { c with guard := true } := by
          refine Pre.of h hg ?_ ?_ rfl rfl rfl rfl rfl rfl rfl
          · refine ⟨idle, fun _ => live, by simp, fun _ => ?_⟩
            have := h.inv.wait; rw [hw] at this; simpa using this.symm
          · rw [h.inv.fifo]; simp [handed]
        have p0 := I.start _ _ _ pre h1
        obtain ⟨p, s⟩ := I.loop _ _ p0.ok (p0.inProc.trans hi) hc
        exact ⟨Post.trans (Post0.toPost ⟨p0.ok, p0.inProc, p0.ext, p0.log, p0.settled⟩ hg) p, s⟩
    · rename_i hw
      have hw : c.wait = true := by simpa using hw
      split at hc
      · rename_i e q hq
        split at hc
        · cases hc
        · rename_i c1 h1
          have pre : Pre E s0 (.app e) { c with guard := true, queue := q } := by
            refine Pre.of h hg ?_ ?_ rfl rfl rfl rfl rfl rfl rfl
            · refine ⟨idle, fun _ => live, fun _ => ?_, by simp⟩
              have := h.inv.wait; rw [hw] at this; simpa using this.symm
            · have hd := h.inv.noDrop live.2.1
              rw [h.inv.fifo, hd, hq]; simp [handed]
          have p0 := I.start _ _ _ pre h1
          obtain ⟨p, s⟩ := I.loop _ _ p0.ok (p0.inProc.trans hi) hc
          exact ⟨Post.trans (Post0.toPost ⟨p0.ok, p0.inProc, p0.ext, p0.log, p0.settled⟩ hg) p, s⟩
      · rename_i hq
        cases hc
        have : ({ c with guard := false } : C M) = c := by rw [← hg]
        rw [this]
        exact ⟨Post.rfl h, Or.inr (Or.inr (Or.inr ⟨hw, hq⟩))⟩
  · rename_i hcond
    cases hc
    refine ⟨Post.rfl h, ?_⟩
    cases hg : c.guard <;> cases ht : c.terminal <;> cases hp : c.paused <;>
      simp_all [Settled]

theorem ih_start {E : Env M} {s0 : M.S} {n : Nat} (I : IH E s0 n) (t : Trig) (c c' : C M)
    (h : Pre E s0 t c) (hc : start E (n + 1) t c = some c') : Post0 E s0 c c' := by
  rw [start] at hc
  split at hc
  · rename_i acts ho
    have v : Vis E s0 (c.note (.start t)) acts :=
      ⟨h.inv, h.guard, by have := h.mid; rw [ho] at this; exact this, h.pending⟩
    have p := I.pa _ _ _ v hc
    exact ⟨p.ok, p.inProc, p.ext, (List.prefix_append _ _).trans p.log, p.settled⟩
  · rename_i acts ho
    cases hc
    have m := h.mid
    rw [ho] at m
    refine ⟨⟨⟨h.inv.fifo, h.inv.noDrop, h.inv.failed, h.inv.paused, h.inv.wait, h.inv.err, h.inv.st,
      h.inv.starts, h.inv.guard, h.inv.flat⟩, fun g => ?_, fun _ => ⟨acts, m, ?_⟩⟩, rfl, fun g => g,
      List.prefix_append _ _, fun _ => Or.inl h.guard⟩
    · have := h.guard; simp [C.note, this] at g
    · intro p hp; exact (Option.some.inj hp).symm
  · rename_i ho
    cases hc
    have v : Vis E s0 (c.note (.start t)) [] :=
      ⟨h.inv, h.guard, by have := h.mid; rw [ho] at this; exact this, h.pending⟩
    exact ⟨v.ok, rfl, fun g => g, List.prefix_append _ _, fun _ => Or.inl h.guard⟩

theorem Vis.done {E : Env M} {s0 : M.S} {c : C M} (h : Vis E s0 c []) :
    Ok E s0 { c with guard := false, log := c.log ++ [.done] } := by
  obtain ⟨i1, i2, i3, i4, i5, i6, i7, i8, i9, i10⟩ := h.inv
  refine ⟨h.inv.flag .done rfl ?_ ?_ ?_ ?_ ?_ ?_ ?_ (by simp) ?_, fun _ => ⟨?_, h.pending⟩,
    fun g => by simp at g⟩
  · rw [submitted_snoc, handed_snoc, dropped_snoc, i1]; simp [submitted, handed, dropped]
  · rw [errored_snoc, dropped_snoc]; simpa [dropped] using i2
  · rw [failed_snoc, dropped_snoc]; simpa [dropped, failedTokens] using i3
  · rw [paused_snoc]; exact i4
  · rw [data_snoc]; exact i5
  · rw [errored_snoc]; exact i6
  · rw [stateAfter_snoc]; exact i7
  · rw [busy_snoc]
  · obtain ⟨t, as, bs, s, o, h1, h2, h3, h4, h5, h6⟩ := h.mid
    show Exec M (Proc E) s0 (blocks (c.log ++ [.done])) c.st
    rw [blocks_snoc]
    simp only [List.append_nil] at h6
    show Exec M (Proc E) s0 (blocks c.log) c.st
    rw [h1, h5, h6]
    exact Exec.step h2 h3 h4

theorem ih_pa {E : Env M} {s0 : M.S} {n : Nat} (I : IH E s0 n) (acts : List M.A) (c c' : C M)
    (h : Vis E s0 c acts) (hc : processActions E (n + 1) acts c = some c') : Post0 E s0 c c' := by
  rw [processActions] at hc
  split at hc
  · cases hc
  · rename_i c1 h1
    obtain ⟨v, vi, vx, vl⟩ := I.va _ _ _ h h1
    obtain ⟨p, s⟩ := I.pp _ _ v.done hc
    exact ⟨p.ok, p.inProc.trans vi, fun g => p.ext (vx g),
      vl.trans ((List.prefix_append _ _).trans p.log), fun i => s (vi.trans i)⟩

theorem Vis.act {E : Env M} {s0 : M.S} {c : C M} {a : M.A} {as : List M.A}
    (h : Vis E s0 c (a :: as)) :
    Vis E s0 { c with st := M.apply a c.st, log := c.log ++ [.act a] } as := by
  obtain ⟨i1, i2, i3, i4, i5, i6, i7, i8, i9, i10⟩ := h.inv
  refine ⟨h.inv.flag (.act a) rfl ?_ ?_ ?_ ?_ ?_ ?_ ?_ (by simp) ?_ (.inr ?_), h.guard, ?_, h.pending⟩
  · rw [submitted_snoc, handed_snoc, dropped_snoc, i1]; simp [submitted, handed, dropped]
  · rw [errored_snoc, dropped_snoc]; simpa [dropped] using i2
  · rw [failed_snoc, dropped_snoc]; simpa [dropped, failedTokens] using i3
  · rw [paused_snoc]; exact i4
  · rw [data_snoc]; exact i5
  · rw [errored_snoc]; exact i6
  · rw [stateAfter_snoc, ← i7]
  · rw [busy_snoc]; exact i9
  · obtain ⟨t, bs0, bs, s, o, h1, -⟩ := h.mid
    rw [h1]; simp
  · obtain ⟨t, bs0, bs, s, o, h1, h2, h3, h4, h5, h6⟩ := h.mid
    refine ⟨t, bs0 ++ [a], bs, s, o, ?_, h2, h3, h4, ?_, by simpa using h6⟩
    · show blocks (c.log ++ [.act a]) = _
      rw [blocks_snoc]
      show addAct a (blocks c.log) = _
      rw [h1]; rfl
    · simp [h5]

theorem ih_va {E : Env M} {s0 : M.S} {n : Nat} (I : IH E s0 n) (acts : List M.A) (c c' : C M)
    (h : Vis E s0 c acts) (hc : visitAll E (n + 1) acts c = some c') :
    Vis E s0 c' [] ∧ c'.inProc = c.inProc ∧ (c.extErr = true → c'.extErr = true) ∧
      c.log <+: c'.log := by
  cases acts with
  | nil => rw [visitAll] at hc; cases hc; exact ⟨h, rfl, fun g => g, List.prefix_refl _⟩
  | cons a as =>
    rw [visitAll] at hc
    split at hc
    · cases hc
    · rename_i c1 h1
      have p := I.calls _ _ _ h.act.ok h1
      obtain ⟨v, vi, vx, vl⟩ := I.va _ _ _ (h.act.frame p) hc
      exact ⟨v, vi.trans p.inProc, fun g => vx (p.ext g),
        (List.prefix_append _ _).trans (p.log.trans vl)⟩

theorem ih (E : Env M) (s0 : M.S) : ∀ n, IH E s0 n
  | 0 => ih_zero E s0
  | n + 1 =>
    have I := ih E s0 n
    ⟨ih_call I, ih_calls I, ih_drain I, ih_pp I, ih_loop I, ih_start I, ih_pa I, ih_va I⟩

/-! ## Histories -/

theorem ok_init (E : Env M) (s0 : M.S) : Ok E s0 (init s0) := by
  refine ⟨⟨rfl, fun _ => rfl, rfl, rfl, rfl, rfl, rfl, ?_, rfl, rfl⟩, fun _ => ⟨Exec.nil, rfl⟩, ?_⟩
  · intro P t Q h; simp [init] at h
  · intro h; simp [init] at h

theorem top_ok {E : Env M} {s0 : M.S} {n : Nat} {t : Top} {c c' : C M} (h : Ok E s0 c)
    (hi : c.inProc = false) (hs : Settled c) (ht : top E n t c = some c') :
    Ok E s0 c' ∧ c'.inProc = false ∧ Settled c' ∧ c.log <+: c'.log := by
  have I := ih E s0 n
  cases t with
  | call k =>
    have p := I.call _ _ _ h ht
    exact ⟨p.ok, p.inProc.trans hi, p.settled hi hs, p.log⟩
  | accept =>
    rw [top] at ht
    split at ht
    · cases ht; exact ⟨h, hi, hs, List.prefix_refl _⟩
    · rename_i hg
      have hg : c.guard = false := by simpa using hg
      have pre : Pre E s0 .accept { c with guard := true, checkV2 := E.v2Enabled } := by
        refine Pre.of h hg ?_ ?_ rfl rfl rfl rfl rfl rfl rfl
        · exact ⟨by rw [← h.inv.guard]; exact hg, by simp, by simp, by simp⟩
        · rw [h.inv.fifo]; simp [handed]
      have p := I.start _ _ _ pre ht
      exact ⟨p.ok, p.inProc.trans hi, p.settled hi, p.log⟩
  | complete =>
    rw [top] at ht
    split at ht
    · cases ht; exact ⟨h, hi, hs, List.prefix_refl _⟩
    · rename_i acts hp
      have hg : c.guard = true := by
        cases hg : c.guard with
        | true => rfl
        | false => have := (h.idle hg).2; simp [hp] at this
      obtain ⟨rem, m, hr⟩ := h.mid hg
      cases hr _ hp
      have v : Vis E s0 { c with pending := none } acts :=
        ⟨⟨h.inv.fifo, h.inv.noDrop, h.inv.failed, h.inv.paused, h.inv.wait, h.inv.err, h.inv.st,
          h.inv.starts, h.inv.guard, h.inv.flat⟩, hg, m, rfl⟩
      have p := I.pa _ _ _ v ht
      exact ⟨p.ok, p.inProc.trans hi, p.settled hi, p.log⟩

theorem run_ok {E : Env M} {s0 : M.S} : ∀ {ts : List (Nat × Top)} {c c' : C M}, Ok E s0 c →
    c.inProc = false → Settled c → run E ts c = some c' →
    Ok E s0 c' ∧ c'.inProc = false ∧ Settled c' ∧ c.log <+: c'.log
  | [], c, c', h, hi, hs, hr => by rw [run] at hr; cases hr; exact ⟨h, hi, hs, List.prefix_refl _⟩
  | (n, t) :: ts, c, c', h, hi, hs, hr => by
    rw [run] at hr
    split at hr
    · cases hr
    · rename_i c1 h1
      obtain ⟨a, b, d, e⟩ := top_ok h hi hs h1
      obtain ⟨a', b', d', e'⟩ := run_ok a b d hr
      exact ⟨a', b', d', e.trans e'⟩

theorem Reachable.ok {E : Env M} {s0 : M.S} {c : C M} (h : Reachable E s0 c) :
    Ok E s0 c ∧ c.inProc = false ∧ Settled c := by
  obtain ⟨ts, h⟩ := h
  obtain ⟨a, b, d, -⟩ := run_ok (ok_init E s0) rfl
    (Or.inr (Or.inr (Or.inr ⟨rfl, rfl⟩))) h
  exact ⟨a, b, d⟩

/-! ## C24 -/

/-- C24: application events reach the state machine in the order submitted, each at most once: at
any time those handed over are an initial part of those submitted, and unless the connection was
moved to the error state the rest is exactly what is still queued. -/
theorem C24_fifo {E : Env M} {s0 : M.S} {c : C M} (h : Reachable E s0 c) :
    ∃ rest, submitted c.log = handed c.log ++ rest ∧ (errored c.log = false → rest = c.queue) := by
  have i := h.ok.1.inv
  refine ⟨dropped c.log ++ c.queue, by rw [i.fifo, List.append_assoc], fun he => ?_⟩
  rw [i.noDrop he]; rfl

/-- C24: the state machine is never run while an earlier event is still being worked on, including
from callbacks of that event and while its future is in flight. -/
theorem C24_serial {E : Env M} {s0 : M.S} {c : C M} (h : Reachable E s0 c)
    {P Q : List (Entry M.A)} {t : Trig} (hl : c.log = P ++ .start t :: Q) : busy P = false :=
  (h.ok.1.inv.starts P t Q hl).idle

/-- C24: no event or socket data is processed while paused, after `moveToErrorState`, or in a
terminal state (`Error`, `Closed`). -/
theorem C24_gate {E : Env M} {s0 : M.S} {c : C M} (h : Reachable E s0 c)
    {P Q : List (Entry M.A)} {t : Trig} (hl : c.log = P ++ .start t :: Q)
    (ht : t = .sock ∨ ∃ e, t = .app e) :
    paused P = false ∧ errored P = false ∧ M.terminal (stateAfter M s0 P) = false :=
  (h.ok.1.inv.starts P t Q hl).live ht

/-- C24: an application event is processed only when no transport data is waiting to be read, and
socket data only when there may be some. -/
theorem C24_socket_first {E : Env M} {s0 : M.S} {c : C M} (h : Reachable E s0 c)
    {P Q : List (Entry M.A)} :
    (∀ e, c.log = P ++ .start (.app e) :: Q → dataAvailable P = false) ∧
    (c.log = P ++ .start .sock :: Q → dataAvailable P = true) :=
  ⟨fun e hl => (h.ok.1.inv.starts P _ Q hl).app ⟨e, rfl⟩,
    fun hl => (h.ok.1.inv.starts P _ Q hl).sock rfl⟩

/-- C24: nothing is forgotten.  Whenever control is back outside, either an event is still being
worked on, or the connection is finished or paused, or there is no data to read and every submitted
event has been handed over. -/
theorem C24_no_lost_wakeup {E : Env M} {s0 : M.S} {c : C M} (h : Reachable E s0 c) :
    busy c.log = true ∨ M.terminal (stateAfter M s0 c.log) = true ∨ errored c.log = true ∨
      paused c.log = true ∨ (dataAvailable c.log = false ∧ submitted c.log = handed c.log) := by
  obtain ⟨ok, -, s⟩ := h.ok
  have i := ok.inv
  rcases s with s | s | s | ⟨s1, s2⟩
  · left; rw [← i.guard]; exact s
  · simp only [C.terminal, Bool.or_eq_true] at s
    rcases s with s | s
    · right; left; rw [← i.st]; exact s
    · right; right; left; rw [← i.err]; exact s
  · right; right; right; left; rw [← i.paused]; exact s
  · cases he : errored c.log with
    | true => simp
    | false =>
      right; right; right; right
      refine ⟨?_, ?_⟩
      · have := i.wait; rw [s1] at this; simpa using this.symm
      · rw [i.fifo, i.noDrop he, s2]; simp

/-- C24: every event is worked on with the state left by the complete actions of all earlier events,
and its actions are visited in order, each once. -/
theorem C24_exec {E : Env M} {s0 : M.S} {c : C M} (h : Reachable E s0 c) :
    ExecPrefix M (Proc E) s0 (blocks c.log) ∧ c.st = stateAfter M s0 c.log := by
  have ok := h.ok.1
  refine ⟨?_, ok.inv.st⟩
  cases hg : c.guard with
  | true =>
    obtain ⟨rem, ⟨t, as, bs, s, o, h1, h2, h3, h4, -, h6⟩, -⟩ := ok.mid hg
    exact Or.inr ⟨t, as, bs, s, o, h1, h2, h3, h4, ⟨rem, h6⟩⟩
  | false =>
    have hx := (ok.idle hg).1
    generalize blocks c.log = B at hx
    generalize c.st = z at hx
    cases hx with
    | nil => exact Or.inl rfl
    | step h2 h3 h4 => exact Or.inr ⟨_, _, _, _, _, rfl, h2, h3, h4, List.prefix_refl _⟩

/-! ## C25 -/

/-- Every action that is visited belongs to the event being worked on: the visited actions are those
of the blocks. -/
theorem visited_blocks {E : Env M} {s0 : M.S} {c : C M} (h : Reachable E s0 c) :
    visited c.log = (blocks c.log).reverse.flatMap Prod.snd := h.ok.1.inv.flat

theorem handed_suffix {E : Env M} {s0 : M.S} {L L' : List (Entry M.A)}
    (hs : ∀ P t Q, L ++ L' = P ++ .start t :: Q → StartOk M s0 P t)
    (he : errored L = true) : handed L' = [] := by
  induction L' using List.reverseRecOn with
  | nil => rfl
  | append_singleton xs x ihx =>
    have h1 : handed xs = [] := ihx fun P t Q h => hs P t (Q ++ [x]) (by rw [← List.append_assoc, h]; simp)
    rw [handed_snoc, h1]
    cases x with
    | start t =>
      cases t with
      | app e =>
        have := (hs (L ++ xs) (.app e) [] (by simp)).live (Or.inr ⟨e, rfl⟩)
        have hm : errored (L ++ xs) = true := by
          clear h1 ihx this hs
          induction xs using List.reverseRecOn with
          | nil => simpa using he
          | append_singleton ys y ihy =>
            rw [← List.append_assoc, errored_snoc]
            cases y <;> simp [ihy]
        rw [hm] at this; exact absurd this.2.1 (by simp)
      | _ => rfl
    | _ => rfl

/-- C25: the first `moveToErrorState` discards, in order, everything queued (and anything the error
callback itself submits meanwhile), leaves the queue empty, and invokes the callback exactly once,
in order, for each discarded write that carries a token.  `Ok` is the invariant of the connection,
which holds at every outside call (`Reachable.ok`) and inside every callback. -/
theorem C25_reports_all {E : Env M} {s0 : M.S} {n : Nat} {c c' : C M} (h : Ok E s0 c)
    (hc : call E n .moveToErrorState c = some c') (he : errored c.log = false) :
    ∃ new, c'.log = c.log ++ new ∧ c'.queue = [] ∧
      dropped new = c.queue ++ submitted new ∧
      failedTokens new = (dropped new).filterMap AppEv.token ∧ handed new = [] := by
  have p := (ih E s0 n).call _ _ _ h hc
  obtain ⟨new, hn⟩ := p.log
  have i := h.inv
  have i' := p.ok.inv
  cases n with
  | zero => simp [call] at hc
  | succ n =>
  rw [call] at hc
  have hx : c.extErr = false := i.err.trans he
  rw [if_neg (by simp [hx])] at hc
  obtain ⟨p2, q⟩ := (ih E s0 n).drain _ _ (ok_moveErr h) rfl hc
  obtain ⟨new2, hn2⟩ := p2.log
  have hh2 : handed new2 = [] :=
    handed_suffix (E := E) (L := c.log ++ [.moveErr]) (s0 := s0)
      (by rw [hn2]; exact i'.starts) (by rw [errored_snoc])
  have hnew : new = .moveErr :: new2 := by
    have : c.log ++ new = c.log ++ (.moveErr :: new2) := by
      rw [hn, ← hn2]; simp
    exact List.append_cancel_left this
  have hh : handed new = [] := by rw [hnew]; simpa [handed] using hh2
  have happ : ∀ (f : Entry M.A → Option AppEv), List.filterMap f c'.log =
      List.filterMap f c.log ++ List.filterMap f new := by
    intro f; rw [← hn, List.filterMap_append]
  have hfifo := i'.fifo
  rw [q] at hfifo
  have e1 : submitted c'.log = submitted c.log ++ submitted new := happ _
  have e2 : handed c'.log = handed c.log ++ handed new := happ _
  have e3 : dropped c'.log = dropped c.log ++ dropped new := happ _
  rw [e1, e2, e3, i.fifo, i.noDrop he, hh] at hfifo
  simp only [List.append_nil, List.nil_append, List.append_assoc] at hfifo
  have hd := (List.append_cancel_left hfifo).symm
  refine ⟨new, hn.symm, q, hd, ?_, hh⟩
  have hf := i'.failed
  have e4 : failedTokens c'.log = failedTokens c.log ++ failedTokens new := by
    rw [← hn]; simp [failedTokens]
  rw [e3, e4, i.failed, i.noDrop he] at hf
  simpa using hf

/-- `C25_reports_all` for a call made from outside in any reachable connection. -/
theorem C25_reports_all_top {E : Env M} {s0 : M.S} {n : Nat} {c c' : C M} (h : Reachable E s0 c)
    (hc : call E n .moveToErrorState c = some c') (he : errored c.log = false) :
    ∃ new, c'.log = c.log ++ new ∧ c'.queue = [] ∧
      dropped new = c.queue ++ submitted new ∧
      failedTokens new = (dropped new).filterMap AppEv.token ∧ handed new = [] :=
  C25_reports_all h.ok.1 hc he

/-- C25: a later call does nothing: no callback, nothing discarded. -/
theorem C25_later_calls {E : Env M} {s0 : M.S} {n : Nat} {c c' : C M} (h : Ok E s0 c)
    (hc : call E n .moveToErrorState c = some c') (he : errored c.log = true) :
    c' = { c with log := c.log ++ [.moveErr] } := by
  cases n with
  | zero => simp [call] at hc
  | succ n =>
    rw [call, if_pos (by rw [h.inv.err]; exact he)] at hc
    exact (Option.some.inj hc).symm

/-- C25: whatever happens afterwards, no queued event is processed any more. -/
theorem C25_nothing_processed_after {E : Env M} {s0 : M.S} {c : C M} (h : Reachable E s0 c)
    {P Q : List (Entry M.A)} (hl : c.log = P ++ Q) (he : errored P = true) : handed Q = [] :=
  handed_suffix (E := E) (L := P) (s0 := s0) (by rw [← hl]; exact h.ok.1.inv.starts) he

/-- C25: in any history the callback is invoked exactly for the discarded writes with a token, once
each and in order, and nothing is discarded before `moveToErrorState`. -/
theorem C25_tokens {E : Env M} {s0 : M.S} {c : C M} (h : Reachable E s0 c) :
    failedTokens c.log = (dropped c.log).filterMap AppEv.token ∧
      (errored c.log = false → dropped c.log = []) :=
  ⟨h.ok.1.inv.failed, h.ok.1.inv.noDrop⟩

/-! ## A concrete history -/

section demo

/-- A toy machine: the state is whether the connection is closed; the action says what to visit. -/
def toy : Machine where
  S := Bool
  A := Nat
  terminal := id
  apply a s := s || a == 99

/-- Socket data answers action 1 (whose callback submits a write and waits for data); a write
answers action 2 through a future; anything else action 3.  The error callback submits one more
write for token 7. -/
def toyEnv : Env toy where
  proc _ _ t := match t with
    | .sock => .now [(1 : Nat)]
    | .app (.appWrite _ _ _) => .later [(2 : Nat)]
    | _ => .now [(3 : Nat)]
  visit _ a := match (show Nat from a) with
    | 1 => [.submit (.appWrite (some 5) [1] 0), .waitForData]
    | _ => []
  onToken _ t := if t = 7 then [.submit (.appWrite (some 8) [] 0)] else []
  looksV2 _ := false
  v2Enabled := true

def toyHistory : List (Nat × Top) :=
  [(20, .accept), (20, .call .newTransportData), (20, .call (.submit (.keyUpdate 0))),
   (20, .complete), (20, .call .pause), (20, .call (.submit (.appWrite (some 7) [2] 0))),
   (20, .call (.submit (.appWrite none [3] 0))), (20, .call .moveToErrorState)]

def toyEnd : C toy := (run toyEnv toyHistory (init false)).getD (init false)

theorem toyEnd_reachable : Reachable toyEnv false toyEnd := by
  refine ⟨toyHistory, ?_⟩
  show _ = some ((run toyEnv toyHistory (init false)).getD (init false))
  cases h : run toyEnv toyHistory (init false) with
  | some c => rfl
  | none =>
    have : (run toyEnv toyHistory (init false)).isSome = true := by decide +kernel
    rw [h] at this; cases this

/-- The hypotheses are met by a history with reentrant submission, a future, a pause and an error:
four writes are submitted, the one in flight was handed over first, three are discarded (one of
them submitted by the error callback), and the tokens 7 and 8 are reported. -/
example : Reachable toyEnv false toyEnd ∧
    handed toyEnd.log = [.appWrite (some 5) [1] 0, .keyUpdate 0] ∧
    dropped toyEnd.log = [.appWrite (some 7) [2] 0, .appWrite none [3] 0, .appWrite (some 8) [] 0] ∧
    failedTokens toyEnd.log = [7, 8] ∧
    (blocks toyEnd.log).map Prod.fst =
      [.app (.keyUpdate 0), .app (.appWrite (some 5) [1] 0), .sock, .accept] := by
  refine ⟨toyEnd_reachable, ?_, ?_, ?_, ?_⟩ <;> decide +kernel

end demo

end Fizz.Conn

import Verif.Async.Spec

/-! # The call stack and the lifetime of the object -/

namespace Fizz.Async

/-- Program points that are executed as soon as they are reached. -/
def Frame.transient : Frame → Bool
  | .start _ => true
  | .succ _ => true
  | .deliver _ => true
  | .err1 _ _ => true
  | .inBuf _ _ => true
  | _ => false

/-- Frames that do not touch the object when they are resumed. -/
def Frame.harmless : Frame → Bool
  | .out => true
  | .inRead => true
  | .errReq _ _ => true
  | _ => false

/-- What is below a frame. -/
structure Above (f : Frame) (k : List Frame) : Prop where
  calm : ∀ g ∈ k.head?, g.transient = false
  loops : f.delivering = true → k.head? = some .setRest ∨ k.head? = some .unguard
  once : f.delivering = true → ∀ g ∈ k, Frame.delivering g = false
  err1 : ∀ ex c, f = .err1 ex c → 0 < guards k
  err2 : ∀ ex c d, f = .err2 ex c d → 0 < guards k
  err3 : ∀ c d, f = .err3 c d → 0 < guards k
  err4 : ∀ d, f = .err4 d → 0 < guards k
  succ2 : ∀ n, f = .succ2 n → 0 < guards k
  destroy : f = .destroy2 → exposed k = false ∧ .destroy2 ∉ k
  reading : ∀ d, k.head? = some (.loop d) → f = .inRead

def Stacked : List Frame → Prop
  | [] => True
  | f :: k => Above f k ∧ Stacked k

structure SInv (s : St) : Prop where
  stacked : Stacked s.stack
  dead : s.alive = false → ∀ f ∈ s.stack, f.harmless = true
  pend : s.destroyPending = true → s.alive = true → 0 < guards s.stack
  shut : s.destroyPending = true → exposed s.stack = false
  gone : s.destroyPending = true → .destroy2 ∉ s.stack
  fresh : s.destroyCalled = false → s.destroyPending = false ∧ .destroy2 ∉ s.stack
  living : s.alive = false → s.destroyCalled = true ∧ s.destroyPending = true

theorem guards_cons (f : Frame) (k : List Frame) :
    guards (f :: k) = guards k + if f = .unguard then 1 else 0 := by
  unfold guards
  rw [List.countP_cons]
  by_cases h : f = .unguard
  · subst h; rfl
  · have : (f == Frame.unguard) = false := by simpa using h
    rw [this, if_neg h]; rfl

theorem exposed_cons {f : Frame} {k : List Frame} :
    exposed (f :: k) = false ↔ exposed k = false ∧ (f = .setRest → 0 < guards k) := by
  have hu : exposed (f :: k) = (exposed k || (f == .setRest && guards k == 0)) := rfl
  rw [hu]
  by_cases h : f = .setRest
  · subst h
    simp only [Bool.or_eq_false_iff, beq_self_eq_true, Bool.true_and, beq_eq_false_iff_ne, ne_eq,
      true_implies]
    rw [Nat.pos_iff_ne_zero]
  · have : (f == Frame.setRest) = false := by simpa using h
    rw [this]
    simp [h]

/-- If no guard is held, no `setReadCB` is in progress and nobody is destroying the object, then
nothing in progress will touch it again. -/
theorem all_harmless : ∀ {k : List Frame}, Stacked k → guards k = 0 → exposed k = false →
    Frame.destroy2 ∉ k → (∀ g ∈ k.head?, g.transient = false) → ∀ f ∈ k, f.harmless = true
  | [], _, _, _, _, _ => by simp
  | f :: k, hs, hg, he, hd, ht => by
    rw [guards_cons] at hg
    rw [exposed_cons] at he
    have hk := all_harmless hs.2 (by omega) he.1 (fun h => hd (List.mem_cons_of_mem _ h)) hs.1.calm
    have hf : f.harmless = true := by
      have ht' := ht f rfl
      have A := hs.1
      cases f with
      | deliver d => simp [Frame.transient] at ht'
      | loop d =>
        rcases A.loops rfl with h | h
        · match k, h with
          | g :: k', h =>
            cases Option.some.inj h
            have := (exposed_cons.1 he.1).2 rfl
            rw [guards_cons] at hg
            omega
        · match k, h with
          | g :: k', h =>
            cases Option.some.inj h
            rw [guards_cons] at hg
            simp at hg
      | setRest => have := he.2 rfl; omega
      | err1 ex c => simp [Frame.transient] at ht'
      | err2 ex c d => have := A.err2 _ _ _ rfl; omega
      | err3 c d => have := A.err3 _ _ rfl; omega
      | err4 d => have := A.err4 _ rfl; omega
      | start r => simp [Frame.transient] at ht'
      | errReq r ex => rfl
      | succ r => simp [Frame.transient] at ht'
      | succ2 n => have := A.succ2 _ rfl; omega
      | unguard => simp at hg
      | destroy2 => exact absurd List.mem_cons_self hd
      | inBuf c d => simp [Frame.transient] at ht'
      | inRead => rfl
      | out => rfl
    intro g hg'
    rcases List.mem_cons.1 hg' with h | h
    · rw [h]; exact hf
    · exact hk g h

/-- The part of the state the stack invariant talks about. -/
structure Life where
  alive : Bool
  destroyCalled : Bool
  destroyPending : Bool
  stack : List Frame

def St.life (s : St) : Life := ⟨s.alive, s.destroyCalled, s.destroyPending, s.stack⟩

theorem SInv.congr {s t : St} (h : SInv s) (e : s.life = t.life) : SInv t := by
  have e1 : s.alive = t.alive := congrArg Life.alive e
  have e2 : s.destroyCalled = t.destroyCalled := congrArg Life.destroyCalled e
  have e3 : s.destroyPending = t.destroyPending := congrArg Life.destroyPending e
  have e4 : s.stack = t.stack := congrArg Life.stack e
  refine ⟨?_, ?_, ?_, ?_, ?_, ?_, ?_⟩
  · rw [← e4]; exact h.stacked
  · rw [← e1, ← e4]; exact h.dead
  · rw [← e1, ← e3, ← e4]; exact h.pend
  · rw [← e3, ← e4]; exact h.shut
  · rw [← e3, ← e4]; exact h.gone
  · rw [← e2, ← e3, ← e4]; exact h.fresh
  · rw [← e1, ← e2, ← e3]; exact h.living

/-- Pop the top frame, keeping the invariant, unless it was the last guard. -/
theorem SInv.pop {s : St} (h : SInv s) {f : Frame} {k : List Frame} (hs : s.stack = f :: k)
    (hf : f ≠ .unguard) {t : St} (e : t.life = ⟨s.alive, s.destroyCalled, s.destroyPending, k⟩) :
    SInv t := by
  have e1 : t.alive = s.alive := congrArg Life.alive e
  have e2 : t.destroyCalled = s.destroyCalled := congrArg Life.destroyCalled e
  have e3 : t.destroyPending = s.destroyPending := congrArg Life.destroyPending e
  have e4 : t.stack = k := congrArg Life.stack e
  obtain ⟨h1, h2, h3, h4, h5, h6, h7⟩ := h
  rw [hs] at h1 h2 h3 h4 h5 h6
  refine ⟨?_, ?_, ?_, ?_, ?_, ?_, ?_⟩
  · rw [e4]; exact h1.2
  · rw [e1, e4]; exact fun ha g hg => h2 ha g (List.mem_cons_of_mem _ hg)
  · rw [e1, e3, e4]
    intro hp ha
    have := h3 hp ha
    rw [guards_cons, if_neg hf] at this
    exact this
  · rw [e3, e4]; exact fun hp => (exposed_cons.1 (h4 hp)).1
  · rw [e3, e4]; exact fun hp hm => h5 hp (List.mem_cons_of_mem _ hm)
  · rw [e2, e3, e4]
    exact fun hc => ⟨(h6 hc).1, fun hm => (h6 hc).2 (List.mem_cons_of_mem _ hm)⟩
  · rw [e1, e2, e3]; exact h7

/-- Push a frame. -/
theorem SInv.push {s : St} (h : SInv s) (f : Frame) (hA : Above f s.stack)
    (ha : s.alive = true ∨ f.harmless = true) (hd : f ≠ .destroy2) {t : St}
    (e : t.life = ⟨s.alive, s.destroyCalled, s.destroyPending, f :: s.stack⟩) : SInv t := by
  have e1 : t.alive = s.alive := congrArg Life.alive e
  have e2 : t.destroyCalled = s.destroyCalled := congrArg Life.destroyCalled e
  have e3 : t.destroyPending = s.destroyPending := congrArg Life.destroyPending e
  have e4 : t.stack = f :: s.stack := congrArg Life.stack e
  obtain ⟨h1, h2, h3, h4, h5, h6, h7⟩ := h
  refine ⟨?_, ?_, ?_, ?_, ?_, ?_, ?_⟩
  · rw [e4]; exact ⟨hA, h1⟩
  · rw [e1, e4]
    intro hx g hg
    rcases List.mem_cons.1 hg with hg | hg
    · subst hg
      rcases ha with ha | ha
      · rw [ha] at hx; cases hx
      · exact ha
    · exact h2 hx g hg
  · rw [e1, e3, e4]
    intro hp hx
    rw [guards_cons]
    have := h3 hp hx
    omega
  · rw [e3, e4]
    intro hp
    refine exposed_cons.2 ⟨h4 hp, fun hr => ?_⟩
    rcases ha with ha | ha
    · exact h3 hp ha
    · rw [hr] at ha; cases ha
  · rw [e3, e4]
    intro hp hm
    rcases List.mem_cons.1 hm with hm | hm
    · exact hd hm.symm
    · exact h5 hp hm
  · rw [e2, e3, e4]
    refine fun hc => ⟨(h6 hc).1, fun hm => ?_⟩
    rcases List.mem_cons.1 hm with hm | hm
    · exact hd hm.symm
    · exact (h6 hc).2 hm
  · rw [e1, e2, e3]; exact h7

/-- A list of frames that can be put on top of a stack. -/
def Ons : List Frame → List Frame → Prop
  | [], _ => True
  | f :: fs, k => Above f (fs ++ k) ∧ Ons fs k

theorem SInv.pushL {s : St} (h : SInv s) : ∀ (fs : List Frame), Ons fs s.stack →
    (s.alive = true ∨ ∀ f ∈ fs, f.harmless = true) → Frame.destroy2 ∉ fs → ∀ {t : St},
    t.life = ⟨s.alive, s.destroyCalled, s.destroyPending, fs ++ s.stack⟩ → SInv t
  | [], _, _, _, t, e => h.congr (by rw [e]; rfl)
  | f :: fs, ho, ha, hd, t, e => by
    have hi := SInv.pushL h fs ho.2 (ha.imp id (fun H g hg => H g (List.mem_cons_of_mem _ hg)))
      (fun hm => hd (List.mem_cons_of_mem _ hm)) (t := { s with stack := fs ++ s.stack }) rfl
    exact hi.push f ho.1 (ha.imp id (fun H => H f List.mem_cons_self))
      (fun hf => hd (hf ▸ List.mem_cons_self)) e

/-- Replace the top frame. -/
theorem SInv.repl {s : St} (h : SInv s) {f : Frame} {k : List Frame} (hs : s.stack = f :: k)
    (hf : f ≠ .unguard) (fs : List Frame) (ho : Ons fs k)
    (ha : s.alive = true ∨ ∀ f ∈ fs, f.harmless = true) (hd : Frame.destroy2 ∉ fs) {t : St}
    (e : t.life = ⟨s.alive, s.destroyCalled, s.destroyPending, fs ++ k⟩) : SInv t :=
  (h.pop hs hf (t := { s with stack := k }) rfl).pushL fs ho ha hd e

/-- A stack on which anything may be put. -/
structure Calm (k : List Frame) : Prop where
  tr : ∀ g ∈ k.head?, g.transient = false
  lp : ∀ d, k.head? ≠ some (.loop d)

theorem Above.low {f : Frame} {k : List Frame} (h : Above f k) (hf : f ≠ .inRead) : Calm k :=
  ⟨h.calm, fun d hd => hf (h.reading d hd)⟩

theorem calm_cons {f : Frame} {k : List Frame} (h : f.transient = false) (hl : ∀ d, f ≠ .loop d) :
    Calm (f :: k) :=
  ⟨fun g hg => by cases Option.some.inj hg; exact h, fun d hd => hl d (Option.some.inj hd)⟩

theorem calm_outside {s : St} (h : s.outside = true) : Calm s.stack := by
  unfold St.outside at h
  split at h
  · rename_i hs; rw [hs]; exact ⟨by simp, by simp⟩
  · rename_i hs; rw [hs]; exact calm_cons rfl (by simp)
  · rename_i hs; rw [hs]; exact calm_cons rfl (by simp)
  · cases h

/-- Frames that ask nothing of what is below them. -/
def Frame.plain : Frame → Bool
  | .start _ => true
  | .succ _ => true
  | .setRest => true
  | .errReq _ _ => true
  | .unguard => true
  | .inRead => true
  | .out => true
  | _ => false

theorem above_plain {f : Frame} {k : List Frame} (h : f.plain = true) (hk : Calm k) :
    Above f k where
  calm := hk.tr
  loops hf := by cases f <;> simp_all [Frame.plain, Frame.delivering]
  once hf := by cases f <;> simp_all [Frame.plain, Frame.delivering]
  err1 ex c hf := by subst hf; cases h
  err2 ex c d hf := by subst hf; cases h
  err3 c d hf := by subst hf; cases h
  err4 d hf := by subst hf; cases h
  succ2 n hf := by subst hf; cases h
  destroy hf := by subst hf; cases h
  reading d hd := absurd hd (hk.lp d)

/-- Frames that need a guard below them. -/
def Frame.needsGuard : Frame → Bool
  | .err1 _ _ => true
  | .err2 _ _ _ => true
  | .err3 _ _ => true
  | .err4 _ => true
  | .succ2 _ => true
  | _ => false

theorem above_guard {f : Frame} {k : List Frame} (h : f.needsGuard = true) (hk : Calm k)
    (hg : 0 < guards k) : Above f k where
  calm := hk.tr
  loops hf := by cases f <;> simp_all [Frame.needsGuard, Frame.delivering]
  once hf := by cases f <;> simp_all [Frame.needsGuard, Frame.delivering]
  err1 _ _ _ := hg
  err2 _ _ _ _ := hg
  err3 _ _ _ := hg
  err4 _ _ := hg
  succ2 _ _ := hg
  destroy hf := by subst hf; cases h
  reading d hd := absurd hd (hk.lp d)

theorem above_inRead {d : Option Bytes} {k : List Frame} : Above .inRead (.loop d :: k) where
  calm g hg := by cases Option.some.inj hg; rfl
  loops hf := by cases hf
  once hf := by cases hf
  err1 ex c hf := by cases hf
  err2 ex c d hf := by cases hf
  err3 c d hf := by cases hf
  err4 d hf := by cases hf
  succ2 n hf := by cases hf
  destroy hf := by cases hf
  reading _ _ := rfl

theorem above_delivering {f : Frame} {k : List Frame} (h : f.delivering = true)
    (hk : k.head? = some .setRest ∨ k.head? = some .unguard)
    (ho : ∀ g ∈ k, Frame.delivering g = false) : Above f k where
  calm g hg := by
    rcases hk with hk | hk <;> (rw [hk] at hg; cases Option.some.inj hg; rfl)
  loops _ := hk
  once _ := ho
  err1 ex c hf := by subst hf; cases h
  err2 ex c d hf := by subst hf; cases h
  err3 c d hf := by subst hf; cases h
  err4 d hf := by subst hf; cases h
  succ2 n hf := by subst hf; cases h
  destroy hf := by subst hf; cases h
  reading d hd := by
    rcases hk with hk | hk <;> (rw [hk] at hd; cases hd)

theorem above_destroy {k : List Frame} (hk : Calm k) (he : exposed k = false)
    (hd : Frame.destroy2 ∉ k) : Above .destroy2 k where
  calm := hk.tr
  loops hf := by cases hf
  once hf := by cases hf
  err1 ex c hf := by cases hf
  err2 ex c d hf := by cases hf
  err3 c d hf := by cases hf
  err4 d hf := by cases hf
  succ2 n hf := by cases hf
  destroy _ := ⟨he, hd⟩
  reading d hd := absurd hd (hk.lp d)

theorem calm_unguard (k : List Frame) : Calm (.unguard :: k) := calm_cons rfl (by simp)

theorem guard_unguard (k : List Frame) : 0 < guards (.unguard :: k) := by
  rw [guards_cons, if_pos rfl]; omega

/-- Entering `deliverError`. -/
theorem ons_error {ex : Ex} {c : Bool} {k : List Frame} (hk : Calm k) :
    Ons [.err1 ex c, .unguard] k :=
  ⟨above_guard rfl (calm_unguard k) (guard_unguard k), above_plain rfl hk, trivial⟩

end Fizz.Async

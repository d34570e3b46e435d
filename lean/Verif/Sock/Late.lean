import Verif.Sock.Prefix

/-!
# Success is reported only when it is due
-/

namespace Fizz.Sock

open Spec

/-- The rest of the reaction to success. -/
def LateF (f : Frame) : Prop := f = .hsCb ∨ f = .replay

/-- It runs only after full success. -/
def Late (s : St) : Prop := ∀ f ∈ s.stack, LateF f → 2 ≤ s.phase

theorem Late.grow {s t : St} {fs} (h : Late s) (hst : t.stack = fs ++ s.stack) (hp : s.phase ≤ t.phase)
    (hf : ∀ f ∈ fs, LateF f → 2 ≤ t.phase) : Late t := by
  intro f m hl
  rw [hst] at m
  rcases List.mem_append.1 m with q | q
  · exact hf f q hl
  · exact Nat.le_trans (h f q hl) hp

theorem Late.pop {s t : St} {g rest fs} (h : Late s) (hs : s.stack = g :: rest) (hst : t.stack = fs ++ rest)
    (hp : s.phase ≤ t.phase) (hf : ∀ f ∈ fs, LateF f → 2 ≤ t.phase) : Late t := by
  intro f m hl
  rw [hst] at m
  rcases List.mem_append.1 m with q | q
  · exact hf f q hl
  · exact Nat.le_trans (h f (by rw [hs]; exact List.mem_cons_of_mem _ q) hl) hp

theorem errStep_phase (s : St) (rest p) : (s.errStep rest p).phase = s.phase := by
  cases p with
  | hs => simp [St.errStep]
  | unreplay => simp [St.errStep]
  | pendHs =>
    simp only [St.errStep]
    rcases list_cases s.hsPend with hq | ⟨w, ws, hq⟩
    · rw [pendHs1_nil hq]
    · rw [pendHs1_cons hq]; simp
  | pendEarly =>
    simp only [St.errStep]
    rcases earlyPend_cases s with he0 | ⟨e, w, ws, he, hq⟩
    · rw [pendEarly1_nil he0]
    · rw [pendEarly1_cons he hq]; simp
  | move => simp only [St.errStep]; split <;> simp
  | drain =>
    simp only [St.errStep]
    rcases list_cases s.queue with hq | ⟨e, q, hq⟩
    · rw [drain1_nil hq]
    · rw [drain1_cons hq]; simp
  | fin => simp [St.errStep, St.say]

theorem visit_phase (cfg) (s : St) (a) : (s.visit cfg a).phase =
    (match a with | .earlyOk _ => 1 | .success .. => 2 | _ => s.phase) := by
  cases a with
  | earlyOk m =>
                 simp only [St.visit]
                 split
                 · split <;> simp
                 · simp
  | success =>
                 simp only [St.visit]
                 split
                 · split <;> simp
                 · simp
  | error => rfl
  | fallback =>
                simp only [St.visit]
                split
                · split <;> simp
                · rfl
  | earlyFailed t => cases t <;> rfl
  | mutate => rfl
  | other => rfl

theorem Late.kind {cfg s s'} (h : Late s) (k : Kind cfg s s') : Late s' := by
  cases k with
  | connect c v =>
    obtain ⟨f, h1, hl⟩ := connect_stack cfg s c v
    refine h.grow (fs := [f]) h1 (by simp) ?_
    rcases hl with ⟨rfl, _⟩ | ⟨rfl | rfl, _⟩ <;> simp [LateF]
  | sockConnected => exact h.grow (fs := [.acts]) rfl (Nat.le_refl _) (by simp [LateF])
  | write d c =>
    obtain ⟨fs, h1, hl⟩ := write_stack cfg s d c
    refine h.grow h1 (by simp) fun f hf => ?_
    rcases hl f hf with q | q | ⟨n, q⟩ <;> simp [q, LateF]
  | close k =>
    obtain ⟨fs, h1, hl⟩ := close_stack s k
    refine h.grow h1 (by simp) fun f hf => ?_
    rcases hl f hf with q | q | q | q <;> simp [q, LateF]
  | submit e =>
    obtain ⟨fs, h1, hl⟩ := enter_stack (s.submit e)
    exact h.grow h1 (by simp) fun f hf => by simp [hl f hf, LateF]
  | setReplay b => exact h.grow (fs := []) rfl (Nat.le_refl _) (by simp)
  | transportError => exact h.grow (fs := [.err .hs]) rfl (Nat.le_refl _) (by simp [LateF])
  | data =>
    obtain ⟨fs, h1, hl⟩ := enter_stack s
    exact h.grow h1 (by simp) fun f hf => by simp [hl f hf, LateF]
  | env g e c => exact h.grow (fs := []) rfl (Nat.le_refl _) (by simp)
  | ret rest hs => exact h.pop (fs := []) hs rfl (Nat.le_refl _) (by simp)
  | count n rest hs => exact h.pop (fs := []) hs rfl (Nat.le_refl _) (by simp)
  | countFires n rest hs =>
    obtain ⟨fs, h1, hl⟩ := enter_stack (St.submit { s with stack := rest, bytes := 0 } (.keyUpdate true))
    exact h.pop hs h1 (by simp) fun f hf => by simp [hl f hf, LateF]
  | doFail rest hs => exact h.pop (fs := [.err .hs]) hs rfl (Nat.le_refl _) (by simp [LateF])
  | err p rest hs =>
    obtain ⟨fs, h1, h2, _⟩ := errStep_stack s rest p
    refine h.pop hs h1 (by rw [errStep_phase]; exact Nat.le_refl _) fun f hf => ?_
    rcases h2 f hf with q | ⟨p', q⟩ <;> simp [q, LateF]
  | hsCb rest hs =>
    obtain ⟨fs, h1, hl⟩ := hsSuccess_stack { s with stack := rest }
    exact h.pop hs h1 (by simp) fun f hf => by simp [hl f hf, LateF]
  | replay rest hs => exact h.pop (fs := [.out]) hs rfl (Nat.le_refl _) (by simp [LateF])
  | noReplay rest hs => exact h.pop (fs := []) hs rfl (Nat.le_refl _) (by simp)
  | take e q rest hs => exact h.grow (fs := [.acts]) rfl (Nat.le_refl _) (by simp [LateF])
  | sock rest hs => exact h.grow (fs := [.acts]) rfl (Nat.le_refl _) (by simp [LateF])
  | stop rest hs => exact h.pop (fs := []) hs rfl (Nat.le_refl _) (by simp)
  | visit a rest hs hm =>
    obtain ⟨fs, h1, hl⟩ := visit_stack cfg s a
    have hp := visit_phase cfg s a
    cases a with
    | earlyOk m =>
      simp [St.mayVisit] at hm
      refine h.grow h1 (by rw [hp]; simp [hm.1]) fun f hf hlf => ?_
      exfalso
      revert h1
      simp only [St.visit]
      have gen : ∀ t : St, t.stack = s.stack → t.hsSuccess.stack = fs ++ s.stack → False := by
        intro t ht h1
        obtain ⟨gs, h3, hg⟩ := hsSuccess_stack t
        rw [h3, ht] at h1
        have := List.append_cancel_right h1
        subst this
        rw [hg f hf] at hlf
        simp [LateF] at hlf
      split
      · split
        · exact gen _ rfl
        · intro h1
          have h1 : [Frame.err .hs] ++ s.stack = fs ++ s.stack := h1
          have := List.append_cancel_right h1
          subst this
          rw [List.mem_singleton.1 hf] at hlf
          simp [LateF] at hlf
      · exact gen _ rfl
    | success a now old =>
      simp [St.mayVisit] at hm
      exact h.grow h1 (by rw [hp]; simp; omega) fun f hf hlf => by rw [hp]; simp
    | error => exact h.grow (fs := [.err .hs]) rfl (Nat.le_refl _) (by simp [LateF])
    | fallback =>
      simp only [St.visit]
      split
      · split
        · exact h.grow (fs := [.out]) rfl (Nat.le_refl _) (by simp [LateF])
        · exact h
      · exact h
    | earlyFailed t =>
      cases t with
      | none => exact h
      | some i => exact h.grow (fs := [.out]) rfl (Nat.le_refl _) (by simp [LateF])
    | mutate e c => exact h.grow (fs := []) rfl (Nat.le_refl _) (by simp)
    | other => exact h.grow (fs := [.out]) rfl (Nat.le_refl _) (by simp [LateF])
  | done rest hs =>
    obtain ⟨fs, h1, hl⟩ := enter_stack { s with stack := rest, guard := false }
    exact h.pop hs h1 (by simp) fun f hf => by simp [hl f hf, LateF]
  | suspend rest hs => exact h.pop (fs := []) hs rfl (Nat.le_refl _) (by simp)
  | resumed => exact h.grow (fs := [.acts]) rfl (Nat.le_refl _) (by simp [LateF])

theorem Reach.late {cfg s} (h : Reach cfg s) : Late s := by
  induction h with
  | init g e c => intro f m; cases m
  | step _ hs ih => exact ih.kind (step_kind hs)

end Fizz.Sock

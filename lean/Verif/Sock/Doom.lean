import Verif.Sock.Stream

/-!
# Early data: the limit, the refusal, and what is safe from replay
-/

namespace Fizz.Sock

open Spec

/-- How each step changes the stack below a running `deliverAllErrors`. -/
theorem kind_err {cfg s s'} (k : Kind cfg s s') :
    (∃ p rest fs, s.stack = .err p :: rest ∧ s'.stack = fs ++ rest ∧ s'.guard = s.guard ∧
      (.acts ∉ fs) ∧ (s.extErr = true → s'.extErr = true) ∧
      (Early1 p → s'.extErr = true ∨ ∃ p', Early1 p' ∧ Frame.err p' ∈ fs)) ∨
    ((∀ p rest, s.stack ≠ .err p :: rest) ∧ s'.extErr = s.extErr) := by
  by_cases hp : ∃ p rest, s.stack = .err p :: rest
  · obtain ⟨p, rest, hs⟩ := hp
    left
    have no : s.outside = false := by unfold St.outside; rw [hs]
    cases k with
    | err p' rest' hs' =>
      rw [hs] at hs'
      cases hs'
      obtain ⟨fs, h1, h2, _, h3⟩ := errStep_stack s rest p
      obtain ⟨g1, _, g3⟩ := errStep_guard s rest p
      refine ⟨p, rest, fs, hs, h1, g1, ?_, g3, h3⟩
      intro m
      rcases h2 _ m with q | ⟨_, q⟩ <;> cases q
    | connect _ _ ho | sockConnected ho | write _ _ ho | close _ ho | submit _ ho | setReplay _ ho | transportError ho
    | data ho | env _ _ _ ho | resumed ho => rw [no] at ho; cases ho
    | ret _ h | count _ _ h | countFires _ _ h | doFail _ h | hsCb _ h | replay _ h | noReplay _ h | take _ _ _ h
    | sock _ h | stop _ h | visit _ _ h | done _ h | suspend _ h => rw [hs] at h; cases h
  · right
    refine ⟨fun p rest h => hp ⟨p, rest, h⟩, ?_⟩
    cases k with
    | err p rest hs => exact absurd ⟨p, rest, hs⟩ hp
    | visit a rest hs hm =>
      cases a <;> simp only [St.visit]
      · split
        · split <;> simp
        · simp
      · split
        · split <;> simp
        · simp
      · simp
      · split
        · split <;> simp
        · simp
      · rename_i t; cases t <;> simp
      · simp
    | _ => simp

/-- The state machine will not run again: the connection has failed, or is failing while actions are
being visited. -/
def Doomed (s : St) : Prop :=
  s.extErr = true ∨ (s.guard = true ∧ ∃ x c, s.stack = x ++ .acts :: c ∧ .acts ∉ x ∧ ∃ p, Early1 p ∧ Frame.err p ∈ x)

theorem Doomed.kind {cfg s s'} (h : Doomed s) (hg : Guarded s) (k : Kind cfg s s') : Doomed s' := by
  rcases h with h | ⟨hgu, x, c, hst, hna, p, hp, hpx⟩
  · rcases kind_err k with ⟨_, _, _, _, _, _, _, h5, _⟩ | ⟨_, h2⟩
    · exact .inl (h5 h)
    · exact .inl (h2.trans h)
  · rcases kind_err k with ⟨p', rest, fs, h1, h2, h3, h4, _, h6⟩ | ⟨h1, h2⟩
    · -- the error runs
      cases x with
      | nil => cases hpx
      | cons f x =>
        rw [h1] at hst
        injection hst with e1 e2
        subst e1
        have base : ∀ q, Early1 q → Frame.err q ∈ fs ++ x → Doomed s' := by
          intro q hq hm
          refine .inr ⟨h3.trans hgu, fs ++ x, c, by rw [h2, e2, List.append_assoc]; rfl, ?_, q, hq, hm⟩
          intro m
          rcases List.mem_append.1 m with m | m
          · exact h4 m
          · exact hna (List.mem_cons_of_mem _ m)
        rcases List.mem_cons.1 hpx with e | m
        · injection e with e
          subst e
          rcases h6 hp with w | ⟨q, hq, hm⟩
          · exact .inl w
          · exact base q hq (List.mem_append_left _ hm)
        · exact base p hp (List.mem_append_right _ m)
    · obtain ⟨old, fs, ⟨⟨rest, d1, d2⟩, _, hold⟩, _, hd⟩ := kind_delta k
      have hsu : s.susp = false := by
        unfold Guarded at hg
        rw [hst, List.count_append, List.count_cons, hgu] at hg
        cases hs : s.susp with
        | false => rfl
        | true => rw [hs] at hg; simp [one] at hg
      -- what is popped is not the error
      have key : .acts ∉ fs → s'.guard = s.guard → Doomed s' := by
        intro hf hg'
        have : ∃ x', s'.stack = x' ++ .acts :: c ∧ .acts ∉ x' ∧ Frame.err p ∈ x' := by
          rcases hold with rfl | ⟨g, rfl⟩
          · refine ⟨fs ++ x, by rw [d2, ← List.nil_append rest, ← d1, hst, List.append_assoc], ?_, List.mem_append_right _ hpx⟩
            intro m
            rcases List.mem_append.1 m with m | m
            · exact hf m
            · exact hna m
          · cases x with
            | nil => cases hpx
            | cons f x =>
              rw [hst] at d1
              injection d1 with e1 e2
              subst e1
              refine ⟨fs ++ x, by rw [d2, List.append_assoc]; rw [show rest = x ++ .acts :: c from e2.symm], ?_, List.mem_append_right _ ?_⟩
              · intro m
                rcases List.mem_append.1 m with m | m
                · exact hf m
                · exact hna (List.mem_cons_of_mem _ m)
              · rcases List.mem_cons.1 hpx with e | m
                · exact absurd (by rw [hst, ← e]; rfl) (h1 p _)
                · exact m
        obtain ⟨x', a1, a2, a3⟩ := this
        exact .inr ⟨hg'.trans hgu, x', c, a1, a2, p, hp, a3⟩
      rcases hd with ⟨_, b, c', _⟩ | ⟨_, _, _, _, e⟩ | ⟨gs, rfl, rfl, b, _, _⟩ | ⟨rfl, _, _, _⟩ | ⟨_, _, _, _, e⟩
      · exact key b c'
      · rw [hgu] at e; cases e
      · exfalso
        rw [hst] at d1
        cases x with
        | nil => cases hpx
        | cons f x => injection d1 with e1; exact hna (e1 ▸ List.mem_cons_self)
      · exfalso
        rw [hst] at d1
        cases x with
        | nil => cases hpx
        | cons f x => injection d1 with e1; exact hna (e1 ▸ List.mem_cons_self)
      · rw [hsu] at e; cases e

end Fizz.Sock

import Verif.Base

/-!
# Parameter negotiation — model of `fizz/server/Negotiator.h`, and C14
-/

namespace Fizz.Negotiate
variable {T : Type} [DecidableEq T]

/-- One iteration of the loop of `negotiate` (`fizz/server/Negotiator.h:29-41`). -/
def tryTier (tier client : List T) : Option T :=
  match tier with
  | [only] => if only ∈ client then some only else none
  | _ => client.find? (fun pref => decide (pref ∈ tier))

/-- `negotiate(tiers, clientPref)` (`fizz/server/Negotiator.h:24-44`). -/
def negotiateTiers : List (List T) → List T → Option T
  | [], _ => none
  | tier :: tiers, client =>
    match tryTier tier client with
    | some pref => some pref
    | none => negotiateTiers tiers client

/-- `negotiate(serverPref, clientPref)` (`fizz/server/Negotiator.h:50-61`). -/
def negotiateFlat (server client : List T) : Option T :=
  server.find? (fun pref => decide (pref ∈ client))

/-- `v` is the first element of `l` that satisfies `p`. -/
def FirstIn (l : List T) (p : T → Prop) (v : T) : Prop :=
  p v ∧ ∃ before after, l = before ++ v :: after ∧ ∀ x ∈ before, ¬ p x

omit [DecidableEq T] in
theorem find_firstIn (l : List T) (p : T → Prop) [DecidablePred p] (v : T) :
    l.find? (fun x => decide (p x)) = some v ↔ FirstIn l p v := by
  rw [List.find?_eq_some_iff_append]
  simp [FirstIn]

theorem tryTier_eq (tier client : List T) :
    tryTier tier client = client.find? (fun pref => decide (pref ∈ tier)) := by
  unfold tryTier
  split
  · rename_i only
    by_cases h : only ∈ client
    · rw [if_pos h]
      cases hf : client.find? (fun pref => decide (pref ∈ [only])) with
      | some p =>
        have := List.find?_some hf
        simp at this; rw [this]
      | none =>
        simp only [List.find?_eq_none, decide_eq_true_eq, List.mem_singleton] at hf
        exact absurd rfl (hf only h)
    · rw [if_neg h]
      symm
      simp only [List.find?_eq_none, decide_eq_true_eq, List.mem_singleton]
      rintro x hx rfl; exact h hx
  · rfl

theorem step_some (tier client : List T) (rest : Option T) (v : T) :
    (match tryTier tier client with
        | some pref => some pref
        | none => rest) = some v ↔
      FirstIn client (· ∈ tier) v ∨ ((∀ x ∈ tier, x ∉ client) ∧ rest = some v) := by
  rw [tryTier_eq]
  cases hf : client.find? (fun pref => decide (pref ∈ tier)) with
  | some p =>
    have hp := (find_firstIn client (· ∈ tier) p).mp hf
    simp only [Option.some.injEq]
    constructor
    · rintro rfl; exact Or.inl hp
    · rintro (h | ⟨h, -⟩)
      · have := (find_firstIn client (· ∈ tier) v).mpr h
        rw [hf] at this; simpa using this
      · obtain ⟨h1, a, b, rfl, -⟩ := hp
        exact absurd (by simp) (h p h1)
  | none =>
    simp only [List.find?_eq_none, decide_eq_true_eq] at hf
    constructor
    · intro h; exact Or.inr ⟨fun x hx hc => hf x hc hx, h⟩
    · rintro (⟨h1, a, b, rfl, -⟩ | ⟨-, h⟩)
      · exact absurd h1 (hf v (by simp))
      · exact h

/-- C14: with preference tiers, the result is exactly the client's most preferred member of the
first tier that has anything in common with the client. -/
theorem C14_tiers (tiers : List (List T)) (client : List T) (v : T) :
    negotiateTiers tiers client = some v ↔
      ∃ higher tier lower, tiers = higher ++ tier :: lower ∧
        (∀ t ∈ higher, ∀ x ∈ t, x ∉ client) ∧ FirstIn client (· ∈ tier) v := by
  induction tiers with
  | nil => simp [negotiateTiers]
  | cons tier tiers ih =>
    rw [negotiateTiers, step_some, ih]
    constructor
    · rintro (h | ⟨h, higher, t, lower, rfl, g1, g2⟩)
      · exact ⟨[], tier, tiers, rfl, by simp, h⟩
      · refine ⟨tier :: higher, t, lower, rfl, ?_, g2⟩
        intro t' ht
        rcases List.mem_cons.mp ht with rfl | ht
        · exact h
        · exact g1 t' ht
    · rintro ⟨higher, t, lower, h, g1, g2⟩
      cases higher with
      | nil => cases h; exact Or.inl g2
      | cons a higher =>
        cases h
        exact Or.inr ⟨g1 _ List.mem_cons_self, higher, t, lower, rfl,
          fun t' ht => g1 t' (List.mem_cons_of_mem _ ht), g2⟩

/-- C14: a value is found iff the two sides have one in common. -/
theorem C14_tiers_complete (tiers : List (List T)) (client : List T) :
    (∃ v, negotiateTiers tiers client = some v) ↔ ∃ t ∈ tiers, ∃ x ∈ t, x ∈ client := by
  induction tiers with
  | nil => simp [negotiateTiers]
  | cons tier tiers ih =>
    have hs := step_some tier client (negotiateTiers tiers client)
    simp only [negotiateTiers, hs]
    constructor
    · rintro ⟨v, ⟨h1, a, b, rfl, -⟩ | ⟨-, h⟩⟩
      · exact ⟨tier, List.mem_cons_self, v, h1, by simp⟩
      · obtain ⟨t, ht, x⟩ := ih.mp ⟨v, h⟩
        exact ⟨t, List.mem_cons_of_mem _ ht, x⟩
    · rintro ⟨t, ht, x, hx, hc⟩
      by_cases hany : ∃ y ∈ tier, y ∈ client
      · obtain ⟨y, hy, hyc⟩ := hany
        cases hf : client.find? (fun pref => decide (pref ∈ tier)) with
        | some v => exact ⟨v, Or.inl ((find_firstIn _ _ _).mp hf)⟩
        | none =>
          simp only [List.find?_eq_none, decide_eq_true_eq] at hf
          exact absurd hy (hf y hyc)
      · have hno : ∀ y ∈ tier, y ∉ client := fun y hy hyc => hany ⟨y, hy, hyc⟩
        rcases List.mem_cons.mp ht with rfl | ht
        · exact absurd hc (hno x hx)
        · obtain ⟨v, hv⟩ := ih.mpr ⟨t, ht, x, hx, hc⟩
          exact ⟨v, Or.inr ⟨hno, hv⟩⟩

/-- C14: the result is always offered by the client and configured by the server. -/
theorem C14_tiers_member (tiers : List (List T)) (client : List T) (v : T)
    (h : negotiateTiers tiers client = some v) : v ∈ client ∧ ∃ t ∈ tiers, v ∈ t := by
  obtain ⟨higher, tier, lower, rfl, -, h1, a, b, rfl, -⟩ := (C14_tiers _ _ _).mp h
  exact ⟨by simp, tier, by simp, h1⟩

/-- C14: without tiers, the result is the server's most preferred common value, and one is found
iff there is one. -/
theorem C14_flat (server client : List T) :
    (∀ v, negotiateFlat server client = some v ↔ FirstIn server (· ∈ client) v) ∧
    ((∃ v, negotiateFlat server client = some v) ↔ ∃ x ∈ server, x ∈ client) := by
  refine ⟨fun v => find_firstIn _ _ _, ?_⟩
  unfold negotiateFlat
  constructor
  · rintro ⟨v, h⟩
    exact ⟨v, List.mem_of_find?_eq_some h, by simpa using List.find?_some h⟩
  · rintro ⟨x, h1, h2⟩
    cases hf : server.find? (fun pref => decide (pref ∈ client)) with
    | some v => exact ⟨v, rfl⟩
    | none => simp only [List.find?_eq_none, decide_eq_true_eq] at hf; exact absurd h2 (hf x h1)

example : negotiateTiers [[1], [2, 3], [4]] [4, 3, 2] = some 3 := by decide
example : negotiateTiers [[1], [2, 3], [4]] [5] = none := by decide
example : negotiateFlat [1, 2, 3] [3, 2] = some 2 := by decide

end Fizz.Negotiate

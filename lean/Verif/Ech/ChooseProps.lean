import Verif.Ech.Crypt
import Verif.Ech.ChooseSpec

/-!
# The client chooses the first configuration it can use (C68)
-/

namespace Fizz.Ech
open Fizz Fizz.Codec
open Fizz.Ech.Spec (Ldh dotted ValidName Usable SuiteOk FirstSuite Works)

theorem hasMandatory_iff (c : ConfigContent) : hasMandatory c = false ↔ ∀ x ∈ c.extensions, x.extension_type.toNat < 0x8000 := by
  have key : ∀ t : UInt16, t &&& 0x8000 = 0 ↔ t.toNat < 0x8000 := by
    intro t
    rw [← UInt16.toNat_inj]
    have : (t &&& 0x8000).toNat = t.toNat &&& 0x8000 := by simp
    rw [this]
    have hlt := t.toNat_lt
    have hb : t.toNat &&& 0x8000 = 0 ↔ t.toNat.testBit 15 = false := by
      rw [show (0x8000 : Nat) = 2 ^ 15 from rfl]
      constructor
      · intro h
        have := congrArg (fun n => Nat.testBit n 15) h
        simp only [Nat.testBit_and, Nat.testBit_two_pow_self, Nat.zero_testBit, Bool.and_true] at this
        exact this
      · intro h
        refine Nat.eq_of_testBit_eq fun i => ?_
        rw [Nat.testBit_and, Nat.testBit_two_pow, Nat.zero_testBit]
        by_cases hi : 15 = i
        · subst hi; simp [h]
        · simp [hi]
    rw [show (0 : UInt16).toNat = 0 from rfl, hb, Nat.testBit_eq_decide_div_mod_eq, decide_eq_false_iff_not]
    omega
  unfold hasMandatory
  rw [List.any_eq_false]
  constructor
  · intro h x hx
    have := h x hx
    simp only [bne_iff_ne, ne_eq, Decidable.not_not] at this
    exact (key _).1 this
  · intro h x hx
    simp only [bne_iff_ne, ne_eq, Decidable.not_not]
    exact (key _).2 (h x hx)

theorem ldh_iff (b : UInt8) : ldh b = true ↔ Ldh b := by
  unfold ldh Ldh
  simp only [Bool.or_eq_true, Bool.and_eq_true, decide_eq_true_eq, UInt8.le_iff_toNat_le, beq_iff_eq, ← UInt8.toNat_inj]
  constructor
  · rintro (((h | h) | h) | h)
    · exact .inl h
    · exact .inr (.inl h)
    · exact .inr (.inr (.inl h))
    · exact .inr (.inr (.inr h))
  · rintro (h | h | h | h)
    · exact .inl (.inl (.inl h))
    · exact .inl (.inl (.inr h))
    · exact .inl (.inr h)
    · exact .inr h

theorem splitDots_ne (n : Bytes) : splitDots n ≠ [] := by
  cases n with
  | nil => simp [splitDots]
  | cons b bs =>
    unfold splitDots
    split
    · simp
    · split <;> simp

theorem splitDots_cons (b : UInt8) (bs : Bytes) : ∃ p ps, splitDots bs = p :: ps ∧
    splitDots (b :: bs) = if b = 46 then [] :: p :: ps else (b :: p) :: ps := by
  cases h : splitDots bs with
  | nil => exact absurd h (splitDots_ne bs)
  | cons p ps => exact ⟨p, ps, rfl, by rw [splitDots, h]⟩

theorem dotted_splitDots : ∀ n : Bytes, dotted (splitDots n) = n
  | [] => rfl
  | b :: bs => by
    obtain ⟨p, ps, h1, h2⟩ := splitDots_cons b bs
    have ih := dotted_splitDots bs
    rw [h1] at ih
    rw [h2]
    split
    · next h => rw [dotted, ih, h]; rfl
    · cases ps with
      | nil => simp only [dotted] at ih ⊢; rw [ih]
      | cons q qs => simp only [dotted] at ih ⊢; rw [List.cons_append, ih]

theorem splitDots_dotted : ∀ ls : List Bytes, ls ≠ [] → (∀ l ∈ ls, 46 ∉ l) → splitDots (dotted ls) = ls
  | [], h, _ => absurd rfl h
  | [l], _, h => by
    have hl : 46 ∉ l := h l (by simp)
    simp only [dotted]
    clear h
    induction l with
    | nil => rfl
    | cons b bs ih =>
      rw [List.mem_cons] at hl
      obtain ⟨p, ps, h1, h2⟩ := splitDots_cons b bs
      rw [h2, if_neg (fun h => hl (.inl h.symm))]
      rw [ih (by simp) (fun h => hl (.inr h))] at h1
      simp only [List.cons.injEq] at h1
      rw [← h1.1, ← h1.2]
  | l :: l' :: ls, _, h => by
    have ih := splitDots_dotted (l' :: ls) (by simp) (fun x hx => h x (List.mem_cons_of_mem _ hx))
    have hl : 46 ∉ l := h l (by simp)
    simp only [dotted]
    clear h
    induction l with
    | nil =>
      obtain ⟨p, ps, h1, h2⟩ := splitDots_cons 46 (dotted (l' :: ls))
      rw [List.nil_append, h2, if_pos rfl, ← h1, ih]
    | cons b bs ihb =>
      rw [List.mem_cons] at hl
      have := ihb (by simp) (fun h => hl (.inr h))
      obtain ⟨p, ps, h1, h2⟩ := splitDots_cons b (bs ++ 46 :: dotted (l' :: ls))
      rw [List.cons_append, h2, if_neg (fun h => hl (.inl h.symm))]
      rw [this] at h1
      simp only [List.cons.injEq] at h1
      rw [← h1.1, ← h1.2]

theorem dotted_head {b : UInt8} : ∀ ls : List Bytes, (∀ l ∈ ls, l ≠ []) → (dotted ls).head? = some b →
    ∃ l ∈ ls, b ∈ l
  | [], _, h => by simp [dotted] at h
  | [l], _, h => ⟨l, by simp, List.mem_of_mem_head? h⟩
  | l :: l' :: ls, hne, h => by
    simp only [dotted] at h
    have hl := hne l (by simp)
    cases l with
    | nil => exact absurd rfl hl
    | cons c cs =>
      simp only [List.cons_append, List.head?_cons, Option.some.injEq] at h
      exact ⟨c :: cs, by simp, by simp [h]⟩

theorem dotted_last {b : UInt8} : ∀ ls : List Bytes, (∀ l ∈ ls, l ≠ []) → (dotted ls).getLast? = some b →
    ∃ l ∈ ls, b ∈ l
  | [], _, h => by simp [dotted] at h
  | [l], _, h => ⟨l, by simp, List.mem_of_mem_getLast? h⟩
  | l :: l' :: ls, hne, h => by
    simp only [dotted] at h
    have hd : dotted (l' :: ls) ≠ [] := by
      have hl := hne l' (by simp)
      cases ls with
      | nil => exact hl
      | cons q qs => simp only [dotted]; simp
    obtain ⟨c, cs, hc⟩ : ∃ c cs, dotted (l' :: ls) = c :: cs := List.exists_cons_of_ne_nil hd
    have : (dotted (l' :: ls)).getLast? = some b := by
      rw [List.getLast?_append, hc, List.getLast?_cons_cons] at h
      rw [hc]
      cases hg : (c :: cs).getLast? with
      | none => simp at hg
      | some z => rw [hg] at h; simpa using h
    obtain ⟨x, hx, hb⟩ := dotted_last (l' :: ls) (fun x hx => hne x (List.mem_cons_of_mem _ hx)) this
    exact ⟨x, List.mem_cons_of_mem _ hx, hb⟩

theorem validName_iff (n : Bytes) : validName n = true ↔ ValidName n := by
  unfold validName ValidName
  simp only [Bool.and_eq_true, Bool.not_eq_true', List.isEmpty_eq_false_iff, bne_iff_ne, ne_eq, List.all_eq_true, ldh_iff]
  constructor
  · rintro ⟨_, h⟩
    exact ⟨splitDots n, splitDots_ne n, (dotted_splitDots n).symm, h⟩
  · rintro ⟨ls, h1, rfl, h2⟩
    have hdot : ∀ l ∈ ls, 46 ∉ l := by
      intro l hl hm
      have := (h2 l hl).2 46 hm
      unfold Ldh at this
      revert this; decide
    rw [splitDots_dotted ls h1 hdot]
    refine ⟨⟨⟨?_, ?_⟩, ?_⟩, h2⟩
    · cases ls with
      | nil => exact absurd rfl h1
      | cons l ls =>
        have := (h2 l (by simp)).1
        cases ls with
        | nil => exact this
        | cons q qs => simp [dotted]
    · intro h
      obtain ⟨l, hl, hb⟩ := dotted_head ls (fun l hl => (h2 l hl).1) h
      exact hdot l hl hb
    · intro h
      obtain ⟨l, hl, hb⟩ := dotted_last ls (fun l hl => (h2 l hl).1) h
      exact hdot l hl hb

theorem suiteOk_step {aeads : List UInt16} (ha : ∀ a ∈ aeads, a = 1 ∨ a = 2 ∨ a = 3) (s : Suite) :
    (s.aead ∈ aeads ∧ ∃ cs h, cipherSuite s.aead = .ok cs ∧ suiteHash cs = .ok h ∧ (s.kdf = kdfId h ↔ SuiteOk aeads s)) ∨
    (s.aead ∉ aeads ∧ ¬ SuiteOk aeads s) := by
  by_cases hm : s.aead ∈ aeads
  · left
    refine ⟨hm, ?_⟩
    obtain ⟨kdf, aead⟩ := s
    rcases ha _ hm with h | h | h <;> simp only at h <;> subst h
    · exact ⟨0x1301, .sha256, rfl, rfl, by simp only at hm; simp [SuiteOk, hm, kdfId]⟩
    · exact ⟨0x1302, .sha384, rfl, rfl, by simp only at hm; simp [SuiteOk, hm, kdfId]⟩
    · exact ⟨0x1303, .sha256, rfl, rfl, by simp only at hm; simp [SuiteOk, hm, kdfId]⟩
  · right; exact ⟨hm, fun h => hm h.1⟩

theorem chooseSuite_spec {aeads : List UInt16} (ha : ∀ a ∈ aeads, a = 1 ∨ a = 2 ∨ a = 3) : ∀ l : List Suite,
    (∃ s, chooseSuite aeads l = .ok (some s) ∧ FirstSuite aeads l s) ∨
    (chooseSuite aeads l = .ok none ∧ ∀ s ∈ l, ¬ SuiteOk aeads s)
  | [] => by right; simp [chooseSuite]
  | s :: ss => by
    have ih := chooseSuite_spec ha ss
    have skip : ¬ SuiteOk aeads s → chooseSuite aeads (s :: ss) = chooseSuite aeads ss →
        (∃ x, chooseSuite aeads (s :: ss) = .ok (some x) ∧ FirstSuite aeads (s :: ss) x) ∨
        (chooseSuite aeads (s :: ss) = .ok none ∧ ∀ x ∈ s :: ss, ¬ SuiteOk aeads x) := by
      intro hn he
      rw [he]
      rcases ih with ⟨x, h1, pre, post, rfl, h3, h4⟩ | ⟨h1, h2⟩
      · left
        refine ⟨x, h1, s :: pre, post, rfl, h3, ?_⟩
        intro y hy
        rcases List.mem_cons.1 hy with rfl | hy
        · exact hn
        · exact h4 y hy
      · right
        refine ⟨h1, ?_⟩
        intro y hy
        rcases List.mem_cons.1 hy with rfl | hy
        · exact hn
        · exact h2 y hy
    rcases suiteOk_step ha s with ⟨hm, cs, h, h1, h2, h3⟩ | ⟨hm, hn⟩
    · have hstep : chooseSuite aeads (s :: ss) = if s.kdf = kdfId h then .ok (some s) else chooseSuite aeads ss := by
        rw [chooseSuite, if_pos (by simpa using hm), h1, Res.ok_bind, h2]; rfl
      by_cases hk : s.kdf = kdfId h
      · left
        exact ⟨s, by rw [hstep, if_pos hk], [], ss, rfl, h3.1 hk, by simp⟩
      · exact skip (fun x => hk (h3.2 x)) (by rw [hstep, if_neg hk])
    · exact skip hn (by rw [chooseSuite, if_neg (by simpa using hm)])

/-- C68: the client takes the first configuration it can use, with the first of its suites that it can use, and
none only if there is none; it does not fail. -/
theorem C68_first (kems aeads : List UInt16) (ha : ∀ a ∈ aeads, a = 1 ∨ a = 2 ∨ a = 3) (configs : List ConfigContent) :
    (∃ pre c post s, configs = pre ++ c :: post ∧ (∀ x ∈ pre, ¬ Works kems aeads x) ∧ Usable kems c ∧
      FirstSuite aeads c.key.suites s ∧
      negotiate kems aeads configs = .ok (some ⟨c, c.key.configId, c.maxNameLen.toUInt16, s⟩)) ∨
    ((∀ x ∈ configs, ¬ Works kems aeads x) ∧ negotiate kems aeads configs = .ok none) := by
  induction configs with
  | nil => right; simp [negotiate]
  | cons c cs ih =>
    have skip : ¬ Works kems aeads c → negotiate kems aeads (c :: cs) = negotiate kems aeads cs →
        (∃ pre d post s, c :: cs = pre ++ d :: post ∧ (∀ x ∈ pre, ¬ Works kems aeads x) ∧ Usable kems d ∧
          FirstSuite aeads d.key.suites s ∧
          negotiate kems aeads (c :: cs) = .ok (some ⟨d, d.key.configId, d.maxNameLen.toUInt16, s⟩)) ∨
        ((∀ x ∈ c :: cs, ¬ Works kems aeads x) ∧ negotiate kems aeads (c :: cs) = .ok none) := by
      intro hn he
      rw [he]
      rcases ih with ⟨pre, d, post, s, rfl, h1, h2, h3, h4⟩ | ⟨h1, h2⟩
      · left
        refine ⟨c :: pre, d, post, s, rfl, ?_, h2, h3, h4⟩
        intro x hx
        rcases List.mem_cons.1 hx with rfl | hx
        · exact hn
        · exact h1 x hx
      · right
        refine ⟨?_, h2⟩
        intro x hx
        rcases List.mem_cons.1 hx with rfl | hx
        · exact hn
        · exact h1 x hx
    by_cases h1 : hasMandatory c = true
    · refine skip (fun h => ?_) (by rw [negotiate, if_pos h1])
      rw [(hasMandatory_iff c).2 h.1.1] at h1
      simp at h1
    · by_cases h2 : validName c.publicName = true
      · by_cases h3 : kems.contains c.key.kemId = true
        · have hu : Usable kems c :=
            ⟨(hasMandatory_iff c).1 (by simpa using h1), (validName_iff _).1 h2, by simpa using h3⟩
          have hstep : negotiate kems aeads (c :: cs) = (chooseSuite aeads c.key.suites >>= fun r =>
              match r with
              | some s => pure (some ⟨c, c.key.configId, c.maxNameLen.toUInt16, s⟩)
              | none => negotiate kems aeads cs) := by
            rw [negotiate, if_neg h1, if_neg (by simpa using h2), if_neg (by simpa using h3)]
            rfl
          rcases chooseSuite_spec ha c.key.suites with ⟨s, e1, e2⟩ | ⟨e1, e2⟩
          · left
            refine ⟨[], c, cs, s, rfl, by simp, hu, e2, ?_⟩
            rw [hstep, e1]; rfl
          · refine skip ?_ (by rw [hstep, e1]; rfl)
            rintro ⟨-, s, hs, hs'⟩
            exact e2 s hs hs'
        · refine skip (fun h => h3 (by simpa using h.1.2.2)) ?_
          rw [negotiate, if_neg h1, if_neg (by simpa using h2), if_pos (by simpa using h3)]
      · refine skip (fun h => h2 ((validName_iff _).2 h.1.2.1)) ?_
        rw [negotiate, if_neg h1, if_pos (by simpa using h2)]

/-- An example: the first configuration has a mandatory extension, the second a suite with the wrong KDF first. -/
example :
    let key (s) : KeyConfig := ⟨7, 0x20, [1, 2, 3], s⟩
    let c1 : ConfigContent := ⟨key [⟨1, 1⟩], 30, [97, 46, 98], [⟨0x8001, []⟩]⟩
    let c2 : ConfigContent := ⟨key [⟨1, 2⟩, ⟨1, 3⟩], 30, [97, 46, 98], [⟨1, []⟩]⟩
    negotiate [0x20] [2, 3] [c1, c2] = .ok (some ⟨c2, 7, 30, ⟨1, 3⟩⟩) ∧ Works [0x20] [2, 3] c2 ∧ ¬ Works [0x20] [2, 3] c1 := by
  refine ⟨by decide +kernel, ⟨⟨by decide, ⟨[[97], [98]], by decide, rfl, ?_⟩, by decide⟩, ⟨1, 3⟩, by decide, by decide, by decide⟩, ?_⟩
  · intro l hl
    simp only [List.mem_cons, List.not_mem_nil, or_false] at hl
    rcases hl with rfl | rfl
    · refine ⟨by simp, ?_⟩
      intro b hb; simp at hb; subst hb; unfold Ldh; decide
    · refine ⟨by simp, ?_⟩
      intro b hb; simp at hb; subst hb; unfold Ldh; decide
  · rintro ⟨⟨h, -⟩, -⟩
    have := h ⟨0x8001, []⟩ (by simp)
    revert this; decide

end Fizz.Ech

import Verif.Ech.Outer
import Verif.Ech.OuterSpec
import Verif.Ech.TypesProps

/-!
# References to outer extensions (C34)
-/

namespace Fizz.Ech
open Fizz Fizz.Codec
open Spec (types Expansion Contiguous)

/-! ## The server's side -/

theorem scan_eq_ok {t outer e rest} : scan t outer = .ok (e, rest) ↔
    ∃ pre, outer = pre ++ e :: rest ∧ e.extension_type = t ∧ ∀ x ∈ pre, x.extension_type ≠ t := by
  induction outer with
  | nil => simp [scan]
  | cons a l ih =>
    unfold scan
    by_cases h : a.extension_type = t
    · rw [if_pos h]
      constructor
      · intro hh
        simp only [Except.ok.injEq, Prod.mk.injEq] at hh
        obtain ⟨rfl, rfl⟩ := hh
        exact ⟨[], rfl, h, by simp⟩
      · rintro ⟨pre, h1, h2, h3⟩
        cases pre with
        | nil => simp at h1; simp [h1]
        | cons b pre =>
          simp at h1
          exact absurd (h1.1 ▸ h) (h3 b (by simp))
    · rw [if_neg h, ih]
      constructor
      · rintro ⟨pre, h1, h2, h3⟩
        refine ⟨a :: pre, by simp [h1], h2, ?_⟩
        intro x hx
        rcases List.mem_cons.1 hx with rfl | hx
        · exact h
        · exact h3 x hx
      · rintro ⟨pre, h1, h2, h3⟩
        cases pre with
        | nil => simp at h1; exact absurd (h1.1 ▸ h2) h
        | cons b pre =>
          simp at h1
          exact ⟨pre, h1.2, h2, fun x hx => h3 x (by simp [hx])⟩

theorem dupeCheck_eq_ok {seen t s} : dupeCheck seen t = .ok s ↔ t ∉ seen ∧ s = t :: seen := by
  unfold dupeCheck
  by_cases h : t ∈ seen <;> simp [h, eq_comm]

theorem expandRefs_ok : ∀ {ts seen outer picked s}, expandRefs ts seen outer = .ok (picked, s) →
    types picked = ts ∧ picked.Sublist outer ∧ 0xfe0d ∉ ts ∧ ts.Nodup ∧ (∀ t ∈ ts, t ∉ seen) ∧
      ∀ t, t ∈ s ↔ t ∈ ts ∨ t ∈ seen := by
  intro ts
  induction ts with
  | nil =>
    intro seen outer picked s h
    simp only [expandRefs, Except.ok.injEq, Prod.mk.injEq] at h
    obtain ⟨rfl, rfl⟩ := h
    simp [types]
  | cons t ts ih =>
    intro seen outer picked s h
    simp only [expandRefs, Res.bind_eq_ok, dupeCheck_eq_ok] at h
    obtain ⟨s1, ⟨h1, rfl⟩, h⟩ := h
    split at h
    · simp at h
    · next ht =>
      simp only [Res.bind_eq_ok, Prod.exists, Res.pure_eq, Except.ok.injEq, Prod.mk.injEq] at h
      obtain ⟨e, rest, h2, out, s2, h3, rfl, rfl⟩ := h
      obtain ⟨pre, rfl, h4, -⟩ := scan_eq_ok.1 h2
      obtain ⟨i1, i2, i3, i4, i5, i6⟩ := ih h3
      refine ⟨by simp [types] at i1 ⊢; exact ⟨h4, i1⟩, ?_, ?_, ?_, ?_, ?_⟩
      · exact List.sublist_append_of_sublist_right (i2.cons_cons e)
      · simp only [List.mem_cons, not_or]; exact ⟨fun hh => ht hh.symm, i3⟩
      · exact List.nodup_cons.2 ⟨fun hh => i5 t hh (by simp), i4⟩
      · intro x hx
        rcases List.mem_cons.1 hx with rfl | hx
        · exact h1
        · exact fun hh => i5 x hx (by simp [hh])
      · intro x
        rw [i6]
        simp only [List.mem_cons]
        constructor
        · rintro (a | a | a) <;> simp_all
        · rintro ((a | a) | a) <;> simp_all

theorem scan_sublist {outer p ps} (h : List.Sublist (p :: ps) outer) :
    ∃ e rest, scan p.extension_type outer = .ok (e, rest) ∧ ps.Sublist rest := by
  induction outer with
  | nil => simp at h
  | cons a l ih =>
    unfold scan
    by_cases ha : a.extension_type = p.extension_type
    · rw [if_pos ha]
      refine ⟨a, l, rfl, ?_⟩
      cases h with
      | cons _ h => exact (List.sublist_cons_self p ps).trans h
      | cons_cons _ h => exact h
    · rw [if_neg ha]
      cases h with
      | cons _ h => exact ih h
      | cons_cons _ h => exact absurd rfl ha

theorem expandRefs_of : ∀ {picked seen outer}, List.Sublist picked outer → 0xfe0d ∉ types picked →
    (types picked).Nodup → (∀ t ∈ types picked, t ∉ seen) →
    ∃ r, expandRefs (types picked) seen outer = .ok r := by
  intro picked
  induction picked with
  | nil => intro seen outer _ _ _ _; exact ⟨_, rfl⟩
  | cons p ps ih =>
    intro seen outer h1 h2 h3 h4
    obtain ⟨e, rest, hs, hsub⟩ := scan_sublist h1
    have h3' : p.extension_type ∉ types ps ∧ (types ps).Nodup := List.nodup_cons.1 h3
    have h2' : ¬ (0xfe0d = p.extension_type) ∧ 0xfe0d ∉ types ps := by
      simpa [types, not_or] using h2
    obtain ⟨⟨out, s⟩, hr⟩ := ih (seen := p.extension_type :: seen) hsub h2'.2 h3'.2 (by
      intro t ht
      simp only [List.mem_cons, not_or]
      refine ⟨?_, h4 t (by simp [types] at ht ⊢; exact .inr ht)⟩
      rintro rfl; exact h3'.1 ht)
    refine ⟨(e :: out, s), ?_⟩
    have hd : dupeCheck seen p.extension_type = .ok (p.extension_type :: seen) :=
      dupeCheck_eq_ok.2 ⟨h4 _ (by simp [types]), rfl⟩
    have hne : ¬ p.extension_type = tyEch := fun hh => h2'.1 hh.symm
    show expandRefs (p.extension_type :: types ps) seen outer = _
    simp only [expandRefs, hd, Res.ok_bind, if_neg hne, hs, hr, Res.pure_eq]

theorem parseRefs_eq_ok {d ts} : parseRefs d = .ok ts ↔
    2 * ts.length < 256 ∧ ∃ trailing, d = vec .u8 (ts.flatMap Codec.Spec.u16) ++ trailing := by
  unfold parseRefs
  have key := codec_outerExtensions.2.2 d
  constructor
  · intro h
    cases hr : readOuterExtensions d with
    | error e => simp [hr] at h
    | ok p =>
      obtain ⟨a, rest⟩ := p
      simp only [hr, Except.ok.injEq] at h
      subst h
      obtain ⟨h1, h2⟩ := (key a rest).1 hr
      exact ⟨h1, rest, h2⟩
  · rintro ⟨h1, trailing, h2⟩
    rw [(key ts trailing).2 ⟨h1, h2⟩]

/-- The expansion with the types seen so far. -/
def Exp (seen : List UInt16) (es outer out : List Extension) : Prop :=
  (0xfd00 ∉ types es ∧ (types es).Nodup ∧ (∀ t ∈ types es, t ∉ seen) ∧ out = es) ∨
  ∃ pre post picked trailing, 2 * picked.length < 256 ∧
    es = pre ++ ⟨0xfd00, vec .u8 ((types picked).flatMap Codec.Spec.u16) ++ trailing⟩ :: post ∧
    List.Sublist picked outer ∧ 0xfe0d ∉ types picked ∧
    (types pre ++ 0xfd00 :: types picked ++ types post).Nodup ∧
    (∀ t ∈ types pre ++ 0xfd00 :: types picked ++ types post, t ∉ seen) ∧ out = pre ++ picked ++ post

theorem substLoop_plain {outer : List Extension} : ∀ {es seen out}, 0xfd00 ∉ types es →
    (substLoop outer es seen = .ok out ↔ (types es).Nodup ∧ (∀ t ∈ types es, t ∉ seen) ∧ out = es) := by
  intro es
  induction es with
  | nil => intro seen out _; simp [substLoop, types, eq_comm]
  | cons e es ih =>
    intro seen out hn
    have hn' : ¬ (0xfd00 = e.extension_type) ∧ 0xfd00 ∉ types es := by simpa [types, not_or] using hn
    have hne : tyOuter ≠ e.extension_type := hn'.1
    simp only [substLoop, Res.bind_eq_ok, dupeCheck_eq_ok]
    have ht : types (e :: es) = e.extension_type :: types es := rfl
    constructor
    · rintro ⟨s, ⟨h1, rfl⟩, h⟩
      rw [if_pos hne] at h
      simp only [Res.bind_eq_ok, ih hn'.2, Res.pure_eq, Except.ok.injEq] at h
      obtain ⟨o, ⟨h2, h3, rfl⟩, rfl⟩ := h
      rw [ht]
      refine ⟨List.nodup_cons.2 ⟨fun hh => h3 _ hh (by simp), h2⟩, ?_, rfl⟩
      intro t htm
      rcases List.mem_cons.1 htm with rfl | htm
      · exact h1
      · exact fun hh => h3 t htm (by simp [hh])
    · rintro ⟨h1, h2, rfl⟩
      rw [ht] at h1 h2
      refine ⟨_, ⟨h2 _ (by simp), rfl⟩, ?_⟩
      rw [if_pos hne]
      simp only [Res.bind_eq_ok, ih hn'.2, Res.pure_eq, Except.ok.injEq]
      refine ⟨es, ⟨(List.nodup_cons.1 h1).2, ?_, rfl⟩, rfl⟩
      intro t htm
      simp only [List.mem_cons, not_or]
      exact ⟨fun hh => (List.nodup_cons.1 h1).1 (hh ▸ htm), h2 t (by simp [htm])⟩

theorem substLoop_seen {outer : List Extension} : ∀ {es seen out}, substLoop outer es seen = .ok out →
    ∀ t ∈ types es, t ∉ seen := by
  intro es
  induction es with
  | nil => intro seen out _ t ht; simp [types] at ht
  | cons e es ih =>
    intro seen out h t ht
    simp only [substLoop, Res.bind_eq_ok, dupeCheck_eq_ok] at h
    obtain ⟨s, ⟨h1, rfl⟩, h⟩ := h
    have ht : t = e.extension_type ∨ t ∈ types es := by simpa [types] using ht
    rcases ht with rfl | ht
    · exact h1
    · split at h
      · simp only [Res.bind_eq_ok] at h
        obtain ⟨o, h2, -⟩ := h
        exact fun hh => ih h2 t ht (by simp [hh])
      · simp only [Res.bind_eq_ok, Prod.exists] at h
        obtain ⟨ts, -, p, s2, h3, o, h2, -⟩ := h
        obtain ⟨-, -, -, -, -, h6⟩ := expandRefs_ok h3
        exact fun hh => ih h2 t ht ((h6 t).2 (.inr (by simp [hh])))

theorem types_append (a b : List Extension) : types (a ++ b) = types a ++ types b := by simp [types]
theorem types_cons (e : Extension) (b : List Extension) : types (e :: b) = e.extension_type :: types b := rfl

theorem substLoop_ok {outer : List Extension} : ∀ {es seen out}, substLoop outer es seen = .ok out →
    Exp seen es outer out := by
  intro es
  induction es with
  | nil =>
    intro seen out h
    simp only [substLoop, Except.ok.injEq] at h
    subst h
    exact .inl (by simp [types])
  | cons e es ih =>
    intro seen out h
    by_cases hn : 0xfd00 ∈ types (e :: es)
    · have h0 := h
      simp only [substLoop, Res.bind_eq_ok, dupeCheck_eq_ok] at h
      obtain ⟨s, ⟨h1, rfl⟩, h⟩ := h
      split at h
      · next hne =>
        simp only [Res.bind_eq_ok, Res.pure_eq, Except.ok.injEq] at h
        obtain ⟨o, h2, rfl⟩ := h
        have hin : 0xfd00 ∈ types es := by
          rcases List.mem_cons.1 hn with h | h
          · exact absurd h hne
          · exact h
        rcases ih h2 with ⟨h3, -⟩ | ⟨pre, post, picked, trailing, f, hs, sub, ne, nd, dj, rfl⟩
        · exact absurd hin h3
        · right
          refine ⟨e :: pre, post, picked, trailing, f, by simp [hs], sub, ne, ?_, ?_, by simp⟩
          · rw [types_cons, List.cons_append, List.cons_append]
            exact List.nodup_cons.2 ⟨fun hh => dj _ hh (by simp), nd⟩
          · intro t ht
            rw [types_cons, List.cons_append, List.cons_append] at ht
            rcases List.mem_cons.1 ht with rfl | ht
            · exact h1
            · exact fun hh => dj t ht (by simp [hh])
      · next hne =>
        have hne : e.extension_type = 0xfd00 := (Decidable.not_not.1 hne).symm
        simp only [Res.bind_eq_ok, Prod.exists, Res.pure_eq, Except.ok.injEq] at h
        obtain ⟨ts, hp, picked, s2, hx, o, h2, rfl⟩ := h
        obtain ⟨f, trailing, hd⟩ := parseRefs_eq_ok.1 hp
        obtain ⟨x1, x2, x3, x4, x5, x6⟩ := expandRefs_ok hx
        have hnone : 0xfd00 ∉ types es := fun hh => substLoop_seen h2 _ hh ((x6 _).2 (.inr (by simp [hne])))
        obtain ⟨y1, y2, rfl⟩ := (substLoop_plain hnone).1 h2
        right
        refine ⟨[], o, picked, trailing, ?_, ?_, x2, ?_, ?_, ?_, by simp⟩
        · rw [← x1] at f; simpa [types] using f
        · obtain ⟨et, ed⟩ := e
          simp only at hne hd
          rw [hne, hd, x1]; rfl
        · rw [x1]; exact x3
        · rw [x1]
          simp only [types, List.map_nil, List.nil_append, List.cons_append]
          refine List.nodup_cons.2 ⟨?_, List.nodup_append.2 ⟨x4, y1, ?_⟩⟩
          · rw [List.mem_append, not_or]
            exact ⟨fun hh => x5 _ hh (by simp [hne]), hnone⟩
          · rintro a ha b hb rfl
            exact y2 a hb ((x6 a).2 (.inl ha))
        · intro t ht
          rw [x1] at ht
          simp only [types, List.map_nil, List.nil_append, List.cons_append, List.mem_cons, List.mem_append] at ht
          rcases ht with rfl | ht | ht
          · rw [← hne]; exact h1
          · exact fun hh => x5 t ht (by simp [hh])
          · exact fun hh => y2 t ht ((x6 t).2 (.inr (by simp [hh])))
    · obtain ⟨a, b, c⟩ := (substLoop_plain hn).1 h
      exact .inl ⟨hn, a, b, c⟩

theorem substLoop_of {outer : List Extension} : ∀ {pre post picked trailing seen}, 2 * picked.length < 256 →
    List.Sublist picked outer → 0xfe0d ∉ types picked →
    (types pre ++ 0xfd00 :: types picked ++ types post).Nodup →
    (∀ t ∈ types pre ++ 0xfd00 :: types picked ++ types post, t ∉ seen) →
    ∃ r, substLoop outer (pre ++ ⟨0xfd00, vec .u8 ((types picked).flatMap Codec.Spec.u16) ++ trailing⟩ :: post) seen
      = .ok r := by
  intro pre
  induction pre with
  | nil =>
    intro post picked trailing seen f sub ne nd dj
    simp only [types, List.map_nil, List.nil_append, List.cons_append] at nd dj
    obtain ⟨n1, n2⟩ := List.nodup_cons.1 nd
    obtain ⟨n3, n4, n5⟩ := List.nodup_append.1 n2
    obtain ⟨⟨p, s⟩, hx⟩ := expandRefs_of (seen := 0xfd00 :: seen) sub ne n3 (by
      intro t ht
      simp only [List.mem_cons, not_or]
      refine ⟨?_, dj t (List.mem_cons.2 (.inr (List.mem_append_left _ ht)))⟩
      rintro rfl
      exact n1 (List.mem_append_left _ ht))
    obtain ⟨-, -, -, -, -, x6⟩ := expandRefs_ok hx
    have hn : 0xfd00 ∉ types post := fun hh => n1 (List.mem_append_right _ hh)
    have hpost : substLoop outer post s = .ok post := (substLoop_plain hn).2 ⟨n4, by
      intro t ht hh
      rcases (x6 t).1 hh with hh | hh
      · exact n5 t hh t ht rfl
      · rcases List.mem_cons.1 hh with rfl | hh
        · exact hn ht
        · exact dj t (List.mem_cons.2 (.inr (List.mem_append_right _ ht))) hh, rfl⟩
    refine ⟨p ++ post, ?_⟩
    have hd : dupeCheck seen 0xfd00 = .ok (0xfd00 :: seen) := dupeCheck_eq_ok.2 ⟨dj _ (by simp), rfl⟩
    have hp : parseRefs (vec .u8 ((types picked).flatMap Codec.Spec.u16) ++ trailing) = .ok (types picked) :=
      parseRefs_eq_ok.2 ⟨by simpa [types] using f, trailing, rfl⟩
    simp only [List.nil_append, substLoop, hd, Res.ok_bind, tyOuter, ne_eq, not_true_eq_false, if_false, hp, hx, hpost,
      Res.pure_eq]
  | cons e pre ih =>
    intro post picked trailing seen f sub ne nd dj
    rw [types_cons, List.cons_append, List.cons_append] at nd dj
    obtain ⟨n1, n2⟩ := List.nodup_cons.1 nd
    obtain ⟨r, hr⟩ := ih (trailing := trailing) (seen := e.extension_type :: seen) f sub ne n2 (by
      intro t ht
      simp only [List.mem_cons, not_or]
      exact ⟨fun hh => n1 (hh ▸ ht), dj t (by simp only [List.mem_cons]; exact .inr ht)⟩)
    have hd : dupeCheck seen e.extension_type = .ok (e.extension_type :: seen) := dupeCheck_eq_ok.2 ⟨dj _ (by simp), rfl⟩
    have hne : tyOuter ≠ e.extension_type := fun hh => n1 (by rw [← hh]; simp [tyOuter])
    exact ⟨e :: r, by simp only [List.cons_append, substLoop, hd, Res.ok_bind, if_pos hne, hr, Res.pure_eq]⟩

theorem sublist_types_inj : ∀ {outer a b : List Extension}, (types outer).Nodup → a.Sublist outer → b.Sublist outer →
    types a = types b → a = b := by
  intro outer
  induction outer with
  | nil => intro a b _ ha hb _; simp at ha hb; rw [ha, hb]
  | cons x l ih =>
    intro a b hn ha hb hab
    obtain ⟨h1, h2⟩ := List.nodup_cons.1 hn
    have hmem : ∀ {c : List Extension}, c.Sublist l → ∀ e ∈ c, e.extension_type ≠ x.extension_type := by
      intro c hc e he hh
      exact h1 (by
        have := List.mem_map_of_mem (f := fun (y : Extension) => y.extension_type) (hc.subset he)
        rw [hh] at this; exact this)
    cases ha with
    | cons _ ha =>
      cases hb with
      | cons _ hb => exact ih h2 ha hb hab
      | cons_cons _ hb =>
        exfalso
        cases a with
        | nil => simp [types] at hab
        | cons y a => simp [types] at hab; exact hmem ha y (by simp) hab.1
    | cons_cons _ ha =>
      cases hb with
      | cons _ hb =>
        exfalso
        cases b with
        | nil => simp [types] at hab
        | cons y b => simp [types] at hab; exact hmem hb y (by simp) hab.1.symm
      | cons_cons _ hb =>
        simp only [types, List.map_cons, List.cons.injEq, true_and] at hab
        rw [ih h2 ha hb hab]

/-- C34 (expansion): what the server reconstructs is an expansion of the encoded inner extensions; it
reconstructs something whenever there is one; and if the outer hello does not repeat an extension type, there
is only one. -/
theorem C34_expand (inner outer : List Extension) :
    (∀ out, substituteOuter inner outer = .ok out → Expansion inner outer out) ∧
    (∀ out, Expansion inner outer out → ∃ out', substituteOuter inner outer = .ok out') ∧
    ((types outer).Nodup → ∀ out, substituteOuter inner outer = .ok out ↔ Expansion inner outer out) := by
  have fwd : ∀ out, substituteOuter inner outer = .ok out → Expansion inner outer out := by
    intro out h
    rcases substLoop_ok h with ⟨h1, h2, -, rfl⟩ | ⟨pre, post, picked, trailing, f, hs, sub, ne, nd, -, rfl⟩
    · exact .plain h1 h2
    · exact .refs pre post picked trailing f hs sub ne nd
  have ex : ∀ out, Expansion inner outer out → ∃ out', substituteOuter inner outer = .ok out' := by
    intro out h
    cases h with
    | plain h1 h2 => exact ⟨inner, (substLoop_plain h1).2 ⟨h2, by simp, rfl⟩⟩
    | refs pre post picked trailing f hs sub ne nd =>
      rw [hs]
      exact substLoop_of f sub ne nd (by simp)
  refine ⟨fwd, ex, fun hn out => ⟨fwd out, fun h => ?_⟩⟩
  obtain ⟨out', h'⟩ := ex out h
  have h2 := fwd out' h'
  suffices out = out' by rw [this]; exact h'
  cases h with
  | plain a b =>
    cases h2 with
    | plain _ _ => rfl
    | refs pre post picked trailing f hs sub ne nd =>
      exact absurd (by rw [hs]; simp [types]) a
  | refs pre post picked trailing f hs sub ne nd =>
    cases h2 with
    | plain a b => exact absurd (by rw [hs]; simp [types]) a
    | refs pre' post' picked' trailing' f' hs' sub' ne' nd' =>
      have hi := hs.symm.trans hs'
      have nodupPre : ∀ {q : List Extension} {w : List UInt16}, (types q ++ 0xfd00 :: w).Nodup →
          ∀ e ∈ q, e.extension_type ≠ 0xfd00 := by
        intro q w hq e he hh
        obtain ⟨-, -, h3⟩ := List.nodup_append.1 hq
        exact h3 0xfd00 (by rw [← hh]; exact List.mem_map_of_mem (f := fun (y : Extension) => y.extension_type) he)
          0xfd00 (by simp) rfl
      have np := nodupPre (by simpa using nd)
      have np' := nodupPre (by simpa using nd')
      have : pre = pre' ∧ (⟨0xfd00, vec .u8 ((types picked).flatMap Codec.Spec.u16) ++ trailing⟩ : Extension) =
          ⟨0xfd00, vec .u8 ((types picked').flatMap Codec.Spec.u16) ++ trailing'⟩ ∧ post = post' := by
        clear hs hs' nd nd' h'
        induction pre generalizing pre' with
        | nil =>
          cases pre' with
          | nil => simpa using hi
          | cons y q =>
            simp only [List.nil_append, List.cons_append, List.cons.injEq] at hi
            exact absurd (by rw [← hi.1]) (np' y (by simp))
        | cons z p ih =>
          cases pre' with
          | nil =>
            simp only [List.nil_append, List.cons_append, List.cons.injEq] at hi
            exact absurd (by rw [hi.1]) (np z (by simp))
          | cons y q =>
            simp only [List.cons_append, List.cons.injEq] at hi
            obtain ⟨a, b⟩ := ih q hi.2 (fun e he => np e (by simp [he])) (fun e he => np' e (by simp [he]))
            exact ⟨by rw [hi.1, a], b⟩
      obtain ⟨rfl, hx, rfl⟩ := this
      simp only [Extension.mk.injEq, true_and] at hx
      have e1 : parseRefs (vec .u8 ((types picked).flatMap Codec.Spec.u16) ++ trailing) = .ok (types picked) :=
        parseRefs_eq_ok.2 ⟨by simpa [types] using f, trailing, rfl⟩
      have e2 : parseRefs (vec .u8 ((types picked').flatMap Codec.Spec.u16) ++ trailing') = .ok (types picked') :=
        parseRefs_eq_ok.2 ⟨by simpa [types] using f', trailing', rfl⟩
      rw [hx, e2] at e1
      simp only [Except.ok.injEq] at e1
      rw [sublist_types_inj hn sub sub' e1.symm]

theorem scan_error {t outer e} (h : scan t outer = .error e) : ∃ m, e = .err m none .outerExtensions := by
  induction outer with
  | nil => simp only [scan, Except.error.injEq] at h; exact ⟨_, h.symm⟩
  | cons a l ih =>
    unfold scan at h
    split at h
    · simp at h
    · exact ih h

theorem dupeCheck_error {seen t e} (h : dupeCheck seen t = .error e) : ∃ m, e = .err m none .outerExtensions := by
  unfold dupeCheck at h
  split at h
  · simp only [Except.error.injEq] at h; exact ⟨_, h.symm⟩
  · simp at h

theorem bind_error {α β} {x : Res α} {f : α → Res β} {e} (h : (x >>= f) = .error e) :
    x = .error e ∨ ∃ a, x = .ok a ∧ f a = .error e := by
  cases x with
  | error e' => left; simpa using h
  | ok a => right; exact ⟨a, rfl, by simpa using h⟩

theorem expandRefs_error : ∀ {ts seen outer e}, expandRefs ts seen outer = .error e →
    ∃ m, e = .err m none .outerExtensions := by
  intro ts
  induction ts with
  | nil => intro seen outer e h; simp [expandRefs] at h
  | cons t ts ih =>
    intro seen outer e h
    simp only [expandRefs] at h
    rcases bind_error h with h | ⟨s, -, h⟩
    · exact dupeCheck_error h
    · split at h
      · simp only [Except.error.injEq] at h; exact ⟨_, h.symm⟩
      · rcases bind_error h with h | ⟨⟨x, r⟩, -, h⟩
        · exact scan_error h
        · rcases bind_error h with h | ⟨y, -, h⟩
          · exact ih h
          · simp at h

theorem substLoop_error {outer} : ∀ {es seen e}, substLoop outer es seen = .error e →
    ∃ m, e = .err m none .outerExtensions := by
  intro es
  induction es with
  | nil => intro seen e h; simp [substLoop] at h
  | cons x es ih =>
    intro seen e h
    simp only [substLoop] at h
    rcases bind_error h with h | ⟨s, -, h⟩
    · exact dupeCheck_error h
    · split at h
      · rcases bind_error h with h | ⟨y, -, h⟩
        · exact ih h
        · simp at h
      · rcases bind_error h with h | ⟨ts, -, h⟩
        · unfold parseRefs at h
          split at h
          · simp at h
          · simp only [Except.error.injEq] at h; exact ⟨_, h.symm⟩
        · rcases bind_error h with h | ⟨⟨p, s2⟩, -, h⟩
          · exact expandRefs_error h
          · rcases bind_error h with h | ⟨y, -, h⟩
            · exact ih h
            · simp at h

/-- C34 (rejection): without an expansion the hello is refused, with the error that makes the server abort
with `illegal_parameter` rather than fall back to the outer hello. -/
theorem C34_reject (inner outer : List Extension) (h : ∀ out, ¬ Expansion inner outer out) :
    ∃ m, substituteOuter inner outer = .error (.err m none .outerExtensions) := by
  cases hs : substituteOuter inner outer with
  | ok out => exact absurd ((C34_expand inner outer).1 out hs) (h out)
  | error e =>
    obtain ⟨m, rfl⟩ := substLoop_error hs
    exact ⟨m, rfl⟩

/-! ## The client's side -/

theorem selectedTypes_cons (T : List UInt16) (e : Extension) (l : List Extension) :
    selectedTypes T (e :: l) = if e.extension_type ∈ T then e.extension_type :: selectedTypes T l else selectedTypes T l := by
  simp only [selectedTypes, List.filter_cons, List.contains_eq_mem, decide_eq_true_eq]
  split <;> rfl

theorem selectedTypes_append (T : List UInt16) (a b : List Extension) :
    selectedTypes T (a ++ b) = selectedTypes T a ++ selectedTypes T b := by
  simp [selectedTypes]

theorem mem_selectedTypes {T l t} : t ∈ selectedTypes T l ↔ t ∈ T ∧ t ∈ types l := by
  simp only [selectedTypes, types, List.mem_map, List.mem_filter, List.contains_eq_mem, decide_eq_true_eq]
  constructor
  · rintro ⟨e, ⟨h1, h2⟩, rfl⟩; exact ⟨h2, e, h1, rfl⟩
  · rintro ⟨h, e, h1, rfl⟩; exact ⟨e, ⟨h1, h⟩, rfl⟩

theorem eraseFirst_append {t : UInt16} {e : Extension} {l : List Extension} (he : e.extension_type = t) :
    ∀ {A : List Extension}, (∀ a ∈ A, a.extension_type ≠ t) → eraseFirst t (A ++ e :: l) = .ok (A ++ l) := by
  intro A
  induction A with
  | nil => intro _; simp [eraseFirst, he]
  | cons a A ih =>
    intro h
    simp only [List.cons_append, eraseFirst]
    rw [if_neg (h a (by simp)), ih (fun x hx => h x (by simp [hx]))]
    rfl

theorem replaceFirst_append {t : UInt16} {e x : Extension} {l : List Extension} (he : e.extension_type = t) :
    ∀ {A : List Extension}, (∀ a ∈ A, a.extension_type ≠ t) → replaceFirst t x (A ++ e :: l) = .ok (A ++ x :: l) := by
  intro A
  induction A with
  | nil => intro _; simp [replaceFirst, he]
  | cons a A ih =>
    intro h
    simp only [List.cons_append, replaceFirst]
    rw [if_neg (h a (by simp)), ih (fun x hx => h x (by simp [hx]))]
    rfl

theorem eraseEach_selected (T : List UInt16) : ∀ (l A : List Extension),
    (∀ a ∈ A, a.extension_type ∉ selectedTypes T l) →
    eraseEach (selectedTypes T l) (A ++ l) = .ok (A ++ l.filter fun e => !T.contains e.extension_type) := by
  intro l
  induction l with
  | nil => intro A _; simp [selectedTypes, eraseEach]
  | cons e l ih =>
    intro A h
    rw [selectedTypes_cons] at h ⊢
    by_cases hT : e.extension_type ∈ T
    · rw [if_pos hT] at h ⊢
      simp only [eraseEach]
      rw [eraseFirst_append rfl (fun a ha hh => h a ha (by simp [hh]))]
      simp only [Res.ok_bind]
      rw [ih A (fun a ha hh => h a ha (by simp [hh]))]
      simp [hT]
    · rw [if_neg hT] at h ⊢
      have := ih (A ++ [e]) (by
        intro a ha
        rcases List.mem_append.1 ha with ha | ha
        · exact h a ha
        · rw [List.mem_singleton.1 ha]; exact fun hh => hT (mem_selectedTypes.1 hh).1)
      simp only [List.append_assoc, List.singleton_append] at this
      rw [this]
      simp [hT]

/-- The inner extensions with those of the listed types moved next to the first of them. -/
def gathered (T : List UInt16) (inner : List Extension) : List Extension :=
  inner.takeWhile (fun e => !T.contains e.extension_type) ++ inner.filter (fun e => T.contains e.extension_type) ++
    (inner.dropWhile fun e => !T.contains e.extension_type).filter (fun e => !T.contains e.extension_type)

theorem split_selected (T : List UInt16) (inner : List Extension) :
    (selectedTypes T inner = [] ∧ ∀ e ∈ inner, e.extension_type ∉ T) ∨
    ∃ pre f post, inner = pre ++ f :: post ∧ (∀ e ∈ pre, e.extension_type ∉ T) ∧ f.extension_type ∈ T := by
  induction inner with
  | nil => left; simp [selectedTypes]
  | cons e l ih =>
    by_cases h : e.extension_type ∈ T
    · right; exact ⟨[], e, l, rfl, by simp, h⟩
    · rcases ih with ⟨h1, h2⟩ | ⟨pre, f, post, h1, h2, h3⟩
      · left
        rw [selectedTypes_cons, if_neg h]
        refine ⟨h1, ?_⟩
        intro x hx
        rcases List.mem_cons.1 hx with rfl | hx
        · exact h
        · exact h2 x hx
      · right
        refine ⟨e :: pre, f, post, by simp [h1], ?_, h3⟩
        intro x hx
        rcases List.mem_cons.1 hx with rfl | hx
        · exact h
        · exact h2 x hx

theorem none_selected {T : List UInt16} {pre : List Extension} (h : ∀ e ∈ pre, e.extension_type ∉ T) :
    pre.filter (fun e => T.contains e.extension_type) = [] ∧
    pre.filter (fun e => !T.contains e.extension_type) = pre ∧
    pre.takeWhile (fun e => !T.contains e.extension_type) = pre := by
  induction pre with
  | nil => simp
  | cons e l ih =>
    have h1 := h e (by simp)
    obtain ⟨a, b, c⟩ := ih (fun x hx => h x (by simp [hx]))
    have hc : T.contains e.extension_type = false := by simpa using h1
    simp only [List.filter_cons, List.takeWhile_cons, hc, Bool.not_false, if_true, Bool.false_eq_true, if_false]
    exact ⟨a, by rw [b], by rw [c]⟩

theorem takeWhile_split {T : List UInt16} {pre post : List Extension} {f : Extension}
    (h : ∀ e ∈ pre, e.extension_type ∉ T) (hf : f.extension_type ∈ T) :
    (pre ++ f :: post).takeWhile (fun e => !T.contains e.extension_type) = pre ∧
    (pre ++ f :: post).dropWhile (fun e => !T.contains e.extension_type) = f :: post := by
  induction pre with
  | nil => simp [List.takeWhile_cons, List.dropWhile_cons, hf]
  | cons e l ih =>
    have h1 := h e (by simp)
    obtain ⟨a, b⟩ := ih (fun x hx => h x (by simp [hx]))
    simp [List.takeWhile_cons, List.dropWhile_cons, h1] at a b ⊢
    exact ⟨a, b⟩

theorem gathered_perm (T : List UInt16) (inner : List Extension) : (gathered T inner).Perm inner := by
  rcases split_selected T inner with ⟨-, h⟩ | ⟨pre, f, post, rfl, h, hf⟩
  · obtain ⟨a, b, c⟩ := none_selected h
    have : inner.dropWhile (fun e => !T.contains e.extension_type) = [] := by
      have := List.takeWhile_append_dropWhile (p := fun e : Extension => !T.contains e.extension_type) (l := inner)
      rw [c] at this
      simpa using this
    simp only [gathered, a, c, this, List.filter_nil, List.append_nil]
    exact List.Perm.refl _
  · obtain ⟨a, b, c⟩ := none_selected h
    obtain ⟨d, e⟩ := takeWhile_split (post := post) h hf
    simp only [gathered, d, e, List.filter_append, a, List.nil_append]
    rw [List.append_assoc]
    refine List.Perm.append_left pre ?_
    exact List.filter_append_perm (fun e : Extension => T.contains e.extension_type) (f :: post)

theorem gathered_eq (T : List UInt16) (inner : List Extension) : gathered T inner = inner ↔ Contiguous T inner := by
  constructor
  · intro h
    refine ⟨_, _, _, h.symm, ?_, ?_, ?_⟩
    · intro e he
      have := List.all_takeWhile (p := fun e : Extension => !T.contains e.extension_type) (l := inner)
      rw [List.all_eq_true] at this
      simpa using this e he
    · intro e he; simpa using (List.mem_filter.1 he).2
    · intro e he; simpa using (List.mem_filter.1 he).2
  · rintro ⟨pre, mid, post, rfl, h1, h2, h3⟩
    obtain ⟨a, b, c⟩ := none_selected h1
    obtain ⟨a', b', c'⟩ := none_selected h3
    have hm : mid.filter (fun e => T.contains e.extension_type) = mid := by
      rw [List.filter_eq_self]; intro e he; simpa using h2 e he
    have hm' : mid.filter (fun e => !T.contains e.extension_type) = [] := by
      rw [List.filter_eq_nil_iff]; intro e he; simpa using h2 e he
    cases mid with
    | nil =>
      have hall : ∀ e ∈ pre ++ post, e.extension_type ∉ T := by
        intro e he
        rcases List.mem_append.1 he with he | he
        · exact h1 e he
        · exact h3 e he
      obtain ⟨x, y, z⟩ := none_selected hall
      have hd : (pre ++ post).dropWhile (fun e => !T.contains e.extension_type) = [] := by
        have := List.takeWhile_append_dropWhile (p := fun e : Extension => !T.contains e.extension_type) (l := pre ++ post)
        rw [z] at this
        simpa using this
      simp only [List.append_nil, gathered, x, z, hd, List.filter_nil]
    | cons f mid =>
      obtain ⟨d, e⟩ := takeWhile_split (post := mid ++ post) h1 (h2 f (by simp))
      have r : pre ++ (f :: mid) ++ post = pre ++ f :: (mid ++ post) := by simp
      rw [r]
      simp only [gathered, d, e]
      rw [show f :: (mid ++ post) = (f :: mid) ++ post from rfl]
      simp only [List.filter_append, a, hm, hm', a', b', List.nil_append, List.append_nil]
      rw [List.append_assoc]

/-- What is sent: the first listed extension becomes the reference, the others disappear. -/
theorem generateOuter_eq (inner : List Extension) (T : List UInt16) (h0 : 0xfd00 ∉ types inner) :
    ((∀ e ∈ inner, e.extension_type ∉ T) → generateOuter inner T = .ok inner) ∧
    ∀ pre f post, inner = pre ++ f :: post → (∀ e ∈ pre, e.extension_type ∉ T) → f.extension_type ∈ T →
      ∀ c, generateOuter inner T = .ok c ↔
        2 * (selectedTypes T inner).length < 256 ∧
        c = pre ++ Spec.outerExtensionsWire (selectedTypes T inner) ::
          post.filter (fun e => !T.contains e.extension_type) := by
  constructor
  · intro h
    have hs : selectedTypes T inner = [] := by
      rw [selectedTypes, (none_selected h).1]; rfl
    simp [generateOuter, hs]
  · rintro pre f post rfl h hf c
    have hsel : selectedTypes T (pre ++ f :: post) = f.extension_type :: selectedTypes T post := by
      rw [selectedTypes_append, selectedTypes_cons, if_pos hf]
      have : selectedTypes T pre = [] := by rw [selectedTypes, (none_selected h).1]; rfl
      rw [this]; rfl
    have hg : generateOuter (pre ++ f :: post) T = (do
        let x ← encodeOuterExtensions (f.extension_type :: selectedTypes T post)
        let l ← replaceFirst f.extension_type x (pre ++ f :: post)
        eraseEach (selectedTypes T post) l) := by
      unfold generateOuter; rw [hsel]
    have hpre : ∀ a ∈ pre, a.extension_type ≠ f.extension_type := fun a ha hh => h a ha (hh ▸ hf)
    rw [hg, hsel]
    simp only [Res.bind_eq_ok, codec_outerExtensions.2.1]
    have fin : ∀ x : Extension, x.extension_type = 0xfd00 →
        eraseEach (selectedTypes T post) (pre ++ x :: post) =
          .ok (pre ++ x :: post.filter (fun e => !T.contains e.extension_type)) := by
      intro x hx
      have := eraseEach_selected T post (pre ++ [x]) (by
        intro a ha hh
        rcases List.mem_append.1 ha with ha | ha
        · exact h a ha (mem_selectedTypes.1 hh).1
        · rw [List.mem_singleton.1 ha, hx] at hh
          exact h0 (by rw [types_append, types_cons]; simp [(mem_selectedTypes.1 hh).2]))
      simpa using this
    constructor
    · rintro ⟨x, ⟨h1, rfl⟩, l, h2, h3⟩
      rw [replaceFirst_append rfl hpre] at h2
      simp only [Except.ok.injEq] at h2
      subst h2
      rw [fin _ rfl] at h3
      simp only [Except.ok.injEq] at h3
      exact ⟨h1, h3.symm⟩
    · rintro ⟨h1, rfl⟩
      exact ⟨_, ⟨h1, rfl⟩, _, replaceFirst_append rfl hpre, fin _ rfl⟩

/-- C34 (round trip): if the inner extension types are distinct and none of them is
`ech_outer_extensions`, and the extensions of the listed types occur, unchanged and in the same order, in an
outer hello that repeats no type, then whatever the client generates is expanded by the server to the inner
extensions with the listed ones moved next to the first of them.  So nothing is lost or changed, and the list
is reproduced exactly if and only if the listed ones stood next to each other. -/
theorem C34_roundtrip (inner outer c : List Extension) (T : List UInt16)
    (h0 : 0xfd00 ∉ types inner) (hd : (types inner).Nodup) (hech : 0xfe0d ∈ T → 0xfe0d ∉ types inner)
    (hout : List.Sublist (inner.filter fun e => T.contains e.extension_type) outer) (ho : (types outer).Nodup)
    (hc : generateOuter inner T = .ok c) :
    ∃ out, substituteOuter c outer = .ok out ∧ out.Perm inner ∧ (out = inner ↔ Contiguous T inner) := by
  refine ⟨gathered T inner, ?_, gathered_perm T inner, gathered_eq T inner⟩
  rw [(C34_expand c outer).2.2 ho]
  rcases split_selected T inner with ⟨-, h⟩ | ⟨pre, f, post, hs, h, hf⟩
  · rw [(generateOuter_eq inner T h0).1 h] at hc
    simp only [Except.ok.injEq] at hc
    subst hc
    have : gathered T inner = inner := (gathered_eq T inner).2 ⟨inner, [], [], by simp, h, by simp, by simp⟩
    rw [this]
    exact .plain h0 hd
  · obtain ⟨h1, rfl⟩ := ((generateOuter_eq inner T h0).2 pre f post hs h hf c).1 hc
    have hsel : selectedTypes T inner = types (inner.filter fun e => T.contains e.extension_type) := rfl
    obtain ⟨d, e⟩ := takeWhile_split (post := post) h hf
    have hf' : (f :: post).filter (fun e => !T.contains e.extension_type) =
        post.filter (fun e => !T.contains e.extension_type) := by simp [List.filter_cons, hf]
    have hg : gathered T inner = pre ++ (inner.filter fun e => T.contains e.extension_type) ++
        post.filter (fun e => !T.contains e.extension_type) := by
      rw [gathered]; rw [hs, d, e, hf']
    have hperm := gathered_perm T inner
    rw [hg] at hperm ⊢
    refine .refs pre _ _ [] ?_ ?_ hout ?_ ?_
    · rw [hsel] at h1; simpa [types] using h1
    · rw [hsel]; simp [Spec.outerExtensionsWire]
    · rw [← hsel]
      intro hh
      obtain ⟨a, b⟩ := mem_selectedTypes.1 hh
      exact hech a b
    · have hn := (hperm.map (fun e : Extension => e.extension_type)).nodup_iff.2 hd
      have hm := fun t => (hperm.map (fun e : Extension => e.extension_type)).mem_iff (a := t)
      simp only [List.map_append, List.append_assoc] at hn hm
      have hp : (types pre ++ 0xfd00 :: types (inner.filter fun e => T.contains e.extension_type) ++
          types (post.filter fun e => !T.contains e.extension_type)).Perm
          (0xfd00 :: (types pre ++ (types (inner.filter fun e => T.contains e.extension_type) ++
          types (post.filter fun e => !T.contains e.extension_type)))) := by
        simp only [List.append_assoc, List.cons_append]
        exact List.perm_middle
      rw [hp.nodup_iff]
      exact List.nodup_cons.2 ⟨fun hh => h0 ((hm 0xfd00).1 hh), hn⟩

theorem eraseFirst_defined {t : UInt16} : ∀ {l : List Extension}, t ∈ types l →
    ∃ r, eraseFirst t l = .ok r ∧ (types l).Perm (t :: types r) := by
  intro l
  induction l with
  | nil => intro h; simp [types] at h
  | cons e l ih =>
    intro h
    by_cases he : e.extension_type = t
    · exact ⟨l, by simp [eraseFirst, he], by rw [types_cons, he]⟩
    · have : t ∈ types l := by
        rcases List.mem_cons.1 h with h | h
        · exact absurd h.symm he
        · exact h
      obtain ⟨r, h1, h2⟩ := ih this
      refine ⟨e :: r, by simp [eraseFirst, he, h1], ?_⟩
      rw [types_cons, types_cons]
      exact (h2.cons _).trans (.swap _ _ _)

theorem replaceFirst_defined {t : UInt16} {x : Extension} : ∀ {l : List Extension}, t ∈ types l →
    ∃ r, replaceFirst t x l = .ok r ∧ (t :: types r).Perm (x.extension_type :: types l) := by
  intro l
  induction l with
  | nil => intro h; simp [types] at h
  | cons e l ih =>
    intro h
    by_cases he : e.extension_type = t
    · refine ⟨x :: l, by simp [replaceFirst, he], ?_⟩
      rw [types_cons, types_cons, he]
      exact .swap _ _ _
    · have : t ∈ types l := by
        rcases List.mem_cons.1 h with h | h
        · exact absurd h.symm he
        · exact h
      obtain ⟨r, h1, h2⟩ := ih this
      refine ⟨e :: r, by simp [replaceFirst, he, h1], ?_⟩
      rw [types_cons, types_cons]
      exact ((List.Perm.swap _ _ _).trans (h2.cons _)).trans (.swap _ _ _)

theorem eraseEach_defined : ∀ {ts : List UInt16} {l : List Extension}, (∀ t, ts.count t ≤ (types l).count t) →
    ∃ r, eraseEach ts l = .ok r := by
  intro ts
  induction ts with
  | nil => intro l _; exact ⟨l, rfl⟩
  | cons t ts ih =>
    intro l h
    have hm : t ∈ types l := by
      have := h t
      rw [List.count_cons_self] at this
      exact List.count_pos_iff.1 (by omega)
    obtain ⟨r, h1, h2⟩ := eraseFirst_defined hm
    obtain ⟨r', h3⟩ := ih (l := r) (by
      intro u
      have := h u
      rw [h2.count_eq, List.count_cons, List.count_cons] at this
      omega)
    exact ⟨r', by simp only [eraseEach, h1, Res.ok_bind, h3]⟩

/-- C34 (generation): it succeeds exactly when the listed types fit in the one-byte length, for any lists,
repeated types included; it never touches the end iterator. -/
theorem C34_generate (inner : List Extension) (T : List UInt16) :
    (∃ c, generateOuter inner T = .ok c) ↔ 2 * (inner.filter fun e => T.contains e.extension_type).length < 256 := by
  have hlen : (inner.filter fun e => T.contains e.extension_type).length = (selectedTypes T inner).length := by
    simp [selectedTypes]
  rw [hlen]
  unfold generateOuter
  cases hs : selectedTypes T inner with
  | nil => simp
  | cons t ts =>
    simp only [Res.bind_eq_ok, codec_outerExtensions.2.1]
    constructor
    · rintro ⟨c, x, ⟨h, -⟩, -⟩; exact h
    · intro h
      have hcount : ∀ u, (t :: ts).count u ≤ (types inner).count u := by
        intro u
        rw [← hs]
        exact List.Sublist.count_le u ((List.filter_sublist (l := inner)).map _)
      have hm : t ∈ types inner := by
        have := hcount t
        rw [List.count_cons_self] at this
        exact List.count_pos_iff.1 (by omega)
      obtain ⟨r, h1, h2⟩ := replaceFirst_defined (x := Spec.outerExtensionsWire (t :: ts)) hm
      obtain ⟨c, h3⟩ := eraseEach_defined (ts := ts) (l := r) (by
        intro u
        have a := hcount u
        have b := h2.count_eq u
        rw [List.count_cons] at a b
        rw [List.count_cons] at b
        omega)
      exact ⟨c, _, ⟨h, rfl⟩, r, h1, h3⟩

/-- Types 10 and 51 are next to each other, 13 is not listed: compressed and restored exactly. -/
example : let inner : List Extension := [⟨0, [1]⟩, ⟨10, [2]⟩, ⟨51, [3]⟩, ⟨13, [4]⟩, ⟨0xfe0d, [1]⟩]
    let outer : List Extension := [⟨0, [9]⟩, ⟨10, [2]⟩, ⟨51, [3]⟩, ⟨13, [4]⟩, ⟨0xfe0d, [0, 0]⟩]
    ∃ c, generateOuter inner [51, 10] = .ok c ∧ c = [⟨0, [1]⟩, ⟨0xfd00, [4, 0, 10, 0, 51]⟩, ⟨13, [4]⟩, ⟨0xfe0d, [1]⟩] ∧
      substituteOuter c outer = .ok inner := ⟨_, rfl, by decide, by decide⟩

/-- Types 10 and 13 are listed but 51 stands between them: the server sees another order. -/
example : let inner : List Extension := [⟨10, [2]⟩, ⟨51, [3]⟩, ⟨13, [4]⟩]
    ∃ c, generateOuter inner [10, 13] = .ok c ∧
      substituteOuter c inner = .ok [⟨10, [2]⟩, ⟨13, [4]⟩, ⟨51, [3]⟩] := ⟨_, rfl, by decide⟩

/-- References that are out of order, repeated, missing, to `encrypted_client_hello`, to themselves, or
malformed are refused. -/
example : let outer : List Extension := [⟨10, [2]⟩, ⟨51, [3]⟩, ⟨0xfe0d, []⟩, ⟨0xfd00, []⟩]
    ∀ d ∈ ([[4, 0, 51, 0, 10], [4, 0, 10, 0, 10], [2, 0, 9], [2, 0xfe, 0x0d], [2, 0xfd, 0], [3, 0, 10, 0], [2, 0]] : List Bytes),
      ∃ m, substituteOuter [⟨0xfd00, d⟩] outer = .error (.err m none .outerExtensions) := by
  simp only [List.forall_mem_cons]
  refine ⟨⟨_, rfl⟩, ⟨_, rfl⟩, ⟨_, rfl⟩, ⟨_, rfl⟩, ⟨_, rfl⟩, ⟨_, rfl⟩, ⟨_, rfl⟩, by simp⟩

end Fizz.Ech

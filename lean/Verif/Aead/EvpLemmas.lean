import Verif.Aead.Ideal
import Verif.Aead.TransLemmas

/-! Composition of the traversals with the machine (nothing here is a claim). -/

namespace Fizz.Aead

open Spec

variable {σ : Type}

theorem transformBuffer_spec {src : Option Chain} {out : Chain}
    {func : σ → Bytes → Res (Bytes × σ)} {s : σ} (hw : SameLength func s)
    (hne : out ≠ [])
    (hroom : (source src out).flatten.length ≤ out.flatten.length) :
    ∃ pieces : List Bytes, pieces.flatten = (source src out).flatten ∧
      (∀ e, feed func s pieces = .error e → transformBuffer src out func s = .error e) ∧
      (∀ os s', feed func s pieces = .ok (os, s') → ∃ out',
        transformBuffer src out func s = .ok (out', s') ∧ lens out' = lens out ∧
        out'.flatten = os.flatten ++ out.flatten.drop os.flatten.length) := by
  have hv : Cur.Valid (lens out) ⟨0, 0⟩ :=
    ⟨by rw [lens_length]; exact List.length_pos_iff.mpr hne, Nat.zero_le _⟩
  have h0 : TInv func s out ⟨out, 0, 0, s⟩ [] :=
    ⟨rfl, by simp, by simp, fun _ => ⟨hv, by simp [Cur.pos]⟩, .start⟩
  obtain ⟨ps, h1, h2, h3⟩ := outerLoop_spec hw hroom (source src out).length 0 _ _ h0 (by simp)
    (by simp)
  refine ⟨ps, by simpa using h1, ?_, ?_⟩
  · intro e he
    simp only [transformBuffer, h2 e he, Res.error_bind]
  · intro os s' hs
    obtain ⟨t', ht, hi, hst⟩ := h3 os s' hs
    refine ⟨t'.out, ?_, hi.lens, by simpa using hi.flat⟩
    simp only [transformBuffer, ht, Res.ok_bind, hst]

theorem transformBufferBlocks_spec {src : Option Chain} {out : Chain} {bs : Nat} {held : σ → Nat}
    {func : σ → Bytes → Res (Bytes × σ)} {s : σ} (hw : WholeBlocks bs held func s)
    (h0 : held s = 0) (h1 : 0 < bs) (h2 : bs ≤ 128)
    (hne : out ≠ []) (hin : source src out ≠ [])
    (hroom : (source src out).flatten.length ≤ out.flatten.length) :
    ∃ pieces : List Bytes, pieces.flatten = (source src out).flatten ∧
      (∀ e, feed func s pieces = .error e → transformBufferBlocks src out func bs s = .error e) ∧
      (∀ os s', feed func s pieces = .ok (os, s') → ∃ out' cur,
        transformBufferBlocks src out func bs s = .ok (out', cur, s') ∧ lens out' = lens out ∧
        out'.flatten = os.flatten ++ out.flatten.drop os.flatten.length ∧
        cur.Valid (lens out) ∧ cur.pos (lens out) = os.flatten.length) := by
  have hv : Cur.Valid (lens out) ⟨0, 0⟩ :=
    ⟨by rw [lens_length]; exact List.length_pos_iff.mpr hne, Nat.zero_le _⟩
  have hv' : Cur.Valid (lens (source src out)) ⟨0, 0⟩ :=
    ⟨by rw [lens_length]; exact List.length_pos_iff.mpr hin, Nat.zero_le _⟩
  have hi0 : BInv func s src out bs held
      ⟨out, ⟨0, 0⟩, ⟨0, 0⟩, 0, List.replicate kMaxBlock 0, s⟩ 0 [] :=
    ⟨rfl, by simp, hv', by simp [Cur.pos], hv, by simp [Cur.pos], by simp, h0, h1, by simp, .start⟩
  obtain ⟨ps, p1, p2, p3⟩ := blockLoop_spec hw h2 hroom ((source src out).flatten.length + 1) _ 0 []
    hi0 (by omega)
  have hbs : ¬ (bs = 0 ∨ kMaxBlock < bs) := by simp [kMaxBlock]; omega
  refine ⟨ps, by simpa using p1, ?_, ?_⟩
  · intro e he
    simp only [transformBufferBlocks, hbs, if_false, p2 e he, Res.error_bind]
  · intro os s' hs
    obtain ⟨t', ht, hi, hst⟩ := p3 os s' hs
    refine ⟨t'.out, t'.output, ?_, hi.lens, by simpa using hi.flat, hi.outv, by simpa using hi.outpos⟩
    simp only [transformBufferBlocks, hbs, if_false, ht, Res.ok_bind, hst]

/-! ## The machine -/

/-- One call of either direction, by length checks: a function that follows states `st p` and puts out
`o` with `em p ++ o = em (p ++ x)`. -/
structure Follows (upd : σ → Bytes → Option (Bytes × σ)) (st : Bytes → σ) (em : Bytes → Bytes)
    (bs : Nat) : Prop where
  upd : ∀ p x, ∃ o, upd (st p) x = some (o, st (p ++ x)) ∧ em p ++ o = em (p ++ x)
  len : ∀ p, (em p).length = p.length - p.length % bs

theorem Implements.enc {evp : Evp σ} {bs : Nat} {A : Ideal} (I : Implements evp bs A) (n a : Bytes) :
    Follows evp.encUpdate (I.e n a) (I.eo n a) bs :=
  ⟨I.encUpdate n a, I.eoLen n a⟩

theorem Implements.dec {evp : Evp σ} {bs : Nat} {A : Ideal} (I : Implements evp bs A) (n a : Bytes) :
    Follows evp.decUpdate (I.d n a) (I.po n a) bs :=
  ⟨I.decUpdate n a, I.poLen n a⟩

theorem Follows.em_nil {upd : σ → Bytes → Option (Bytes × σ)} {st : Bytes → σ} {em : Bytes → Bytes}
    {bs : Nat} (h : Follows upd st em bs) : em [] = [] := by
  apply List.eq_nil_of_length_eq_zero; rw [h.len]; simp

/-- How a lambda wraps the machine: given the state `st p` it goes to `st (p ++ x)`. -/
def Wraps {τ : Type} (func : τ → Bytes → Res (Bytes × τ)) (st : Bytes → τ) (em : Bytes → Bytes)
    (bound : Nat) : Prop :=
  ∀ p x, (∀ o s', func (st p) x = .ok (o, s') → s' = st (p ++ x) ∧ em p ++ o = em (p ++ x)) ∧
    ((p ++ x).length ≤ bound → ∃ r, func (st p) x = .ok r)

theorem Wraps.reach {τ : Type} {func : τ → Bytes → Res (Bytes × τ)} {st : Bytes → τ}
    {em : Bytes → Bytes} {b : Nat} (h : Wraps func st em b) {s : τ} (hr : Reach func (st []) s) :
    ∃ p, s = st p := by
  induction hr with
  | start => exact ⟨[], rfl⟩
  | @call s d o s' _ hc ih =>
    obtain ⟨p, rfl⟩ := ih
    exact ⟨p ++ d, ((h p d).1 _ _ hc).1⟩

theorem Wraps.feed {τ : Type} {func : τ → Bytes → Res (Bytes × τ)} {st : Bytes → τ}
    {em : Bytes → Bytes} {b : Nat} (h : Wraps func st em b) : ∀ (ps : List Bytes) (p : Bytes),
    (p ++ ps.flatten).length ≤ b →
    ∃ os, Spec.feed func (st p) ps = .ok (os, st (p ++ ps.flatten)) ∧
      em p ++ os.flatten = em (p ++ ps.flatten)
  | [], p, _ => ⟨[], by simp [Spec.feed], by simp⟩
  | x :: ps, p, hb => by
    rw [List.flatten_cons, ← List.append_assoc] at hb
    obtain ⟨⟨o, s'⟩, hr⟩ := (h p x).2 (by rw [List.length_append] at hb; omega)
    obtain ⟨rfl, ho⟩ := (h p x).1 _ _ hr
    obtain ⟨os, h1, h2⟩ := Wraps.feed h ps (p ++ x) hb
    refine ⟨o :: os, ?_, ?_⟩
    · simp only [Spec.feed, hr, h1, List.flatten_cons, List.append_assoc]
    · rw [List.flatten_cons, ← List.append_assoc, ho, h2, List.flatten_cons, List.append_assoc]

theorem Wraps.sameLength {τ : Type} {func : τ → Bytes → Res (Bytes × τ)} {st : Bytes → τ}
    {em : Bytes → Bytes} {b : Nat} (h : Wraps func st em b) (hl : ∀ p, (em p).length = p.length) :
    SameLength func (st []) := by
  intro s d o s' hr hc
  obtain ⟨p, rfl⟩ := h.reach hr
  have := congrArg List.length ((h p d).1 _ _ hc).2
  simp only [List.length_append, hl] at this
  omega

theorem Wraps.wholeBlocks {τ : Type} {func : τ → Bytes → Res (Bytes × τ)} {st : Bytes → τ}
    {em : Bytes → Bytes} {b bs : Nat} (h : Wraps func st em b) (hbs : 0 < bs)
    (hl : ∀ p, (em p).length = p.length - p.length % bs) {held : τ → Nat}
    (hh : ∀ p, held (st p) = p.length % bs) :
    WholeBlocks bs held func (st []) := by
  intro s d o s' hr hc
  obtain ⟨p, rfl⟩ := h.reach hr
  obtain ⟨rfl, ho⟩ := (h p d).1 _ _ hc
  have ho' := congrArg List.length ho
  simp only [List.length_append, hl] at ho'
  have m1 := Nat.mod_le p.length bs
  have m2 := Nat.mod_le (p.length + d.length) bs
  have m3 := Nat.mod_lt p.length hbs
  have m4 := Nat.mod_lt (p.length + d.length) hbs
  rw [hh, hh, List.length_append]
  refine ⟨by omega, m4, ?_⟩
  have : o.length = (p.length + d.length - (p.length + d.length) % bs) -
      (p.length - p.length % bs) := by omega
  rw [this]
  exact Nat.dvd_sub (Nat.dvd_sub_mod _) (Nat.dvd_sub_mod _)

end Fizz.Aead

import Verif.Aead.Transform

/-! Lemmas on chains seen as one flat memory (nothing here is a claim). -/

namespace Fizz.Aead

/-- Overwrite `d` at position `p`. -/
def put (m : Bytes) (p : Nat) (d : Bytes) : Bytes := m.take p ++ d ++ m.drop (p + d.length)

theorem put_nil (m : Bytes) (p : Nat) : put m p [] = m := by simp [put]

theorem put_length {m : Bytes} {p : Nat} {d : Bytes} (h : p + d.length ≤ m.length) :
    (put m p d).length = m.length := by
  simp [put]; omega

/-- Flat position of a cursor. -/
def Cur.pos (ls : List Nat) (c : Cur) : Nat := (ls.take c.i).sum + c.o

/-- The cursor points into (or at the end of) an existing buffer. -/
def Cur.Valid (ls : List Nat) (c : Cur) : Prop := c.i < ls.length ∧ c.o ≤ ls.getD c.i 0

theorem chain_split {c : Chain} {i : Nat} (h : i < c.length) :
    ∃ pre b suf, c = pre ++ b :: suf ∧ pre.length = i := by
  refine ⟨c.take i, c[i], c.drop (i+1), ?_, by simp; omega⟩
  simp

theorem ls_split {c : List Nat} {i : Nat} (h : i < c.length) :
    ∃ pre b suf, c = pre ++ b :: suf ∧ pre.length = i := by
  refine ⟨c.take i, c[i], c.drop (i+1), ?_, by simp; omega⟩
  simp

theorem lens_length (c : Chain) : (lens c).length = c.length := by simp [lens]

theorem lens_sum (c : Chain) : (lens c).sum = c.flatten.length := by
  simp [lens, List.length_flatten]

theorem lens_getD {c : Chain} {i : Nat} {b : Bytes} (h : c[i]? = some b) :
    (lens c).getD i 0 = b.length := by
  simp [lens, List.getD, h]

theorem readAt_flat {c : Chain} {i o n : Nat} (hi : i < c.length)
    (h : o + n ≤ (lens c).getD i 0) :
    readAt c i o n = .ok ((c.flatten.drop (((lens c).take i).sum + o)).take n) := by
  obtain ⟨pre, b, suf, rfl, rfl⟩ := chain_split hi
  have hb : (pre ++ b :: suf)[pre.length]? = some b := by simp
  rw [lens_getD hb] at h
  have e : ((lens (pre ++ b :: suf)).take pre.length).sum = pre.flatten.length := by
    simp [lens, List.length_flatten]
  rw [e]
  simp only [readAt, hb, h, if_true]
  congr 1
  rw [List.flatten_append, List.flatten_cons, List.drop_append,
    List.drop_eq_nil_of_le (as := pre.flatten) (by omega)]
  simp only [List.nil_append, Nat.add_sub_cancel_left]
  rw [List.drop_append_of_le_length (by omega),
    List.take_append_of_le_length (by rw [List.length_drop]; omega)]

theorem writeAt_flat {c : Chain} {i o : Nat} {d : Bytes} (hi : i < c.length)
    (h : o + d.length ≤ (lens c).getD i 0) :
    ∃ c', writeAt c i o d = .ok c' ∧ lens c' = lens c ∧
      c'.flatten = put c.flatten (((lens c).take i).sum + o) d := by
  cases d with
  | nil => exact ⟨c, rfl, rfl, (put_nil _ _).symm⟩
  | cons x d =>
    obtain ⟨pre, b, suf, rfl, rfl⟩ := chain_split hi
    have hb : (pre ++ b :: suf)[pre.length]? = some b := by simp
    rw [lens_getD hb] at h
    have e : ((lens (pre ++ b :: suf)).take pre.length).sum = pre.flatten.length := by
      simp [lens, List.length_flatten]
    rw [e]
    simp only [writeAt, hb, h, if_true]
    refine ⟨_, rfl, ?_, ?_⟩
    · simp [lens]; simp at h; omega
    · simp [put, List.take_append, List.drop_append]
      simp at h
      have e1 : List.drop (pre.flatten.length + o + (d.length + 1)) pre.flatten = [] :=
        List.drop_eq_nil_of_le (by omega)
      have e2 : pre.flatten.length + o + (d.length + 1) - pre.flatten.length = o + (d.length + 1) := by
        omega
      have e3 : List.take (o - b.length) suf.flatten = [] := by
        rw [show o - b.length = 0 by omega]; rfl
      have e4 : o + (d.length + 1) - b.length = 0 := by omega
      simp only [List.length_flatten] at e1 e2
      rw [e1, e2, e3, e4]; simp
      have e5 : List.take (List.map List.length pre).sum pre.flatten = pre.flatten := by
        rw [← List.length_flatten, List.take_length]
      rw [List.take_of_length_le (by rw [List.length_flatten]; omega)]

theorem sum_take_succ {ls : List Nat} {i : Nat} (h : i < ls.length) :
    (ls.take (i+1)).sum = (ls.take i).sum + ls.getD i 0 := by
  obtain ⟨pre, b, suf, rfl, rfl⟩ := ls_split h
  simp [List.take_append, List.take_of_length_le, List.getD]

theorem sum_le {ls : List Nat} {i : Nat} : (ls.take i).sum ≤ ls.sum := by
  have : ls.sum = (ls.take i).sum + (ls.drop i).sum := by
    rw [← List.sum_append, List.take_append_drop]
  omega

theorem Cur.Valid.pos_le {ls : List Nat} {c : Cur} (h : c.Valid ls) : c.pos ls ≤ ls.sum := by
  have := @sum_le ls (c.i+1)
  rw [sum_take_succ h.1] at this
  have := h.2
  simp only [Cur.pos]; omega

theorem Cur.Valid.room {ls : List Nat} {c : Cur} (h : c.Valid ls) :
    c.pos ls + c.length ls ≤ ls.sum := by
  have := @sum_le ls (c.i+1)
  rw [sum_take_succ h.1] at this
  have := h.2
  simp only [Cur.pos, Cur.length]; omega

theorem Cur.Valid.last {ls : List Nat} {c : Cur} (h : c.Valid ls) (hl : ¬ c.i + 1 < ls.length) :
    c.pos ls + c.length ls = ls.sum := by
  have e : ls.take (c.i+1) = ls := List.take_of_length_le (by omega)
  have := sum_take_succ h.1
  rw [e] at this
  have := h.2
  simp only [Cur.pos, Cur.length]; omega

theorem Cur.advance_pos {ls : List Nat} {c : Cur} (h : c.Valid ls) (hl : c.i + 1 < ls.length) :
    Cur.pos ls ⟨c.i + 1, 0⟩ = c.pos ls + c.length ls := by
  have := sum_take_succ h.1
  have := h.2
  simp only [Cur.pos, Cur.length]; omega

theorem Cur.advance_valid {ls : List Nat} {c : Cur} (hl : c.i + 1 < ls.length) :
    Cur.Valid ls ⟨c.i + 1, 0⟩ := ⟨hl, Nat.zero_le _⟩

theorem peekLoop_spec {ls : List Nat} : ∀ (n : Nat) (c : Cur), c.Valid ls → ls.length ≤ c.i + n →
    (Cur.peekLoop ls n c).Valid ls ∧ (Cur.peekLoop ls n c).pos ls = c.pos ls ∧
      ((Cur.peekLoop ls n c).length ls = 0 → c.pos ls = ls.sum)
  | 0, c, hv, hn => by have := hv.1; omega
  | n+1, c, hv, hn => by
    simp only [Cur.peekLoop]
    split
    next h0 =>
      by_cases hl : c.i + 1 < ls.length
      · simp only [Cur.tryAdvance, hl, if_true]
        have := peekLoop_spec n ⟨c.i+1, 0⟩ (Cur.advance_valid hl) (by simp; omega)
        rw [Cur.advance_pos hv hl, h0, Nat.add_zero] at this
        exact this
      · simp only [Cur.tryAdvance, hl, if_false]
        have := hv.last hl
        have hv2 := hv.2
        simp only [Cur.length] at h0
        refine ⟨⟨hv.1, Nat.le_refl _⟩, ?_, fun _ => ?_⟩
        · simp only [Cur.pos]; omega
        · simp only [Cur.length] at this; omega
    next h0 => exact ⟨hv, rfl, fun h => absurd h h0⟩

theorem peek_spec {ls : List Nat} {c : Cur} (hv : c.Valid ls) :
    (c.peek ls).Valid ls ∧ (c.peek ls).pos ls = c.pos ls ∧
      ((c.peek ls).length ls = 0 → c.pos ls = ls.sum) :=
  peekLoop_spec ls.length c hv (by omega)

theorem all_zero_iff (l : List Nat) : l.all (· == 0) = true ↔ l.sum = 0 := by
  induction l with
  | nil => simp
  | cons a l ih =>
    rw [List.all_cons, Bool.and_eq_true, ih, List.sum_cons, beq_iff_eq]; omega

theorem isAtEnd_iff {ls : List Nat} {c : Cur} (hv : c.Valid ls) :
    c.isAtEnd ls = true ↔ c.pos ls = ls.sum := by
  have h1 := sum_take_succ hv.1
  have h2 : ls.sum = (ls.take (c.i+1)).sum + (ls.drop (c.i+1)).sum := by
    rw [← List.sum_append, List.take_append_drop]
  have h3 := hv.2
  simp only [Cur.isAtEnd, Bool.and_eq_true, beq_iff_eq, all_zero_iff, Cur.pos, Cur.length]
  omega

theorem skipLoop_spec {ls : List Nat} : ∀ (fuel : Nat) (c : Cur) (n : Nat), c.Valid ls →
    ls.length < c.i + fuel → c.pos ls + n ≤ ls.sum →
    ∃ c', Cur.skipLoop ls fuel c n = .ok c' ∧ c'.Valid ls ∧ c'.pos ls = c.pos ls + n
  | 0, c, n, hv, hf, h => by have := hv.1; omega
  | fuel+1, c, n, hv, hf, h => by
    simp only [Cur.skipLoop]
    split
    next hlt =>
      by_cases hl : c.i + 1 < ls.length
      · simp only [Cur.tryAdvance, hl, if_true]
        have ha := Cur.advance_pos hv hl
        obtain ⟨c', e, hv', hp⟩ := skipLoop_spec fuel ⟨c.i+1,0⟩ (n - c.length ls)
          (Cur.advance_valid hl) (by simp; omega) (by rw [ha]; omega)
        exact ⟨c', e, hv', by rw [hp, ha]; omega⟩
      · have := hv.last hl; omega
    next hge =>
      have hv2 := hv.2
      have hge' : n ≤ ls.getD c.i 0 - c.o := by simp only [Cur.length] at hge; omega
      have hv' : Cur.Valid ls ⟨c.i, c.o + n⟩ := ⟨hv.1, by simp only; omega⟩
      have hp' : Cur.pos ls ⟨c.i, c.o + n⟩ = c.pos ls + n := by simp only [Cur.pos]; omega
      split
      next h0 =>
        by_cases hl : c.i + 1 < ls.length
        · simp only [Cur.tryAdvance, hl, if_true]
          refine ⟨_, rfl, Cur.advance_valid hl, ?_⟩
          rw [← hp']
          have := Cur.advance_pos hv' hl
          rw [this, h0, Nat.add_zero]
        · simp only [Cur.tryAdvance, hl, if_false]
          refine ⟨_, rfl, ⟨hv.1, Nat.le_refl _⟩, ?_⟩
          have h0' : ls.getD c.i 0 - (c.o + n) = 0 := h0
          simp only [Cur.pos]; omega
      next h0 => exact ⟨_, rfl, hv', hp'⟩

theorem skip_spec {ls : List Nat} {c : Cur} {n : Nat} (hv : c.Valid ls)
    (h : c.pos ls + n ≤ ls.sum) :
    ∃ c', c.skip ls n = .ok c' ∧ c'.Valid ls ∧ c'.pos ls = c.pos ls + n :=
  skipLoop_spec _ c n hv (by omega) h

theorem put_put {m : Bytes} {p : Nat} {d e : Bytes} (h : p + d.length + e.length ≤ m.length) :
    put (put m p d) (p + d.length) e = put m p (d ++ e) := by
  have e1 : (m.take p ++ d).length = p + d.length := by simp; omega
  simp only [put, List.length_append]
  rw [List.take_left' e1, List.drop_append, List.drop_eq_nil_of_le (by omega), List.drop_drop, e1]
  simp only [List.nil_append, List.append_assoc]
  congr 4
  omega

theorem pushLoop_spec : ∀ (fuel : Nat) (m : Chain) (c : Cur) (d : Bytes), c.Valid (lens m) →
    m.length < c.i + fuel → c.pos (lens m) + d.length ≤ (lens m).sum →
    ∃ m' c', pushLoop fuel m c d = .ok (m', c') ∧ lens m' = lens m ∧ c'.Valid (lens m) ∧
      c'.pos (lens m) = c.pos (lens m) + d.length ∧
      m'.flatten = put m.flatten (c.pos (lens m)) d
  | 0, m, c, d, hv, hf, h => by have := hv.1; rw [lens_length] at this; omega
  | fuel+1, m, c, d, hv, hf, h => by
    simp only [pushLoop]
    have hi : c.i < m.length := by have := hv.1; rwa [lens_length] at this
    have hv2 := hv.2
    split
    next hle =>
      have hle' : c.o + d.length ≤ (lens m).getD c.i 0 := by
        simp only [Cur.length] at hle; omega
      obtain ⟨m', e, hl, hf'⟩ := writeAt_flat hi hle'
      rw [e, Res.ok_bind]
      exact ⟨m', _, rfl, hl, ⟨hv.1, hle'⟩, by simp only [Cur.pos]; omega, hf'⟩
    next hgt =>
      have hlen : (d.take (c.length (lens m))).length = c.length (lens m) := by simp; omega
      have hle' : c.o + (d.take (c.length (lens m))).length ≤ (lens m).getD c.i 0 := by
        rw [hlen]; simp only [Cur.length]; omega
      obtain ⟨m1, e, hl, hf'⟩ := writeAt_flat hi hle'
      have hadv : c.i + 1 < (lens m).length := by
        apply Decidable.byContradiction; intro hn
        have := hv.last hn; omega
      rw [e, Res.ok_bind]
      have ha := Cur.advance_pos hv hadv
      simp only [Cur.tryAdvance, hl, hadv, if_true]
      obtain ⟨m', c', e', hl', hv', hp', hf2⟩ := pushLoop_spec fuel m1 ⟨c.i+1, 0⟩
        (d.drop (c.length (lens m))) (by rw [hl]; exact Cur.advance_valid hadv)
        (by have : m1.length = m.length := by rw [← lens_length, hl, lens_length]
            simp; omega)
        (by rw [hl, ha, List.length_drop]; omega)
      rw [hl] at hl' hv' hp' hf2
      refine ⟨m', c', e', hl', hv', by rw [hp', ha, List.length_drop]; omega, ?_⟩
      rw [hf2, hf', ha]
      have : ((lens m).take c.i).sum + c.o = c.pos (lens m) := rfl
      rw [this]
      have hroom := hv.room
      have := put_put (m := m.flatten) (p := c.pos (lens m)) (d := d.take (c.length (lens m)))
        (e := d.drop (c.length (lens m))) (by rw [← lens_sum]; simp; omega)
      rw [hlen] at this
      rw [this, List.take_append_drop]

theorem push_spec {m : Chain} {c : Cur} {d : Bytes} (hv : c.Valid (lens m))
    (h : c.pos (lens m) + d.length ≤ (lens m).sum) :
    ∃ m' c', push m c d = .ok (m', c') ∧ lens m' = lens m ∧ c'.Valid (lens m) ∧
      c'.pos (lens m) = c.pos (lens m) + d.length ∧
      m'.flatten = put m.flatten (c.pos (lens m)) d := by
  unfold push
  split
  next h0 =>
    have : d = [] := List.eq_nil_of_length_eq_zero h0
    subst this
    exact ⟨m, c, rfl, rfl, hv, rfl, (put_nil _ _).symm⟩
  next => exact pushLoop_spec _ m c d hv (by omega) h

end Fizz.Aead

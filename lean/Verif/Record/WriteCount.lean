import Verif.Record.WriteProps

/-! # C07: how many records a write makes -/

namespace Fizz.Record

/-- The records of at most `m` bytes that `n` bytes need. -/
def recordsFor (n m : Nat) : Nat := (n + (m - 1)) / m

theorem recordsFor_zero {m} (hm : 0 < m) : recordsFor 0 m = 0 := by
  unfold recordsFor
  rw [Nat.zero_add]
  exact Nat.div_eq_of_lt (by omega)

theorem recordsFor_small {n m} (h0 : 0 < n) (h : n ≤ m) : recordsFor n m = 1 := by
  unfold recordsFor
  rw [show n + (m - 1) = (n - 1) + m by omega, Nat.add_div_right _ (by omega), Nat.div_eq_of_lt (by omega)]

theorem recordsFor_add {k r m} (hm : 0 < m) (hk : m ≤ k) : recordsFor r m + 1 ≤ recordsFor (k + r) m := by
  unfold recordsFor
  have h : r + (m - 1) + m ≤ k + r + (m - 1) := by omega
  have := Nat.div_le_div_right (c := m) h
  rw [Nat.add_div_right _ hm] at this
  exact this

theorem recordsFor_exact {r m} (hm : 0 < m) : recordsFor (m + r) m = recordsFor r m + 1 := by
  unfold recordsFor
  rw [show m + r + (m - 1) = r + (m - 1) + m by omega, Nat.add_div_right _ hm]

theorem splitAtMost_small {c : Nat} : ∀ (q : List Bytes) (n : Nat), (∀ b ∈ q, b.length < c) →
    ∀ b ∈ (splitAtMost n q).2, b.length < c
  | q, 0, h => by cases q <;> simpa [splitAtMost] using h
  | [], n+1, h => by simp [splitAtMost]
  | b :: q, n+1, h => by
    simp only [splitAtMost]
    split
    · exact splitAtMost_small q _ fun x hx => h x (by simp [hx])
    · intro x hx
      rcases List.mem_cons.1 hx with rfl | hx
      · have := h b (by simp)
        simp only [List.length_drop]; omega
      · exact h x (by simp [hx])

/-- Something is left only after a record of at least the suggested size. -/
theorem getBuf_size (q : List Bytes) (mr : UInt16) (hmr : 0 < mr.toNat) (hq : ¬ queueEmpty q = true) :
    min mr.toNat 1500 ≤ (getBufToEncrypt q mr).1.flatten.length ∨ (getBufToEncrypt q mr).2.flatten = [] := by
  have hpos := queueEmpty_false hq
  have cut : ∀ n, min mr.toNat 1500 ≤ n → min mr.toNat 1500 ≤ (splitAtMost n q).1.flatten.length ∨
      (splitAtMost n q).2.flatten = [] := by
    intro n hn
    obtain ⟨h1, h2⟩ := splitAtMost_spec q n
    by_cases hc : n ≤ q.flatten.length
    · exact .inl (by omega)
    · right
      have := congrArg List.length h1
      rw [List.length_append] at this
      exact List.length_eq_zero_iff.1 (by omega)
  cases q with
  | nil => simp at hpos
  | cons b q =>
    simp only [getBufToEncrypt]
    split
    · exact cut _ (by omega)
    · split
      · rename_i h
        left
        simp only [kMinSuggestedRecordSize] at h
        simp; omega
      · exact cut _ (by simp only [kMinSuggestedRecordSize]; omega)

/-- With small buffers, every record but the last has exactly the suggested size. -/
theorem getBuf_exact (q : List Bytes) (mr : UInt16) (hq : ∀ b ∈ q, b.length < 1500)
    (hne : ¬ queueEmpty q = true) :
    (getBufToEncrypt q mr).1.flatten.length = min q.flatten.length (min mr.toNat 1500) ∧
    ∀ b ∈ (getBufToEncrypt q mr).2, b.length < 1500 := by
  have hpos := queueEmpty_false hne
  cases q with
  | nil => simp at hpos
  | cons b q =>
    have hb := hq b (by simp)
    simp only [getBufToEncrypt]
    split
    · obtain ⟨h1, h2⟩ := splitAtMost_spec (b :: q) mr.toNat
      exact ⟨by omega, splitAtMost_small _ _ hq⟩
    · split
      · rename_i h
        simp only [kMinSuggestedRecordSize] at h
        omega
      · obtain ⟨h1, h2⟩ := splitAtMost_spec (b :: q) (min mr.toNat kMinSuggestedRecordSize)
        simp only [kMinSuggestedRecordSize] at *
        exact ⟨by omega, splitAtMost_small _ _ hq⟩

theorem apply_getBuf (p : Policy) (q : List Bytes) (mr : UInt16) :
    (p.apply q mr).1 = (getBufToEncrypt q mr).1 ∧ (p.apply q mr).2.1 = (getBufToEncrypt q mr).2 := by
  cases p <;> exact ⟨rfl, rfl⟩

theorem loop_count (a : Aead) (type : UInt8) : ∀ (n : Nat) (w : EncWr) (q : List Bytes) {w' calls out},
    0 < w.maxRecord.toNat → q.flatten.length < n → encWriteLoop a type n w q = (w', calls, .ok out) →
    calls.length ≤ recordsFor q.flatten.length (min w.maxRecord.toNat 1500) ∧
    ((∀ b ∈ q, b.length < 1500) → calls.length = recordsFor q.flatten.length (min w.maxRecord.toNat 1500)) := by
  intro n
  induction n with
  | zero => intro w q w' calls out _ h; omega
  | succ n ih =>
    intro w q w' calls out hmr hn h
    simp only [encWriteLoop] at h
    have hm : 0 < min w.maxRecord.toNat 1500 := by omega
    by_cases hq : queueEmpty q = true
    · rw [if_pos hq] at h
      cases h
      have h0 : q.flatten.length = 0 := by rw [(queueEmpty_iff q).1 hq]; rfl
      rw [h0, recordsFor_zero hm]
      exact ⟨Nat.le_refl _, fun _ => rfl⟩
    rw [if_neg hq] at h
    split at h
    · cases h
    · obtain ⟨e1, e2⟩ := apply_getBuf w.policy q w.maxRecord
      obtain ⟨p1, p2, p3⟩ := getBufToEncrypt_spec q w.maxRecord hmr hq
      have hlen := congrArg List.length p1
      rw [List.length_append] at hlen
      split at h
      · cases h
      · rename_i ct hct
        rw [e2] at h
        generalize hk : encWriteLoop a type n { w with seq := w.seq + 1 } (getBufToEncrypt q w.maxRecord).2 = k at h
        obtain ⟨k1, k2, k3⟩ := k
        cases k3 with
        | error f => simp only [Except.map] at h; cases h
        | ok o =>
          cases h
          obtain ⟨i1, i2⟩ := ih { w with seq := w.seq + 1 } _ hmr (by omega) hk
          simp only [List.length_cons] at i1 i2 ⊢
          have le : k2.length + 1 ≤ recordsFor q.flatten.length (min w.maxRecord.toNat 1500) := by
            rcases getBuf_size q w.maxRecord hmr hq with hs | hs
            · have := recordsFor_add (r := (getBufToEncrypt q w.maxRecord).2.flatten.length) hm hs
              rw [hlen] at this
              omega
            · rw [hs, List.length_nil, recordsFor_zero hm] at i1
              have h0 := recordsFor_small (n := 1) (m := min w.maxRecord.toNat 1500) (by omega) hm
              have : recordsFor 1 (min w.maxRecord.toNat 1500) ≤ recordsFor q.flatten.length (min w.maxRecord.toNat 1500) := by
                unfold recordsFor
                exact Nat.div_le_div_right (by omega)
              omega
          refine ⟨le, fun hb => ?_⟩
          obtain ⟨x1, x2⟩ := getBuf_exact q w.maxRecord hb hq
          have i2 := i2 x2
          by_cases hc : q.flatten.length ≤ min w.maxRecord.toNat 1500
          · have : (getBufToEncrypt q w.maxRecord).2.flatten.length = 0 := by omega
            rw [this, recordsFor_zero hm] at i2
            rw [i2, recordsFor_small (by omega) hc]
          · rw [i2, ← hlen, show (getBufToEncrypt q w.maxRecord).1.flatten.length = min w.maxRecord.toNat 1500 by omega,
              recordsFor_exact hm]

/-- C07: data is not scattered over many records, however the application's buffers are cut: a write makes at most as
many records as the data needs at the suggested size of 1500 bytes (or the maximum, if that is less), and exactly that many if all
its buffers are smaller than that. -/
theorem C07_count (w : EncWr) (hmr : 0 < w.maxRecord.toNat) (type : UInt8) (chain : List Bytes) {w' calls out}
    (h : encWrite w type chain = (w', calls, .ok out)) :
    calls.length ≤ recordsFor chain.flatten.length (min w.maxRecord.toNat 1500) ∧
    ((∀ b ∈ chain, b.length < 1500) →
      calls.length = recordsFor chain.flatten.length (min w.maxRecord.toNat 1500)) := by
  unfold encWrite at h
  split at h
  · cases h
  · exact loop_count _ type _ w chain hmr (by omega) h

/-- An AEAD that only adds a tag byte. -/
def plainAead : Aead := ⟨1, fun _ _ p => .ok (p ++ [0]), fun _ _ c => .ok (some [c.dropLast])⟩

/-- Two bytes in two buffers need one record. -/
example : ∃ w' call out, encWrite { aead := some plainAead } 23 [[1], [2]] = (w', [call], .ok out) :=
  ⟨_, _, _, rfl⟩

end Fizz.Record

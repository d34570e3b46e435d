import Verif.Server.Bloom
import Mathlib.Tactic.SplitIfs

/-!
# C12, C13: the sliding bloom replay cache
-/

namespace Fizz.Bloom

/-- Bit `b` of a cell. -/
def bit (x : UInt64) (b : Nat) : Bool := x.toBitVec.getLsbD b

theorem bit_and (x y : UInt64) (b : Nat) : bit (x &&& y) b = (bit x b && bit y b) := by simp [bit]
theorem bit_or (x y : UInt64) (b : Nat) : bit (x ||| y) b = (bit x b || bit y b) := by simp [bit]
theorem bit_zero (b : Nat) : bit 0 b = false := by simp [bit]
theorem bit_ones (b : Nat) (h : b < 64) : bit 0xffffffffffffffff b = true := by
  have : (0xffffffffffffffff : UInt64).toBitVec = BitVec.allOnes 64 := by decide
  simp only [bit, this, BitVec.getLsbD_allOnes, h, decide_true]
theorem bit_lt (x : UInt64) (b : Nat) (h : bit x b = true) : b < 64 := BitVec.lt_of_getLsbD h
theorem ne_zero_iff (x : UInt64) : (x != 0) = true ↔ ∃ b, bit x b = true := by
  constructor
  · intro h
    apply Classical.byContradiction
    intro hn
    have : x = 0 := by
      apply UInt64.toBitVec_inj.mp
      apply BitVec.eq_of_getLsbD_eq
      intro i hi
      have := fun hh => hn ⟨i, hh⟩
      simp only [bit] at this
      simp at this ⊢
      exact this
    simp [this] at h
  · rintro ⟨b, hb⟩
    simp only [bne_iff_ne, ne_eq]
    intro c
    rw [c, bit_zero] at hb
    cases hb

theorem bit_mask (k b : Nat) (hk : k < 12) : bit (bucketMask k) b = decide (b = k) := by
  have hk' : (UInt64.ofNat k).toNat = k := by
    rw [UInt64.toNat_ofNat']; exact Nat.mod_eq_of_lt (by omega)
  simp only [bit, bucketMask, UInt64.toBitVec_shiftLeft]
  simp only [BitVec.shiftLeft_eq', BitVec.getLsbD_shiftLeft]
  have e : ((UInt64.ofNat k).toBitVec % 64).toNat = k := by
    have : (UInt64.ofNat k % 64).toNat = k := by
      rw [UInt64.toNat_mod, hk']; exact Nat.mod_eq_of_lt (by show k < 64; omega)
    exact this
  rw [e]
  have o : (UInt64.toBitVec 1) = 1#64 := rfl
  rw [o, BitVec.getLsbD_one]
  simp only [Nat.zero_lt_succ, decide_true, Bool.true_and]
  rw [Bool.eq_iff_iff]
  simp only [Bool.and_eq_true, decide_eq_true_eq, Bool.not_eq_true', decide_eq_false_iff_not]
  omega

theorem bit_not_mask (x : UInt64) (k b : Nat) (hk : k < 12) :
    bit (x &&& ~~~ bucketMask k) b = (bit x b && decide (b ≠ k)) := by
  rw [bit_and]
  have h := bit_mask k b hk
  cases hx : bit x b with
  | false => rfl
  | true =>
    have := bit_lt x b hx
    have e : bit (~~~ bucketMask k) b = !bit (bucketMask k) b := by simp [bit, this]
    rw [e, h]
    simp

/-! ## The two loops -/

theorem idxs_fold_or (mask : UInt64) (idxs : List Nat) : ∀ (cells : Nat → UInt64) (j b : Nat),
    bit (idxs.foldl (fun c i => orCell c i mask) cells j) b =
      (bit (cells j) b || (decide (j ∈ idxs) && bit mask b)) := by
  induction idxs with
  | nil => intro cells j b; simp
  | cons i idxs ih =>
    intro cells j b
    simp only [List.foldl_cons]
    rw [ih, orCell]
    by_cases h : j = i
    · subst h
      simp only [if_true, bit_or, List.mem_cons, true_or, decide_true, Bool.true_and]
      cases bit (cells j) b <;> cases bit mask b <;> simp
    · simp [h]

/-- The result of the one-pass loop, as a fold over the indices. -/
theorem testAndSet_eq (c : Cache) (q : Bytes) :
    c.testAndSet q =
      (let r := (c.hashers.map (fun h => c.idx h q)).foldl
        (fun (p : UInt64 × (Nat → UInt64)) i => (p.1 &&& p.2 i, orCell p.2 i (bucketMask c.cur)))
        ((0xffffffffffffffff : UInt64), c.cells)
       ({ c with cells := r.2 }, r.1 != 0)) := by
  simp only [Cache.testAndSet, List.foldl_map]

theorem fold_cells (mask : UInt64) (idxs : List Nat) : ∀ (ret : UInt64) (cells : Nat → UInt64),
    (idxs.foldl (fun (p : UInt64 × (Nat → UInt64)) i => (p.1 &&& p.2 i, orCell p.2 i mask))
      (ret, cells)).2 = idxs.foldl (fun c i => orCell c i mask) cells := by
  induction idxs with
  | nil => intro ret cells; rfl
  | cons i idxs ih => intro ret cells; simp only [List.foldl_cons]; rw [ih]

theorem fold_ret (mask : UInt64) (idxs : List Nat) : ∀ (ret : UInt64) (cells : Nat → UInt64) (b : Nat),
    bit (idxs.foldl (fun (p : UInt64 × (Nat → UInt64)) i => (p.1 &&& p.2 i, orCell p.2 i mask))
      (ret, cells)).1 b = (bit ret b && idxs.all (fun i => bit (cells i) b)) := by
  induction idxs with
  | nil => intro ret cells b; simp
  | cons i idxs ih =>
    intro ret cells b
    simp only [List.foldl_cons]
    rw [ih, bit_and, List.all_cons]
    cases hi : bit (cells i) b with
    | false => simp
    | true =>
      have : (idxs.all fun j => bit (orCell cells i mask j) b) = idxs.all fun j => bit (cells j) b := by
        congr 1
        funext j
        unfold orCell
        split
        · rename_i e; rw [e, bit_or, hi]; rfl
        · rfl
      rw [this]
      simp

/-! ## The invariant -/

/-- Query `q` was checked when the timer had fired `e` times. -/
def Inserted (ops : List Op) (e : Nat) (q : Bytes) : Prop :=
  ∃ pre post, ops = pre ++ .check q :: post ∧ ticks pre = e

theorem ticks_append (a b : List Op) : ticks (a ++ b) = ticks a + ticks b := by simp [ticks]

theorem Inserted.le {ops e q} (h : Inserted ops e q) : e ≤ ticks ops := by
  obtain ⟨pre, post, rfl, rfl⟩ := h
  rw [ticks_append]; omega

theorem inserted_snoc (ops : List Op) (op : Op) (e : Nat) (q : Bytes) :
    Inserted (ops ++ [op]) e q ↔ Inserted ops e q ∨ (op = .check q ∧ e = ticks ops) := by
  constructor
  · rintro ⟨pre, post, h, rfl⟩
    rcases List.eq_nil_or_concat post with rfl | ⟨post', x, rfl⟩
    · right
      have := List.append_inj' h (by simp)
      simp at this
      exact ⟨this.2, by rw [this.1]⟩
    · left
      rw [List.concat_eq_append, show pre ++ Op.check q :: (post' ++ [x]) = (pre ++ Op.check q :: post') ++ [x] by simp] at h
      have := List.append_inj' h (by simp)
      exact ⟨pre, post', this.1, rfl⟩
  · rintro (⟨pre, post, rfl, rfl⟩ | ⟨rfl, rfl⟩)
    · exact ⟨pre, post ++ [op], by simp, rfl⟩
    · exact ⟨ops, [], rfl, rfl⟩

/-- The meaning of the state after a history. -/
structure Inv (n : Nat) (hs : List (Bytes → UInt64)) (ops : List Op) (c : Cache) : Prop where
  size : c.bitSize = n
  hash : c.hashers = hs
  cur : c.cur = ticks ops % 12
  cell : ∀ j < n, ∀ b, bit (c.cells j) b = true ↔
    ∃ e q, Inserted ops e q ∧ ticks ops < e + 12 ∧ e % 12 = b ∧ ∃ h ∈ hs, (h q).toNat % n = j

theorem inv_run (n : Nat) (hs : List (Bytes → UInt64)) (rops : List Op) :
    Inv n hs rops.reverse ((Cache.init n hs).run rops.reverse) := by
  induction rops with
  | nil =>
    refine ⟨rfl, rfl, rfl, ?_⟩
    intro j _ b
    constructor
    · intro h
      have : bit (0 : UInt64) b = true := h
      rw [bit_zero] at this; cases this
    · rintro ⟨e, q, ⟨pre, post, h, -⟩, -⟩
      simp at h
  | cons op rops ih =>
    rw [List.reverse_cons]
    have hrun : (Cache.init n hs).run (rops.reverse ++ [op]) =
        ((Cache.init n hs).run rops.reverse).step op := by simp [Cache.run]
    rw [hrun]
    generalize (Cache.init n hs).run rops.reverse = c at ih
    generalize rops.reverse = ops at ih
    obtain ⟨h1, h2, h3, h4⟩ := ih
    have hcur : c.cur < 12 := by rw [h3]; omega
    cases op with
    | check q =>
      simp only [Cache.step]
      rw [testAndSet_eq]
      refine ⟨h1, h2, by rw [ticks_append]; simpa [ticks] using h3, ?_⟩
      intro j hj b
      simp only
      rw [fold_cells, idxs_fold_or, bit_mask _ _ hcur]
      have ht : ticks (ops ++ [Op.check q]) = ticks ops := by rw [ticks_append]; simp [ticks]
      rw [ht]
      simp only [Bool.or_eq_true, Bool.and_eq_true, decide_eq_true_eq, List.mem_map, h4 j hj b]
      constructor
      · rintro (⟨e, q', g1, g2, g3, g4⟩ | ⟨⟨h, g1, g2⟩, g3⟩)
        · exact ⟨e, q', (inserted_snoc _ _ _ _).mpr (.inl g1), g2, g3, g4⟩
        · refine ⟨ticks ops, q, (inserted_snoc _ _ _ _).mpr (.inr ⟨rfl, rfl⟩), by omega, by omega,
            h, h2 ▸ g1, ?_⟩
          rw [← g2, Cache.idx, h1]
      · rintro ⟨e, q', g1, g2, g3, h, g4, g5⟩
        rcases (inserted_snoc _ _ _ _).mp g1 with g1 | ⟨g0, rfl⟩
        · exact Or.inl ⟨e, q', g1, g2, g3, h, g4, g5⟩
        · injection g0 with g0
          subst g0
          exact Or.inr ⟨⟨h, h2 ▸ g4, by rw [Cache.idx, h1]; exact g5⟩, by omega⟩
    | tick =>
      have ht : ticks (ops ++ [Op.tick]) = ticks ops + 1 := by rw [ticks_append]; simp [ticks]
      refine ⟨h1, h2, ?_, ?_⟩
      · rw [ht]; simp only [Cache.step, Cache.clear, kBucketCount, h3]; omega
      · intro j hj b
        rw [ht]
        simp only [Cache.step, Cache.clear, Cache.clearBucket, kBucketCount]
        rw [if_pos (by rw [h1]; exact hj), bit_not_mask _ _ _ (by omega)]
        simp only [Bool.and_eq_true, decide_eq_true_eq, h4 j hj b]
        constructor
        · rintro ⟨⟨e, q', g1, g2, g3, g4⟩, g5⟩
          have := g1.le
          exact ⟨e, q', (inserted_snoc _ _ _ _).mpr (.inl g1), by omega, g3, g4⟩
        · rintro ⟨e, q', g1, g2, g3, g4⟩
          rcases (inserted_snoc _ _ _ _).mp g1 with g1 | ⟨g1, -⟩
          · have := g1.le
            exact ⟨⟨e, q', g1, by omega, g3, g4⟩, by omega⟩
          · cases g1

/-! ## C12 -/

/-- C12 (exact meaning): `check q` answers MaybeReplay exactly if, for one of the last twelve timer
periods, every hash cell of `q` was hit by some query checked in that period. -/
theorem C12_exact (n : Nat) (hn : 0 < n) (hs : List (Bytes → UInt64)) (hne : hs ≠ [])
    (ops : List Op) (q : Bytes) :
    answer n hs ops q = true ↔
      ∃ e, ticks ops < e + 12 ∧ ∀ h ∈ hs, ∃ q', (∃ pre post, ops = pre ++ .check q' :: post ∧
        ticks pre = e) ∧ ∃ h' ∈ hs, (h' q').toNat % n = (h q).toNat % n := by
  have inv := inv_run n hs ops.reverse
  rw [List.reverse_reverse] at inv
  unfold answer
  rw [testAndSet_eq]
  simp only
  rw [ne_zero_iff]
  simp only [fold_ret, Bool.and_eq_true, List.all_map, List.all_eq_true, Function.comp, inv.hash,
    Cache.idx, inv.size]
  constructor
  · rintro ⟨b, hb, hall⟩
    obtain ⟨h0, hh0⟩ := List.exists_mem_of_ne_nil hs hne
    obtain ⟨e, q0, g1, g2, g3, g4⟩ := (inv.cell _ (Nat.mod_lt _ hn) b).mp (hall h0 hh0)
    refine ⟨e, g2, ?_⟩
    intro h hh
    obtain ⟨e', q', k1, k2, k3, k4⟩ := (inv.cell _ (Nat.mod_lt _ hn) b).mp (hall h hh)
    have := g1.le
    have := k1.le
    have : e' = e := by omega
    subst this
    exact ⟨q', k1, k4⟩
  · rintro ⟨e, g1, g2⟩
    refine ⟨e % 12, bit_ones _ (by omega), ?_⟩
    intro h hh
    obtain ⟨q', k1, k2⟩ := g2 h hh
    exact (inv.cell _ (Nat.mod_lt _ hn) _).mpr ⟨e, q', k1, g1, rfl, k2⟩

/-- C12: no false negative: a query checked before is reported as long as the timer fired fewer
than twelve times since, whatever else happened. -/
theorem C12_no_false_negative (n : Nat) (hn : 0 < n) (hs : List (Bytes → UInt64)) (hne : hs ≠ [])
    (before after : List Op) (q : Bytes) (ht : ticks after < 12) :
    answer n hs (before ++ .check q :: after) q = true := by
  rw [C12_exact n hn hs hne]
  refine ⟨ticks before, ?_, ?_⟩
  · rw [ticks_append]; have : ticks (Op.check q :: after) = ticks after := by simp [ticks]
    omega
  · intro h hh
    exact ⟨q, ⟨before, after, rfl, rfl⟩, h, hh, rfl⟩

/-- C12 (the other direction, so the cache is not simply always positive): a query none of whose
hash cells was hit during the last twelve timer periods is accepted. -/
theorem C12_forgets (n : Nat) (hn : 0 < n) (hs : List (Bytes → UInt64)) (hne : hs ≠ [])
    (old recent : List Op) (q : Bytes) (ht : 12 ≤ ticks recent)
    (hfresh : ∀ q', Op.check q' ∈ recent → ∀ h ∈ hs, ∀ h' ∈ hs, (h' q').toNat % n ≠ (h q).toNat % n) :
    answer n hs (old ++ recent) q = false := by
  rw [Bool.eq_false_iff, ne_eq, C12_exact n hn hs hne]
  rintro ⟨e, h1, h2⟩
  obtain ⟨h0, hh0⟩ := List.exists_mem_of_ne_nil hs hne
  obtain ⟨q', ⟨pre, post, g1, rfl⟩, h', k1, k2⟩ := h2 h0 hh0
  rw [ticks_append] at h1
  rcases List.append_eq_append_iff.mp g1 with ⟨x, hx1, hx2⟩ | ⟨x, hx1, hx2⟩
  · exact hfresh q' (by rw [hx2]; simp) h0 hh0 h' k1 k2
  · rw [hx1, ticks_append] at h1
    omega

theorem bit_ext {x y : UInt64} (h : ∀ b, bit x b = bit y b) : x = y := by
  apply UInt64.toBitVec_inj.mp
  apply BitVec.eq_of_getLsbD_eq
  intro i _
  exact h i

theorem fold_test (cells : Nat → UInt64) (idxs : List Nat) : ∀ (ret : UInt64) (b : Nat),
    bit (idxs.foldl (fun r i => r &&& cells i) ret) b = (bit ret b && idxs.all (fun i => bit (cells i) b)) := by
  induction idxs with
  | nil => intro ret b; simp
  | cons i idxs ih =>
    intro ret b
    simp only [List.foldl_cons, List.all_cons]
    rw [ih, bit_and, Bool.and_assoc]

/-- C12: checking is a test followed by an insertion; the insertion does not influence the answer,
even when two hash functions of the query hit the same cell. -/
theorem C12_check_is_test_then_set (c : Cache) (q : Bytes) :
    c.testAndSet q = (c.set q, c.test q) := by
  rw [testAndSet_eq]
  simp only [Cache.set, Cache.test]
  have e1 : (c.hashers.foldl (fun cells h => orCell cells (c.idx h q) (bucketMask c.cur)) c.cells) =
      (c.hashers.map (fun h => c.idx h q)).foldl (fun cells i => orCell cells i (bucketMask c.cur)) c.cells := by
    rw [List.foldl_map]
  have e2 : (c.hashers.foldl (fun ret h => ret &&& c.cells (c.idx h q)) (0xffffffffffffffff : UInt64)) =
      (c.hashers.map (fun h => c.idx h q)).foldl (fun ret i => ret &&& c.cells i) 0xffffffffffffffff := by
    rw [List.foldl_map]
  rw [e1, e2, fold_cells]
  refine congrArg (Prod.mk _) (congrArg (· != 0) (bit_ext ?_))
  intro b
  rw [fold_ret, fold_test]

/-! ## Time -/

/-- A history with times in milliseconds. -/
abbrev Timed := List (Nat × Op)

/-- Times of a possible execution, most recent first: they do not decrease, and because the timer
is re-armed with the bucket width when it fires, two firings are at least `w` apart. -/
def Possible (w : Nat) : Timed → Prop
  | [] => True
  | (t, op) :: rest => Possible w rest ∧ (∀ p ∈ rest, p.1 ≤ t) ∧
      (op = .tick → ∀ p ∈ rest, p.2 = .tick → p.1 + w ≤ t)

/-- The operations in the order they happened. -/
def Timed.ops (h : Timed) : List Op := (h.map Prod.snd).reverse

theorem possible_ticks (w t0 : Nat) : ∀ (h : Timed), Possible w h →
    (∀ p ∈ h, t0 ≤ p.1) → ∀ k, ticks (h.map Prod.snd) = k + 1 →
    ∃ p ∈ h, p.2 = .tick ∧ t0 + k * w ≤ p.1 := by
  intro h
  induction h with
  | nil => intro _ _ k hk; simp [ticks] at hk
  | cons p h ih =>
    intro hp hb k hk
    obtain ⟨pt, op⟩ := p
    obtain ⟨hp1, hp2, hp3⟩ := hp
    have hpt := hb (pt, op) List.mem_cons_self
    have hb' : ∀ p ∈ h, t0 ≤ p.1 := fun p hm => hb p (List.mem_cons_of_mem _ hm)
    simp only at hpt
    cases op with
    | check q =>
      obtain ⟨p, g1, g2⟩ := ih hp1 hb' k (by simpa [ticks] using hk)
      exact ⟨p, List.mem_cons_of_mem _ g1, g2⟩
    | tick =>
      cases k with
      | zero => exact ⟨_, List.mem_cons_self, rfl, by simpa using hpt⟩
      | succ k =>
        obtain ⟨p, g1, g2, g3⟩ := ih hp1 hb' k (by simp [ticks] at hk ⊢; omega)
        refine ⟨_, List.mem_cons_self, rfl, ?_⟩
        have := hp3 rfl p g1 g2
        rw [Nat.succ_mul]
        simp only
        omega

theorem possible_split (w : Nat) (after before : Timed) (t : Nat) (op : Op)
    (h : Possible w (after ++ (t, op) :: before)) : Possible w after ∧ ∀ p ∈ after, t ≤ p.1 := by
  induction after with
  | nil => exact ⟨trivial, by simp⟩
  | cons p after ih =>
    obtain ⟨pt, o⟩ := p
    obtain ⟨h1, h2, h3⟩ := h
    obtain ⟨g1, g2⟩ := ih h1
    refine ⟨⟨g1, fun p hm => h2 p (by simp [hm]), fun ho p hm => h3 ho p (by simp [hm])⟩, ?_⟩
    intro p hm
    rcases List.mem_cons.mp hm with rfl | hm
    · exact h2 (t, op) (by simp)
    · exact g2 p hm

/-- C12 in terms of time: whatever the phase of the timer, a query is reported for at least eleven
bucket widths after it was checked. -/
theorem C12_timed (n : Nat) (hn : 0 < n) (hs : List (Bytes → UInt64)) (hne : hs ≠ [])
    (w : Nat) (after before : Timed) (t : Nat) (q : Bytes)
    (hp : Possible w (after ++ (t, .check q) :: before))
    (now : Nat) (hnow : ∀ p ∈ after, p.1 ≤ now) (hlt : now < t + 11 * w) :
    answer n hs (Timed.ops (after ++ (t, .check q) :: before)) q = true := by
  obtain ⟨h1, h2⟩ := possible_split w after before t _ hp
  have he : Timed.ops (after ++ (t, .check q) :: before) =
      Timed.ops before ++ .check q :: Timed.ops after := by simp [Timed.ops]
  rw [he]
  refine C12_no_false_negative n hn hs hne _ _ q ?_
  have hr : ticks (Timed.ops after) = ticks (after.map Prod.snd) := by
    simp [ticks, Timed.ops]
  rw [hr]
  apply Classical.byContradiction
  intro hc
  obtain ⟨p, g1, -, g3⟩ := possible_ticks w t after h1 h2 (ticks (after.map Prod.snd) - 1) (by omega)
  have g4 := hnow p g1
  have : 11 * w ≤ (ticks (after.map Prod.snd) - 1) * w := Nat.mul_le_mul_right _ (by omega)
  omega

/-! ## C13 -/

/-- C13, partial: what does hold is 11/12 of the configured time to live.  Missing: the last
twelfth, which is false, see `C13_counterexample`. -/
theorem C13_ttl_partial (n : Nat) (hn : 0 < n) (hs : List (Bytes → UInt64)) (hne : hs ≠ [])
    (ttlInSecs : Nat) (after before : Timed) (t : Nat) (q : Bytes)
    (hp : Possible (bucketWidthMs ttlInSecs) (after ++ (t, .check q) :: before))
    (now : Nat) (hnow : ∀ p ∈ after, p.1 ≤ now) (hlt : 12 * (now - t) ≤ 11 * (ttlInSecs * 1000)) :
    answer n hs (Timed.ops (after ++ (t, .check q) :: before)) q = true := by
  refine C12_timed n hn hs hne _ after before t q hp now hnow ?_
  unfold bucketWidthMs kBucketCount
  omega

/-- C13 is false of the code: for every time to live of at least a second there is a possible
execution in which a query is checked, checked again within the time to live, and reported as not
a replay.  (It is checked just before the timer fires; the twelfth firing, eleven bucket widths and
one millisecond later, erases it.) -/
theorem C13_counterexample (n : Nat) (hn : 0 < n) (hs : List (Bytes → UInt64)) (hne : hs ≠ [])
    (ttlInSecs : Nat) (httl : 1 ≤ ttlInSecs) (q : Bytes) :
    ∃ (after : Timed) (t now : Nat),
      Possible (bucketWidthMs ttlInSecs) (after ++ [(t, .check q)]) ∧
      (∀ p ∈ after, p.1 ≤ now) ∧ t ≤ now ∧ now ≤ t + ttlInSecs * 1000 ∧
      answer n hs (Timed.ops (after ++ [(t, .check q)])) q = false := by
  have hw : 12 * bucketWidthMs ttlInSecs ≤ ttlInSecs * 1000 + 12 ∧ 84 ≤ bucketWidthMs ttlInSecs := by
    unfold bucketWidthMs kBucketCount; omega
  generalize bucketWidthMs ttlInSecs = w at *
  refine ⟨[(12 * w, .tick), (11 * w, .tick), (10 * w, .tick), (9 * w, .tick), (8 * w, .tick),
    (7 * w, .tick), (6 * w, .tick), (5 * w, .tick), (4 * w, .tick), (3 * w, .tick), (2 * w, .tick),
    (w, .tick)], w - 1, 12 * w, ?_, ?_, by omega, by omega, ?_⟩
  · simp only [Possible, List.cons_append, List.nil_append, List.mem_cons, List.not_mem_nil,
      or_false, forall_eq_or_imp, forall_eq, true_and, forall_const, reduceCtorEq, false_implies,
      implies_true, and_true]
    omega
  · simp only [List.mem_cons, List.not_mem_nil, or_false, forall_eq_or_imp, forall_eq]
    omega
  · have : Timed.ops ([(12 * w, Op.tick), (11 * w, .tick), (10 * w, .tick), (9 * w, .tick), (8 * w, .tick),
      (7 * w, .tick), (6 * w, .tick), (5 * w, .tick), (4 * w, .tick), (3 * w, .tick), (2 * w, .tick),
      (w, .tick)] ++ [(w - 1, .check q)]) = [.check q] ++ List.replicate 12 .tick := rfl
    rw [this]
    refine C12_forgets n hn hs hne _ _ q (by decide) ?_
    intro q' hm
    simp at hm

/-! ## Concrete instances -/
section
private def h1 : Bytes → UInt64 := fun b => UInt64.ofNat (beDec b)
private def h2 : Bytes → UInt64 := fun b => UInt64.ofNat (beDec b * 3 + 1)

set_option maxRecDepth 10000 in
example : answer 64 [h1, h2] [.check [5], .tick, .check [6], .tick] [5] = true ∧
    answer 64 [h1, h2] [.check [5], .tick, .check [6], .tick] [9] = false := by decide
example : bucketWidthMs 12 = 1001 := rfl
end

end Fizz.Bloom

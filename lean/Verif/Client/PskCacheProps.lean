import Verif.Client.PskCache
import Mathlib.Data.List.Perm.Subperm

/-! # C20: PSK caches are maps; the LRU cache is bounded, fresh and evicts the least recently used -/

namespace Fizz.Client

variable {κ : Type}

/-! ## Specification -/

/-- The PSK last put for `id` and not removed since, reading a history from left to right. -/
def Spec.lastPut (id : Bytes) : List (CacheOp κ) → Option (CachedPsk κ) → Option (CachedPsk κ)
  | [], cur => cur
  | .put id' p :: h, cur => Spec.lastPut id h (if id' = id then some p else cur)
  | .remove id' :: h, cur => Spec.lastPut id h (if id' = id then none else cur)
  | .get _ _ :: h, cur => Spec.lastPut id h cur

/-- `p` is what the cache holds for `id`: some call of `getPsk(id)` (at a suitable time) returns
it. -/
def Cached (m : Evicting κ) (id : Bytes) (p : CachedPsk κ) : Prop :=
  ∃ now, (lruGetPsk m id now).1 = some p

/-- A call uses `id`: it puts a PSK for it, or gets one. -/
def Uses (m : Evicting κ) (op : CacheOp κ) (id : Bytes) : Prop :=
  match op with
  | .put id' _ => id' = id
  | .get id' now => id' = id ∧ (lruGetPsk m id' now).1 ≠ none
  | .remove _ => False

/-- The `n`-th call (from 0) of history `h` is the last one that uses `id`. -/
def LastUse (cap : Nat) (h : List (CacheOp κ)) (id : Bytes) (n : Nat) : Prop :=
  ∃ pre op post, h = pre ++ op :: post ∧ pre.length = n ∧ Uses (lruAfter cap pre) op id ∧
    ∀ mid op' tail, post = mid ++ op' :: tail → ¬ Uses (lruAfter cap (pre ++ op :: mid)) op' id

/-! ## Lemmas -/

theorem Entries.find_eq_some {m : Entries κ} {id v} (h : m.find id = some v) : (id, v) ∈ m := by
  induction m with
  | nil => cases h
  | cons e m ih =>
    obtain ⟨k, w⟩ := e
    rw [Entries.find] at h
    split at h
    · next hk => cases h; subst hk; simp
    · exact List.mem_cons_of_mem _ (ih h)

theorem Entries.find_eq_none {m : Entries κ} {id} : m.find id = none ↔ ∀ e ∈ m, e.1 ≠ id := by
  induction m with
  | nil => simp [Entries.find]
  | cons e m ih =>
    obtain ⟨k, w⟩ := e
    rw [Entries.find]
    split
    · next hk => simp [hk]
    · next hk => simp [ih, hk]

/-- Keys are distinct. -/
def Entries.Distinct (m : Entries κ) : Prop := m.Pairwise fun a b => a.1 ≠ b.1

theorem Entries.find_of_mem {m : Entries κ} (hd : m.Distinct) {id v} (h : (id, v) ∈ m) :
    m.find id = some v := by
  induction m with
  | nil => simp at h
  | cons e m ih =>
    obtain ⟨k, w⟩ := e
    rw [Entries.Distinct, List.pairwise_cons] at hd
    rw [Entries.find]
    rcases List.mem_cons.mp h with h | h
    · cases h; simp
    · have := hd.1 _ h
      rw [if_neg this]
      exact ih hd.2 h

theorem Entries.mem_erase {m : Entries κ} {id e} : e ∈ m.erase id ↔ e ∈ m ∧ e.1 ≠ id := by
  simp [Entries.erase]

theorem Entries.Distinct.erase {m : Entries κ} (h : m.Distinct) (id) : (m.erase id).Distinct :=
  List.Pairwise.filter _ h

theorem lruAfter_snoc (cap : Nat) (h : List (CacheOp κ)) (op) :
    lruAfter cap (h ++ [op]) = lruStep (lruAfter cap h) op := by
  simp [lruAfter, List.foldl_append]

theorem lastPut_snoc (id) (h : List (CacheOp κ)) (op) (cur) :
    Spec.lastPut id (h ++ [op]) cur = Spec.lastPut id [op] (Spec.lastPut id h cur) := by
  induction h generalizing cur with
  | nil => rfl
  | cons a h ih => cases a <;> exact ih _

theorem snocCases {α} (l : List α) : l = [] ∨ ∃ i a, l = i ++ [a] := by
  rcases List.eq_nil_or_concat l with h | ⟨i, a, h⟩
  · exact .inl h
  · exact .inr ⟨i, a, by simpa using h⟩

theorem LastUse.lt {cap} {h : List (CacheOp κ)} {id n} (hl : LastUse cap h id n) :
    n < h.length := by
  obtain ⟨pre, op, post, rfl, rfl, -⟩ := hl
  simp

theorem lastUse_snoc_pos {cap} {h : List (CacheOp κ)} {op id n}
    (hu : Uses (lruAfter cap h) op id) : LastUse cap (h ++ [op]) id n ↔ n = h.length := by
  constructor
  · rintro ⟨pre, op', post, he, rfl, h1, h2⟩
    rcases snocCases post with rfl | ⟨post, last, rfl⟩
    · have := List.append_inj he (by have := congrArg List.length he; simp at this; omega)
      rw [this.1]
    · exfalso
      rw [show pre ++ op' :: (post ++ [last]) = (pre ++ op' :: post) ++ [last] by simp] at he
      have e1 := List.append_inj' he rfl
      obtain ⟨rfl, e2⟩ := e1
      cases e2
      exact h2 post op [] rfl hu
  · rintro rfl
    exact ⟨h, op, [], rfl, rfl, hu, by simp⟩

theorem lastUse_snoc_neg {cap} {h : List (CacheOp κ)} {op id n}
    (hu : ¬ Uses (lruAfter cap h) op id) : LastUse cap (h ++ [op]) id n ↔ LastUse cap h id n := by
  constructor
  · rintro ⟨pre, op', post, he, rfl, h1, h2⟩
    rcases snocCases post with rfl | ⟨post, last, rfl⟩
    · exfalso
      have := List.append_inj he (by have := congrArg List.length he; simp at this; omega)
      obtain ⟨rfl, e⟩ := this
      cases e
      exact hu h1
    · rw [show pre ++ op' :: (post ++ [last]) = (pre ++ op' :: post) ++ [last] by simp] at he
      obtain ⟨rfl, -⟩ := List.append_inj' he rfl
      refine ⟨pre, op', post, rfl, rfl, h1, ?_⟩
      rintro mid op'' tail rfl
      exact h2 mid op'' (tail ++ [last]) (by simp)
  · rintro ⟨pre, op', post, rfl, rfl, h1, h2⟩
    refine ⟨pre, op', post ++ [op], by simp, rfl, h1, ?_⟩
    intro mid op'' tail he
    rcases snocCases tail with rfl | ⟨tail, last, rfl⟩
    · obtain ⟨rfl, e⟩ := List.append_inj' he rfl
      cases e
      exact hu
    · rw [show mid ++ op'' :: (tail ++ [last]) = (mid ++ op'' :: tail) ++ [last] by simp] at he
      obtain ⟨rfl, -⟩ := List.append_inj' he rfl
      exact h2 mid op'' tail rfl

/-- What holds of the cache after every history. -/
structure Inv (cap : Nat) (h : List (CacheOp κ)) (m : Evicting κ) : Prop where
  size : m.maxSize = cap
  distinct : m.entries.Distinct
  last : ∀ e ∈ m.entries, Spec.lastPut e.1 h none = some e.2
  used : ∀ e ∈ m.entries, ∃ n, LastUse cap h e.1 n
  order : m.entries.Pairwise fun a b => ∀ i j, LastUse cap h a.1 i → LastUse cap h b.1 j → j < i
  bound : 0 < cap → m.entries.length ≤ cap

theorem lruGetPsk_some {m : Evicting κ} {id now p m'} (h : lruGetPsk m id now = (some p, m')) :
    m.entries.find id = some p ∧ now ≤ p.ticketExpirationTime ∧
      m' = { m with entries := (id, p) :: m.entries.erase id } := by
  unfold lruGetPsk Evicting.find at h
  cases hf : m.entries.find id with
  | none => rw [hf] at h; cases h
  | some v =>
    rw [hf] at h
    simp only at h
    split at h
    · cases h
    · next hle => cases h; exact ⟨rfl, by omega, rfl⟩

theorem lruGetPsk_none {m : Evicting κ} {id now m'} (h : lruGetPsk m id now = (none, m')) :
    (m.entries.find id = none ∧ m' = m) ∨
    ∃ p, m.entries.find id = some p ∧ p.ticketExpirationTime < now ∧
      m' = { m with entries := m.entries.erase id } := by
  unfold lruGetPsk Evicting.find at h
  cases hf : m.entries.find id with
  | none => rw [hf] at h; cases h; exact .inl ⟨rfl, rfl⟩
  | some v =>
    rw [hf] at h
    simp only at h
    split at h
    · next hgt =>
      cases h
      refine .inr ⟨v, rfl, by omega, ?_⟩
      simp [Evicting.erase, Entries.erase, List.filter_filter]
    · cases h

theorem cached_iff {m : Evicting κ} (hd : m.entries.Distinct) {id p} :
    Cached m id p ↔ (id, p) ∈ m.entries := by
  constructor
  · rintro ⟨now, h⟩
    cases hg : lruGetPsk m id now with
    | mk a b =>
      rw [hg] at h; cases h
      exact Entries.find_eq_some (lruGetPsk_some hg).1
  · intro h
    refine ⟨p.ticketExpirationTime, ?_⟩
    simp [lruGetPsk, Evicting.find, Entries.find_of_mem hd h]

/-- Moving or inserting an entry at the front by a call that uses it, and dropping others. -/
theorem Inv.front {cap} {h : List (CacheOp κ)} {m : Evicting κ} (hi : Inv cap h m)
    {op id p} (hu : Uses (lruAfter cap h) op id)
    (hu' : ∀ id', id' ≠ id → ¬ Uses (lruAfter cap h) op id')
    (hl : ∀ x, Spec.lastPut x [op] (Spec.lastPut x h none) =
      if x = id then some p else Spec.lastPut x h none)
    {rest : Entries κ} (hrest : rest.Sublist (m.entries.erase id))
    (hb : 0 < cap → rest.length + 1 ≤ cap) :
    Inv cap (h ++ [op]) { m with entries := (id, p) :: rest } := by
  have hne : ∀ e ∈ rest, e.1 ≠ id := fun e he => (Entries.mem_erase.mp (hrest.subset he)).2
  have hmem : ∀ e ∈ rest, e ∈ m.entries := fun e he => (Entries.mem_erase.mp (hrest.subset he)).1
  have hsub : rest.Sublist m.entries := hrest.trans List.filter_sublist
  refine ⟨hi.size, ?_, ?_, ?_, ?_, ?_⟩
  · rw [Entries.Distinct, List.pairwise_cons]
    exact ⟨fun e he => (hne e he).symm, List.Pairwise.sublist hsub hi.distinct⟩
  · intro e he
    rw [lastPut_snoc, hl]
    rcases List.mem_cons.mp he with rfl | he
    · simp
    · rw [if_neg (hne e he)]; exact hi.last e (hmem e he)
  · intro e he
    rcases List.mem_cons.mp he with rfl | he
    · exact ⟨_, (lastUse_snoc_pos hu).2 rfl⟩
    · obtain ⟨n, hn⟩ := hi.used e (hmem e he)
      exact ⟨n, (lastUse_snoc_neg (hu' _ (hne e he))).2 hn⟩
  · rw [List.pairwise_cons]
    constructor
    · intro e he i j h1 h2
      rw [lastUse_snoc_pos hu] at h1
      rw [lastUse_snoc_neg (hu' _ (hne e he))] at h2
      have := h2.lt; omega
    · have := List.Pairwise.sublist hsub hi.order
      refine List.Pairwise.imp_of_mem ?_ this
      intro a b ha hb hab i j h1 h2
      rw [lastUse_snoc_neg (hu' _ (hne a ha))] at h1
      rw [lastUse_snoc_neg (hu' _ (hne b hb))] at h2
      exact hab i j h1 h2
  · simpa using hb

/-- A call that uses nothing and only drops entries. -/
theorem Inv.drop {cap} {h : List (CacheOp κ)} {m : Evicting κ} (hi : Inv cap h m)
    {op} (hu' : ∀ id', ¬ Uses (lruAfter cap h) op id')
    {rest : Entries κ} (hrest : rest.Sublist m.entries)
    (hl : ∀ e ∈ rest, Spec.lastPut e.1 [op] (Spec.lastPut e.1 h none) = Spec.lastPut e.1 h none) :
    Inv cap (h ++ [op]) { m with entries := rest } := by
  refine ⟨hi.size, List.Pairwise.sublist hrest hi.distinct, ?_, ?_, ?_, ?_⟩
  · intro e he
    rw [lastPut_snoc, hl e he]; exact hi.last e (hrest.subset he)
  · intro e he
    obtain ⟨n, hn⟩ := hi.used e (hrest.subset he)
    exact ⟨n, (lastUse_snoc_neg (hu' _)).2 hn⟩
  · refine List.Pairwise.imp ?_ (List.Pairwise.sublist hrest hi.order)
    intro a b hab i j h1 h2
    rw [lastUse_snoc_neg (hu' _)] at h1 h2
    exact hab i j h1 h2
  · intro hc
    exact Nat.le_trans hrest.length_le (hi.bound hc)

theorem Entries.erase_lt {m : Entries κ} {id v} (h : (id, v) ∈ m) :
    (m.erase id).length + 1 ≤ m.length := by
  have : (m.erase id).length < m.length := by
    unfold Entries.erase
    rw [List.length_filter_lt_length_iff_exists]
    exact ⟨_, h, by simp⟩
  omega

theorem Entries.erase_of_none {m : Entries κ} {id} (h : m.find id = none) : m.erase id = m := by
  unfold Entries.erase
  rw [List.filter_eq_self]
  intro e he
  simpa using Entries.find_eq_none.mp h e he

theorem inv_after (cap : Nat) (h : List (CacheOp κ)) : Inv cap h (lruAfter cap h) := by
  suffices H : ∀ (n : Nat) (h : List (CacheOp κ)), h.length = n → Inv cap h (lruAfter cap h) from
    H _ h rfl
  intro n
  induction n with
  | zero =>
    intro h hn
    rw [List.length_eq_zero_iff.mp hn]
    exact ⟨rfl, List.Pairwise.nil, by simp [lruAfter], by simp [lruAfter], List.Pairwise.nil,
      by simp [lruAfter]⟩
  | succ n ih =>
    intro h hn
    rcases snocCases h with rfl | ⟨h, op, rfl⟩
    · simp at hn
    have hi := ih h (by simpa using hn)
    rw [lruAfter_snoc]
    cases op with
    | remove id =>
      refine hi.drop (op := .remove id) (by simp [Uses]) List.filter_sublist ?_
      intro e he
      have := (Entries.mem_erase.mp he).2
      simp [Spec.lastPut, this.symm]
    | get id now =>
      cases hg : lruGetPsk (lruAfter cap h) id now with
      | mk r m' =>
        have hs : lruStep (lruAfter cap h) (.get id now) = m' := by simp [lruStep, hg]
        rw [hs]
        cases r with
        | some p =>
          obtain ⟨hf, -, rfl⟩ := lruGetPsk_some hg
          have hmem := Entries.find_eq_some hf
          refine hi.front (op := .get id now) (id := id) (p := p) ⟨rfl, by simp [hg]⟩ ?_ ?_ (List.Sublist.refl _) ?_
          · rintro id' hne ⟨rfl, -⟩; exact hne rfl
          · intro x
            by_cases hx : x = id
            · subst hx; simp [Spec.lastPut, hi.last _ hmem]
            · simp [Spec.lastPut, hx]
          · intro hc
            exact Nat.le_trans (Entries.erase_lt hmem) (hi.bound hc)
        | none =>
          have hu : ∀ id', ¬ Uses (lruAfter cap h) (.get id now) id' := by
            rintro id' ⟨rfl, h2⟩; rw [hg] at h2; exact h2 rfl
          rcases lruGetPsk_none hg with ⟨-, rfl⟩ | ⟨p, -, -, rfl⟩
          · exact hi.drop hu (List.Sublist.refl _) fun _ _ => rfl
          · exact hi.drop hu List.filter_sublist fun _ _ => rfl
    | put id p =>
      have hu : Uses (lruAfter cap h) (.put id p) id := rfl
      have hu' : ∀ id', id' ≠ id → ¬ Uses (lruAfter cap h) (.put id p) id' := by
        rintro id' hne rfl; exact hne rfl
      have hl : ∀ x, Spec.lastPut x [.put id p] (Spec.lastPut x h none) =
          if x = id then some p else Spec.lastPut x h none := by
        intro x; simp [Spec.lastPut, eq_comm]
      have hs : lruStep (lruAfter cap h) (.put id p) = (lruAfter cap h).set id p := rfl
      rw [hs, Evicting.set]
      cases hf : (lruAfter cap h).entries.find id with
      | some v =>
        exact hi.front hu hu' hl (List.Sublist.refl _) fun hc =>
          Nat.le_trans (Entries.erase_lt (Entries.find_eq_some hf)) (hi.bound hc)
      | none =>
        have he := Entries.erase_of_none hf
        dsimp only
        split
        · next hc =>
          rw [hi.size] at hc
          cases hent : (lruAfter cap h).entries with
          | nil => rw [hent] at hc; have := hc.2; simp at this; omega
          | cons a l =>
            rw [List.dropLast_cons_of_ne_nil (by simp)]
            refine hi.front hu hu' hl ?_ ?_
            · rw [he, hent]; exact List.dropLast_sublist _
            · intro h0
              have := hi.bound h0
              rw [hent] at this
              simpa using this
        · next hc =>
          refine hi.front hu hu' hl (by rw [he]) ?_
          intro h0
          rw [hi.size] at hc
          simp at hc
          omega

/-! ## Theorems -/

/-- C20: a `BasicPskCache` returns the PSK last put for the identity and not removed since. -/
theorem C20_basic (h : List (CacheOp κ)) (id : Bytes) :
    (BasicPskCache.after h).getPsk id = Spec.lastPut id h none := by
  have er : ∀ (m : Entries κ) (x : Bytes),
      (m.erase x).find id = if x = id then none else m.find id := by
    intro m x
    induction m with
    | nil => simp [Entries.erase, Entries.find]
    | cons e m ih =>
      obtain ⟨k, v⟩ := e
      have hcons : Entries.erase ((k, v) :: m) x =
          if k = x then Entries.erase m x else (k, v) :: Entries.erase m x := by
        by_cases hk : k = x <;> simp [Entries.erase, hk]
      rw [hcons]
      by_cases hk : k = x
      · rw [if_pos hk, ih, Entries.find]
        subst hk
        by_cases hx : k = id <;> simp [hx]
      · rw [if_neg hk, Entries.find, Entries.find, ih]
        by_cases hx : x = id
        · subst hx; simp [hk]
        · simp [hx]
  have key : ∀ (h : List (CacheOp κ)) (c : BasicPskCache κ),
      (h.foldl BasicPskCache.step c).getPsk id = Spec.lastPut id h (c.getPsk id) := by
    intro h
    induction h with
    | nil => intro c; rfl
    | cons op h ih =>
      intro c
      rw [List.foldl_cons, ih]
      cases op with
      | get _ _ => rfl
      | put x p =>
        simp only [BasicPskCache.step, BasicPskCache.putPsk, BasicPskCache.getPsk, Spec.lastPut]
        rw [Entries.find, er]
        by_cases hx : x = id <;> simp [hx]
      | remove x =>
        simp only [BasicPskCache.step, BasicPskCache.removePsk, BasicPskCache.getPsk, Spec.lastPut]
        rw [er]
  exact key h {}

/-- C20: the LRU cache never holds more entries than its (non-zero) capacity, and at most one for
each identity. -/
theorem C20_lru_bounded (cap : Nat) (hc : 0 < cap) (h : List (CacheOp κ)) :
    (lruAfter cap h).entries.length ≤ cap ∧
      (∀ ids : List Bytes, ids.Nodup → (∀ id ∈ ids, ∃ p, Cached (lruAfter cap h) id p) →
        ids.length ≤ cap) := by
  have hi := inv_after cap h
  refine ⟨hi.bound hc, ?_⟩
  intro ids hn hids
  have hsub : ids ⊆ (lruAfter cap h).entries.map Prod.fst := by
    intro id hid
    obtain ⟨p, hp⟩ := hids id hid
    exact List.mem_map.mpr ⟨_, (cached_iff hi.distinct).1 hp, rfl⟩
  have := (List.subperm_of_subset hn hsub).length_le
  rw [List.length_map] at this
  exact Nat.le_trans this (hi.bound hc)

/-- C20: whatever the LRU cache returns has not expired at the time of the call, and is the PSK last
put for that identity and not removed since. -/
theorem C20_lru_fresh (cap : Nat) (h : List (CacheOp κ)) (id : Bytes) (now : Int)
    (p : CachedPsk κ) (hg : (lruGetPsk (lruAfter cap h) id now).1 = some p) :
    now ≤ p.ticketExpirationTime ∧ Spec.lastPut id h none = some p := by
  cases hr : lruGetPsk (lruAfter cap h) id now with
  | mk a m =>
    rw [hr] at hg; cases hg
    obtain ⟨h1, h2, -⟩ := lruGetPsk_some hr
    exact ⟨h2, (inv_after cap h).last _ (Entries.find_eq_some h1)⟩

/-- C20: a PSK put into the cache is there after the call; one removed, or found expired, is not. -/
theorem C20_lru_effect (cap : Nat) (h : List (CacheOp κ)) (id : Bytes) (p : CachedPsk κ)
    (now : Int) :
    (Cached (lruAfter cap (h ++ [.put id p])) id p) ∧
    (¬ ∃ q, Cached (lruAfter cap (h ++ [.remove id])) id q) ∧
    (Cached (lruAfter cap h) id p → p.ticketExpirationTime < now →
      (lruGetPsk (lruAfter cap h) id now).1 = none ∧
      ¬ ∃ q, Cached (lruAfter cap (h ++ [.get id now])) id q) ∧
    (Cached (lruAfter cap h) id p → now ≤ p.ticketExpirationTime →
      (lruGetPsk (lruAfter cap h) id now).1 = some p) := by
  have hi := inv_after cap h
  refine ⟨?_, ?_, ?_, ?_⟩
  · rw [cached_iff (inv_after cap _).distinct, lruAfter_snoc]
    show (id, p) ∈ ((lruAfter cap h).set id p).entries
    unfold Evicting.set
    cases hf : (lruAfter cap h).entries.find id with
    | some v => simp
    | none =>
      dsimp only
      split
      · next hc =>
        cases hent : (lruAfter cap h).entries with
        | nil => rw [hent] at hc; simp at hc; omega
        | cons a l => simp
      · simp
  · rintro ⟨q, hq⟩
    rw [cached_iff (inv_after cap _).distinct, lruAfter_snoc] at hq
    exact (Entries.mem_erase.mp hq).2 rfl
  · intro hc hlt
    rw [cached_iff hi.distinct] at hc
    have hf := Entries.find_of_mem hi.distinct hc
    have hg : lruGetPsk (lruAfter cap h) id now =
        (none, { (lruAfter cap h) with entries := (lruAfter cap h).entries.erase id }) := by
      cases hr : lruGetPsk (lruAfter cap h) id now with
      | mk a m =>
        cases a with
        | some q =>
          obtain ⟨h1, h2, -⟩ := lruGetPsk_some hr
          rw [hf] at h1; cases h1; omega
        | none =>
          rcases lruGetPsk_none hr with ⟨h1, -⟩ | ⟨q, -, -, rfl⟩
          · rw [hf] at h1; cases h1
          · rfl
    refine ⟨by rw [hg], ?_⟩
    rintro ⟨q, hq⟩
    rw [cached_iff (inv_after cap _).distinct, lruAfter_snoc] at hq
    have : lruStep (lruAfter cap h) (.get id now) = (lruGetPsk (lruAfter cap h) id now).2 := rfl
    rw [this, hg] at hq
    exact (Entries.mem_erase.mp hq).2 rfl
  · intro hc hle
    rw [cached_iff hi.distinct] at hc
    simp [lruGetPsk, Evicting.find, Entries.find_of_mem hi.distinct hc, Int.not_lt.mpr hle]

/-- C20: an entry leaves the cache only because it was removed, found expired, replaced, or because
a PSK for a new identity was put into a full cache; and in that last case every other cached
identity has been used more recently than the one that leaves. -/
theorem C20_lru_eviction (cap : Nat) (h : List (CacheOp κ)) (op : CacheOp κ) (id : Bytes)
    (p : CachedPsk κ) (hin : Cached (lruAfter cap h) id p)
    (hout : ¬ Cached (lruAfter cap (h ++ [op])) id p) :
    op = .remove id ∨
    (∃ now, op = .get id now ∧ p.ticketExpirationTime < now) ∨
    (∃ q, op = .put id q) ∨
    (∃ id' q, op = .put id' q ∧ id' ≠ id ∧ (¬ ∃ r, Cached (lruAfter cap h) id' r) ∧
      0 < cap ∧ (lruAfter cap h).entries.length = cap ∧
      (∃ n, LastUse cap h id n) ∧
      (∀ id'' r, Cached (lruAfter cap h) id'' r → id'' ≠ id →
        (∃ j, LastUse cap h id'' j) ∧
        ∀ i j, LastUse cap h id i → LastUse cap h id'' j → i < j) ∧
      (∀ id'' r, Cached (lruAfter cap h) id'' r → id'' ≠ id →
        Cached (lruAfter cap (h ++ [op])) id'' r)) := by
  have hi := inv_after cap h
  have hd := hi.distinct
  have hd' := (inv_after cap (h ++ [op])).distinct
  rw [cached_iff hd] at hin
  rw [cached_iff hd', lruAfter_snoc] at hout
  cases op with
  | remove x =>
    by_cases hx : x = id
    · exact .inl (by rw [hx])
    · exact absurd (Entries.mem_erase.mpr ⟨hin, fun h => hx h.symm⟩) hout
  | get x now =>
    right; left
    have hs : lruStep (lruAfter cap h) (.get x now) = (lruGetPsk (lruAfter cap h) x now).2 := rfl
    rw [hs] at hout
    cases hr : lruGetPsk (lruAfter cap h) x now with
    | mk a m =>
      rw [hr] at hout
      cases a with
      | some q =>
        obtain ⟨h1, h2, rfl⟩ := lruGetPsk_some hr
        exfalso
        apply hout
        by_cases hx : x = id
        · subst hx
          rw [Entries.find_of_mem hd hin] at h1
          cases h1; simp
        · exact List.mem_cons_of_mem _ (Entries.mem_erase.mpr ⟨hin, fun h => hx h.symm⟩)
      | none =>
        rcases lruGetPsk_none hr with ⟨h1, rfl⟩ | ⟨q, h1, h2, rfl⟩
        · exact absurd hin hout
        · by_cases hx : x = id
          · subst hx
            rw [Entries.find_of_mem hd hin] at h1
            cases h1
            exact ⟨now, rfl, h2⟩
          · exact absurd (Entries.mem_erase.mpr ⟨hin, fun h => hx h.symm⟩) hout
  | put x q =>
    by_cases hx : x = id
    · subst hx; exact .inr (.inr (.inl ⟨q, rfl⟩))
    right; right; right
    have hs : lruStep (lruAfter cap h) (.put x q) = (lruAfter cap h).set x q := rfl
    have hcur : ∀ e, Cached (lruAfter cap (h ++ [.put x q])) e = Cached ((lruAfter cap h).set x q) e := by
      intro e; rw [lruAfter_snoc, hs]
    rw [lruAfter_snoc, hs] at hd'
    rw [hs] at hout
    unfold Evicting.set at hout hd' hcur
    cases hf : (lruAfter cap h).entries.find x with
    | some v =>
      rw [hf] at hout
      exact absurd (List.mem_cons_of_mem _ (Entries.mem_erase.mpr ⟨hin, fun h => hx h.symm⟩)) hout
    | none =>
      rw [hf] at hout hd' hcur
      dsimp only at hout hd' hcur
      split at hout
      · next hc =>
        rw [if_pos hc] at hd' hcur
        rw [hi.size] at hc
        have hbound := hi.bound hc.1
        have hlen : (lruAfter cap h).entries.length = cap := by
          have := hc.2; simp at this; omega
        have hne : (lruAfter cap h).entries ≠ [] := List.ne_nil_of_mem hin
        rw [List.dropLast_cons_of_ne_nil hne] at hout
        have hnd : (id, p) ∉ (lruAfter cap h).entries.dropLast :=
          fun hm => hout (List.mem_cons_of_mem _ hm)
        have hsplit := List.dropLast_append_getLast hne
        have hlast : (lruAfter cap h).entries.getLast hne = (id, p) := by
          have h2 := hin
          rw [← hsplit] at h2
          rcases List.mem_append.mp h2 with h2 | h2
          · exact absurd h2 hnd
          · exact (List.mem_singleton.mp h2).symm
        rw [hlast] at hsplit
        have hother : ∀ id'' r, Cached (lruAfter cap h) id'' r → id'' ≠ id →
            (id'', r) ∈ (lruAfter cap h).entries.dropLast := by
          intro id'' r hcr hne'
          rw [cached_iff hd, ← hsplit] at hcr
          rcases List.mem_append.mp hcr with h2 | h2
          · exact h2
          · have := List.mem_singleton.mp h2
            cases this; exact absurd rfl hne'
        refine ⟨x, q, rfl, hx, ?_, hc.1, hlen, hi.used _ hin, ?_, ?_⟩
        · rintro ⟨r, hr⟩
          rw [cached_iff hd] at hr
          exact Entries.find_eq_none.mp hf _ hr rfl
        · intro id'' r hcr hne'
          have hmem := hother id'' r hcr hne'
          refine ⟨hi.used _ ((cached_iff hd).1 hcr), ?_⟩
          intro i j h1 h2
          have ho := hi.order
          rw [← hsplit, List.pairwise_append] at ho
          exact ho.2.2 _ hmem (id, p) (by simp) j i h2 h1
        · intro id'' r hcr hne'
          rw [hcur, cached_iff hd', List.dropLast_cons_of_ne_nil hne]
          exact List.mem_cons_of_mem _ (hother id'' r hcr hne')
      · exact absurd (List.mem_cons_of_mem _ hin) hout

/-- C20 (finding): a capacity of 0 is not "no entries" but "no limit". -/
theorem C20_lru_zero_unlimited (p : CachedPsk κ) (n : Nat) :
    ∃ h, (lruAfter 0 h : Evicting κ).entries.length = n := by
  suffices H : ∀ n, ∃ h, (lruAfter 0 h : Evicting κ).entries.length = n ∧
      ∀ e ∈ (lruAfter 0 h : Evicting κ).entries, e.1.length < n by
    obtain ⟨h, h1, -⟩ := H n; exact ⟨h, h1⟩
  intro n
  induction n with
  | zero => exact ⟨[], rfl, by simp [lruAfter]⟩
  | succ n ih =>
    obtain ⟨h, h1, h2⟩ := ih
    refine ⟨h ++ [.put (List.replicate n 0) p], ?_⟩
    rw [lruAfter_snoc]
    have hf : (lruAfter 0 h : Evicting κ).entries.find (List.replicate n 0) = none := by
      rw [Entries.find_eq_none]
      intro e he heq
      have := h2 e he
      rw [heq] at this; simp at this
    have hcap := (inv_after (κ := κ) 0 h).size
    simp only [lruStep, lruPutPsk, Evicting.set, hf, hcap]
    simp only [gt_iff_lt, Nat.lt_irrefl, false_and, if_false, List.length_cons, h1, true_and]
    intro e he
    rcases List.mem_cons.mp he with rfl | he
    · simp
    · exact Nat.lt_succ_of_lt (h2 e he)

/-! ## A concrete history -/

/-- A PSK with secret `[n]` that expires at time `e`. -/
def smallPsk (n : UInt8) (e : Int) : CachedPsk Unit :=
  { psk := [n], secret := [n], type := .resumption, version := 0x0304, cipher := 0x1301,
    ticketAgeAdd := 0, ticketIssueTime := 0, ticketExpirationTime := e, ticketHandshakeTime := 0 }

/-- Capacity 2: identity 1 is used after identity 2, so putting 3 evicts 2; 1 expires later. -/
def sampleHistory : List (CacheOp Unit) :=
  [.put [1] (smallPsk 1 10), .put [2] (smallPsk 2 20), .get [1] 5, .put [3] (smallPsk 3 30)]

example : ((lruAfter 2 sampleHistory).entries.map Prod.fst) = [[3], [1]] ∧
    (lruGetPsk (lruAfter 2 sampleHistory) [2] 5).1 = none ∧
    (lruGetPsk (lruAfter 2 sampleHistory) [1] 10).1 = some (smallPsk 1 10) ∧
    (lruGetPsk (lruAfter 2 sampleHistory) [1] 11).1 = none := by
  refine ⟨?_, ?_, ?_, ?_⟩ <;> decide

/-- The hypotheses of `C20_lru_eviction` hold for the last call and identity 2. -/
example : Cached (lruAfter 2 (sampleHistory.take 3)) [2] (smallPsk 2 20) ∧
    ¬ Cached (lruAfter 2 (sampleHistory.take 3 ++ [.put [3] (smallPsk 3 30)])) [2]
      (smallPsk 2 20) := by
  refine ⟨⟨0, by decide⟩, ?_⟩
  rw [cached_iff (inv_after 2 _).distinct]
  decide

end Fizz.Client

import Verif.Batch.MerkleProps
import Mathlib.Data.List.Forall2

/-! # C32: nothing but the messages of a batch has a proof -/

namespace Fizz.Batch
open Fizz Fizz.Crypto Fizz.Crypto.Spec Fizz.Batch.Spec Fizz.Agree.Spec

/-- `v` is the value of a complete tree of height `k` over the messages `ms`, all of whose inputs of the
hash function are in `P`. -/
inductive Sub (h : Hash) (P : List Bytes) : Nat → Bytes → List Bytes → Prop
  | leaf {m} : (0 :: m) ∈ P → Sub h P 0 (leaf h m) [m]
  | node {k a b as bs} : Sub h P k a as → Sub h P k b bs → (1 :: (a ++ b)) ∈ P →
      Sub h P (k + 1) (inner h a b) (as ++ bs)

variable {h : Hash} {P : List Bytes}

theorem Sub.length {k v ms} (s : Sub h P k v ms) : ms.length = 2 ^ k := by
  induction s with
  | leaf => rfl
  | node _ _ _ ih1 ih2 => rw [List.length_append, ih1, ih2, Nat.pow_succ]; omega

theorem Sub.val_length (hL : ∀ x, (h.H x).length = h.L) {k v ms} (s : Sub h P k v ms) : v.length = h.L := by
  cases s <;> exact hL _

theorem sub_pairs {k} : ∀ {l : List Bytes} {B : List (List Bytes)}, List.Forall₂ (Sub h P k) l B →
    (∀ x ∈ pairInputs l, x ∈ P) → List.Forall₂ (Sub h P (k + 1)) (pairs (inner h) l) (pairs (· ++ ·) B)
  | _, _, .nil, _ => .nil
  | _, _, .cons _ .nil, _ => .nil
  | _, _, .cons h1 (.cons h2 h3), hp =>
    .cons (.node h1 h2 (hp _ (by simp [pairInputs]))) (sub_pairs h3 (fun x hx => hp x (by simp [pairInputs, hx])))

theorem forall_take {α β : Type} {R : α → β → Prop} {l : List α} {B : List β} (hf : List.Forall₂ R l B) :
    List.Forall₂ R (l.take 1) (B.take 1) := by
  cases hf with
  | nil => exact .nil
  | cons h1 h2 => exact .cons h1 .nil

theorem sub_pad {k} {l : List Bytes} {B : List (List Bytes)} (hf : List.Forall₂ (Sub h P k) l B) :
    List.Forall₂ (Sub h P k) (pad l) (pad B) := by
  unfold pad
  rw [hf.length_eq]
  split
  · exact List.rel_append hf (forall_take hf)
  · exact hf

theorem pairs_flatten : ∀ {B : List (List Bytes)}, B.length % 2 = 0 → (pairs (· ++ ·) B).flatten = B.flatten
  | [], _ => rfl
  | [_], h => by simp at h
  | a :: b :: r, h => by
    simp only [pairs, List.flatten_cons]
    rw [pairs_flatten (B := r) (by simp at h; omega), List.append_assoc]

theorem pad_flatten (B : List (List Bytes)) :
    ∃ extra, (pad B).flatten = B.flatten ++ extra ∧ ∀ x ∈ extra, x ∈ B.flatten := by
  unfold pad
  split
  · refine ⟨(B.take 1).flatten, by simp, fun x hx => ?_⟩
    rw [List.mem_flatten] at hx ⊢
    obtain ⟨b, hb, hxb⟩ := hx
    exact ⟨b, List.mem_of_mem_take hb, hxb⟩
  · exact ⟨[], by simp, by simp⟩

theorem merkle_sub : ∀ (n : Nat) {l : List Bytes} {B : List (List Bytes)} {k : Nat}, l.length = n → l ≠ [] →
    List.Forall₂ (Sub h P k) l B → (∀ x ∈ merkleInputs h l, x ∈ P) →
    ∃ r ms extra, Sub h P (k + r) (merkle h l) ms ∧ ms = B.flatten ++ extra ∧ (∀ x ∈ extra, x ∈ B.flatten) ∧
      l.length ≤ 2 ^ r ∧ 2 ^ r < 2 * l.length := by
  intro n
  induction n using Nat.strongRecOn with
  | ind n ih =>
  intro l B k hn hne hf hp
  match l, hne, hf with
  | [x], _, .cons (b := b) h1 .nil =>
    exact ⟨0, b, [], by simpa [merkle] using h1, by simp, by simp, by simp, by simp⟩
  | a :: b :: r, _, hf =>
    rw [merkleInputs] at hp
    have hpad := sub_pad hf
    have hpr := sub_pairs hpad (fun x hx => hp x (by simp [hx]))
    have hlen : (pairs (inner h) (pad (a :: b :: r))).length = (r.length + 3) / 2 := by
      rw [pairs_length, pad_length]; simp only [List.length_cons]; omega
    have hn' : n = r.length + 2 := by rw [← hn]; rfl
    obtain ⟨q, ms, ex, h1, h2, h3, h4, h5⟩ := ih _ (by rw [hn']; omega) hlen
      (by intro he; rw [he] at hlen; simp at hlen; omega) hpr (fun x hx => hp x (by simp [hx]))
    rw [hlen] at h4 h5
    have heven : (pad B).length % 2 = 0 := by rw [pad_length]; omega
    rw [pairs_flatten heven] at h2 h3
    obtain ⟨e1, e2, e3⟩ := pad_flatten B
    refine ⟨q + 1, ms, e1 ++ ex, ?_, by rw [h2, e2, List.append_assoc], ?_, ?_, ?_⟩
    · rw [merkle, show k + (q + 1) = k + 1 + q by omega]; exact h1
    · intro x hx
      rcases List.mem_append.1 hx with hx | hx
      · exact e3 x hx
      · have := h3 x hx
        rw [e2, List.mem_append] at this
        rcases this with h | h
        · exact h
        · exact e3 x h
    · simp only [List.length_cons]; rw [Nat.pow_succ]; omega
    · simp only [List.length_cons]
      cases q with
      | zero => simp at h5 ⊢
      | succ q => rw [Nat.pow_succ] at h4 h5 ⊢; rw [Nat.pow_succ]; omega

/-- The tree of some messages. -/
theorem root_sub {msgs : List Bytes} (hne : msgs ≠ []) :
    ∃ r ms extra, Sub h (treeInputs h msgs) r (root h msgs) ms ∧ ms = msgs ++ extra ∧ (∀ x ∈ extra, x ∈ msgs) ∧
      msgs.length ≤ 2 ^ r ∧ 2 ^ r < 2 * msgs.length := by
  have hf : ∀ (l : List Bytes), (∀ x ∈ l, x ∈ msgs) →
      List.Forall₂ (Sub h (treeInputs h msgs) 0) (l.map (leaf h)) (l.map fun m => [m]) := by
    intro l
    induction l with
    | nil => intro _; exact .nil
    | cons m l ih =>
      intro hl
      refine .cons (.leaf ?_) (ih fun x hx => hl x (List.mem_cons_of_mem _ hx))
      unfold treeInputs
      rw [List.mem_append, List.mem_map]
      exact .inl ⟨m, hl m (by simp), rfl⟩
  have hflat : (msgs.map fun m => [m]).flatten = msgs := by
    have : ∀ l : List Bytes, (l.map fun m => [m]).flatten = l := by
      intro l
      induction l with
      | nil => rfl
      | cons a l ih => simp only [List.map_cons, List.flatten_cons, ih]; rfl
    exact this msgs
  obtain ⟨r, ms, ex, h1, h2, h3, h4⟩ := merkle_sub (P := treeInputs h msgs) _ rfl (by simpa using hne)
    (hf msgs fun _ h => h) (fun x hx => List.mem_append.2 (.inr hx))
  rw [hflat] at h2 h3
  rw [List.length_map, Nat.zero_add] at *
  exact ⟨r, ms, ex, h1, h2, h3, h4⟩

theorem climb_proof {H : HashAlg} : ∀ (n i : Nat) (v p : Bytes),
    climb H n i v p = proofValue H.spec i v (cut H.hashLen n p)
  | 0, _, _, _ => rfl
  | n + 1, i, v, p => by
    simp only [climb, cut, proofValue]
    exact climb_proof n _ _ _

theorem cut_spec {L : Nat} : ∀ {n : Nat} {p : Bytes}, p.length = n * L →
    (cut L n p).length = n ∧ ∀ c ∈ cut L n p, c.length = L
  | 0, _, _ => by simp [cut]
  | n + 1, p, hp => by
    have h1 : (p.drop L).length = n * L := by rw [List.length_drop, hp, Nat.add_mul]; omega
    obtain ⟨h2, h3⟩ := cut_spec h1
    refine ⟨by simp [cut, h2], fun c hc => ?_⟩
    simp only [cut, List.mem_cons] at hc
    rcases hc with rfl | hc
    · rw [List.length_take, hp, Nat.add_mul]; omega
    · exact h3 c hc

/-- Going down along a proof. -/
theorem proof_sub (hL : ∀ x, (h.H x).length = h.L) {Q : List Bytes} : ∀ (cs : List Bytes) {i : Nat} {v : Bytes} {r : Nat} {ms : List Bytes},
    NoClash h P Q → (∀ x ∈ proofInputs h i v cs, x ∈ Q) → v.length = h.L → (∀ c ∈ cs, c.length = h.L) →
    Sub h P r (proofValue h i v cs) ms →
    cs.length ≤ r ∧ Sub h P (r - cs.length) v
      ((ms.drop (i % 2 ^ cs.length * 2 ^ (r - cs.length))).take (2 ^ (r - cs.length)))
  | [], i, v, r, ms, _, _, _, _, s => by
    simp only [proofValue] at s
    refine ⟨Nat.zero_le _, ?_⟩
    simp only [List.length_nil, Nat.pow_zero, Nat.mod_one, Nat.zero_mul, List.drop_zero, Nat.sub_zero]
    rw [← s.length, List.take_length]
    exact s
  | c :: cs, i, v, r, ms, nc, hq, hv, hc, s => by
    simp only [proofValue] at s
    have hcl := hc c (by simp)
    have hin : (if i % 2 = 0 then inner h v c else inner h c v) =
        h.H (if i % 2 = 0 then 1 :: (v ++ c) else 1 :: (c ++ v)) := by split <;> rfl
    have hq0 := hq _ (by simp only [proofInputs]; exact List.mem_cons_self)
    obtain ⟨i1, i2⟩ := proof_sub hL (Q := Q) cs nc
      (fun x hx => hq x (by simp only [proofInputs]; exact List.mem_cons_of_mem _ hx))
      (by rw [hin]; exact hL _) (fun c' h' => hc c' (List.mem_cons_of_mem _ h')) s
    rw [hin] at i2
    generalize hk : r - cs.length = k at i2
    generalize hb : (ms.drop (i / 2 % 2 ^ cs.length * 2 ^ k)).take (2 ^ k) = blk at i2
    generalize hw : h.H (if i % 2 = 0 then 1 :: (v ++ c) else 1 :: (c ++ v)) = w at i2
    cases i2 with
    | leaf hm =>
      exfalso
      have := nc _ hm _ hq0 hw.symm
      split at this <;> simp at this
    | @node k a b as bs s1 s2 hm =>
      have e := nc _ hm _ hq0 hw.symm
      have la := s1.val_length hL
      have lb := s2.val_length hL
      have l1 := s1.length
      have l2 := s2.length
      have hr : r - (cs.length + 1) = k := by omega
      have hidx : i % 2 ^ (cs.length + 1) * 2 ^ k = i / 2 % 2 ^ cs.length * 2 ^ (k + 1) + i % 2 * 2 ^ k := by
        rw [Nat.pow_succ, Nat.mul_comm (2 ^ cs.length) 2, Nat.mod_mul, Nat.add_mul, Nat.pow_succ]
        rw [Nat.mul_comm 2 (i / 2 % _), Nat.mul_assoc, Nat.mul_comm 2 (2 ^ k)]
        omega
      simp only [List.length_cons]
      refine ⟨by omega, ?_⟩
      rw [hr, hidx]
      have hsplit : (ms.drop (i / 2 % 2 ^ cs.length * 2 ^ (k + 1))).take (2 ^ k) = as ∧
          ((ms.drop (i / 2 % 2 ^ cs.length * 2 ^ (k + 1))).drop (2 ^ k)).take (2 ^ k) = bs := by
        generalize ms.drop (i / 2 % 2 ^ cs.length * 2 ^ (k + 1)) = xs at hb
        have h1 : as = (as ++ bs).take (2 ^ k) := by rw [List.take_left' l1]
        have h2 : bs = (as ++ bs).drop (2 ^ k) := by rw [List.drop_left' l1]
        rw [← hb, List.take_take] at h1
        rw [← hb, List.drop_take] at h2
        rw [Nat.pow_succ] at h1 h2
        rw [show min (2 ^ k) (2 ^ k * 2) = 2 ^ k by omega] at h1
        rw [show 2 ^ k * 2 - 2 ^ k = 2 ^ k by omega] at h2
        exact ⟨h1.symm, h2.symm⟩
      by_cases hev : i % 2 = 0
      · simp only [hev, if_true, List.cons.injEq, true_and] at e
        have := List.append_inj_left e (by rw [la, hv])
        rw [hev, Nat.zero_mul, Nat.add_zero, hsplit.1, ← this]
        exact s1
      · simp only [hev, if_false, List.cons.injEq, true_and] at e
        have := List.append_inj_right e (by rw [la, hcl])
        rw [show i % 2 = 1 by omega, Nat.one_mul, ← List.drop_drop, hsplit.2, ← this]
        exact s2

/-- C32: unless a collision of the hash function has been found, a proof that leads to the root of a batch is
one for a message of the batch, for that at the given index if there is one, and it has as many elements as
the batch is high.  (An index beyond the messages of the batch can only lead to one of the copies with which
the levels are completed; bits of the index above the height are not looked at.) -/
theorem C32_sound {H : HashAlg} (ok : H.Ok) (msgs : List Bytes) (hne : msgs ≠ []) (m : Bytes) (i : Nat) (path : Bytes)
    (hacc : computeRoot H m i path = .ok (root H.spec msgs))
    (nc : NoClash H.spec (treeInputs H.spec msgs) (checkInputs H.spec m i path)) :
    m ∈ msgs ∧ (∀ hi : i < msgs.length, msgs[i] = m) ∧
      ∃ r, path.length = r * H.hashLen ∧ msgs.length ≤ 2 ^ r ∧ 2 ^ r < 2 * msgs.length := by
  unfold computeRoot at hacc
  split at hacc
  · cases hacc
  rename_i hmod
  simp only [ne_eq, Decidable.not_not] at hmod
  have hdiv : path.length = path.length / H.hashLen * H.hashLen := by
    have := Nat.div_add_mod path.length H.hashLen
    rw [hmod, Nat.mul_comm] at this
    omega
  have hacc := Except.ok.inj hacc
  rw [climb_proof] at hacc
  have hL : ∀ x, (H.spec.H x).length = H.spec.L := ok.len
  obtain ⟨r, ms, ex, s, e, hex, hr1, hr2⟩ := root_sub (h := H.spec) hne
  obtain ⟨c1, c2⟩ := cut_spec hdiv
  rw [← hacc] at s
  obtain ⟨j1, j2⟩ := proof_sub hL (Q := checkInputs H.spec m i path) 
    (cut H.hashLen (path.length / H.hashLen) path) (v := leafHash H m) nc (fun x hx => List.mem_cons_of_mem _ hx) (ok.len _) c2 s
  rw [c1] at j1 j2
  generalize hn : path.length / H.hashLen = n at *
  generalize hk : r - n = k at j2
  generalize hb : (ms.drop (i % 2 ^ n * 2 ^ k)).take (2 ^ k) = blk at j2
  generalize hw : leafHash H m = w at j2
  have hm0 : (0 :: m) ∈ checkInputs H.spec m i path := List.mem_cons_self
  cases j2 with
  | node _ _ hm =>
    exfalso
    have := nc _ hm _ hm0 hw.symm
    simp at this
  | @leaf m' hm =>
    have := nc _ hm _ hm0 hw.symm
    simp only [List.cons.injEq, true_and] at this
    subst this
    obtain rfl : r = n := by omega
    simp only [Nat.pow_zero, Nat.mul_one] at hb
    have hlt : i % 2 ^ r < ms.length := by
      rw [s.length]; exact Nat.mod_lt _ (Nat.two_pow_pos r)
    have hget : ms[i % 2 ^ r] = m' := by
      rw [List.drop_eq_getElem_cons hlt] at hb
      exact (List.cons.inj hb).1
    refine ⟨?_, fun hi => ?_, r, hdiv, hr1, hr2⟩
    · have := List.getElem_mem hlt
      rw [hget, e, List.mem_append] at this
      rcases this with h | h
      · exact h
      · exact hex _ h
    · have hii : i % 2 ^ r = i := Nat.mod_eq_of_lt (by omega)
      subst e
      simp only [hii] at hget
      rw [List.getElem_append_left hi] at hget
      exact hget

/-! Three messages: the third has a proof, and so do the hypotheses hold. -/

/-- Three messages. -/
def threeMsgs : List Bytes := [[1], [2, 2], [3, 3, 3]]

/-- The proof for the third. -/
def threePath : Res Bytes :=
  match (appendAll toyHash { maxLeaves := 8 } threeMsgs).finalize toyHash with
  | some t => t.path 2
  | none => .ok []

example : threePath = .ok [64, 2, 26, 5] := by decide +kernel
example : computeRoot toyHash [3, 3, 3] 2 [64, 2, 26, 5] = .ok (root toyHash.spec threeMsgs) := by decide +kernel
example : NoClash toyHash.spec (treeInputs toyHash.spec threeMsgs)
    (checkInputs toyHash.spec [3, 3, 3] 2 [64, 2, 26, 5]) := by unfold NoClash; decide +kernel

end Fizz.Batch

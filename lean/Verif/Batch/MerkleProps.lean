import Verif.Batch.Merkle
import Verif.Batch.MerkleSpec
import Verif.Crypto.HkdfProps

/-! # C32: proofs of membership in a batch -/

namespace Fizz.Batch
open Fizz Fizz.Crypto Fizz.Crypto.Spec Fizz.Batch.Spec Fizz.Agree.Spec

variable {H : HashAlg}

/-- Neighbours combined `k` times. -/
def up (H : HashAlg) : Nat → List Bytes → List Bytes
  | 0, l => l
  | k + 1, l => up H k (pairs (nodeHash H) l)

theorem pairs_even {f : Bytes → Bytes → Bytes} : ∀ {l : List Bytes} {x}, l.length % 2 = 0 →
    pairs f (l ++ [x]) = pairs f l
  | [], _, _ => rfl
  | [_], _, h => by simp at h
  | a :: b :: r, x, h => by
    simp only [List.cons_append, pairs]
    rw [pairs_even (l := r) (by simp at h; omega)]

theorem pairs_odd {f : Bytes → Bytes → Bytes} : ∀ {l : List Bytes} {x}, l.length % 2 = 1 →
    pairs f (l ++ [x]) = pairs f l ++ [f (l.getLastD []) x]
  | [], _, h => by simp at h
  | [a], _, _ => rfl
  | a :: b :: [], _, h => by simp at h
  | a :: b :: c :: r, x, h => by
    have := pairs_odd (f := f) (l := c :: r) (x := x) (by simp at h ⊢; omega)
    simp only [List.cons_append, pairs] at this ⊢
    rw [this]
    simp

theorem pairs_get {f : Bytes → Bytes → Bytes} : ∀ {l : List Bytes} {o : Nat} (h : 2 * o + 1 < l.length),
    (pairs f l)[o]'(by rw [pairs_length]; omega) = f (l[2 * o]'(by omega)) l[2 * o + 1]
  | a :: b :: r, 0, h => rfl
  | a :: b :: r, o + 1, h => by
    simp only [pairs, List.getElem_cons_succ]
    rw [pairs_get (l := r) (by simp at h; omega)]
    rfl
  | [], _, h => by simp at h
  | [_], _, h => by simp at h

/-- The tree holds `l` at height `h`, and above it what follows from it. -/
def Rep (H : HashAlg) (t : Tree) (h : Nat) (l : List Bytes) : Prop :=
  ∀ k o, t.node (h + k) o = (up H k l)[o]?

theorem Rep.zero {t h l} (r : Rep H t h l) (o : Nat) : t.node h o = l[o]? := r 0 o

theorem Rep.succ {t h l} (r : Rep H t h l) : Rep H t (h + 1) (pairs (nodeHash H) l) := by
  intro k o
  have := r (k + 1) o
  rw [show h + 1 + k = h + (k + 1) by omega]
  exact this

theorem Rep.mk {t h l} (h0 : ∀ o, t.node h o = l[o]?) (r : Rep H t (h + 1) (pairs (nodeHash H) l)) :
    Rep H t h l := by
  intro k o
  cases k with
  | zero => exact h0 o
  | succ k =>
    have := r k o
    rw [show h + 1 + k = h + (k + 1) by omega] at this
    exact this

/-- What adding a value changes. -/
structure Added (H : HashAlg) (t t' : Tree) (h : Nat) (l : List Bytes) : Prop where
  rep : Rep H t' h l
  height : ∀ k, h + k ≤ t'.height ↔ up H k l ≠ []
  below : ∀ k < h, ∀ o, t'.node k o = t.node k o
  leaves : t'.leaves = t.leaves
  max : t'.maxLeaves = t.maxLeaves
  mono : t.height ≤ t'.height

theorem set_other {t : Tree} {h o v h' o'} (hne : h' ≠ h) : (t.set h o v).node h' o' = t.node h' o' := by
  simp [Tree.set, hne]

theorem set_get {l : List Bytes} {x : Bytes} {t : Tree} {h : Nat} (h0 : ∀ o, t.node h o = l[o]?) (o : Nat) :
    (t.set h l.length x).node h o = (l ++ [x])[o]? := by
  simp only [Tree.set, true_and]
  split
  · subst o; simp
  · rename_i hne
    rw [h0]
    rcases Nat.lt_or_ge o l.length with hlt | hge
    · rw [List.getElem?_append_left hlt]
    · rw [List.getElem?_eq_none (by omega), List.getElem?_eq_none (by simp; omega)]

theorem addNode_rep {n : Nat} : ∀ {t : Tree} {h : Nat} {l : List Bytes} {x : Bytes}, l.length = n →
    Rep H t h l → (∀ k, 1 ≤ k → (h + k ≤ t.height ↔ up H k l ≠ [])) →
    Added H t (t.addNode H x h n) h (l ++ [x]) := by
  induction n using Nat.strongRecOn with
  | ind n ih =>
  intro t h l x hl r hh
  subst hl
  unfold Tree.addNode
  split
  · rename_i hodd
    simp only
    generalize ht' : ({ t.set h l.length x with height := max t.height h } : Tree) = t'
    have hn : ∀ k, t'.node k = (t.set h l.length x).node k := by rw [← ht']; intro k; rfl
    have hleft : ((t.set h l.length x).node h (l.length - 1)).getD (List.replicate H.hashLen 0) =
        l.getLastD [] := by
      rw [set_get r.zero, List.getElem?_append_left (by omega)]
      rw [List.getLastD_eq_getLast?, List.getLast?_eq_getElem?]
      rw [List.getElem?_eq_getElem (by omega)]
      rfl
    rw [hleft]
    have hp := pairs_odd (f := nodeHash H) (l := l) (x := x) hodd
    have r1 : Rep H t' (h + 1) (pairs (nodeHash H) l) := by
      intro k o
      rw [hn, set_other (by omega)]
      exact r.succ k o
    have h1 : ∀ k, 1 ≤ k → (h + 1 + k ≤ t'.height ↔ up H k (pairs (nodeHash H) l) ≠ []) := by
      intro k hk
      have := hh (k + 1) (by omega)
      rw [← ht']
      simp only
      rw [show up H k (pairs (nodeHash H) l) = up H (k + 1) l from rfl, ← this]
      omega
    have := ih (l.length / 2) (by omega) (x := nodeHash H (l.getLastD []) x) (by rw [pairs_length]) r1 h1
    generalize t'.addNode H (nodeHash H (l.getLastD []) x) (h + 1) (l.length / 2) = t'' at this
    have hm : t'.height = max t.height h := by rw [← ht']
    refine ⟨Rep.mk ?_ (by rw [hp]; exact this.rep), ?_, ?_, by rw [this.leaves, ← ht']; rfl,
      by rw [this.max, ← ht']; rfl, by have := this.mono; omega⟩
    · intro o
      rw [this.below h (by omega), hn, set_get r.zero]
    · intro k
      cases k with
      | zero =>
        have := this.mono
        simp only [up]
        constructor
        · simp
        · intro; omega
      | succ k =>
        have := this.height k
        rw [show h + (k + 1) = h + 1 + k by omega, this]
        simp only [up, hp]
    · intro k hk o
      rw [this.below k (by omega), hn, set_other (by omega)]
  · rename_i heven
    have hp := pairs_even (f := nodeHash H) (l := l) (x := x) (by omega)
    refine ⟨Rep.mk (set_get r.zero) ?_, ?_, ?_, rfl, rfl, ?_⟩
    · intro k o
      rw [hp]
      show (t.set h l.length x).node _ _ = _
      rw [set_other (by omega)]
      exact r.succ k o
    · intro k
      cases k with
      | zero =>
        simp only [up]
        constructor
        · simp
        · intro; show h ≤ max t.height h; omega
      | succ k =>
        have := hh (k + 1) (by omega)
        simp only [up, hp]
        rw [show up H k (pairs (nodeHash H) l) = up H (k + 1) l from rfl, ← this]
        show h + (k + 1) ≤ max t.height h ↔ _
        omega
    · intro k hk o
      exact set_other (by omega)
    · show t.height ≤ max t.height h; omega

/-! ## Appending -/

/-- The tree holds these leaves. -/
structure Holds (H : HashAlg) (t : Tree) (ls : List Bytes) : Prop where
  rep : Rep H t 0 ls
  height : ∀ k, 1 ≤ k → (0 + k ≤ t.height ↔ up H k ls ≠ [])
  leaves : t.leaves = ls.length

theorem up_nil (H : HashAlg) : ∀ k, up H k [] = []
  | 0 => rfl
  | k + 1 => up_nil H k

theorem Holds.empty (max : Nat) : Holds H { maxLeaves := max } [] :=
  ⟨fun k o => by simp [up_nil], fun k hk => by rw [up_nil]; simp; omega, rfl⟩

theorem Holds.append {t : Tree} {ls : List Bytes} (hh : Holds H t ls) (m : Bytes) (hm : ls.length < t.maxLeaves) :
    (t.append H m).2 = some ls.length ∧ Holds H (t.append H m).1 (ls ++ [leafHash H m]) ∧
      (t.append H m).1.maxLeaves = t.maxLeaves := by
  have ha := addNode_rep (x := leafHash H m) rfl hh.rep hh.height
  unfold Tree.append
  rw [hh.leaves, if_neg (by omega)]
  exact ⟨rfl, ⟨fun k o => ha.rep k o, fun k _ => ha.height k, by simp⟩, ha.max⟩

/-- Appending some messages. -/
def appendAll (H : HashAlg) (t : Tree) (msgs : List Bytes) : Tree := msgs.foldl (fun t m => (t.append H m).1) t

theorem Holds.all : ∀ {msgs : List Bytes} {t : Tree} {ls : List Bytes}, Holds H t ls →
    ls.length + msgs.length ≤ t.maxLeaves → Holds H (appendAll H t msgs) (ls ++ msgs.map (leafHash H))
  | [], _, _, h, _ => by simpa [appendAll] using h
  | m :: msgs, t, ls, h, hl => by
    obtain ⟨-, h1, h2⟩ := h.append m (by simp at hl; omega)
    have := Holds.all (msgs := msgs) h1 (by rw [h2]; simp at hl ⊢; omega)
    simpa [appendAll] using this

/-! ## Finalizing -/

/-- In the finished tree, from height `i` up: the values of `l`, completed, and so on to the root. -/
inductive Good (H : HashAlg) (t : Tree) : Nat → List Bytes → Prop
  | top {i x} : t.height = i → t.node i 0 = some x → Good H t i [x]
  | step {i l} : 2 ≤ l.length → i < t.height →
      (∀ o (h : o < (pad l).length), t.node i o = some (pad l)[o]) →
      Good H t (i + 1) (pairs (nodeHash H) (pad l)) → Good H t i l

theorem Good.le {t i l} (h : Good H t i l) : i ≤ t.height := by
  cases h with
  | top h => omega
  | step _ h => omega

theorem pad_ne {l : List Bytes} (h : 2 ≤ l.length) : pairs (nodeHash H) (pad l) ≠ [] := by
  intro he
  have := congrArg List.length he
  rw [pairs_length, pad_length] at this
  simp at this
  omega

theorem finalizeLoop_good : ∀ {fuel : Nat} {t : Tree} {i : Nat} {l : List Bytes}, l ≠ [] → l.length ≤ fuel →
    Rep H t i l → (∀ k, i + k ≤ t.height ↔ up H k l ≠ []) →
    ∃ f, Tree.finalizeLoop H fuel t i (l.length - 1) = some f ∧ Good H f i l ∧
      (∀ k < i, ∀ o, f.node k o = t.node k o) := by
  intro fuel
  induction fuel with
  | zero =>
    intro t i l hne hl
    cases l with
    | nil => exact absurd rfl hne
    | cons => simp at hl
  | succ fuel ih =>
    intro t i l hne hl r hh
    unfold Tree.finalizeLoop
    split
    · rename_i hlt
      have h2 : 2 ≤ l.length := by
        have := (hh 1).1 (by omega)
        simp only [up] at this
        have h3 := pairs_length (nodeHash H) l
        cases hp : pairs (nodeHash H) l with
        | nil => exact absurd hp this
        | cons => rw [hp] at h3; simp at h3; omega
      have key : ∃ t', t.compensate H i (l.length - 1) = t' ∧ Rep H t' i (pad l) ∧
          (∀ k, i + k ≤ t'.height ↔ up H k (pad l) ≠ []) ∧ (∀ k < i, ∀ o, t'.node k o = t.node k o) := by
        refine ⟨_, rfl, ?_⟩
        unfold Tree.compensate pad
        by_cases hodd : l.length % 2 = 1
        · rw [if_pos (by omega), if_pos hodd]
          have hx : (t.node i 0).getD (List.replicate H.hashLen 0) = l[0]'(by omega) := by
            rw [r.zero, List.getElem?_eq_getElem (by omega)]; rfl
          have ht : l.take 1 = [l[0]'(by omega)] := by
            cases l with
            | nil => exact absurd rfl hne
            | cons => rfl
          rw [hx, ht, show l.length - 1 + 1 = l.length by omega]
          have := addNode_rep (x := l[0]'(by omega)) rfl r (fun k _ => hh k)
          exact ⟨this.rep, this.height, this.below⟩
        · rw [if_neg (by omega), if_neg hodd]
          exact ⟨r, hh, fun _ _ _ => rfl⟩
      obtain ⟨t', e, r', hh', b'⟩ := key
      rw [e]
      have hlen : (pairs (nodeHash H) (pad l)).length = (l.length + 1) / 2 := by
        rw [pairs_length, pad_length]; omega
      have := ih (pad_ne h2) (by rw [hlen]; omega) r'.succ (fun k => by
        have := hh' (k + 1)
        rw [show i + 1 + k = i + (k + 1) by omega]
        exact this)
      obtain ⟨f, f1, f2, f3⟩ := this
      rw [hlen, show (l.length + 1) / 2 - 1 = (l.length - 1) / 2 by omega] at f1
      refine ⟨f, f1, .step h2 f2.le ?_ f2, fun k hk o => by rw [f3 k (by omega), b' k hk]⟩
      intro o ho
      rw [f3 i (by omega), r'.zero, List.getElem?_eq_getElem ho]
    · rename_i hge
      refine ⟨t, rfl, ?_, fun _ _ _ => rfl⟩
      have h0 := (hh 0).2 hne
      have h1 : ¬ up H 1 l ≠ [] := fun h => by have := (hh 1).2 h; omega
      simp only [up, ne_eq, Decidable.not_not] at h1
      have h3 := pairs_length (nodeHash H) l
      rw [h1] at h3
      match l, hne, h3, r with
      | [x], _, _, r => exact .top (by omega) (r.zero 0)
      | _ :: _ :: _, _, h3, _ => simp at h3; omega

theorem finalize_good {t : Tree} {ls : List Bytes} (h : Holds H t ls) (hne : ls ≠ []) :
    ∃ f, t.finalize H = some f ∧ Good H f 0 ls := by
  have hpos : 0 < ls.length := List.length_pos_iff.2 hne
  unfold Tree.finalize
  split
  · obtain ⟨f, f1, f2, -⟩ := finalizeLoop_good (fuel := t.leaves) hne (by rw [h.leaves]; exact Nat.le_refl _) h.rep (fun k => by
      cases k with
      | zero => exact ⟨fun _ => hne, fun _ => Nat.zero_le _⟩
      | succ k => exact h.height (k + 1) (by omega))
    rw [h.leaves] at f1 ⊢
    exact ⟨f, f1, f2⟩
  · rename_i hle
    rw [h.leaves] at hle
    refine ⟨t, rfl, ?_⟩
    have h0 : t.height = 0 := by
      have := h.height t.height
      rcases Nat.eq_zero_or_pos t.height with h0 | h0
      · exact h0
      · have h1 := (h.height 1 (by omega)).1 (by omega)
        have h3 := pairs_length (nodeHash H) ls
        simp only [up] at h1
        cases hp : pairs (nodeHash H) ls with
        | nil => exact absurd hp h1
        | cons => rw [hp] at h3; simp at h3; omega
    match ls, hpos, hle, h.rep with
    | [x], _, _, r => exact .top h0 (r.zero 0)
    | _ :: _ :: _, _, hle, _ => simp at hle

/-! ## Root and paths -/

theorem merkle_step {l : List Bytes} (h : 2 ≤ l.length) :
    merkle H.spec l = merkle H.spec (pairs (nodeHash H) (pad l)) := by
  match l, h with
  | a :: b :: r, _ => rw [merkle]; rfl

theorem Good.root {t i l} (h : Good H t i l) : t.node t.height 0 = some (merkle H.spec l) := by
  induction h with
  | top h1 h2 => rw [h1, h2, merkle]
  | step h1 _ _ _ ih => rw [ih, merkle_step h1]

theorem Good.depth {t i l} (h : Good H t i l) : l.length ≤ 2 ^ (t.height - i) ∧ 2 ^ (t.height - i) < 2 * l.length := by
  induction h with
  | top h1 h2 => simp [h1]
  | @step i l h1 h2 _ _ ih =>
    rw [pairs_length, pad_length] at ih
    rw [show t.height - i = t.height - (i + 1) + 1 by omega, Nat.pow_succ]
    generalize t.height - (i + 1) = d at ih
    cases d with
    | zero => simp at ih ⊢; omega
    | succ d => rw [Nat.pow_succ] at ih ⊢; omega

theorem getElem_sibling {l : List Bytes} {o : Nat} (ho : o < l.length) : sibling o < (pad l).length := by
  rw [pad_length]
  unfold sibling
  split <;> omega

theorem pad_get {l : List Bytes} {o : Nat} (ho : o < l.length) :
    (pad l)[o]'(by rw [pad_length]; omega) = l[o] := by
  unfold pad
  split
  · rw [List.getElem_append_left ho]
  · rfl

theorem nodes_len (ok : H.Ok) : ∀ {l : List Bytes} {v}, v ∈ pairs (nodeHash H) l → v.length = H.hashLen
  | a :: b :: r, v, h => by
    simp only [pairs, List.mem_cons] at h
    rcases h with rfl | h
    · exact ok.len _
    · exact nodes_len ok h
  | [], _, h => by simp [pairs] at h
  | [_], _, h => by simp [pairs] at h

theorem mem_pad {l : List Bytes} {v} (h : v ∈ pad l) : v ∈ l := by
  unfold pad at h
  split at h
  · simp only [List.mem_append] at h
    rcases h with h | h
    · exact h
    · exact List.mem_of_mem_take h
  · exact h

theorem Good.path (ok : H.Ok) {t i l} (h : Good H t i l) (hl : ∀ v ∈ l, v.length = H.hashLen) :
    ∀ o (ho : o < l.length), ∃ p, t.pathFrom (t.height - i) i o = .ok p ∧
      p.length = (t.height - i) * H.hashLen ∧ climb H (t.height - i) o l[o] p = merkle H.spec l := by
  induction h with
  | top h1 h2 =>
    intro o ho
    obtain rfl : o = 0 := by simp at ho; exact ho
    rw [h1, Nat.sub_self]
    exact ⟨[], rfl, by simp, by simp [climb, merkle]⟩
  | @step i l h1 h2 h3 h4 ih =>
    intro o ho
    have hs := getElem_sibling ho
    obtain ⟨p, p1, p2, p3⟩ := ih (fun v hv => nodes_len ok hv) (sibling o / 2) (by
      rw [pairs_length, pad_length]; unfold sibling; split <;> omega)
    rw [show t.height - i = t.height - (i + 1) + 1 by omega]
    have hlen : ((pad l)[sibling o]).length = H.hashLen := hl _ (mem_pad (List.getElem_mem _))
    refine ⟨(pad l)[sibling o] ++ p, ?_, ?_, ?_⟩
    · unfold Tree.pathFrom
      rw [h3 _ hs]
      simp only [p1]
      rfl
    · rw [List.length_append, p2, hlen, Nat.add_mul, Nat.one_mul]; omega
    · unfold climb
      simp only
      rw [List.take_left' hlen, List.drop_left' hlen, merkle_step h1, ← p3]
      have e : sibling o / 2 = o / 2 := by unfold sibling; split <;> omega
      simp only [e]
      congr 1
      have hpl := pad_length l
      rw [pairs_get (by omega)]
      unfold sibling
      by_cases hev : o % 2 = 0
      · simp only [hev, if_true]
        simp only [show 2 * (o / 2) = o by omega]
        rw [pad_get ho]
      · simp only [hev, if_false]
        simp only [show 2 * (o / 2) = o - 1 by omega, show o - 1 + 1 = o by omega]
        rw [pad_get ho]

theorem leaf_len (ok : H.Ok) {msgs : List Bytes} : ∀ v ∈ msgs.map (leafHash H), v.length = H.hashLen := by
  intro v hv
  obtain ⟨m, -, rfl⟩ := List.mem_map.1 hv
  exact ok.len _

/-- C32: for every number of messages, the finished tree has as its root the Merkle root of the messages, and
the proof it gives out for any of them leads from that message to the root.  The proof is as long as the tree
is high, and the tree is no higher than necessary. -/
theorem C32_complete (ok : H.Ok) (max : Nat) (msgs : List Bytes) (hne : msgs ≠ []) (hmax : msgs.length ≤ max) :
    ∃ f, (appendAll H { maxLeaves := max } msgs).finalize H = some f ∧ f.root = .ok (root H.spec msgs) ∧
      msgs.length ≤ 2 ^ f.height ∧ 2 ^ f.height < 2 * msgs.length ∧
      ∀ i (hi : i < msgs.length), ∃ p, f.path i = .ok p ∧ p.length = f.height * H.hashLen ∧
        computeRoot H msgs[i] i p = .ok (root H.spec msgs) := by
  have hh : Holds H (appendAll H { maxLeaves := max } msgs) (msgs.map (leafHash H)) := by
    have := Holds.all (H := H) (msgs := msgs) (Holds.empty max) (by simpa using hmax)
    simpa using this
  obtain ⟨f, f1, f2⟩ := finalize_good hh (by simpa using hne)
  have hr : f.root = .ok (root H.spec msgs) := by unfold Tree.root; rw [f2.root]; rfl
  have hd := f2.depth
  simp only [List.length_map, Nat.sub_zero] at hd
  refine ⟨f, f1, hr, hd.1, hd.2, fun i hi => ?_⟩
  obtain ⟨p, p1, p2, p3⟩ := f2.path ok (leaf_len ok) i (by simpa using hi)
  refine ⟨p, ?_, p2, ?_⟩
  · unfold Tree.path
    rw [hr]
    exact p1
  · unfold computeRoot
    have hp := ok.pos
    simp only [Nat.sub_zero] at p2 p3
    rw [if_neg (by rw [p2]; simp), p2, Nat.mul_div_cancel _ hp]
    simp only [List.getElem_map] at p3
    exact congrArg Except.ok p3

/-- C32: a message's index is its position among those appended; a full tree takes no more. -/
theorem C32_index (max : Nat) (msgs : List Bytes) (m : Bytes) (hmax : msgs.length ≤ max) :
    ((appendAll H { maxLeaves := max } msgs).append H m).2 = if msgs.length < max then some msgs.length else none := by
  have hh : Holds H (appendAll H { maxLeaves := max } msgs) (msgs.map (leafHash H)) := by
    have := Holds.all (H := H) (msgs := msgs) (Holds.empty max) (by simpa using hmax)
    simpa using this
  have hm : (appendAll H { maxLeaves := max } msgs).maxLeaves = max := by
    have key : ∀ (msgs : List Bytes) (t : Tree) (ls : List Bytes), Holds H t ls → ls.length + msgs.length ≤ t.maxLeaves →
        (appendAll H t msgs).maxLeaves = t.maxLeaves := by
      intro msgs
      induction msgs with
      | nil => intro t ls _ _; rfl
      | cons m msgs ih =>
        intro t ls h hl
        obtain ⟨-, h1, h2⟩ := h.append m (by simp at hl; omega)
        rw [show appendAll H t (m :: msgs) = appendAll H (t.append H m).1 msgs from rfl,
          ih _ _ h1 (by rw [h2]; simp at hl ⊢; omega), h2]
    exact key msgs _ [] (Holds.empty max) (by simpa using hmax)
  split
  · rename_i hlt
    have := (hh.append m (by rw [hm]; simpa using hlt)).1
    simpa using this
  · unfold Tree.append
    rw [hh.leaves, hm, if_pos (by simp; omega)]

end Fizz.Batch

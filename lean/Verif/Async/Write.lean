import Verif.Async.StackStep

/-! # The chain of write requests -/

namespace Fizz.Async

open Spec

theorem W.run_append (w : W) (l : List Obs) (o : Obs) :
    W.run w (l ++ [o]) = (W.run w l).bind (fun w => w.next o) := by
  induction l generalizing w with
  | nil => simp [W.run]
  | cons a l ih =>
    simp only [List.cons_append, W.run]
    cases w.next a with
    | none => rfl
    | some r' => exact ih r'

/-- A write request with its address. -/
abbrev Cell := Nat × Req

def item (b : Bool) (p : Cell) : Item := ⟨p.1, p.2.cb, p.2.flags, p.2.data, p.2.written, b⟩

def items (b : Bool) : List Cell → List Item
  | [] => []
  | p :: l => item b p :: l.map (item false)

theorem items_false (l : List Cell) : items false l = l.map (item false) := by
  cases l <;> rfl

theorem items_append (b : Bool) : ∀ (l : List Cell) (p : Cell), l ≠ [] →
    items b (l ++ [p]) = items b l ++ [item false p]
  | [], _, h => absurd rfl h
  | a :: l, p, _ => by simp [items]

/-- Each request points to the next. -/
def Linked : List Cell → Prop
  | [] => True
  | p :: l => p.2.next = l.head?.map (·.1) ∧ Linked l

/-- Bytes waiting in a chain. -/
def total : List Cell → Nat
  | [] => 0
  | p :: l => p.2.data.length + total l

/-- Change the request at an address. -/
def upd (t : Nat) (f : Req → Req) (p : Cell) : Cell := if p.1 = t then (p.1, f p.2) else p

theorem upd_fst (t : Nat) (f : Req → Req) (p : Cell) : (upd t f p).1 = p.1 := by
  unfold upd; split <;> rfl

theorem map_upd_fst (t : Nat) (f : Req → Req) (l : List Cell) :
    (l.map (upd t f)).map (·.1) = l.map (·.1) := by
  rw [List.map_map]
  exact List.map_congr_left (fun p _ => upd_fst t f p)

theorem map_upd_ne (t : Nat) (f : Req → Req) : ∀ (l : List Cell), (∀ p ∈ l, p.1 ≠ t) →
    l.map (upd t f) = l
  | [], _ => rfl
  | p :: l, h => by
    rw [List.map_cons, map_upd_ne t f l (fun q hq => h q (List.mem_cons_of_mem _ hq))]
    unfold upd
    rw [if_neg (h p List.mem_cons_self)]

theorem linked_upd (t : Nat) (f : Req → Req) (hf : ∀ q, (f q).next = q.next) : ∀ (l : List Cell),
    Linked l → Linked (l.map (upd t f))
  | [], _ => trivial
  | p :: l, h => by
    refine ⟨?_, linked_upd t f hf l h.2⟩
    have h1 : (upd t f p).2.next = p.2.next := by
      unfold upd; split
      · exact hf _
      · rfl
    rw [h1, h.1, List.head?_map]
    cases l with
    | nil => rfl
    | cons a l => simp [upd_fst]

theorem total_upd (t : Nat) (f : Req → Req) (hf : ∀ q, (f q).data = q.data) : ∀ (l : List Cell),
    total (l.map (upd t f)) = total l
  | [] => rfl
  | p :: l => by
    have h1 : (upd t f p).2.data = p.2.data := by
      unfold upd; split
      · exact hf _
      · rfl
    rw [List.map_cons]
    show (upd t f p).2.data.length + total (l.map (upd t f)) = _
    rw [h1, total_upd t f hf l]
    rfl

theorem item_upd (b : Bool) (t : Nat) (f : Req → Req)
    (hf : ∀ q, (f q).data = q.data ∧ (f q).cb = q.cb ∧ (f q).flags = q.flags ∧
      (f q).written = q.written) (p : Cell) : item b (upd t f p) = item b p := by
  unfold upd
  split
  · unfold item
    obtain ⟨h1, h2, h3, h4⟩ := hf p.2
    simp only [h1, h2, h3, h4]
  · rfl

theorem items_upd (b : Bool) (t : Nat) (f : Req → Req)
    (hf : ∀ q, (f q).data = q.data ∧ (f q).cb = q.cb ∧ (f q).flags = q.flags ∧
      (f q).written = q.written) : ∀ l : List Cell, items b (l.map (upd t f)) = items b l
  | [] => rfl
  | p :: l => by
    simp only [List.map_cons, items, item_upd b t f hf p, List.map_map]
    congr 1
    exact List.map_congr_left (fun q _ => item_upd false t f hf q)

/-- The heap holds exactly the chain. -/
def Holds (heap : Nat → Option Req) (ch : List Cell) : Prop :=
  ∀ i q, heap i = some q ↔ (i, q) ∈ ch

abbrev Inc (ch : List Cell) : Prop := (ch.map (·.1)).Pairwise (· < ·)

theorem inc_eq : ∀ {ch : List Cell}, Inc ch → ∀ {i q q'}, (i, q) ∈ ch → (i, q') ∈ ch → q = q'
  | [], _, _, _, _, h, _ => by simp at h
  | p :: l, hi, i, q, q', h, h' => by
    rw [Inc, List.map_cons, List.pairwise_cons] at hi
    have hlt : ∀ q, (i, q) ∈ l → p.1 < i := fun q hq => hi.1 i (List.mem_map.2 ⟨(i, q), hq, rfl⟩)
    rcases List.mem_cons.1 h with h | h <;> rcases List.mem_cons.1 h' with h' | h'
    · rw [← h] at h'; cases h'; rfl
    · have := hlt _ h'; rw [← h] at this; exact absurd this (Nat.lt_irrefl _)
    · have := hlt _ h; rw [← h'] at this; exact absurd this (Nat.lt_irrefl _)
    · exact inc_eq hi.2 h h'

/-- Storing to a live request. -/
theorem Holds.set {heap : Nat → Option Req} {ch : List Cell} (h : Holds heap ch) (hi : Inc ch)
    {t : Nat} {q : Req} (ht : (t, q) ∈ ch) (f : Req → Req) :
    Holds (fun x => if x = t then some (f q) else heap x) (ch.map (upd t f)) := by
  intro i q'
  dsimp only
  constructor
  · split
    · rename_i e
      intro hq
      cases Option.some.inj hq
      subst e
      refine List.mem_map.2 ⟨(i, q), ht, ?_⟩
      unfold upd; rw [if_pos rfl]
    · rename_i e
      intro hq
      refine List.mem_map.2 ⟨(i, q'), (h i q').1 hq, ?_⟩
      unfold upd; rw [if_neg e]
  · intro hm
    obtain ⟨p, hp, e⟩ := List.mem_map.1 hm
    unfold upd at e
    split at e
    · rename_i hpt
      cases e
      rw [if_pos hpt]
      have : p.2 = q := inc_eq hi (i := t) (by rw [← hpt]; exact hp) ht
      rw [this]
    · rename_i hpt
      subst e
      rw [if_neg hpt]
      exact (h i q').2 hp

/-- Freeing the first request. -/
theorem Holds.free {heap : Nat → Option Req} {p : Cell} {ch : List Cell} (h : Holds heap (p :: ch))
    (hi : Inc (p :: ch)) : Holds (fun x => if x = p.1 then none else heap x) ch := by
  rw [Inc, List.map_cons, List.pairwise_cons] at hi
  intro i q
  dsimp only
  constructor
  · split
    · intro hq; cases hq
    · rename_i e
      intro hq
      rcases List.mem_cons.1 ((h i q).1 hq) with h' | h'
      · rw [← h'] at e; exact absurd rfl e
      · exact h'
  · intro hm
    have := hi.1 i (List.mem_map.2 ⟨(i, q), hm, rfl⟩)
    rw [if_neg (by omega)]
    exact (h i q).2 (List.mem_cons_of_mem _ hm)

/-- Allocating a request. -/
theorem Holds.alloc {heap : Nat → Option Req} {ch : List Cell} (h : Holds heap ch) {i : Nat}
    (hi : ∀ p ∈ ch, p.1 < i) (q : Req) :
    Holds (fun x => if x = i then some q else heap x) (ch ++ [(i, q)]) := by
  intro j q'
  dsimp only
  rw [List.mem_append, List.mem_singleton]
  constructor
  · split
    · rename_i e
      intro hq
      cases Option.some.inj hq
      right; rw [e]
    · intro hq; exact .inl ((h j q').1 hq)
  · rintro (hm | hm)
    · have := hi _ hm
      rw [if_neg (show j ≠ i by simp only at this; omega)]
      exact (h j q').2 hm
    · cases hm
      rw [if_pos rfl]

/-- The request a frame is responsible for. -/
def liveF : Frame → Option Nat
  | .start r => some r
  | .succ r => some r
  | .errReq r _ => r
  | _ => none

def lives (k : List Frame) : List Nat := k.filterMap liveF

theorem lives_cons (f : Frame) (k : List Frame) : lives (f :: k) = (liveF f).toList ++ lives k := by
  unfold lives
  rw [List.filterMap_cons]
  cases liveF f <;> rfl

/-- The exception a frame of `deliverError` is handling. -/
def exF : Frame → Option Ex
  | .err1 ex _ => some ex
  | .err2 ex _ _ => some ex
  | _ => none

/-- The requests somebody is responsible for. -/
def St.owners (s : St) : List Nat := s.flying ++ s.imm.toList ++ lives s.stack

structure WInv (s : St) (w : W) (b : Bool) (ch : List Cell) : Prop where
  run : W.run {} s.log = some w
  crash : s.crash = false
  q : w.q = items b ch
  cnt : w.count = s.fresh
  whole : w.whole = s.noPartial
  bytes : w.bytes = s.appWritten
  notOpen : notOpen ∈ w.errs
  pend : ∀ ex, s.pendingEx = some ex → ex ∈ w.errs
  exs : ∀ f ∈ s.stack, ∀ ex, exF f = some ex → ex ∈ w.errs
  heap : Holds s.heap ch
  inc : Inc ch
  lt : ∀ p ∈ ch, p.1 < s.fresh
  linked : Linked ch
  tail : s.alive = true → s.tail = ch.getLast?.map (·.1)
  base : s.alive = true → ∀ p ∈ ch, p.2.base = true
  unl : s.alive = false → ∀ p, ch.getLast? = some p → p.2.base = false
  own : s.owners = (ch.map (·.1)).take 1
  idle : ch = [] → w.phase = .ready
  fly : s.flying ≠ [] → w.phase = .busy ∧ b = true
  start : ∀ r, .start r ∈ s.stack → w.phase = .ready ∧
    ∀ p, ch.head? = some p → b = false ∨ p.2.data ≠ []
  succ : ∀ r, .succ r ∈ s.stack → w.phase = .ready ∧ b = true
  imm : s.imm ≠ none → w.phase = .ready ∧ b = false
  failing : ∀ r ex, .errReq (some r) ex ∈ s.stack →
    w.phase = .failing ex ∨ (w.phase = .ready ∧ b = false ∧ ex ∈ w.errs)
  immAt : ∀ r, s.imm = some r → ∃ k1 k2, s.stack = k1 ++ .succ2 (some r) :: .unguard :: k2
  entire : (∀ ex, w.phase ≠ .failing ex) → ∀ p, ch.getLast? = some p → p.2.entire = total ch

/-- Somebody's responsibility is the first request's only one. -/
theorem WInv.head {s : St} {w : W} {b : Bool} {ch : List Cell} (h : WInv s w b ch) {r : Nat}
    (hr : r ∈ s.owners) : ∃ q ch', ch = (r, q) :: ch' ∧ s.owners = [r] := by
  have ho := h.own
  match ch, ho with
  | [], ho => rw [ho] at hr; simp at hr
  | (i, q) :: ch', ho =>
    rw [ho] at hr ⊢
    have : r = i := by simpa using hr
    subst this
    exact ⟨q, ch', rfl, rfl⟩

/-- What the write invariant reads besides the stack, the log and the pending error. -/
structure WView where
  alive : Bool
  crash : Bool
  fresh : Nat
  noPartial : Bool
  appWritten : Nat
  heap : Nat → Option Req
  tail : Option Nat
  imm : Option Nat
  flying : List Nat

theorem WView.fields {v v' : WView} (h : v = v') : v.alive = v'.alive ∧ v.crash = v'.crash ∧
    v.fresh = v'.fresh ∧ v.noPartial = v'.noPartial ∧ v.appWritten = v'.appWritten ∧
    v.heap = v'.heap ∧ v.tail = v'.tail ∧ v.imm = v'.imm ∧ v.flying = v'.flying := by
  subst h; exact ⟨rfl, rfl, rfl, rfl, rfl, rfl, rfl, rfl, rfl⟩

def St.wview (s : St) : WView :=
  ⟨s.alive, s.crash, s.fresh, s.noPartial, s.appWritten, s.heap, s.tail, s.imm, s.flying⟩

/-- Frames that have nothing to do with writing. -/
def IdleF (f : Frame) : Prop := liveF f = none ∧ ∀ r, f ≠ .succ2 (some r)

theorem IdleF.no {f : Frame} (h : IdleF f) : (∀ r, f ≠ .start r) ∧ (∀ r, f ≠ .succ r) ∧
    ∀ r ex, f ≠ .errReq (some r) ex := by
  refine ⟨?_, ?_, ?_⟩
  · rintro r rfl; cases h.1
  · rintro r rfl; cases h.1
  · rintro r ex rfl; cases h.1

theorem IdleF.weak {f : Frame} (h : IdleF f) (i : Option Nat) :
    liveF f = none ∧ ∀ r, f = .succ2 (some r) → i ≠ some r :=
  ⟨h.1, fun r e => absurd e (h.2 r)⟩

theorem idle_lives : ∀ {fs : List Frame}, (∀ f ∈ fs, liveF f = none) → ∀ k, lives (fs ++ k) = lives k
  | [], _, _ => rfl
  | f :: fs, h, k => by
    rw [List.cons_append, lives_cons, h f List.mem_cons_self,
      idle_lives (fun g hg => h g (List.mem_cons_of_mem _ hg)) k]
    rfl

theorem WInv.skip {s t : St} {w w' : W} {b : Bool} {ch : List Cell} (h : WInv s w b ch)
    (hv : t.wview = s.wview) (hrun : W.run {} t.log = some w')
    (hw : w'.q = w.q ∧ w'.phase = w.phase ∧ w'.count = w.count ∧ w'.whole = w.whole ∧
      w'.bytes = w.bytes) (he : ∀ e ∈ w.errs, e ∈ w'.errs)
    (hp : ∀ ex, t.pendingEx = some ex → ex ∈ w'.errs)
    (old fs k : List Frame) (ho : s.stack = old ++ k) (ht : t.stack = fs ++ k)
    (io : ∀ f ∈ old, liveF f = none ∧ ∀ r, f = .succ2 (some r) → s.imm ≠ some r)
    (ifs : ∀ f ∈ fs, IdleF f)
    (hx : ∀ f ∈ fs, ∀ ex, exF f = some ex → ex ∈ w'.errs) : WInv t w' b ch := by
  obtain ⟨w1, w2, w3, w4, w5⟩ := hw
  have e1 : t.alive = s.alive := congrArg WView.alive hv
  have e2 : t.crash = s.crash := congrArg WView.crash hv
  have e3 : t.fresh = s.fresh := congrArg WView.fresh hv
  have e4 : t.noPartial = s.noPartial := congrArg WView.noPartial hv
  have e5 : t.appWritten = s.appWritten := congrArg WView.appWritten hv
  have e6 : t.heap = s.heap := congrArg WView.heap hv
  have e7 : t.tail = s.tail := congrArg WView.tail hv
  have e8 : t.imm = s.imm := congrArg WView.imm hv
  have e9 : t.flying = s.flying := congrArg WView.flying hv
  have hmem : ∀ f ∈ t.stack, f ∈ fs ∨ f ∈ s.stack := by
    intro f hf
    rw [ht] at hf
    rcases List.mem_append.1 hf with hf | hf
    · exact .inl hf
    · right; rw [ho]; exact List.mem_append_right _ hf
  constructor
  · exact hrun
  · rw [e2]; exact h.crash
  · rw [w1]; exact h.q
  · rw [w3, e3]; exact h.cnt
  · rw [w4, e4]; exact h.whole
  · rw [w5, e5]; exact h.bytes
  · exact he _ h.notOpen
  · exact hp
  · intro f hf ex hex
    rcases hmem f hf with hf | hf
    · exact hx f hf ex hex
    · exact he _ (h.exs f hf ex hex)
  · rw [e6]; exact h.heap
  · exact h.inc
  · rw [e3]; exact h.lt
  · exact h.linked
  · rw [e1, e7]; exact h.tail
  · rw [e1]; exact h.base
  · rw [e1]; exact h.unl
  · unfold St.owners
    rw [e8, e9, ht, idle_lives (fun f hf => (ifs f hf).1) k,
      ← idle_lives (fun f hf => (io f hf).1) k, ← ho]
    exact h.own
  · rw [w2]; exact h.idle
  · rw [e9, w2]; exact h.fly
  · intro r hr
    rw [w2]
    rcases hmem _ hr with hr | hr
    · exact absurd rfl ((ifs _ hr).no.1 r)
    · exact h.start r hr
  · intro r hr
    rw [w2]
    rcases hmem _ hr with hr | hr
    · exact absurd rfl ((ifs _ hr).no.2.1 r)
    · exact h.succ r hr
  · rw [e8, w2]; exact h.imm
  · intro r ex hr
    rw [w2]
    rcases hmem _ hr with hr | hr
    · exact absurd rfl ((ifs _ hr).no.2.2 r ex)
    · exact (h.failing r ex hr).imp id (fun ⟨h1, h2, h3⟩ => ⟨h1, h2, he _ h3⟩)
  · intro r hr
    rw [e8] at hr
    obtain ⟨k1, k2, hk⟩ := h.immAt r hr
    rw [ho] at hk
    suffices ∃ k1', k = k1' ++ .succ2 (some r) :: .unguard :: k2 by
      obtain ⟨k1', hk'⟩ := this
      exact ⟨fs ++ k1', k2, by rw [ht, hk', List.append_assoc]⟩
    clear hx ifs hmem ho ht
    induction old generalizing k1 with
    | nil => exact ⟨k1, hk⟩
    | cons f old ih =>
      match k1, hk with
      | [], hk => exact absurd hr ((io f List.mem_cons_self).2 r (List.cons.inj hk).1)
      | g :: k1, hk =>
        exact ih (fun f hf => io f (List.mem_cons_of_mem _ hf)) k1 (List.cons.inj hk).2
  · rw [w2]; exact h.entire

end Fizz.Async

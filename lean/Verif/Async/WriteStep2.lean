import Verif.Async.WriteStep

/-! # Every program point keeps the write invariant: failures and completions -/

namespace Fizz.Async

open Spec

theorem W.next_wErr {w : W} {it : Item} {q : List Item} (hq : w.q = it :: q) {i n : Nat} {ex : Ex}
    {called : Bool} (h : it.id = i ∧ n = it.sent ∧ called = it.cb ∧
      (w.phase = .failing ex ∨ (w.phase = .ready ∧ it.started = false ∧ ex ∈ w.errs))) :
    w.next (.wErr i n ex called) =
      some { w with q := q, phase := if q = [] then .ready else .failing ex } := by
  unfold W.next
  rw [hq]
  exact if_pos h

theorem W.next_wOk {w : W} {it : Item} {q : List Item} (hq : w.q = it :: q) {i : Nat}
    {called : Bool} (h : w.phase = .ready ∧ it.id = i ∧ it.started = true ∧ it.rest = [] ∧
      called = it.cb) :
    w.next (.wOk i called) = some { w with q := q } := by
  unfold W.next
  rw [hq]
  exact if_pos h

/-- Taking the first request off the base. -/
theorem advance_first {s : St} {w : W} {b : Bool} {r : Nat} {q : Req} {ch' : List Cell}
    (h : WInv s w b ((r, q) :: ch')) :
    ∃ t : Option Nat, s.advanceOnBase r q = { s with tail := t } ∧
      (s.alive = true → t = ch'.getLast?.map (·.1)) := by
  have hl : q.next = ch'.head?.map (·.1) := h.linked.1
  have hsame : { s with tail := s.tail } = s := rfl
  unfold St.advanceOnBase
  cases ch' with
  | nil =>
    have hn : q.next = none := hl
    cases hb : q.base with
    | false =>
      refine ⟨s.tail, by rw [hn]; rfl, fun ha => ?_⟩
      have := h.base ha (r, q) List.mem_cons_self
      rw [show q.base = true from this] at hb
      cases hb
    | true =>
      have ha : s.alive = true := by
        cases ha : s.alive with
        | true => rfl
        | false =>
          have := h.unl ha (r, q) rfl
          rw [show q.base = false from this] at hb
          cases hb
      have ht : s.tail = some r := by rw [h.tail ha]; rfl
      refine ⟨none, ?_, fun _ => rfl⟩
      rw [hn, if_pos (by simp), if_neg (by rw [ha]; simp), if_pos ht]
  | cons p l =>
    have hn : q.next = some p.1 := hl
    refine ⟨s.tail, by rw [hn]; rfl, fun ha => ?_⟩
    rw [h.tail ha]
    rw [List.getLast?_cons_cons]

theorem linked_tail {p : Cell} {l : List Cell} (h : Linked (p :: l)) : Linked l := h.2

theorem inc_tail {p : Cell} {l : List Cell} (h : Inc (p :: l)) : Inc l := by
  rw [Inc, List.map_cons, List.pairwise_cons] at h
  exact h.2

theorem take1_head (l : List Cell) : (l.head?.map (·.1)).toList = (l.map (·.1)).take 1 := by
  cases l <;> rfl

theorem last_cons {p x : Cell} {l : List Cell} (h : l.getLast? = some x) :
    (p :: l).getLast? = some x := by
  cases l with
  | nil => cases h
  | cons a l => rw [List.getLast?_cons_cons]; exact h

theorem optOut_idle (cb : Bool) : ∀ f ∈ (if cb then [Frame.out] else []), f = .out := by
  intro f hf
  cases cb <;> simpa using hf

theorem lives_optOut (cb : Bool) (k : List Frame) :
    lives ((if cb then [Frame.out] else []) ++ k) = lives k := by
  refine idle_lives (fun f hf => ?_) k
  rw [optOut_idle cb f hf]; rfl

theorem errReq_some {s : St} {r : Nat} {q : Req} (hq : s.heap r = some q) (ex : Ex) :
    s.errReq (some r) ex = ((s.advanceOnBase r q).setHeap r none).errDone r q ex := by
  unfold St.errReq
  dsimp only
  rw [hq]

theorem succ_more {s : St} {r : Nat} {q : Req} (hq : s.heap r = some q) (hd : q.data ≠ []) :
    s.succ r = s.push [.start r] := by
  unfold St.succ
  rw [hq]
  exact if_pos hd

theorem succ_done {s : St} {r : Nat} {q : Req} (hq : s.heap r = some q) (hd : q.data = [])
    (hb : q.base = true) (ha : s.alive = true) :
    s.succ r = ((s.advanceOnBase r q).setHeap r none).succDone r q := by
  unfold St.succ
  rw [hq]
  dsimp only
  rw [if_neg (by simpa using hd), if_neg (by rw [hb, ha]; simp)]

set_option maxHeartbeats 1000000 in
theorem w_errReq {s : St} {w : W} {b : Bool} {ch : List Cell} (h : WInv s w b ch)
    {r : Nat} {ex : Ex} {k : List Frame} (hs : s.stack = .errReq (some r) ex :: k) :
    ∃ w' b' ch', WInv (St.errReq { s with stack := k } (some r) ex) w' b' ch' := by
  obtain ⟨q, ch', hch, hfl, him, hlk⟩ := h.sole hs (r := r) rfl
  subst hch
  have hno := no_live hlk
  have hq : s.heap r = some q := (h.heap r q).2 List.mem_cons_self
  obtain ⟨t, hadv, htail⟩ := advance_first h
  have hfail := h.failing r ex (by rw [hs]; exact List.mem_cons_self)
  have hrun : W.run {} (s.log ++ [.wErr r q.written ex q.cb]) =
      some { w with q := ch'.map (item false)
                    phase := if ch'.map (item false) = [] then .ready else .failing ex } := by
    rw [W.run_append, h.run, Option.bind_some]
    refine W.next_wErr h.q ⟨rfl, rfl, rfl, ?_⟩
    exact hfail.imp id (fun ⟨h1, h2, h3⟩ => ⟨h1, h2, h3⟩)
  generalize hT : St.errReq { s with stack := k } (some r) ex = T
  have hadv' : St.advanceOnBase { s with stack := k } r q = { s with stack := k, tail := t } := by
    have : St.advanceOnBase { s with stack := k } r q =
        { s.advanceOnBase r q with stack := k } := by
      unfold St.advanceOnBase St.crashed
      split
      · split
        · rfl
        · split <;> rfl
      · rfl
    rw [this, hadv]
  have hT' : T = (St.setHeap { s with stack := k, tail := t } r none).errDone r q ex := by
    rw [← hT]
    rw [errReq_some (s := { s with stack := k }) hq, hadv']
  clear hT
  have t1 : T.log = s.log ++ [.wErr r q.written ex q.cb] := by rw [hT']; rfl
  have t2 : T.wview = { s.wview with
      heap := fun x => if x = r then none else s.heap x
      tail := t } := by rw [hT']; rfl
  have t3 : T.stack = (if q.cb then [.out] else []) ++ .errReq q.next ex :: k := by
    rw [hT']
    unfold St.errDone St.push St.say St.setHeap
    simp
  have t4 : T.pendingEx = s.pendingEx := by rw [hT']; rfl
  clear hT'
  obtain ⟨e1, e2, e3, e4, e5, e6, e7, e8, e9⟩ := WView.fields t2
  change T.alive = s.alive at e1
  change T.crash = s.crash at e2
  change T.fresh = s.fresh at e3
  change T.noPartial = s.noPartial at e4
  change T.appWritten = s.appWritten at e5
  change T.heap = (fun x => if x = r then none else s.heap x) at e6
  change T.tail = t at e7
  change T.imm = s.imm at e8
  change T.flying = s.flying at e9
  clear t2
  have hln : q.next = ch'.head?.map (·.1) := h.linked.1
  have hmem : ∀ f ∈ T.stack, f = .out ∨ f = .errReq q.next ex ∨ f ∈ k := by
    intro f hf
    rw [t3] at hf
    rcases List.mem_append.1 hf with hf | hf
    · exact .inl (optOut_idle _ f hf)
    · rcases List.mem_cons.1 hf with hf | hf
      · exact .inr (.inl hf)
      · exact .inr (.inr hf)
  refine ⟨{ w with q := ch'.map (item false)
                   phase := if ch'.map (item false) = [] then .ready else .failing ex },
    false, ch', ?_⟩
  constructor
  · rw [t1]; exact hrun
  · rw [e2]; exact h.crash
  · exact (items_false ch').symm
  · rw [e3]; exact h.cnt
  · rw [e4]; exact h.whole
  · rw [e5]; exact h.bytes
  · exact h.notOpen
  · rw [t4]; exact h.pend
  · intro f hf ex' hex
    rcases hmem f hf with rfl | rfl | hf
    · cases hex
    · cases hex
    · exact h.exs f (by rw [hs]; exact List.mem_cons_of_mem _ hf) ex' hex
  · rw [e6]; exact h.heap.free h.inc
  · exact inc_tail h.inc
  · rw [e3]; exact fun p hp => h.lt p (List.mem_cons_of_mem _ hp)
  · exact h.linked.2
  · rw [e1, e7]; exact htail
  · rw [e1]; exact fun ha p hp => h.base ha p (List.mem_cons_of_mem _ hp)
  · rw [e1]; exact fun ha p hp => h.unl ha p (last_cons hp)
  · unfold St.owners
    rw [e8, e9, t3, lives_optOut, lives_cons, hlk, hfl, him]
    show (liveF (.errReq q.next ex)).toList ++ [] = _
    rw [List.append_nil]
    show q.next.toList = _
    rw [hln, take1_head]
  · intro he; rw [he]; rfl
  · intro hx; rw [e9] at hx; exact absurd hfl hx
  · intro x hx
    rcases hmem _ hx with hx | hx | hx
    · cases hx
    · cases hx
    · exact absurd hx (hno.1 x)
  · intro x hx
    rcases hmem _ hx with hx | hx | hx
    · cases hx
    · cases hx
    · exact absurd hx (hno.2.1 x)
  · intro hx; rw [e8] at hx; exact absurd him hx
  · intro x ex' hx
    rcases hmem _ hx with hx | hx | hx
    · cases hx
    · injection hx with h1 h2
      subst h2
      left
      cases ch' with
      | nil => rw [hln] at h1; cases h1
      | cons a l => rfl
    · exact absurd hx (hno.2.2 x ex')
  · intro x hx; rw [e8, him] at hx; cases hx
  · intro hp p hlast
    cases ch' with
    | nil => cases hlast
    | cons a l => exact absurd rfl (hp ex)

set_option maxHeartbeats 1000000 in
theorem w_succ {s : St} {w : W} {b : Bool} {ch : List Cell} (hS : SInv s) (h : WInv s w b ch)
    {r : Nat} {k : List Frame} (hs : s.stack = .succ r :: k) :
    ∃ w' b' ch', WInv (St.succ { s with stack := k } r) w' b' ch' := by
  obtain ⟨q, ch', hch, hfl, him, hlk⟩ := h.sole hs (r := r) rfl
  subst hch
  have hno := no_live hlk
  have hq : s.heap r = some q := (h.heap r q).2 List.mem_cons_self
  obtain ⟨hph, hb⟩ := h.succ r (by rw [hs]; exact List.mem_cons_self)
  have ha : s.alive = true := by
    cases ha : s.alive
    · have := hS.dead ha (.succ r) (by rw [hs]; exact List.mem_cons_self); cases this
    · rfl
  by_cases hd : q.data ≠ []
  · -- more to hand down
    generalize hT : St.succ { s with stack := k } r = T
    have hT' : T = St.push { s with stack := k } [.start r] := by
      rw [← hT]
      exact succ_more (s := { s with stack := k }) hq hd
    clear hT
    have t2 : T.wview = s.wview := by rw [hT']; rfl
    have t1 : T.log = s.log := by rw [hT']; rfl
    have t3 : T.stack = .start r :: k := by rw [hT']; rfl
    have t4 : T.pendingEx = s.pendingEx := by rw [hT']; rfl
    obtain ⟨e1, e2, e3, e4, e5, e6, e7, e8, e9⟩ := WView.fields t2
    change T.alive = s.alive at e1
    change T.crash = s.crash at e2
    change T.fresh = s.fresh at e3
    change T.noPartial = s.noPartial at e4
    change T.appWritten = s.appWritten at e5
    change T.heap = s.heap at e6
    change T.tail = s.tail at e7
    change T.imm = s.imm at e8
    change T.flying = s.flying at e9
    clear t2 hT'
    refine ⟨w, b, (r, q) :: ch', ?_⟩
    constructor
    · rw [t1]; exact h.run
    · rw [e2]; exact h.crash
    · exact h.q
    · rw [e3]; exact h.cnt
    · rw [e4]; exact h.whole
    · rw [e5]; exact h.bytes
    · exact h.notOpen
    · rw [t4]; exact h.pend
    · intro f hf ex hex
      rw [t3] at hf
      rcases List.mem_cons.1 hf with rfl | hf
      · cases hex
      · exact h.exs f (by rw [hs]; exact List.mem_cons_of_mem _ hf) ex hex
    · rw [e6]; exact h.heap
    · exact h.inc
    · rw [e3]; exact h.lt
    · exact h.linked
    · rw [e1, e7]; exact h.tail
    · rw [e1]; exact h.base
    · rw [e1]; exact h.unl
    · unfold St.owners
      rw [e8, e9, t3, lives_cons, hlk, hfl, him]
      rfl
    · intro hx; cases hx
    · intro hx; rw [e9] at hx; exact absurd hfl hx
    · intro x hx
      refine ⟨hph, fun p hp => ?_⟩
      cases Option.some.inj hp
      exact .inr hd
    · intro x hx
      rw [t3] at hx
      rcases List.mem_cons.1 hx with hx | hx
      · cases hx
      · exact absurd hx (hno.2.1 x)
    · intro hx; rw [e8] at hx; exact absurd him hx
    · intro x ex hx
      rw [t3] at hx
      rcases List.mem_cons.1 hx with hx | hx
      · cases hx
      · exact absurd hx (hno.2.2 x ex)
    · intro x hx; rw [e8, him] at hx; cases hx
    · exact h.entire
  · -- finished
    have hd : q.data = [] := Decidable.not_not.1 hd
    have hbase : q.base = true := h.base ha (r, q) List.mem_cons_self
    obtain ⟨t, hadv, htail⟩ := advance_first h
    have hrun : W.run {} (s.log ++ [.wOk r q.cb]) = some { w with q := ch'.map (item false) } := by
      rw [W.run_append, h.run, Option.bind_some]
      exact W.next_wOk h.q ⟨hph, rfl, hb, hd, rfl⟩
    generalize hT : St.succ { s with stack := k } r = T
    have hadv' : St.advanceOnBase { s with stack := k } r q =
        { s with stack := k, tail := t } := by
      have : St.advanceOnBase { s with stack := k } r q =
          { s.advanceOnBase r q with stack := k } := by
        unfold St.advanceOnBase St.crashed
        split
        · split
          · rfl
          · split <;> rfl
        · rfl
      rw [this, hadv]
    have hT' : T = (St.setHeap { s with stack := k, tail := t } r none).succDone r q := by
      rw [← hT]
      rw [succ_done (s := { s with stack := k }) hq hd hbase ha, hadv']
    clear hT
    have t1 : T.log = s.log ++ [.wOk r q.cb] := by rw [hT']; rfl
    have t2 : T.wview = { s.wview with
        crash := s.crash || s.imm.isSome
        heap := fun x => if x = r then none else s.heap x
        tail := t
        imm := q.next } := by rw [hT']; rfl
    have t3 : T.stack = (if q.cb then [.out] else []) ++ .succ2 q.next :: .unguard :: k := by
      rw [hT']
      unfold St.succDone St.push St.say St.setHeap
      simp
    have t4 : T.pendingEx = s.pendingEx := by rw [hT']; rfl
    clear hT'
    obtain ⟨e1, e2, e3, e4, e5, e6, e7, e8, e9⟩ := WView.fields t2
    change T.alive = s.alive at e1
    change T.crash = (s.crash || s.imm.isSome) at e2
    change T.fresh = s.fresh at e3
    change T.noPartial = s.noPartial at e4
    change T.appWritten = s.appWritten at e5
    change T.heap = (fun x => if x = r then none else s.heap x) at e6
    change T.tail = t at e7
    change T.imm = q.next at e8
    change T.flying = s.flying at e9
    clear t2
    have hln : q.next = ch'.head?.map (·.1) := h.linked.1
    have hmem : ∀ f ∈ T.stack, f = .out ∨ f = .succ2 q.next ∨ f = .unguard ∨ f ∈ k := by
      intro f hf
      rw [t3] at hf
      rcases List.mem_append.1 hf with hf | hf
      · exact .inl (optOut_idle _ f hf)
      · rcases List.mem_cons.1 hf with hf | hf
        · exact .inr (.inl hf)
        · rcases List.mem_cons.1 hf with hf | hf
          · exact .inr (.inr (.inl hf))
          · exact .inr (.inr (.inr hf))
    refine ⟨{ w with q := ch'.map (item false) }, false, ch', ?_⟩
    constructor
    · rw [t1]; exact hrun
    · rw [e2, h.crash, him]; rfl
    · exact (items_false ch').symm
    · rw [e3]; exact h.cnt
    · rw [e4]; exact h.whole
    · rw [e5]; exact h.bytes
    · exact h.notOpen
    · rw [t4]; exact h.pend
    · intro f hf ex' hex
      rcases hmem f hf with rfl | rfl | rfl | hf
      · cases hex
      · cases hex
      · cases hex
      · exact h.exs f (by rw [hs]; exact List.mem_cons_of_mem _ hf) ex' hex
    · rw [e6]; exact h.heap.free h.inc
    · exact inc_tail h.inc
    · rw [e3]; exact fun p hp => h.lt p (List.mem_cons_of_mem _ hp)
    · exact h.linked.2
    · rw [e1, e7]; exact htail
    · rw [e1]; exact fun ha p hp => h.base ha p (List.mem_cons_of_mem _ hp)
    · rw [e1]; exact fun ha p hp => h.unl ha p (last_cons hp)
    · unfold St.owners
      rw [e8, e9, t3, lives_optOut, lives_cons, lives_cons, hlk, hfl, hln, take1_head]
      show [] ++ List.take 1 (ch'.map (·.1)) ++ [] = _
      simp
    · intro _; exact hph
    · intro hx; rw [e9] at hx; exact absurd hfl hx
    · intro x hx
      rcases hmem _ hx with hx | hx | hx | hx
      · cases hx
      · cases hx
      · cases hx
      · exact absurd hx (hno.1 x)
    · intro x hx
      rcases hmem _ hx with hx | hx | hx | hx
      · cases hx
      · cases hx
      · cases hx
      · exact absurd hx (hno.2.1 x)
    · intro _; exact ⟨hph, rfl⟩
    · intro x ex' hx
      rcases hmem _ hx with hx | hx | hx | hx
      · cases hx
      · cases hx
      · cases hx
      · exact absurd hx (hno.2.2 x ex')
    · intro x hx
      rw [e8] at hx
      rw [hx] at t3
      exact ⟨_, k, t3⟩
    · intro hp p hlast
      have := h.entire hp p (last_cons hlast)
      rw [this]
      show q.data.length + total ch' = total ch'
      rw [hd]; simp

theorem w_succ2 {s : St} {w : W} {b : Bool} {ch : List Cell} (h : WInv s w b ch)
    {n : Option Nat} {k : List Frame} (hs : s.stack = .succ2 n :: k) :
    ∃ w' b' ch', WInv (St.succ2 { s with stack := k } n) w' b' ch' := by
  cases n with
  | none =>
    refine ⟨w, b, ch, ?_⟩
    refine h.skip (old := [.succ2 none]) (fs := []) (k := k) rfl h.run ⟨rfl, rfl, rfl, rfl, rfl⟩
      (fun _ he => he) h.pend hs rfl ?_ (by simp) (by simp)
    intro f hf
    rw [List.mem_singleton.1 hf]
    exact ⟨rfl, fun r e => by cases e⟩
  | some r =>
    by_cases hi : s.imm = some r
    · obtain ⟨hph, hb⟩ := h.imm (by rw [hi]; simp)
      have hm : r ∈ s.owners := by
        unfold St.owners; rw [hi]; simp
      obtain ⟨q, ch', hch, ho⟩ := h.head hm
      subst hch
      have hlen := congrArg List.length ho
      unfold St.owners at hlen
      rw [hi, hs, lives_cons] at hlen
      simp only [List.length_append, Option.toList_some, List.length_cons, List.length_nil] at hlen
      have hfl : s.flying = [] := List.length_eq_zero_iff.1 (by omega)
      have hlk : lives k = [] := List.length_eq_zero_iff.1 (by omega)
      have hno := no_live hlk
      generalize hT : St.succ2 { s with stack := k } (some r) = T
      have hT' : T = St.push { s with stack := k, imm := none } [.start r] := by
        rw [← hT]
        unfold St.succ2
        exact if_pos hi
      clear hT
      have t2 : T.wview = { s.wview with imm := none } := by rw [hT']; rfl
      have t1 : T.log = s.log := by rw [hT']; rfl
      have t3 : T.stack = .start r :: k := by rw [hT']; rfl
      have t4 : T.pendingEx = s.pendingEx := by rw [hT']; rfl
      obtain ⟨e1, e2, e3, e4, e5, e6, e7, e8, e9⟩ := WView.fields t2
      change T.alive = s.alive at e1
      change T.crash = s.crash at e2
      change T.fresh = s.fresh at e3
      change T.noPartial = s.noPartial at e4
      change T.appWritten = s.appWritten at e5
      change T.heap = s.heap at e6
      change T.tail = s.tail at e7
      change T.imm = none at e8
      change T.flying = s.flying at e9
      clear t2 hT'
      refine ⟨w, b, (r, q) :: ch', ?_⟩
      constructor
      · rw [t1]; exact h.run
      · rw [e2]; exact h.crash
      · exact h.q
      · rw [e3]; exact h.cnt
      · rw [e4]; exact h.whole
      · rw [e5]; exact h.bytes
      · exact h.notOpen
      · rw [t4]; exact h.pend
      · intro f hf ex hex
        rw [t3] at hf
        rcases List.mem_cons.1 hf with rfl | hf
        · cases hex
        · exact h.exs f (by rw [hs]; exact List.mem_cons_of_mem _ hf) ex hex
      · rw [e6]; exact h.heap
      · exact h.inc
      · rw [e3]; exact h.lt
      · exact h.linked
      · rw [e1, e7]; exact h.tail
      · rw [e1]; exact h.base
      · rw [e1]; exact h.unl
      · unfold St.owners
        rw [e8, e9, t3, lives_cons, hlk, hfl]
        rfl
      · intro hx; cases hx
      · intro hx; rw [e9] at hx; exact absurd hfl hx
      · intro x hx
        exact ⟨hph, fun p hp => .inl hb⟩
      · intro x hx
        rw [t3] at hx
        rcases List.mem_cons.1 hx with hx | hx
        · cases hx
        · exact absurd hx (hno.2.1 x)
      · intro hx; exact absurd e8 hx
      · intro x ex hx
        rw [t3] at hx
        rcases List.mem_cons.1 hx with hx | hx
        · cases hx
        · exact absurd hx (hno.2.2 x ex)
      · intro x hx; rw [e8] at hx; cases hx
      · exact h.entire
    · have e : St.succ2 { s with stack := k } (some r) = { s with stack := k } := by
        unfold St.succ2
        exact if_neg hi
      rw [e]
      refine ⟨w, b, ch, ?_⟩
      refine h.skip (old := [.succ2 (some r)]) (fs := []) (k := k) rfl h.run
        ⟨rfl, rfl, rfl, rfl, rfl⟩ (fun _ he => he) h.pend hs rfl ?_ (by simp) (by simp)
      intro f hf
      rw [List.mem_singleton.1 hf]
      refine ⟨rfl, fun r' e => ?_⟩
      injection e with e
      rw [← e]; exact hi

theorem w_err2 {s : St} {w : W} {b : Bool} {ch : List Cell} (h : WInv s w b ch)
    {ex : Ex} {c d : Bool} {k : List Frame} (hs : s.stack = .err2 ex c d :: k) :
    ∃ w' b' ch', WInv (St.err2 { s with stack := k } ex c d) w' b' ch' := by
  have hex : ex ∈ w.errs := h.exs (.err2 ex c d) (by rw [hs]; exact List.mem_cons_self) ex rfl
  rcases (show s.imm = none ∨ ∃ r, s.imm = some r by cases s.imm <;> simp) with hi | ⟨r, hi⟩
  · have e : St.err2 { s with stack := k } ex c d = St.push { s with stack := k } [.err3 c d] := by
      unfold St.err2
      rw [show St.imm { s with stack := k } = none from hi]
    rw [e]
    refine ⟨w, b, ch, ?_⟩
    refine h.skip (old := [.err2 ex c d]) (fs := [.err3 c d]) (k := k) rfl h.run
      ⟨rfl, rfl, rfl, rfl, rfl⟩ (fun _ he => he) h.pend hs rfl ?_ ?_ ?_
    · intro f hf
      rw [List.mem_singleton.1 hf]
      exact ⟨rfl, fun r e => by cases e⟩
    · intro f hf
      rw [List.mem_singleton.1 hf]
      exact ⟨rfl, fun r e => by cases e⟩
    · intro f hf ex' hx
      rw [List.mem_singleton.1 hf] at hx
      cases hx
  · obtain ⟨hph, hb⟩ := h.imm (by rw [hi]; simp)
    have hm : r ∈ s.owners := by
      unfold St.owners; rw [hi]; simp
    obtain ⟨q, ch', hch, ho⟩ := h.head hm
    subst hch
    have hlen := congrArg List.length ho
    unfold St.owners at hlen
    rw [hi, hs, lives_cons] at hlen
    simp only [List.length_append, Option.toList_some, List.length_cons, List.length_nil] at hlen
    have hfl : s.flying = [] := List.length_eq_zero_iff.1 (by omega)
    have hlk : lives k = [] := List.length_eq_zero_iff.1 (by omega)
    have hno := no_live hlk
    generalize hT : St.err2 { s with stack := k } ex c d = T
    have hT' : T = St.push { s with stack := k, imm := none }
        [.errReq (some r) ex, .err3 c d] := by
      rw [← hT]
      unfold St.err2
      rw [show St.imm { s with stack := k } = some r from hi]
    clear hT
    have t2 : T.wview = { s.wview with imm := none } := by rw [hT']; rfl
    have t1 : T.log = s.log := by rw [hT']; rfl
    have t3 : T.stack = .errReq (some r) ex :: .err3 c d :: k := by rw [hT']; rfl
    have t4 : T.pendingEx = s.pendingEx := by rw [hT']; rfl
    obtain ⟨e1, e2, e3, e4, e5, e6, e7, e8, e9⟩ := WView.fields t2
    change T.alive = s.alive at e1
    change T.crash = s.crash at e2
    change T.fresh = s.fresh at e3
    change T.noPartial = s.noPartial at e4
    change T.appWritten = s.appWritten at e5
    change T.heap = s.heap at e6
    change T.tail = s.tail at e7
    change T.imm = none at e8
    change T.flying = s.flying at e9
    clear t2 hT'
    have hmem : ∀ f ∈ T.stack, f = .errReq (some r) ex ∨ f = .err3 c d ∨ f ∈ k := by
      intro f hf
      rw [t3] at hf
      rcases List.mem_cons.1 hf with hf | hf
      · exact .inl hf
      · rcases List.mem_cons.1 hf with hf | hf
        · exact .inr (.inl hf)
        · exact .inr (.inr hf)
    refine ⟨w, b, (r, q) :: ch', ?_⟩
    constructor
    · rw [t1]; exact h.run
    · rw [e2]; exact h.crash
    · exact h.q
    · rw [e3]; exact h.cnt
    · rw [e4]; exact h.whole
    · rw [e5]; exact h.bytes
    · exact h.notOpen
    · rw [t4]; exact h.pend
    · intro f hf ex' hex'
      rcases hmem f hf with rfl | rfl | hf
      · cases hex'
      · cases hex'
      · exact h.exs f (by rw [hs]; exact List.mem_cons_of_mem _ hf) ex' hex'
    · rw [e6]; exact h.heap
    · exact h.inc
    · rw [e3]; exact h.lt
    · exact h.linked
    · rw [e1, e7]; exact h.tail
    · rw [e1]; exact h.base
    · rw [e1]; exact h.unl
    · unfold St.owners
      rw [e8, e9, t3, lives_cons, lives_cons, hlk, hfl]
      rfl
    · intro hx; cases hx
    · intro hx; rw [e9] at hx; exact absurd hfl hx
    · intro x hx
      rcases hmem _ hx with hx | hx | hx
      · cases hx
      · cases hx
      · exact absurd hx (hno.1 x)
    · intro x hx
      rcases hmem _ hx with hx | hx | hx
      · cases hx
      · cases hx
      · exact absurd hx (hno.2.1 x)
    · intro hx; exact absurd e8 hx
    · intro x ex' hx
      rcases hmem _ hx with hx | hx | hx
      · injection hx with h1 h2
        subst h2
        exact .inr ⟨hph, hb, hex⟩
      · cases hx
      · exact absurd hx (hno.2.2 x ex')
    · intro x hx; rw [e8] at hx; cases hx
    · exact h.entire

end Fizz.Async

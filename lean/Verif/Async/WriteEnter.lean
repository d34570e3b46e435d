import Verif.Async.WriteRun

/-! # Calls from outside keep the write invariant -/

namespace Fizz.Async

open Spec

/-- What `append` does to the last request. -/
def chain (i : Nat) (q : Req) : Req := { q with next := some i, entire := 0 }

theorem linked_snoc {t : Nat} {qt qt' : Req} {i : Nat} {q : Req} (h1 : qt'.next = some i)
    (h2 : q.next = none) : ∀ (l : List Cell), Linked (l ++ [(t, qt)]) →
      Linked (l ++ [(t, qt')] ++ [(i, q)])
  | [], _ => ⟨h1, h2, trivial⟩
  | p :: l, h => by
    refine ⟨?_, linked_snoc h1 h2 l h.2⟩
    have := h.1
    rw [this]
    cases l <;> rfl

theorem total_append : ∀ a b : List Cell, total (a ++ b) = total a + total b
  | [], b => by simp [total]
  | p :: a, b => by
    show p.2.data.length + total (a ++ b) = p.2.data.length + total a + total b
    rw [total_append a b]; omega

theorem inc_snoc {l : List Cell} (h : Inc l) {i : Nat} {q : Req} (hi : ∀ p ∈ l, p.1 < i) :
    Inc (l ++ [(i, q)]) := by
  rw [Inc, List.map_append, List.pairwise_append]
  refine ⟨h, by simp, ?_⟩
  intro a ha b hb
  obtain ⟨p, hp, rfl⟩ := List.mem_map.1 ha
  simp only [List.map_cons, List.map_nil, List.mem_singleton] at hb
  rw [hb]; exact hi p hp

theorem take1_snoc {l : List Cell} (h : l ≠ []) (p : Cell) :
    ((l ++ [p]).map (·.1)).take 1 = (l.map (·.1)).take 1 := by
  cases l with
  | nil => exact absurd rfl h
  | cons a l => rfl

theorem head_snoc {l : List Cell} (h : l ≠ []) (p : Cell) : (l ++ [p]).head? = l.head? := by
  cases l with
  | nil => exact absurd rfl h
  | cons a l => rfl

theorem W.next_wrote {w : W} {i : Nat} (h : i = w.count) (data : Bytes) (flags : Flags) (cb : Bool) :
    w.next (.wrote i data flags cb) =
      some { w with q := w.q ++ [⟨i, cb, flags, data, 0, false⟩], count := i + 1
                    bytes := w.bytes + data.length } := by
  unfold W.next
  exact if_pos h

theorem W.next_direct {w : W} {i : Nat} (h : i = w.count) (hq : w.q = []) (data : Bytes)
    (flags : Flags) (cb : Bool) :
    w.next (.direct i data flags cb) =
      some { w with count := i + 1, bytes := w.bytes + data.length } := by
  unfold W.next
  exact if_pos ⟨h, hq⟩

/-- The state after `writeChain` appended a request. -/
def St.appended (s : St) (t : Nat) (qt : Req) (data : Bytes) (flags : Flags) (cb : Bool) : St :=
  { ((({ s with fresh := s.fresh + 1, appWritten := s.appWritten + data.length } : St).setHeap s.fresh
      (some ⟨cb, data, flags, 0, data.length + qt.entire, none, true⟩)).setHeap t
      (some (chain s.fresh qt))) with tail := some s.fresh }.say (.wrote s.fresh data flags cb)

theorem writeChain_append {s : St} {t : Nat} {qt : Req} (ht : s.tail = some t)
    (hq : s.heap t = some qt) (hn : qt.next = none) (data : Bytes) (flags : Flags)
    (cb b sh c rs : Bool) :
    s.writeChain data flags cb b sh c rs = s.appended t qt data flags cb := by
  unfold St.writeChain
  dsimp only
  rw [ht]
  dsimp only
  rw [hq]
  dsimp only
  rw [if_neg (by rw [hn]; simp)]
  rfl

theorem w_append {s : St} {w : W} {b : Bool} {ch : List Cell} (h : WInv s w b ch)
    (hal : s.alive = true) {t : Nat} (ht : s.tail = some t) (data : Bytes) (flags : Flags)
    (cb b' sh c rs : Bool) :
    ∃ w' b'' ch', WInv (s.writeChain data flags cb b' sh c rs) w' b'' ch' := by
  obtain ⟨p, hp, hpt⟩ : ∃ p, ch.getLast? = some p ∧ p.1 = t := by
    have := h.tail hal
    rw [ht] at this
    cases hl : ch.getLast? with
    | none => rw [hl] at this; cases this
    | some p => rw [hl] at this; exact ⟨p, rfl, (Option.some.inj this).symm⟩
  obtain ⟨l, hl⟩ : ∃ l, ch = l ++ [p] := by
    obtain ⟨l, hl⟩ := List.getLast?_eq_some_iff.1 hp
    exact ⟨l, hl⟩
  obtain ⟨t', qt⟩ := p
  have hpt : t' = t := hpt
  subst hpt
  have hmem : (t', qt) ∈ ch := last_mem hp
  have hne : ch ≠ [] := by intro hx; rw [hx] at hmem; cases hmem
  have hq : s.heap t' = some qt := (h.heap _ _).2 hmem
  have hnext : qt.next = none := by
    have : ∀ l : List Cell, Linked (l ++ [(t', qt)]) → qt.next = none := by
      intro l
      induction l with
      | nil => intro hx; exact hx.1
      | cons a l ih => intro hx; exact ih hx.2
    exact this l (hl ▸ h.linked)
  rw [writeChain_append ht hq hnext]
  have hlt := h.lt
  have hlast : ∀ x ∈ l, x.1 ≠ t' := by
    have hi := h.inc
    rw [Inc, hl, List.map_append, List.pairwise_append] at hi
    intro x hx e
    have := hi.2.2 x.1 (List.mem_map.2 ⟨x, hx, rfl⟩) t' (by simp)
    omega
  have hmap : ch.map (upd t' (chain s.fresh)) = l ++ [(t', chain s.fresh qt)] := by
    rw [hl, List.map_append, map_upd_ne _ _ l hlast]
    simp [upd]
  generalize hr : (⟨cb, data, flags, 0, data.length + qt.entire, none, true⟩ : Req) = r
  have hr1 : item false (s.fresh, r) = ⟨s.fresh, cb, flags, data, 0, false⟩ := by rw [← hr]; rfl
  have hr2 : r.next = none := by rw [← hr]
  have hr3 : r.base = true := by rw [← hr]
  have hr4 : r.data = data := by rw [← hr]
  have hr5 : r.entire = data.length + qt.entire := by rw [← hr]
  have hH1 := h.heap.alloc hlt r
  have hinc1 : Inc (ch ++ [(s.fresh, r)]) := inc_snoc h.inc hlt
  have hH2 := hH1.set hinc1 (List.mem_append_left _ hmem) (chain s.fresh)
  have hmap2 : (ch ++ [(s.fresh, r)]).map (upd t' (chain s.fresh)) =
      ch.map (upd t' (chain s.fresh)) ++ [(s.fresh, r)] := by
    rw [List.map_append]
    have : s.fresh ≠ t' := by
      have : t' < s.fresh := hlt _ hmem
      omega
    simp [upd, this]
  rw [hmap2] at hH2
  generalize hT : s.appended t' qt data flags cb = T
  have t1 : T.log = s.log ++ [.wrote s.fresh data flags cb] := by rw [← hT]; rfl
  have t2 : T.wview = { s.wview with
      fresh := s.fresh + 1
      appWritten := s.appWritten + data.length
      heap := fun x => if x = t' then some (chain s.fresh qt) else
        if x = s.fresh then some r else s.heap x
      tail := some s.fresh } := by rw [← hT, ← hr]; rfl
  have t3 : T.stack = s.stack := by rw [← hT]; rfl
  have t4 : T.pendingEx = s.pendingEx := by rw [← hT]; rfl
  clear hT
  obtain ⟨e1, e2, e3, e4, e5, e6, e7, e8, e9⟩ := WView.fields t2
  change T.alive = s.alive at e1
  change T.crash = s.crash at e2
  change T.fresh = s.fresh + 1 at e3
  change T.noPartial = s.noPartial at e4
  change T.appWritten = s.appWritten + data.length at e5
  change T.heap = (fun x => if x = t' then some (chain s.fresh qt) else
        if x = s.fresh then some r else s.heap x) at e6
  change T.tail = some s.fresh at e7
  change T.imm = s.imm at e8
  change T.flying = s.flying at e9
  clear t2
  have hcne : ch.map (upd t' (chain s.fresh)) ≠ [] := by
    intro hx; exact hne (List.map_eq_nil_iff.1 hx)
  have hitems : items b (ch.map (upd t' (chain s.fresh))) = items b ch :=
    items_upd b t' (chain s.fresh) (fun _ => ⟨rfl, rfl, rfl, rfl⟩) ch
  refine ⟨{ w with q := w.q ++ [⟨s.fresh, cb, flags, data, 0, false⟩], count := s.fresh + 1
                   bytes := w.bytes + data.length }, b,
    ch.map (upd t' (chain s.fresh)) ++ [(s.fresh, r)], ?_⟩
  constructor
  · rw [t1, W.run_append, h.run, Option.bind_some]
    exact W.next_wrote h.cnt.symm _ _ _
  · rw [e2]; exact h.crash
  · rw [items_append _ _ _ hcne, hitems, hr1, h.q]
  · rw [e3]
  · rw [e4]; exact h.whole
  · rw [e5, h.bytes]
  · exact h.notOpen
  · rw [t4]; exact h.pend
  · rw [t3]; exact h.exs
  · rw [e6]; exact hH2
  · rw [← hmap2, Inc, map_upd_fst]; exact hinc1
  · rw [e3]
    intro x hx
    rcases List.mem_append.1 hx with hx | hx
    · obtain ⟨y, hy, rfl⟩ := List.mem_map.1 hx
      rw [upd_fst]
      have := hlt y hy
      omega
    · rw [List.mem_singleton.1 hx]; exact Nat.lt_succ_self _
  · rw [hmap]
    exact linked_snoc rfl hr2 l (hl ▸ h.linked)
  · intro _
    rw [e7, List.getLast?_append]; rfl
  · intro _ x hx
    rcases List.mem_append.1 hx with hx | hx
    · obtain ⟨y, hy, rfl⟩ := List.mem_map.1 hx
      have := h.base hal y hy
      unfold upd; split <;> exact this
    · rw [List.mem_singleton.1 hx]; exact hr3
  · intro hx; rw [e1, hal] at hx; cases hx
  · unfold St.owners
    rw [e8, e9, t3, take1_snoc hcne, map_upd_fst]
    exact h.own
  · intro hx; simp at hx
  · rw [e9]; exact h.fly
  · rw [t3]
    intro r' hr'
    obtain ⟨h1, h2⟩ := h.start r' hr'
    refine ⟨h1, fun x hx => ?_⟩
    rw [head_snoc hcne, List.head?_map] at hx
    cases hc : ch.head? with
    | none => rw [hc] at hx; cases hx
    | some y =>
      rw [hc] at hx
      cases Option.some.inj hx
      have := h2 y hc
      unfold upd; split <;> exact this
  · rw [t3]; exact h.succ
  · rw [e8]; exact h.imm
  · rw [t3]; exact h.failing
  · rw [e8, t3]; exact h.immAt
  · intro hph x hx
    rw [List.getLast?_append] at hx
    cases Option.some.inj hx
    have := h.entire hph (t', qt) hp
    rw [total_append, total_upd t' (chain s.fresh) (fun _ => rfl)]
    show r.entire = total ch + (r.data.length + 0)
    rw [hr5, hr4, show qt.entire = total ch from this]
    omega

theorem w_empty {s : St} {w : W} {b : Bool} {ch : List Cell} (h : WInv s w b ch)
    (hal : s.alive = true) (ht : s.tail = none) : ch = [] := by
  have := h.tail hal
  rw [ht] at this
  cases hl : ch.getLast? with
  | none => exact List.getLast?_eq_none_iff.1 hl
  | some p => rw [hl] at this; cases this

/-- The state after `writeChain` created the first request. -/
def St.first (s : St) (data : Bytes) (flags : Flags) (cb : Bool) : St :=
  ((St.setHeap { s with fresh := s.fresh + 1, appWritten := s.appWritten + data.length,
                        tail := some s.fresh } s.fresh
      (some ⟨cb, data, flags, 0, data.length, none, true⟩)).say (.wrote s.fresh data flags cb)).push
    [.start s.fresh]

theorem w_first {s : St} {w : W} {b : Bool} {ch : List Cell} (h : WInv s w b ch)
    (hal : s.alive = true) (ht : s.tail = none) (data : Bytes) (flags : Flags) (cb : Bool) :
    ∃ w' b'' ch', WInv (s.first data flags cb) w' b'' ch' := by
  have hch := w_empty h hal ht
  subst hch
  have hown : s.owners = [] := h.own
  unfold St.owners at hown
  have hlen := congrArg List.length hown
  simp only [List.length_append, List.length_nil] at hlen
  have hfl : s.flying = [] := List.length_eq_zero_iff.1 (by omega)
  have hlk : lives s.stack = [] := List.length_eq_zero_iff.1 (by omega)
  have him : s.imm = none := by
    cases hi : s.imm with
    | none => rfl
    | some x => rw [hi] at hlen; simp at hlen
  have hno := no_live hlk
  have hwq : w.q = [] := h.q
  have hph := h.idle rfl
  generalize hr : (⟨cb, data, flags, 0, data.length, none, true⟩ : Req) = r
  have hH := h.heap.alloc h.lt r
  generalize hT : s.first data flags cb = T
  have t1 : T.log = s.log ++ [.wrote s.fresh data flags cb] := by rw [← hT]; rfl
  have t2 : T.wview = { s.wview with
      fresh := s.fresh + 1
      appWritten := s.appWritten + data.length
      heap := fun x => if x = s.fresh then some r else s.heap x
      tail := some s.fresh } := by rw [← hT, ← hr]; rfl
  have t3 : T.stack = .start s.fresh :: s.stack := by rw [← hT]; rfl
  have t4 : T.pendingEx = s.pendingEx := by rw [← hT]; rfl
  clear hT
  obtain ⟨e1, e2, e3, e4, e5, e6, e7, e8, e9⟩ := WView.fields t2
  change T.alive = s.alive at e1
  change T.crash = s.crash at e2
  change T.fresh = s.fresh + 1 at e3
  change T.noPartial = s.noPartial at e4
  change T.appWritten = s.appWritten + data.length at e5
  change T.heap = (fun x => if x = s.fresh then some r else s.heap x) at e6
  change T.tail = some s.fresh at e7
  change T.imm = s.imm at e8
  change T.flying = s.flying at e9
  clear t2
  refine ⟨{ w with q := w.q ++ [⟨s.fresh, cb, flags, data, 0, false⟩], count := s.fresh + 1
                   bytes := w.bytes + data.length }, false, [(s.fresh, r)], ?_⟩
  constructor
  · rw [t1, W.run_append, h.run, Option.bind_some]
    exact W.next_wrote h.cnt.symm _ _ _
  · rw [e2]; exact h.crash
  · rw [hwq, ← hr]; rfl
  · rw [e3]
  · rw [e4]; exact h.whole
  · rw [e5, h.bytes]
  · exact h.notOpen
  · rw [t4]; exact h.pend
  · rw [t3]
    intro f hf ex hex
    rcases List.mem_cons.1 hf with rfl | hf
    · cases hex
    · exact h.exs f hf ex hex
  · rw [e6]; exact hH
  · simp [Inc]
  · rw [e3]
    intro x hx
    rw [List.mem_singleton.1 hx]; exact Nat.lt_succ_self _
  · rw [← hr]; exact ⟨rfl, trivial⟩
  · intro _; rw [e7]; rfl
  · intro _ x hx
    rw [List.mem_singleton.1 hx, ← hr]
  · intro hx; rw [e1, hal] at hx; cases hx
  · unfold St.owners
    rw [e8, e9, t3, lives_cons, hlk, hfl, him]
    rfl
  · intro hx; cases hx
  · intro hx; rw [e9] at hx; exact absurd hfl hx
  · intro x hx; exact ⟨hph, fun p hp => .inl rfl⟩
  · intro x hx
    rw [t3] at hx
    rcases List.mem_cons.1 hx with hx | hx
    · cases hx
    · exact absurd hx (hno.2.1 x)
  · intro hx; rw [e8] at hx; exact absurd him hx
  · intro x ex hx
    rw [t3] at hx
    rcases List.mem_cons.1 hx with hx | hx
    · cases hx
    · exact absurd hx (hno.2.2 x ex)
  · intro x hx; rw [e8, him] at hx; cases hx
  · intro _ x hx
    cases Option.some.inj hx
    rw [← hr]; rfl

theorem w_direct {s : St} {w : W} {b : Bool} {ch : List Cell} (h : WInv s w b ch)
    (hal : s.alive = true) (ht : s.tail = none) (data : Bytes) (flags : Flags) (cb : Bool) :
    ∃ w' b'' ch', WInv ((St.say { s with fresh := s.fresh + 1
                                         appWritten := s.appWritten + data.length }
      (.direct s.fresh data flags cb)).push [.out]) w' b'' ch' := by
  have hch := w_empty h hal ht
  subst hch
  have hwq : w.q = [] := h.q
  refine ⟨{ w with count := s.fresh + 1, bytes := w.bytes + data.length }, b, [], ?_⟩
  constructor
  · show W.run {} (s.log ++ [.direct s.fresh data flags cb]) = _
    rw [W.run_append, h.run, Option.bind_some]
    exact W.next_direct h.cnt.symm hwq _ _ _
  · exact h.crash
  · exact h.q
  · rfl
  · exact h.whole
  · show w.bytes + data.length = s.appWritten + data.length
    rw [h.bytes]
  · exact h.notOpen
  · exact h.pend
  · intro f hf ex hex
    rcases List.mem_cons.1 (show f ∈ .out :: s.stack from hf) with rfl | hf
    · cases hex
    · exact h.exs f hf ex hex
  · exact h.heap
  · exact h.inc
  · intro x hx; cases hx
  · trivial
  · exact h.tail
  · exact h.base
  · exact h.unl
  · exact h.own
  · exact h.idle
  · exact h.fly
  · intro x hx
    rcases List.mem_cons.1 (show Frame.start x ∈ .out :: s.stack from hx) with hx | hx
    · cases hx
    · exact h.start x hx
  · intro x hx
    rcases List.mem_cons.1 (show Frame.succ x ∈ .out :: s.stack from hx) with hx | hx
    · cases hx
    · exact h.succ x hx
  · exact h.imm
  · intro x ex hx
    rcases List.mem_cons.1 (show Frame.errReq (some x) ex ∈ .out :: s.stack from hx) with hx | hx
    · cases hx
    · exact h.failing x ex hx
  · intro r hr
    obtain ⟨k1, k2, hk⟩ := h.immAt r hr
    exact ⟨.out :: k1, k2, congrArg (Frame.out :: ·) hk⟩
  · exact h.entire

/-- A request given to `writeAppData` is the first of the chain, and the only one. -/
theorem WInv.flown {s : St} {w : W} {b : Bool} {ch : List Cell} (h : WInv s w b ch) {r : Nat}
    (hr : s.flying.contains r = true) :
    ∃ q ch', ch = (r, q) :: ch' ∧ s.flying.erase r = [] ∧ s.imm = none ∧ lives s.stack = [] ∧
      w.phase = .busy ∧ b = true := by
  have hr : r ∈ s.flying := by simpa using hr
  have hm : r ∈ s.owners := by
    unfold St.owners
    rw [List.append_assoc]
    exact List.mem_append_left _ hr
  obtain ⟨q, ch', hch, ho⟩ := h.head hm
  obtain ⟨h1, h2⟩ := h.fly (by intro hx; rw [hx] at hr; cases hr)
  unfold St.owners at ho
  have hl := congrArg List.length ho
  have hpos : 0 < s.flying.length := List.length_pos_iff.2 (by intro hx; rw [hx] at hr; cases hr)
  simp only [List.length_append, List.length_cons, List.length_nil] at hl
  have hlk : lives s.stack = [] := List.length_eq_zero_iff.1 (by omega)
  have him : s.imm = none := by
    cases hi : s.imm with
    | none => rfl
    | some x => rw [hi] at hl; simp at hl; omega
  refine ⟨q, ch', hch, ?_, him, hlk, h1, h2⟩
  apply List.length_eq_zero_iff.1
  rw [List.length_erase_of_mem hr]
  omega

theorem w_comp {s : St} {w : W} {b : Bool} {ch : List Cell} (h : WInv s w b ch) {r : Nat}
    (hr : s.flying.contains r = true) (o : Obs) (f : Frame) (ph : Phase)
    (ho : (o = .compOk r ∧ f = .succ r ∧ ph = .ready) ∨
      ∃ ex, o = .compErr r ex ∧ f = .errReq (some r) ex ∧ ph = .failing ex) :
    ∃ w' b'' ch', WInv ((St.say { s with flying := s.flying.erase r } o).push [f]) w' b'' ch' := by
  obtain ⟨q, ch', hch, hfl, him, hlk, hph, hb⟩ := h.flown hr
  subst hch
  have hno := no_live hlk
  have hf1 : liveF f = some r := by rcases ho with ⟨_, rfl, _⟩ | ⟨ex, _, rfl, _⟩ <;> rfl
  have hf2 : exF f = none := by rcases ho with ⟨_, rfl, _⟩ | ⟨ex, _, rfl, _⟩ <;> rfl
  have hnx : w.next o = some { w with phase := ph } := by
    rcases ho with ⟨rfl, _, rfl⟩ | ⟨ex, rfl, _, rfl⟩
    · unfold W.next
      rw [h.q]
      exact if_pos ⟨hph, rfl⟩
    · unfold W.next
      rw [h.q]
      exact if_pos ⟨hph, rfl⟩
  refine ⟨{ w with phase := ph }, b, (r, q) :: ch', ?_⟩
  have hmem : ∀ g ∈ f :: s.stack, g = f ∨ g ∈ s.stack := fun g hg => List.mem_cons.1 hg
  constructor
  · show W.run {} (s.log ++ [o]) = _
    rw [W.run_append, h.run, Option.bind_some]
    exact hnx
  · exact h.crash
  · exact h.q
  · exact h.cnt
  · exact h.whole
  · exact h.bytes
  · exact h.notOpen
  · exact h.pend
  · intro g hg ex hex
    rcases hmem g hg with rfl | hg
    · rw [hf2] at hex; cases hex
    · exact h.exs g hg ex hex
  · exact h.heap
  · exact h.inc
  · exact h.lt
  · exact h.linked
  · exact h.tail
  · exact h.base
  · exact h.unl
  · show s.flying.erase r ++ s.imm.toList ++ lives (f :: s.stack) = _
    rw [hfl, him, lives_cons, hf1, hlk]
    rfl
  · intro hx; cases hx
  · intro hx; exact absurd hfl hx
  · intro x hx
    rcases hmem _ hx with hx | hx
    · rcases ho with ⟨_, rfl, _⟩ | ⟨ex, _, rfl, _⟩ <;> cases hx
    · exact absurd hx (hno.1 x)
  · intro x hx
    rcases hmem _ hx with hx | hx
    · rcases ho with ⟨_, rfl, rfl⟩ | ⟨ex, _, rfl, _⟩
      · exact ⟨rfl, hb⟩
      · cases hx
    · exact absurd hx (hno.2.1 x)
  · intro hx; exact absurd him hx
  · intro x ex hx
    rcases hmem _ hx with hx | hx
    · rcases ho with ⟨_, rfl, _⟩ | ⟨ex', _, rfl, rfl⟩
      · cases hx
      · cases hx; exact .inl rfl
    · exact absurd hx (hno.2.2 x ex)
  · intro x hx
    rw [show s.imm = some x from hx] at him; cases him
  · intro hp
    exact h.entire (fun ex hx => by rw [hph] at hx; cases hx)

theorem WInv.step {s : St} {w : W} {b : Bool} {ch : List Cell} (hS : SInv s) (h : WInv s w b ch)
    {o : Op} (ha : allowed s o = true) : ∃ w' b' ch', WInv (step s o) w' b' ch' := by
  have io : IdleF .out := ⟨rfl, by simp⟩
  have ierr : ∀ (ex : Ex) (errs : List Ex), ex ∈ errs → ∀ c,
      ∀ f ∈ [Frame.err1 ex c, .unguard], ∀ ex', exF f = some ex' → ex' ∈ errs := by
    intro ex errs hm c f hf ex' he
    rcases List.mem_cons.1 hf with rfl | hf
    · cases Option.some.inj he; exact hm
    · rw [List.mem_singleton.1 hf] at he; cases he
  cases o with
  | tau =>
    unfold allowed at ha
    unfold Fizz.Async.step
    dsimp only at ha ⊢
    split at ha
    · rename_i f k hs
      rw [Bool.and_eq_true] at ha
      refine h.runFrame hS hs ?_ ?_ ?_
      · rintro c b rfl; simp at ha
      · rintro rfl; simp [St.outside, hs] at ha
      · rintro rfl; simp [St.outside, hs] at ha
    · cases ha
  | ret =>
    unfold Fizz.Async.step
    dsimp only
    refine ⟨w, b, ch, ?_⟩
    split
    · rename_i k hs
      exact h.plain hs ⟨rfl, by simp⟩ rfl (W.run_inert h .gaveRet rfl) (same w) (fun _ x => x)
        h.pend [] rfl (by simp) (by simp)
    · rename_i k hs
      exact h.plain hs ⟨rfl, by simp⟩ rfl h.run (same w) (fun _ x => x)
        h.pend [] rfl (by simp) (by simp)
    · exact h
  | retBuf x =>
    unfold Fizz.Async.step
    dsimp only
    split
    · rename_i c d k hs
      have hfail : ∀ ex, ∃ w' b' ch', WInv
          ((St.say { s with stack := k } (.bufFail c ex)).callError ex true) w' b' ch' := by
        intro ex
        refine ⟨{ w with errs := ex :: w.errs }, b, ch, ?_⟩
        refine h.plain hs ⟨rfl, by simp⟩ rfl ?_ ⟨rfl, rfl, rfl, rfl, rfl⟩
          (fun _ x => List.mem_cons_of_mem _ x) (fun ex' he => List.mem_cons_of_mem _ (h.pend ex' he))
          [.err1 ex true, .unguard] rfl (idle2 ⟨rfl, by simp⟩ ⟨rfl, by simp⟩)
          (ierr ex _ List.mem_cons_self true)
        show W.run {} (s.log ++ [.bufFail c ex]) = _
        rw [W.run_append, h.run]; rfl
      split
      · exact hfail _
      · exact hfail _
      · exact ⟨w, b, ch, h.plain hs ⟨rfl, by simp⟩ rfl (W.run_inert h (.gave _ _) rfl) (same w)
          (fun _ x => x) h.pend [.inRead, .loop _] rfl (idle2 ⟨rfl, by simp⟩ ⟨rfl, by simp⟩)
          (by simp [exF])⟩
    · exact ⟨w, b, ch, h⟩
  | writeChain data flags cb b' sh c rs =>
    simp only [allowed, Bool.and_eq_true] at ha
    unfold Fizz.Async.step
    dsimp only
    rcases (show s.tail = none ∨ ∃ t, s.tail = some t by cases s.tail <;> simp) with ht | ⟨t, ht⟩
    · have e : s.writeChain data flags cb b' sh c rs = s.first data flags cb ∨
          s.writeChain data flags cb b' sh c rs =
            ((St.say { s with fresh := s.fresh + 1
                              appWritten := s.appWritten + data.length }
              (.direct s.fresh data flags cb)).push [.out]) := by
        unfold St.writeChain
        dsimp only
        rw [ht]
        dsimp only
        split
        · exact .inl rfl
        · exact .inr rfl
      rcases e with e | e
      · rw [e]; exact w_first h ha.2 ht data flags cb
      · rw [e]; exact w_direct h ha.2 ht data flags cb
    · exact w_append h ha.2 ht data flags cb b' sh c rs
  | setReadCB c =>
    unfold Fizz.Async.step
    dsimp only
    unfold St.setReadCB
    dsimp only
    have hr := W.run_inert h (.install c) rfl
    refine ⟨w, b, ch, ?_⟩
    split
    · split
      · exact h.enter rfl hr (same w) (fun _ x => x) h.pend [.deliver none, .setRest] rfl
          (idle2 ⟨rfl, by simp⟩ ⟨rfl, by simp⟩) (by simp [exF])
      · exact h.enter rfl hr (same w) (fun _ x => x) h.pend [.setRest] rfl
          (idle1 ⟨rfl, by simp⟩) (by simp [exF])
    · exact h.enter rfl hr (same w) (fun _ x => x) h.pend [] rfl (by simp) (by simp)
  | preReceived d =>
    exact ⟨w, b, ch, h.enter rfl (W.run_inert h (.pre d) rfl) (same w) (fun _ x => x) h.pend [] rfl
      (by simp) (by simp)⟩
  | destroy =>
    exact ⟨w, b, ch, h.enter rfl h.run (same w) (fun _ x => x) h.pend [.out, .destroy2] rfl
      (idle2 io ⟨rfl, by simp⟩) (by simp [exF])⟩
  | setNoPartial x =>
    refine ⟨{ w with whole := x }, b, ch, ⟨?_, h.crash, h.q, h.cnt, rfl, h.bytes, h.notOpen,
      h.pend, h.exs, h.heap, h.inc, h.lt, h.linked, h.tail, h.base, h.unl, h.own, h.idle, h.fly,
      h.start, h.succ, h.imm, h.failing, h.immAt, h.entire⟩⟩
    show W.run {} (s.log ++ [.noPartial x]) = _
    rw [W.run_append, h.run]; rfl
  | setSecretCb _ =>
    exact ⟨w, b, ch, h.enter rfl h.run (same w) (fun _ x => x) h.pend [] rfl (by simp) (by simp)⟩
  | arrive d =>
    exact ⟨w, b, ch, h.enter rfl (W.run_inert h (.arrive d) rfl) (same w) (fun _ x => x) h.pend
      [.deliver (some d), .unguard] rfl (idle2 ⟨rfl, by simp⟩ ⟨rfl, by simp⟩) (by simp [exF])⟩
  | error ex close =>
    refine ⟨{ w with errs := ex :: w.errs }, b, ch, ?_⟩
    refine h.enter rfl ?_ ⟨rfl, rfl, rfl, rfl, rfl⟩ (fun _ x => List.mem_cons_of_mem _ x)
      (fun ex' he => List.mem_cons_of_mem _ (h.pend ex' he)) [.err1 ex close, .unguard] rfl
      (idle2 ⟨rfl, by simp⟩ ⟨rfl, by simp⟩) (ierr ex _ List.mem_cons_self close)
    show W.run {} (s.log ++ [.error ex]) = _
    rw [W.run_append, h.run]; rfl
  | compOk n =>
    simp only [allowed, Bool.and_eq_true] at ha
    exact w_comp h ha.2 _ _ _ (.inl ⟨rfl, rfl, rfl⟩)
  | compErr n ex =>
    simp only [allowed, Bool.and_eq_true] at ha
    exact w_comp h ha.2 _ _ _ (.inr ⟨ex, rfl, rfl, rfl⟩)
  | transport g t =>
    exact ⟨w, b, ch, h.enter rfl h.run (same w) (fun _ x => x) h.pend [] rfl (by simp) (by simp)⟩
  | transportRead =>
    obtain ⟨c1, c2, c3, c4⟩ := checkBufLen_wview s
    exact ⟨w, b, ch, h.enter c1 (by rw [show (Fizz.Async.step s .transportRead).log = s.log from c2]; exact h.run) (same w)
      (fun _ x => x) (by rw [show (Fizz.Async.step s .transportRead).pendingEx = _ from c4]; exact h.pend) [] c3 (by simp) (by simp)⟩

theorem write_run {ops : List Op} {s : St} (h : Run ops s) : ∃ w b ch, WInv s w b ch := by
  induction h with
  | new =>
    refine ⟨{}, false, [], ⟨rfl, rfl, rfl, rfl, rfl, rfl, List.mem_cons_self, ?_, ?_, ?_, ?_, ?_,
      trivial, ?_, ?_, ?_, rfl, fun _ => rfl, ?_, ?_, ?_, ?_, ?_, ?_, ?_⟩⟩
    · intro ex hx; cases hx
    · intro f hf; cases hf
    · intro i q; exact ⟨fun hx => (by cases hx), fun hx => (by cases hx)⟩
    · simp [Inc]
    · intro p hp; cases hp
    · intro _; rfl
    · intro _ p hp; cases hp
    · intro hx; cases hx
    · intro hx; exact absurd rfl hx
    · intro r hr; cases hr
    · intro r hr; cases hr
    · intro hx; exact absurd rfl hx
    · intro r ex hr; cases hr
    · intro r hr; cases hr
    · intro _ p hp; cases hp
  | step o hr ha ih =>
    obtain ⟨w, b, ch, hW⟩ := ih
    exact hW.step (read_run hr).1 ha

end Fizz.Async

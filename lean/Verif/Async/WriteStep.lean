import Verif.Async.Write

/-! # Every program point keeps the write invariant -/

namespace Fizz.Async

open Spec

theorem mem_lives {f : Frame} {k : List Frame} {r : Nat} (hf : f ∈ k) (hl : liveF f = some r) :
    r ∈ lives k := List.mem_filterMap.2 ⟨f, hf, hl⟩

/-- If the top frame is responsible for a request, nobody else is. -/
theorem WInv.sole {s : St} {w : W} {b : Bool} {ch : List Cell} (h : WInv s w b ch) {f : Frame}
    {k : List Frame} (hs : s.stack = f :: k) {r : Nat} (hf : liveF f = some r) :
    ∃ q ch', ch = (r, q) :: ch' ∧ s.flying = [] ∧ s.imm = none ∧ lives k = [] := by
  have hm : r ∈ s.owners := by
    unfold St.owners
    exact List.mem_append_right _ (mem_lives (by rw [hs]; exact List.mem_cons_self) hf)
  obtain ⟨q, ch', hch, ho⟩ := h.head hm
  refine ⟨q, ch', hch, ?_⟩
  unfold St.owners at ho
  rw [hs, lives_cons, hf] at ho
  have hl := congrArg List.length ho
  simp only [List.length_append, Option.toList_some, List.length_cons, List.length_nil] at hl
  refine ⟨List.length_eq_zero_iff.1 (by omega), ?_, List.length_eq_zero_iff.1 (by omega)⟩
  cases hi : s.imm with
  | none => rfl
  | some x => rw [hi] at hl; simp at hl; omega

theorem no_live {k : List Frame} (h : lives k = []) :
    (∀ r, .start r ∉ k) ∧ (∀ r, .succ r ∉ k) ∧ (∀ r ex, .errReq (some r) ex ∉ k) := by
  refine ⟨fun r hm => ?_, fun r hm => ?_, fun r ex hm => ?_⟩
  all_goals
    have := mem_lives (r := r) hm rfl
    rw [h] at this
    cases this

theorem upd_at {t : Nat} {f : Req → Req} {p : Cell} (h : p.1 = t) : upd t f p = (p.1, f p.2) := by
  unfold upd; rw [if_pos h]

theorem getLast?_map_upd (t : Nat) (f : Req → Req) (l : List Cell) :
    (l.map (upd t f)).getLast? = l.getLast?.map (upd t f) := List.getLast?_map

theorem last_mem {l : List Cell} {p : Cell} (h : l.getLast? = some p) : p ∈ l := by
  exact List.mem_of_getLast? h

/-- The changes `startWriting` makes to the request. -/
def cut (rest : Bytes) (n : Nat) (x : Req) : Req := { x with data := rest, written := x.written + n }
def less (n : Nat) (x : Req) : Req := { x with entire := subSize x.entire n }

theorem start_eq {s : St} {r t : Nat} {q qt : Req} (hq : s.heap r = some q) (hb : q.base = true)
    (ha : s.alive = true) (ht : s.tail = some t) {buf rest : Bytes} {flags : Flags}
    (h1 : buf = if !s.noPartial then q.data.take partialThreshold else q.data)
    (h2 : rest = if !s.noPartial then q.data.drop partialThreshold else [])
    (h3 : flags = if rest ≠ [] then { q.flags with cork := true } else q.flags)
    (hqt : (s.setHeap r (some (cut rest buf.length q))).heap t = some qt) :
    s.startWriting r = ((s.setHeap r (some (cut rest buf.length q))).setHeap t
      (some (less buf.length qt))).handDown r buf flags := by
  have ht' : (s.setHeap r (some (cut rest buf.length q))).tail = some t := ht
  unfold St.startWriting
  rw [hq]
  dsimp only
  rw [if_neg (by rw [hb, ha]; simp), ← h1, ← h2, ← h3]
  have e : ({ cb := q.cb, data := rest, flags := q.flags, written := q.written + buf.length
              entire := q.entire, next := q.next, base := q.base } : Req) =
      cut rest buf.length q := rfl
  rw [e, ht']
  dsimp only
  rw [hqt]
  rfl

set_option maxHeartbeats 4000000 in
theorem w_start {s : St} {w : W} {b : Bool} {ch : List Cell} (hS : SInv s) (h : WInv s w b ch)
    {r : Nat} {k : List Frame} (hs : s.stack = .start r :: k) :
    ∃ w' b' ch', WInv (St.startWriting { s with stack := k } r) w' b' ch' := by
  have hal : s.alive = true := by
    cases ha : s.alive
    · have := hS.dead ha (.start r) (by rw [hs]; exact List.mem_cons_self); cases this
    · rfl
  obtain ⟨q, ch', hch, hfl, him, hlk⟩ := h.sole hs (r := r) rfl
  subst hch
  have hno := no_live hlk
  have hmem : (r, q) ∈ (r, q) :: ch' := List.mem_cons_self
  have hq : s.heap r = some q := (h.heap r q).2 hmem
  have hbase : q.base = true := h.base hal _ hmem
  obtain ⟨hph, hst⟩ := h.start r (by rw [hs]; exact List.mem_cons_self)
  have hst := hst (r, q) rfl
  -- the last request
  obtain ⟨pt, hpt⟩ : ∃ p, ((r, q) :: ch').getLast? = some p := by
    rw [List.getLast?_eq_some_getLast (List.cons_ne_nil _ _)]; exact ⟨_, rfl⟩
  have htail : s.tail = some pt.1 := by rw [h.tail hal, hpt]; rfl
  generalize hbuf : (if !s.noPartial then q.data.take partialThreshold else q.data) = buf
  generalize hrest : (if !s.noPartial then q.data.drop partialThreshold else []) = rest
  have hsplit : q.data = buf ++ rest := by
    rw [← hbuf, ← hrest]
    cases s.noPartial
    · exact (List.take_append_drop _ _).symm
    · simp
  have hinc1 : Inc (((r, q) :: ch').map (upd r (cut rest buf.length))) := by
    rw [Inc, map_upd_fst]; exact h.inc
  have hH1 := h.heap.set h.inc hmem (cut rest buf.length)
  have hlast1 : (((r, q) :: ch').map (upd r (cut rest buf.length))).getLast? =
      some (upd r (cut rest buf.length) pt) := by rw [getLast?_map_upd, hpt]; rfl
  have hmem1 := last_mem hlast1
  have hfst : (upd r (cut rest buf.length) pt).1 = pt.1 := upd_fst _ _ _
  have hqt : ({ s with stack := k }.setHeap r (some (cut rest buf.length q))).heap pt.1 =
      some (upd r (cut rest buf.length) pt).2 := by
    refine (hH1 pt.1 _).2 ?_
    rw [← hfst]; exact hmem1
  have hmem1' : (pt.1, (upd r (cut rest buf.length) pt).2) ∈
      ((r, q) :: ch').map (upd r (cut rest buf.length)) := by rw [← hfst]; exact hmem1
  have hH2 := hH1.set hinc1 hmem1' (less buf.length)
  have hne : ∀ p ∈ ch', p.1 ≠ r := by
    intro p hp e
    have hi := h.inc
    rw [Inc, List.map_cons, List.pairwise_cons] at hi
    have := hi.1 p.1 (List.mem_map.2 ⟨p, hp, rfl⟩)
    simp only at this
    omega
  have hmap1 : ((r, q) :: ch').map (upd r (cut rest buf.length)) =
      (r, cut rest buf.length q) :: ch' := by
    rw [List.map_cons, map_upd_ne _ _ _ hne]
    unfold upd; rw [if_pos rfl]
  rw [start_eq (s := { s with stack := k }) hq hbase hal htail hbuf.symm hrest.symm rfl hqt]
  generalize hflags : (if rest ≠ [] then { q.flags with cork := true } else q.flags) = flags
  have hids : (((((r, q) :: ch').map (upd r (cut rest buf.length))).map
      (upd pt.1 (less buf.length)))).map (·.1) = ((r, q) :: ch').map (·.1) := by
    rw [map_upd_fst, map_upd_fst]
  refine ⟨{ w with
      q := ⟨r, q.cb, q.flags, q.data.drop buf.length, q.written + buf.length, true⟩ ::
        ch'.map (item false)
      phase := .busy }, true,
    (((r, q) :: ch').map (upd r (cut rest buf.length))).map (upd pt.1 (less buf.length)), ?_⟩
  generalize hT : ((St.setHeap { s with stack := k } r (some (cut rest buf.length q))).setHeap pt.1
      (some (less buf.length (upd r (cut rest buf.length) pt).2))).handDown r buf flags = T
  have t1 : T.log = s.log ++ [.down r buf flags] := by rw [← hT]; rfl
  have t2 : T.wview = { s.wview with
      heap := fun x => if x = pt.1 then some (less buf.length (upd r (cut rest buf.length) pt).2)
        else if x = r then some (cut rest buf.length q) else s.heap x
      flying := s.flying ++ [r] } := by rw [← hT]; rfl
  have t3 : T.stack = .out :: k := by rw [← hT]; rfl
  have t4 : T.pendingEx = s.pendingEx := by rw [← hT]; rfl
  clear hT
  have e1 : T.alive = s.alive := congrArg WView.alive t2
  have e2 : T.crash = s.crash := congrArg WView.crash t2
  have e3 : T.fresh = s.fresh := congrArg WView.fresh t2
  have e4 : T.noPartial = s.noPartial := congrArg WView.noPartial t2
  have e5 : T.appWritten = s.appWritten := congrArg WView.appWritten t2
  have e6 := congrArg WView.heap t2
  have e7 : T.tail = s.tail := congrArg WView.tail t2
  have e8 : T.imm = s.imm := congrArg WView.imm t2
  have e9 : T.flying = s.flying ++ [r] := congrArg WView.flying t2
  have e6' : T.heap = fun x =>
      if x = pt.1 then some (less buf.length (upd r (cut rest buf.length) pt).2)
      else if x = r then some (cut rest buf.length q) else s.heap x := e6
  clear t2
  constructor
  · rw [t1]
    rw [W.run_append, h.run, Option.bind_some]
    unfold W.next
    have hwq := h.q
    dsimp only
    rw [hwq]
    show (if _ then _ else _) = _
    rw [if_pos]
    · rfl
    · refine ⟨hph, rfl, hst, ?_, ?_⟩
      · show buf = piece w.whole q.data
        rw [← hbuf, h.whole]
        unfold piece
        rw [show partialThreshold = 131072 from rfl]
        cases s.noPartial <;> simp
      · show flags = { q.flags with cork := q.flags.cork || decide (buf ≠ q.data) }
        rw [← hflags]
        by_cases hr : rest = []
        · rw [if_neg (by simpa using hr)]
          have : buf = q.data := by rw [hsplit, hr, List.append_nil]
          rw [this]
          simp
        · rw [if_pos hr]
          have : buf ≠ q.data := by
            intro he
            rw [hsplit] at he
            have := congrArg List.length he
            rw [List.length_append] at this
            exact hr (List.length_eq_zero_iff.1 (by omega))
          simp [this]
  · rw [e2]; exact h.crash
  · show _ = items true _
    rw [items_upd true pt.1 (less buf.length) (fun _ => ⟨rfl, rfl, rfl, rfl⟩), hmap1]
    show _ = item true (r, cut rest buf.length q) :: _
    have : q.data.drop buf.length = rest := by rw [hsplit, List.drop_left]
    unfold item cut
    rw [this]
  · rw [e3]; exact h.cnt
  · rw [e4]; exact h.whole
  · rw [e5]; exact h.bytes
  · exact h.notOpen
  · rw [t4]; exact h.pend
  · intro f hf ex hex
    rcases List.mem_cons.1 (t3 ▸ hf) with rfl | hf
    · cases hex
    · exact h.exs f (by rw [hs]; exact List.mem_cons_of_mem _ hf) ex hex
  · rw [e6']; exact hH2
  · rw [Inc, hids]; exact h.inc
  · intro p hp
    have : p.1 ∈ ((r, q) :: ch').map (·.1) := by
      rw [← hids]; exact List.mem_map.2 ⟨p, hp, rfl⟩
    obtain ⟨p', hp', e⟩ := List.mem_map.1 this
    rw [e3, ← e]; exact h.lt p' hp'
  · exact linked_upd pt.1 (less buf.length) (fun _ => rfl) _
      (linked_upd r (cut rest buf.length) (fun _ => rfl) _ h.linked)
  · intro _
    rw [e7, getLast?_map_upd, hlast1, htail]
    show _ = some (upd _ _ _).1
    rw [upd_fst, upd_fst]
  · intro _ p hp
    obtain ⟨p1, hp1, rfl⟩ := List.mem_map.1 hp
    obtain ⟨p0, hp0, rfl⟩ := List.mem_map.1 hp1
    have := h.base hal p0 hp0
    unfold upd
    split <;> split <;> exact this
  · intro hx; rw [e1, hal] at hx; cases hx
  · unfold St.owners
    rw [e8, e9, t3, hids, hfl, him, lives_cons, hlk]
    rfl
  · intro hx; rw [hmap1] at hx; cases hx
  · exact fun _ => ⟨rfl, rfl⟩
  · intro x hx
    rcases List.mem_cons.1 (t3 ▸ hx) with hx | hx
    · cases hx
    · exact absurd hx (hno.1 x)
  · intro x hx
    rcases List.mem_cons.1 (t3 ▸ hx) with hx | hx
    · cases hx
    · exact absurd hx (hno.2.1 x)
  · intro hx; rw [e8] at hx; exact absurd him hx
  · intro x ex hx
    rcases List.mem_cons.1 (t3 ▸ hx) with hx | hx
    · cases hx
    · exact absurd hx (hno.2.2 x ex)
  · intro x hx; rw [e8, him] at hx; cases hx
  · intro _ p hp
    rw [getLast?_map_upd, hlast1] at hp
    cases Option.some.inj hp
    have he := h.entire (fun ex hx => by rw [hph] at hx; cases hx) pt hpt
    rw [total_upd pt.1 (less buf.length) (fun _ => rfl), hmap1]
    have e1 : (upd pt.1 (less buf.length) (upd r (cut rest buf.length) pt)).2.entire =
        subSize pt.2.entire buf.length := by
      have : (upd r (cut rest buf.length) pt).2.entire = pt.2.entire := by
        unfold upd; split <;> rfl
      rw [← this, upd_at hfst]
      rfl
    rw [e1, he]
    show subSize (q.data.length + total ch') buf.length = rest.length + total ch'
    have hlen : q.data.length = buf.length + rest.length := by
      rw [hsplit, List.length_append]
    unfold subSize
    rw [if_pos (by omega)]
    omega

end Fizz.Async

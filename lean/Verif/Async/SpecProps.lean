import Verif.Async.Write
import Verif.Async.Read

/-! # What it means that the reference machines follow a log -/

namespace Fizz.Async

open Spec

section simps
variable (l : List Obs)

theorem wroteIds_snoc (o : Obs) : wroteIds (l ++ [o]) = wroteIds l ++ wroteIds [o] := by
  unfold wroteIds; exact List.filterMap_append

theorem finishedIds_snoc (o : Obs) : finishedIds (l ++ [o]) = finishedIds l ++ finishedIds [o] := by
  unfold finishedIds; exact List.filterMap_append

theorem dataOf_snoc (i : Nat) (o : Obs) : dataOf i (l ++ [o]) = dataOf i l ++ dataOf i [o] := by
  unfold dataOf; rw [List.filterMap_append, List.flatten_append]

theorem downOf_snoc (i : Nat) (o : Obs) : downOf i (l ++ [o]) = downOf i l ++ downOf i [o] := by
  unfold downOf; rw [List.filterMap_append, List.flatten_append]

theorem hasCb_snoc (i : Nat) (o : Obs) : hasCb i (l ++ [o]) = (hasCb i l || hasCb i [o]) := by
  unfold hasCb; rw [List.any_append]

theorem arrived_snoc (o : Obs) : arrived (l ++ [o]) = arrived l ++ arrived [o] := by
  unfold arrived; rw [List.filterMap_append, List.flatten_append]

theorem given_snoc (o : Obs) : given (l ++ [o]) = given l ++ given [o] := by
  unfold given; rw [List.filterMap_append, List.flatten_append]

end simps

theorem dataOf_fresh {i : Nat} : ∀ {l : List Obs}, i ∉ wroteIds l → dataOf i l = [] ∧ hasCb i l = false
  | [], _ => ⟨rfl, rfl⟩
  | o :: l, h => by
    have hl : i ∉ wroteIds l := by
      intro hm
      apply h
      cases o <;> first | exact hm | exact List.mem_cons_of_mem _ hm
    obtain ⟨h1, h2⟩ := dataOf_fresh hl
    cases o with
    | wrote j d f c =>
      have hj : j ≠ i := by
        intro e; subst e; exact h (by simp [wroteIds])
      constructor
      · have : dataOf i (.wrote j d f c :: l) = dataOf i l := by
          unfold dataOf; simp [hj]
        rw [this, h1]
      · have : hasCb i (.wrote j d f c :: l) = hasCb i l := by
          unfold hasCb
          rw [List.any_cons]
          simp [hj]
        rw [this, h2]
    | _ => exact ⟨h1, by simpa [hasCb] using h2⟩

/-- What the writer's log has to do with the writer's state. -/
structure WGood (l : List Obs) (w : W) : Prop where
  fifo : wroteIds l = finishedIds l ++ w.q.map (·.id)
  inc : (wroteIds l).Pairwise (· < ·)
  lt : ∀ i ∈ wroteIds l, i < w.count
  item : ∀ it ∈ w.q, dataOf it.id l = downOf it.id l ++ it.rest ∧ it.sent = (downOf it.id l).length ∧
    it.cb = hasCb it.id l
  known : ∀ i, downOf i l ≠ [] → i ∈ wroteIds l
  ok : ∀ i c, .wOk i c ∈ l → downOf i l = dataOf i l ∧ c = hasCb i l
  err : ∀ i n ex c, .wErr i n ex c ∈ l →
    n = (downOf i l).length ∧ downOf i l <+: dataOf i l ∧ c = hasCb i l

theorem mem_finished {l : List Obs} {i : Nat}
    (h : (∃ c, .wOk i c ∈ l) ∨ ∃ n ex c, .wErr i n ex c ∈ l) : i ∈ finishedIds l := by
  rcases h with ⟨c, h⟩ | ⟨n, ex, c, h⟩
  · exact List.mem_filterMap.2 ⟨_, h, rfl⟩
  · exact List.mem_filterMap.2 ⟨_, h, rfl⟩

theorem WGood.apart {l : List Obs} {w : W} (h : WGood l w) {i : Nat} (hi : i ∈ finishedIds l) :
    ∀ it ∈ w.q, it.id ≠ i := by
  intro it hit e
  have hp := h.inc
  rw [h.fifo, List.pairwise_append] at hp
  have := hp.2.2 i hi it.id (List.mem_map.2 ⟨it, hit, rfl⟩)
  omega

/-- A call that has nothing to do with the writer. -/
theorem WGood.same {l : List Obs} {w w' : W} (h : WGood l w) (o : Obs) (hq : w'.q = w.q)
    (hc : w'.count = w.count) (h1 : wroteIds [o] = []) (h2 : finishedIds [o] = [])
    (h3 : ∀ i, dataOf i [o] = []) (h4 : ∀ i, downOf i [o] = []) (h5 : ∀ i, hasCb i [o] = false) :
    WGood (l ++ [o]) w' := by
  have n1 : ∀ i c, .wOk i c ∈ l ++ [o] → .wOk i c ∈ l := by
    intro i c hm
    rcases List.mem_append.1 hm with hm | hm
    · exact hm
    · rw [← List.mem_singleton.1 hm] at h2; simp [finishedIds] at h2
  have n2 : ∀ i n ex c, .wErr i n ex c ∈ l ++ [o] → .wErr i n ex c ∈ l := by
    intro i n ex c hm
    rcases List.mem_append.1 hm with hm | hm
    · exact hm
    · rw [← List.mem_singleton.1 hm] at h2; simp [finishedIds] at h2
  constructor
  · rw [wroteIds_snoc, finishedIds_snoc, h1, h2, hq, List.append_nil, List.append_nil]; exact h.fifo
  · rw [wroteIds_snoc, h1, List.append_nil]; exact h.inc
  · rw [wroteIds_snoc, h1, List.append_nil, hc]; exact h.lt
  · intro it hit
    rw [hq] at hit
    rw [dataOf_snoc, downOf_snoc, hasCb_snoc, h3, h4, h5, List.append_nil, List.append_nil,
      Bool.or_false]
    exact h.item it hit
  · intro i
    rw [downOf_snoc, h4, wroteIds_snoc, h1, List.append_nil, List.append_nil]; exact h.known i
  · intro i c hm
    rw [dataOf_snoc, downOf_snoc, hasCb_snoc, h3, h4, h5, List.append_nil, List.append_nil,
      Bool.or_false]
    exact h.ok i c (n1 i c hm)
  · intro i n ex c hm
    rw [dataOf_snoc, downOf_snoc, hasCb_snoc, h3, h4, h5, List.append_nil, List.append_nil,
      Bool.or_false]
    exact h.err i n ex c (n2 i n ex c hm)

theorem WGood.wrote {l : List Obs} {w : W} (h : WGood l w) (data : Bytes) (flags : Flags)
    (cb : Bool) : WGood (l ++ [.wrote w.count data flags cb])
      { w with q := w.q ++ [⟨w.count, cb, flags, data, 0, false⟩], count := w.count + 1
               bytes := w.bytes + data.length } := by
  have hnew : w.count ∉ wroteIds l := fun hm => Nat.lt_irrefl _ (h.lt _ hm)
  obtain ⟨f1, f2⟩ := dataOf_fresh hnew
  have f3 : downOf w.count l = [] := by
    cases hd : downOf w.count l with
    | nil => rfl
    | cons a b => exact absurd (h.known _ (by rw [hd]; simp)) hnew
  have hw : wroteIds [.wrote w.count data flags cb] = [w.count] := rfl
  have hd : ∀ i, downOf i [.wrote w.count data flags cb] = [] := fun i => rfl
  have hne : ∀ i, i ∈ wroteIds l → dataOf i [.wrote w.count data flags cb] = [] ∧
      hasCb i [.wrote w.count data flags cb] = false := by
    intro i hi
    have : w.count ≠ i := by have := h.lt i hi; omega
    constructor
    · simp [dataOf, this]
    · simp [hasCb, this]
  have hsame : ∀ i, i ∈ wroteIds l → dataOf i (l ++ [.wrote w.count data flags cb]) = dataOf i l ∧
      downOf i (l ++ [.wrote w.count data flags cb]) = downOf i l ∧
      hasCb i (l ++ [.wrote w.count data flags cb]) = hasCb i l := by
    intro i hi
    rw [dataOf_snoc, downOf_snoc, hasCb_snoc, (hne i hi).1, (hne i hi).2, hd]
    simp
  have hfin : ∀ i, i ∈ finishedIds l → i ∈ wroteIds l := by
    intro i hi; rw [h.fifo]; exact List.mem_append_left _ hi
  constructor
  · rw [wroteIds_snoc, finishedIds_snoc, hw, h.fifo]
    show _ = finishedIds l ++ [] ++ (w.q ++ _).map _
    simp
  · rw [wroteIds_snoc, hw, List.pairwise_append]
    refine ⟨h.inc, by simp, ?_⟩
    intro a ha b hb
    rw [List.mem_singleton.1 hb]; exact h.lt a ha
  · intro i hi
    show i < w.count + 1
    rw [wroteIds_snoc, hw] at hi
    rcases List.mem_append.1 hi with hi | hi
    · have := h.lt i hi; omega
    · rw [List.mem_singleton.1 hi]; omega
  · intro it hit
    rcases List.mem_append.1 hit with hit | hit
    · have hi : it.id ∈ wroteIds l := by
        rw [h.fifo]; exact List.mem_append_right _ (List.mem_map.2 ⟨it, hit, rfl⟩)
      obtain ⟨e1, e2, e3⟩ := hsame _ hi
      rw [e1, e2, e3]; exact h.item it hit
    · rw [List.mem_singleton.1 hit]
      show dataOf w.count _ = downOf w.count _ ++ data ∧ 0 = (downOf w.count _).length ∧
        cb = hasCb w.count _
      rw [dataOf_snoc, downOf_snoc, hasCb_snoc, f1, f2, f3, hd]
      simp [dataOf, hasCb]
  · intro i
    rw [downOf_snoc, hd, List.append_nil, wroteIds_snoc]
    exact fun hx => List.mem_append_left _ (h.known i hx)
  · intro i c hm
    rcases List.mem_append.1 hm with hm | hm
    · obtain ⟨e1, e2, e3⟩ := hsame _ (hfin _ (mem_finished (.inl ⟨c, hm⟩)))
      rw [e1, e2, e3]; exact h.ok i c hm
    · cases List.mem_singleton.1 hm
  · intro i n ex c hm
    rcases List.mem_append.1 hm with hm | hm
    · obtain ⟨e1, e2, e3⟩ := hsame _ (hfin _ (mem_finished (.inr ⟨n, ex, c, hm⟩)))
      rw [e1, e2, e3]; exact h.err i n ex c hm
    · cases List.mem_singleton.1 hm

theorem WGood.down {l : List Obs} {w : W} (h : WGood l w) {it : Item} {q : List Item}
    (hq : w.q = it :: q) (data : Bytes) (flags : Flags) (hd : data <+: it.rest) :
    WGood (l ++ [.down it.id data flags])
      { w with
        q := { it with rest := it.rest.drop data.length, sent := it.sent + data.length
                       started := true } :: q
        phase := .busy } := by
  have hit : it ∈ w.q := by rw [hq]; exact List.mem_cons_self
  have hin : it.id ∈ wroteIds l := by
    rw [h.fifo]; exact List.mem_append_right _ (List.mem_map.2 ⟨it, hit, rfl⟩)
  have hw : wroteIds [.down it.id data flags] = [] := rfl
  have hf : finishedIds [.down it.id data flags] = [] := rfl
  have h3 : ∀ i, dataOf i (l ++ [.down it.id data flags]) = dataOf i l := by
    intro i; rw [dataOf_snoc]; exact List.append_nil _
  have h5 : ∀ i, hasCb i (l ++ [.down it.id data flags]) = hasCb i l := by
    intro i; rw [hasCb_snoc]; exact Bool.or_false _
  have h4 : ∀ i, i ≠ it.id → downOf i (l ++ [.down it.id data flags]) = downOf i l := by
    intro i hi
    rw [downOf_snoc]
    have : downOf i [.down it.id data flags] = [] := by simp [downOf, Ne.symm hi]
    rw [this, List.append_nil]
  have h4' : downOf it.id (l ++ [.down it.id data flags]) = downOf it.id l ++ data := by
    rw [downOf_snoc]
    have : downOf it.id [.down it.id data flags] = data := by simp [downOf]
    rw [this]
  have hfin : ∀ i, i ∈ finishedIds l → i ≠ it.id := fun i hi => Ne.symm (h.apart hi it hit)
  have hpw := h.inc
  rw [h.fifo, hq, List.map_cons, List.pairwise_append, List.pairwise_cons] at hpw
  constructor
  · rw [wroteIds_snoc, finishedIds_snoc, hw, hf, List.append_nil, List.append_nil, h.fifo, hq]; rfl
  · rw [wroteIds_snoc, hw, List.append_nil]; exact h.inc
  · rw [wroteIds_snoc, hw, List.append_nil]; exact h.lt
  · intro it' hit'
    rcases List.mem_cons.1 hit' with rfl | hit'
    · obtain ⟨a1, a2, a3⟩ := h.item it hit
      show dataOf it.id _ = downOf it.id _ ++ it.rest.drop data.length ∧
        it.sent + data.length = (downOf it.id _).length ∧ it.cb = hasCb it.id _
      rw [h3, h4', h5, a1, a2]
      refine ⟨?_, by simp, a3⟩
      obtain ⟨z, hz⟩ := hd
      rw [← hz, List.drop_left, List.append_assoc]
    · have hne : it'.id ≠ it.id := by
        have := hpw.2.1.1 it'.id (List.mem_map.2 ⟨it', hit', rfl⟩)
        omega
      rw [h3, h4 _ hne, h5]
      exact h.item it' (by rw [hq]; exact List.mem_cons_of_mem _ hit')
  · intro i
    rw [wroteIds_snoc, hw, List.append_nil]
    by_cases hi : i = it.id
    · intro _; rw [hi]; exact hin
    · rw [h4 i hi]; exact h.known i
  · intro i c hm
    rcases List.mem_append.1 hm with hm | hm
    · rw [h3, h4 _ (hfin _ (mem_finished (.inl ⟨c, hm⟩))), h5]; exact h.ok i c hm
    · cases List.mem_singleton.1 hm
  · intro i n ex c hm
    rcases List.mem_append.1 hm with hm | hm
    · rw [h3, h4 _ (hfin _ (mem_finished (.inr ⟨n, ex, c, hm⟩))), h5]; exact h.err i n ex c hm
    · cases List.mem_singleton.1 hm

theorem WGood.finish {l : List Obs} {w w' : W} (h : WGood l w) {it : Item} {q : List Item}
    (hq : w.q = it :: q) (o : Obs) (ho : (∃ c, o = .wOk it.id c ∧ it.rest = [] ∧ c = it.cb) ∨
      ∃ ex c, o = .wErr it.id it.sent ex c ∧ c = it.cb) (hq' : w'.q = q)
    (hc : w'.count = w.count) : WGood (l ++ [o]) w' := by
  have hit : it ∈ w.q := by rw [hq]; exact List.mem_cons_self
  have hw : wroteIds [o] = [] := by rcases ho with ⟨c, rfl, _⟩ | ⟨ex, c, rfl, _⟩ <;> rfl
  have hf : finishedIds [o] = [it.id] := by rcases ho with ⟨c, rfl, _⟩ | ⟨ex, c, rfl, _⟩ <;> rfl
  have h3 : ∀ i, dataOf i (l ++ [o]) = dataOf i l := by
    intro i; rw [dataOf_snoc]
    rcases ho with ⟨c, rfl, _⟩ | ⟨ex, c, rfl, _⟩ <;> exact List.append_nil _
  have h4 : ∀ i, downOf i (l ++ [o]) = downOf i l := by
    intro i; rw [downOf_snoc]
    rcases ho with ⟨c, rfl, _⟩ | ⟨ex, c, rfl, _⟩ <;> exact List.append_nil _
  have h5 : ∀ i, hasCb i (l ++ [o]) = hasCb i l := by
    intro i; rw [hasCb_snoc]
    rcases ho with ⟨c, rfl, _⟩ | ⟨ex, c, rfl, _⟩ <;> exact Bool.or_false _
  obtain ⟨a1, a2, a3⟩ := h.item it hit
  constructor
  · rw [wroteIds_snoc, finishedIds_snoc, hw, hf, hq', List.append_nil, h.fifo, hq]
    simp
  · rw [wroteIds_snoc, hw, List.append_nil]; exact h.inc
  · rw [wroteIds_snoc, hw, List.append_nil, hc]; exact h.lt
  · intro it' hit'
    rw [h3, h4, h5]
    rw [hq'] at hit'
    exact h.item it' (by rw [hq]; exact List.mem_cons_of_mem _ hit')
  · intro i
    rw [h4, wroteIds_snoc, hw, List.append_nil]; exact h.known i
  · intro i c hm
    rw [h3, h4, h5]
    rcases List.mem_append.1 hm with hm | hm
    · exact h.ok i c hm
    · rcases ho with ⟨c', rfl, hr, rfl⟩ | ⟨ex, c', rfl, _⟩
      · cases List.mem_singleton.1 hm
        rw [a1, hr, List.append_nil]; exact ⟨rfl, a3⟩
      · cases List.mem_singleton.1 hm
  · intro i n ex c hm
    rw [h3, h4, h5]
    rcases List.mem_append.1 hm with hm | hm
    · exact h.err i n ex c hm
    · rcases ho with ⟨c', rfl, hr, rfl⟩ | ⟨ex', c', rfl, rfl⟩
      · cases List.mem_singleton.1 hm
      · cases List.mem_singleton.1 hm
        exact ⟨a2, ⟨_, a1.symm⟩, a3⟩

theorem piece_prefix (b : Bool) (d : Bytes) : piece b d <+: d := by
  unfold piece
  split
  · exact List.prefix_refl _
  · exact List.take_prefix _ _

theorem WGood.next {l : List Obs} {w w' : W} (h : WGood l w) {o : Obs} (hn : w.next o = some w') :
    WGood (l ++ [o]) w' := by
  cases o with
  | noPartial b =>
    cases Option.some.inj hn
    exact h.same _ rfl rfl rfl rfl (fun _ => rfl) (fun _ => rfl) (fun _ => rfl)
  | wrote i data flags cb =>
    unfold W.next at hn
    dsimp only at hn
    split at hn
    · rename_i hi
      subst hi
      cases Option.some.inj hn
      exact h.wrote data flags cb
    · cases hn
  | direct i data flags cb =>
    unfold W.next at hn
    dsimp only at hn
    split at hn
    · rename_i hi
      cases Option.some.inj hn
      have hs := h.same (.direct i data flags cb) (w' := w) rfl rfl rfl rfl (fun _ => rfl)
        (fun _ => rfl) (fun _ => rfl)
      refine ⟨hs.fifo, hs.inc, fun j hj => ?_, hs.item, hs.known, hs.ok, hs.err⟩
      have := hs.lt j hj
      show j < i + 1
      omega
    · cases hn
  | down i data flags =>
    unfold W.next at hn
    dsimp only at hn
    split at hn
    · cases hn
    · rename_i it q hq
      split at hn
      · rename_i hc
        cases Option.some.inj hn
        obtain ⟨_, rfl, _, hd, _⟩ := hc
        exact h.down hq data flags (hd ▸ piece_prefix _ _)
      · cases hn
  | compOk i =>
    unfold W.next at hn
    dsimp only at hn
    split at hn
    · cases hn
    · split at hn
      · cases Option.some.inj hn
        exact h.same _ rfl rfl rfl rfl (fun _ => rfl) (fun _ => rfl) (fun _ => rfl)
      · cases hn
  | compErr i ex =>
    unfold W.next at hn
    dsimp only at hn
    split at hn
    · cases hn
    · split at hn
      · cases Option.some.inj hn
        exact h.same _ rfl rfl rfl rfl (fun _ => rfl) (fun _ => rfl) (fun _ => rfl)
      · cases hn
  | wOk i c =>
    unfold W.next at hn
    dsimp only at hn
    split at hn
    · cases hn
    · rename_i it q hq
      split at hn
      · rename_i hc
        cases Option.some.inj hn
        obtain ⟨_, rfl, _, h1, h2⟩ := hc
        exact h.finish hq _ (.inl ⟨c, rfl, h1, h2⟩) rfl rfl
      · cases hn
  | wErr i n ex c =>
    unfold W.next at hn
    dsimp only at hn
    split at hn
    · cases hn
    · rename_i it q hq
      split at hn
      · rename_i hc
        cases Option.some.inj hn
        obtain ⟨rfl, rfl, h2, _⟩ := hc
        exact h.finish hq _ (.inr ⟨ex, c, rfl, h2⟩) rfl rfl
      · cases hn
  | _ =>
    cases Option.some.inj hn
    exact h.same _ rfl rfl rfl rfl (fun _ => rfl) (fun _ => rfl) (fun _ => rfl)

theorem snoc_ind {α : Type} {P : List α → Prop} (h0 : P []) (h1 : ∀ l a, P l → P (l ++ [a])) :
    ∀ l, P l := by
  intro l
  rw [← List.reverse_reverse l]
  induction l.reverse with
  | nil => exact h0
  | cons a l ih => rw [List.reverse_cons]; exact h1 _ _ ih

theorem WGood.of_run : ∀ (l : List Obs) (w : W), W.run {} l = some w → WGood l w := by
  intro l
  refine snoc_ind (P := fun l => ∀ (w : W), W.run {} l = some w → WGood l w) ?_ ?_ l
  · intro w hw
    cases Option.some.inj hw
    refine ⟨rfl, by simp [wroteIds], ?_, ?_, ?_, ?_, ?_⟩
    · intro i hi; cases hi
    · intro i hi; cases hi
    · intro i hi; exact absurd rfl hi
    · intro i c hi; cases hi
    · intro i n ex c hi; cases hi
  · intro l o ih w hw
    rw [W.run_append] at hw
    cases hl : W.run {} l with
    | none => rw [hl] at hw; cases hw
    | some w0 =>
      rw [hl] at hw
      exact (ih w0 hl).next hw

/-- What the reader's log has to do with the reader's state. -/
theorem R.smooth : ∀ (l : List Obs) (r : R), R.run {} l = some r → Smooth l →
    given l ++ r.q = arrived l := by
  intro l
  refine snoc_ind (P := fun l => ∀ (r : R), R.run {} l = some r → Smooth l →
    given l ++ r.q = arrived l) ?_ ?_ l
  · intro r hr _
    cases Option.some.inj hr
    rfl
  · intro l o ih r hr hs
    rw [R.run_append] at hr
    cases hl : R.run {} l with
    | none => rw [hl] at hr; cases hr
    | some r0 =>
      rw [hl] at hr
      have ih := ih r0 hl (fun o ho => hs o (List.mem_append_left _ ho))
      have hr : r0.next o = some r := hr
      rw [given_snoc, arrived_snoc]
      cases o with
      | arrive d =>
        cases Option.some.inj hr
        show given l ++ [] ++ (r0.q ++ d) = arrived l ++ ([d].flatten)
        rw [← ih]; simp
      | pre d => exact absurd rfl ((hs (.pre d) (by simp)).1 d)
      | bufFail c ex => exact absurd rfl ((hs (.bufFail c ex) (by simp)).2 c ex)
      | gave c d =>
        unfold R.next at hr
        dsimp only at hr
        split at hr
        · rename_i hc
          cases Option.some.inj hr
          obtain ⟨z, hz⟩ := hc.2.2
          show given l ++ ([d].flatten) ++ (r0.q.drop d.length) = arrived l ++ []
          rw [← ih, ← hz, List.drop_left]; simp
        · cases hr
      | gaveBuf c d =>
        unfold R.next at hr
        dsimp only at hr
        split at hr
        · rename_i hc
          cases Option.some.inj hr
          show given l ++ ([d].flatten) ++ [] = arrived l ++ []
          rw [← ih, hc.2]; simp
        · cases hr
      | gaveRet =>
        unfold R.next at hr
        dsimp only at hr
        split at hr
        · cases hr
        · cases Option.some.inj hr
          show given l ++ [] ++ r0.q = arrived l ++ []
          simpa using ih
      | rdEof c =>
        unfold R.next at hr
        dsimp only at hr
        split at hr
        · cases Option.some.inj hr
          show given l ++ [] ++ r0.q = arrived l ++ []
          simpa using ih
        · cases hr
      | rdErr c ex =>
        unfold R.next at hr
        dsimp only at hr
        split at hr
        · cases Option.some.inj hr
          show given l ++ [] ++ r0.q = arrived l ++ []
          simpa using ih
        · cases hr
      | _ =>
        have hq : r.q = r0.q := by rw [← Option.some.inj hr]
        show given l ++ [] ++ r.q = arrived l ++ []
        rw [hq]
        simpa using ih

end Fizz.Async

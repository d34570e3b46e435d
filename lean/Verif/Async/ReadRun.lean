import Verif.Async.ReadStep

/-! # Every run keeps the reader invariant -/

namespace Fizz.Async

open Spec

/-- Calling in without involving the reader. -/
theorem RInv.enter {s t : St} {r : R} (h : RInv s r) (ho : Calm s.stack)
    (hv : t.rview = s.rview) (l : List Obs) (hl : t.log = s.log ++ l) (hi : ∀ o ∈ l, InertO o)
    (fs : List Frame) (ht : t.stack = fs ++ s.stack) (hfs : ∀ f ∈ fs, InertF f) : RInv t r :=
  h.skip hv l hl hi [] fs s.stack rfl ht (by simp) hfs (.inl ho)

theorem calm_quiet {s : St} {r : R} (h : RInv s r) (ho : s.outside = true) :
    s.appBuf ≠ none → s.readCb = none := by
  intro hb
  rcases h.calm hb with h' | ⟨k, hk⟩
  · exact h'
  · rw [St.outside, hk] at ho; cases ho

theorem no_feeding {s : St} {r : R} (h : RInv s r) (hS : SInv s) (ho : s.outside = true)
    (hb : s.appBuf ≠ none) : ∀ g ∈ s.stack, Frame.delivering g = false := by
  intro g hg
  cases hd : g.delivering
  · rfl
  · exfalso
    have hfd : g.feeding = true := by
      cases g <;> first | rfl | cases hd | skip
      exact absurd hg (no_transient hS.stacked (calm_outside ho).tr rfl)
    exact hb (h.buf ⟨g, hg, hfd⟩)

theorem r_retBuf {s : St} {r : R} (hS : SInv s) (h : RInv s r) {c : Rcb} {d : Bytes}
    {k : List Frame} (hs : s.stack = .inBuf c d :: k) (x : Room) :
    ∃ r', RInv (step s (.retBuf x)) r' := by
  have hst := hS.stacked
  rw [hs] at hst
  have A := hst.1
  have hno := A.once rfl
  have hk := fed_nil hno
  have hnone : s.appBuf = none := h.buf ⟨.inBuf c d, by rw [hs]; exact List.mem_cons_self, rfl⟩
  obtain ⟨hc, hd⟩ := h.room c d k hs
  have hb := h.held
  have hy := h.bytes
  have hz := h.busy
  rw [hs, fed_cons, coming_cons, hk.1, hk.2, hnone] at hb
  rw [hs, coming_cons, hk.2] at hy
  rw [hs, readers_cons, if_neg (by simp), Nat.add_zero] at hz
  simp only [fedF, comingF, List.append_nil, Option.getD_none, List.length_nil,
    Nat.add_zero] at hb hy
  have hrun := h.run
  have hcb := h.cb
  rw [hc] at hcb
  have fail : ∀ ex, RInv (({ s with stack := k }.say (.bufFail c ex)).callError ex true)
      { r with q := [] } := by
    intro ex
    refine RInv.mk' (k := .err1 ex true :: .unguard :: k) rfl ?_ ?_ ?_ ?_ hy ?_ ?_
    · intro g hg
      rcases List.mem_cons.1 hg with rfl | hg
      · rfl
      · rcases List.mem_cons.1 hg with rfl | hg
        · rfl
        · exact hno g hg
    · show R.run {} (s.log ++ [.bufFail c ex]) = _
      rw [R.run_append, hrun]
      simp [R.next, hcb]
    · show r.cb = s.readCb
      rw [hcb, hc]
    · show r.busy = _
      rw [readers_cons, readers_cons, if_neg (by simp), if_neg (by simp)]; exact hz
    · show [] = s.appBuf.getD []
      rw [hnone]; rfl
    · show s.appBuf ≠ none → _
      rw [hnone]; exact fun hx => absurd rfl hx
  unfold step
  rw [hs]
  cases x with
  | threw ex => exact ⟨_, fail ex⟩
  | bad => exact ⟨_, fail badArgs⟩
  | room n =>
    have hg : (if d.drop (n + 1) = [] then none else some (d.drop (n + 1))).getD [] =
        d.drop (n + 1) := by
      split
      · rename_i he; rw [he]; rfl
      · rfl
    refine ⟨{ r with q := d.drop (n + 1), busy := r.busy + 1 }, ?_, ?_, ?_, ?_, ?_, ?_, ?_, ?_⟩
    · show R.run {} (s.log ++ [.gave c (d.take (n + 1))]) = _
      rw [R.run_append, hrun]
      have h1 : d.take (n + 1) ≠ [] := by
        cases d with
        | nil => exact absurd rfl hd
        | cons => simp
      have h2 : d.take (n + 1) <+: r.q := by rw [hb]; exact List.take_prefix _ _
      rw [Option.bind_some]
      unfold R.next
      dsimp only
      rw [if_pos ⟨hcb, h1, h2⟩, hb]
      congr 2
      rw [List.length_take]
      by_cases hn : n + 1 ≤ d.length
      · rw [Nat.min_eq_left hn]
      · rw [Nat.min_eq_right (by omega), List.drop_of_length_le (Nat.le_refl _),
          List.drop_of_length_le (by omega)]
    · show r.cb = s.readCb
      rw [hcb, hc]
    · show r.busy + 1 = readers (.inRead :: .loop _ :: k)
      rw [readers_cons, readers_cons, if_pos rfl, if_neg (by simp), hz]
    · show r.bytes = s.appReceived + (coming (.inRead :: .loop _ :: k)).length
      rw [coming_cons, coming_cons, hk.2]; exact hy
    · show d.drop (n + 1) = fed (.inRead :: .loop _ :: k) ++ s.appBuf.getD [] ++
        coming (.inRead :: .loop _ :: k)
      rw [fed_cons, fed_cons, coming_cons, coming_cons, hk.1, hk.2, hnone]
      simp only [fedF, comingF, List.append_nil, List.nil_append, Option.getD_none]
      exact hg.symm
    · show s.appBuf ≠ none → _
      rw [hnone]; exact fun hx => absurd rfl hx
    · exact fun _ => hnone
    · intro c' d' k' hk'
      cases (List.cons.inj (show Frame.inRead :: _ = .inBuf c' d' :: k' from hk')).1

theorem RInv.step {s : St} {r : R} (hS : SInv s) (h : RInv s r) {o : Op}
    (ha : allowed s o = true) : ∃ r', RInv (step s o) r' := by
  have hcalm : s.outside = true → Calm s.stack := calm_outside
  cases o with
  | tau =>
    unfold allowed at ha
    unfold Fizz.Async.step
    dsimp only at ha ⊢
    split at ha
    · rename_i f k hs
      rw [Bool.and_eq_true] at ha
      refine h.runFrame hS hs ?_ ?_ ?_
      · rintro c b rfl; simp at ha
      · rintro rfl; simp [St.outside, hs] at ha
      · rintro rfl; simp [St.outside, hs] at ha
    · cases ha
  | ret =>
    unfold Fizz.Async.step
    dsimp only
    have hst := hS.stacked
    split
    · rename_i k hs
      rw [hs] at hst
      have hz := h.busy
      rw [hs, readers_cons, if_pos rfl] at hz
      have hh := h.held
      have hy := h.bytes
      rw [hs, fed_cons, coming_cons] at hh
      rw [hs, coming_cons] at hy
      refine ⟨{ r with busy := r.busy - 1 }, ?_, h.cb, ?_, hy, hh, ?_, ?_, ?_⟩
      · show R.run {} (s.log ++ [.gaveRet]) = _
        rw [R.run_append, h.run]
        rw [Option.bind_some]
        unfold R.next
        dsimp only
        rw [if_neg (by omega)]
      · show r.busy - 1 = readers k
        omega
      · intro hb
        rcases h.calm hb with h' | ⟨k', hk'⟩
        · exact .inl h'
        · rw [hs] at hk'; cases hk'
      · exact h.buf.stable (.inl rfl) (fun f hf _ => by rw [hs]; exact List.mem_cons_of_mem _ hf)
      · intro c d k' hk'
        have := hst.1.calm (.inBuf c d) (by rw [show k = _ from hk']; rfl)
        cases this
    · rename_i k hs
      rw [hs] at hst
      exact ⟨r, h.skip rfl [] (by simp) (by simp) [.out] [] k hs rfl (inert1 rfl (by simp))
        (by simp) (.inl (hst.1.low (by simp)))⟩
    · exact ⟨r, h⟩
  | retBuf x =>
    unfold allowed at ha
    dsimp only at ha
    split at ha
    · rename_i hs; exact r_retBuf hS h hs x
    · cases ha
  | writeChain data flags cb b sh c rs =>
    simp only [allowed, Bool.and_eq_true] at ha
    unfold Fizz.Async.step
    dsimp only
    unfold St.writeChain
    dsimp only
    split
    · split
      · exact ⟨r, h.enter (hcalm ha.1) rfl [] (by simp [St.crashed]) (by simp) [] rfl (by simp)⟩
      · split
        · exact ⟨r, h.enter (hcalm ha.1) rfl [.wrote _ data flags cb] rfl
            (by simp [InertO, R.next]) [] rfl (by simp)⟩
        · exact ⟨r, h.enter (hcalm ha.1) rfl [.wrote _ data flags cb] rfl
            (by simp [InertO, R.next]) [] rfl (by simp)⟩
    · split
      · exact ⟨r, h.enter (hcalm ha.1) rfl [.wrote _ data flags cb] rfl
            (by simp [InertO, R.next]) [.start _] rfl (inert1 rfl (by simp))⟩
      · exact ⟨r, h.enter (hcalm ha.1) rfl [.direct _ data flags cb] rfl
            (by simp [InertO, R.next]) [.out] rfl (inert1 rfl (by simp))⟩
  | setReadCB c =>
    simp only [allowed, Bool.and_eq_true] at ha
    have hcm := calm_quiet h ha.1
    have hnf := no_feeding h hS ha.1
    have hco := coming_calm hS.stacked (hcalm ha.1).tr
    unfold Fizz.Async.step
    dsimp only
    unfold St.setReadCB
    dsimp only
    cases c with
    | none =>
      exact ⟨{ r with cb := none }, h.tell (.install none) rfl rfl rfl rfl rfl rfl rfl rfl [] []
        s.stack rfl rfl (by simp) (by simp) (hcalm ha.1) (fun _ => rfl)⟩
    | some c =>
      rw [if_pos (by rfl)]
      split
      · rename_i hb
        have hb : s.appBuf.isSome = true := hb
        have hb' : s.appBuf ≠ none := by intro hx; rw [hx] at hb; cases hb
        have hno := hnf hb'
        have hk := fed_nil hno
        have hh := h.held
        have hy := h.bytes
        rw [hk.1, hk.2] at hh
        rw [hk.2] at hy
        refine ⟨{ r with cb := some c }, ?_, rfl, ?_, ?_, ?_, ?_, ?_, ?_⟩
        · show R.run {} (s.log ++ [.install (some c)]) = _
          rw [R.run_append, h.run]; rfl
        · show r.busy = readers (.deliver none :: .setRest :: s.stack)
          rw [readers_cons, readers_cons, if_neg (by simp), if_neg (by simp)]; exact h.busy
        · show r.bytes = s.appReceived + (coming (.deliver none :: .setRest :: s.stack)).length
          rw [coming_cons, coming_cons, hk.2]; exact hy
        · show r.q = fed (.deliver none :: .setRest :: s.stack) ++ s.appBuf.getD [] ++
            coming (.deliver none :: .setRest :: s.stack)
          rw [fed_cons, fed_cons, coming_cons, coming_cons, hk.1, hk.2]; exact hh
        · exact fun _ => .inr ⟨_, rfl⟩
        · refine h.buf.stable (.inl rfl) (fun f hf hff => ?_)
          rcases List.mem_cons.1 (show f ∈ .deliver none :: .setRest :: s.stack from hf)
            with rfl | hf
          · cases hff
          · rcases List.mem_cons.1 hf with rfl | hf
            · cases hff
            · exact hf
        · intro c' d k' hk'
          cases (List.cons.inj (show Frame.deliver none :: _ = .inBuf c' d :: k' from hk')).1
      · rename_i hb
        have hb : ¬ s.appBuf.isSome = true := hb
        exact ⟨{ r with cb := some c }, h.tell (.install (some c)) rfl rfl rfl rfl rfl rfl rfl rfl
          [] [.setRest] s.stack rfl rfl (by simp) (inert1 rfl (by simp)) (hcalm ha.1)
          (fun hx => absurd (Option.isSome_iff_ne_none.2 hx) hb)⟩
  | preReceived d =>
    simp only [allowed, Bool.and_eq_true, Bool.not_eq_true', List.any_eq_false,
      Bool.not_eq_true, Option.isNone_iff_eq_none] at ha
    obtain ⟨⟨⟨h1, h2⟩, h3⟩, h4⟩ := ha
    have hk := fed_nil h3
    have hh := h.held
    have hy := h.bytes
    rw [hk.1, hk.2] at hh
    rw [hk.2] at hy
    refine ⟨{ r with q := d ++ r.q, bytes := r.bytes + d.length },
      RInv.mk' (k := s.stack) rfl h3 ?_ h.cb h.busy ?_ ?_ (fun _ => h4)⟩
    · show R.run {} (s.log ++ [.pre d]) = _
      rw [R.run_append, h.run]; rfl
    · show r.bytes + d.length = s.appReceived + d.length
      rw [hy]; rfl
    · show d ++ r.q = d ++ s.appBuf.getD []
      rw [hh]; simp
  | destroy =>
    simp only [allowed, Bool.and_eq_true, Bool.not_eq_true'] at ha
    exact ⟨r, h.enter (hcalm ha.1.1.1) rfl [] (by simp [Fizz.Async.step, St.push]) (by simp)
      [.out, .destroy2] rfl (inert2 ⟨rfl, by simp⟩ ⟨rfl, by simp⟩)⟩
  | setNoPartial b =>
    simp only [allowed, Bool.and_eq_true] at ha
    exact ⟨r, h.enter (hcalm ha.1) rfl [.noPartial b] rfl (by simp [InertO, R.next]) [] rfl
      (by simp)⟩
  | setSecretCb _ =>
    simp only [allowed, Bool.and_eq_true] at ha
    exact ⟨r, h.enter (hcalm ha.1) rfl [] (by simp [Fizz.Async.step]) (by simp) [] rfl (by simp)⟩
  | arrive d =>
    simp only [allowed, Bool.and_eq_true, Bool.not_eq_true', List.any_eq_false,
      Bool.not_eq_true] at ha
    have hk := fed_nil ha.2
    have hh := h.held
    have hy := h.bytes
    rw [hk.1, hk.2] at hh
    rw [hk.2] at hy
    refine ⟨{ r with q := r.q ++ d, bytes := r.bytes + d.length }, ?_, h.cb, ?_, ?_, ?_, ?_, ?_, ?_⟩
    · show R.run {} (s.log ++ [.arrive d]) = _
      rw [R.run_append, h.run]; rfl
    · show r.busy = readers (.deliver (some d) :: .unguard :: s.stack)
      rw [readers_cons, readers_cons, if_neg (by simp), if_neg (by simp)]; exact h.busy
    · show r.bytes + d.length =
        s.appReceived + (coming (.deliver (some d) :: .unguard :: s.stack)).length
      rw [coming_cons, coming_cons, hk.2, hy]; simp [comingF]
    · show r.q ++ d = fed (.deliver (some d) :: .unguard :: s.stack) ++ s.appBuf.getD [] ++
        coming (.deliver (some d) :: .unguard :: s.stack)
      rw [fed_cons, fed_cons, coming_cons, coming_cons, hk.1, hk.2, hh]
      simp [fedF, comingF]
    · intro hx
      left
      exact calm_quiet (s := s) h ha.1.1 hx
    · refine h.buf.stable (.inl rfl) (fun f hf hff => ?_)
      rcases List.mem_cons.1 (show f ∈ .deliver (some d) :: .unguard :: s.stack from hf)
        with rfl | hf
      · cases hff
      · rcases List.mem_cons.1 hf with rfl | hf
        · cases hff
        · exact hf
    · intro c' d' k' hk'
      cases (List.cons.inj (show Frame.deliver (some d) :: _ = .inBuf c' d' :: k' from hk')).1
  | error ex close =>
    simp only [allowed, Bool.and_eq_true] at ha
    exact ⟨r, h.enter (hcalm ha.1) rfl [.error ex] rfl (by simp [InertO, R.next])
      [.err1 ex close, .unguard] rfl (inert2 ⟨rfl, by simp⟩ ⟨rfl, by simp⟩)⟩
  | compOk n =>
    simp only [allowed, Bool.and_eq_true] at ha
    exact ⟨r, h.enter (hcalm ha.1.1) rfl [.compOk n] rfl (by simp [InertO, R.next])
      [.succ n] rfl (inert1 rfl (by simp))⟩
  | compErr n ex =>
    simp only [allowed, Bool.and_eq_true] at ha
    exact ⟨r, h.enter (hcalm ha.1) rfl [.compErr n ex] rfl (by simp [InertO, R.next])
      [.errReq (some n) ex] rfl (inert1 rfl (by simp))⟩
  | transport g t =>
    simp only [allowed, Bool.and_eq_true] at ha
    exact ⟨r, h.enter (hcalm ha.1) rfl [] (by simp [Fizz.Async.step]) (by simp) [] rfl (by simp)⟩
  | transportRead => exact ⟨r, h.checkBufLen⟩

theorem read_run {ops : List Op} {s : St} (h : Run ops s) : SInv s ∧ ∃ r, RInv s r := by
  induction h with
  | new =>
    refine ⟨⟨trivial, ?_, ?_, ?_, ?_, ?_, ?_⟩, {}, ?_⟩
    · intro h; cases h
    · intro h; cases h
    · intro h; cases h
    · intro h; cases h
    · intro _; exact ⟨rfl, by simp⟩
    · intro h; cases h
    · exact RInv.mk' (k := []) rfl (by simp) rfl rfl rfl rfl rfl (fun _ => rfl)
  | step o _ ha ih =>
    obtain ⟨hS, r, hR⟩ := ih
    exact ⟨hS.step hR.buf ha, hR.step hS ha⟩

end Fizz.Async

import Verif.Async.Read

/-! # Every step keeps the reader invariant -/

namespace Fizz.Async

open Spec

theorem feeding_delivering {f : Frame} (h : f.feeding = true) : f.delivering = true := by
  cases f <;> first | rfl | cases h

theorem Repl.stack {s t : St} {fs : List Frame} (h : Repl s t fs) : t.stack = fs ++ s.stack :=
  congrArg Life.stack h

theorem RInv.quiet {s t : St} {r : R} (h : RInv s r) {f : Frame} {k : List Frame}
    (hs : s.stack = f :: k) (A : Above f k) (hf : InertF f) (hq : Quiet { s with stack := k } t)
    {fs : List Frame} (hr : Repl { s with stack := k } t fs) (hfs : ∀ f ∈ fs, InertF f) :
    RInv t r := by
  obtain ⟨hv, l, hl, hi⟩ := hq
  exact h.skip hv l hl hi [f] fs k hs hr.stack (by simpa using hf) hfs (.inl (A.low hf.2))

theorem r_deliver {s : St} {r : R} (h : RInv s r) {d : Option Bytes} {k : List Frame}
    (hs : s.stack = .deliver d :: k) (A : Above (.deliver d) k) :
    RInv (St.deliver { s with stack := k } d) r := by
  have hk := fed_nil (A.once rfl)
  have hb := h.held
  have hy := h.bytes
  have hz := h.busy
  rw [hs, fed_cons, coming_cons, hk.1, hk.2] at hb
  rw [hs, coming_cons, hk.2] at hy
  rw [hs, readers_cons, if_neg (by simp)] at hz
  simp only [fedF, comingF, List.nil_append, List.append_nil] at hb hy
  have hrun := h.run
  have hcb := h.cb
  unfold St.deliver
  have hbuf : ∀ s' : St, s'.appBuf = none → BInv s' := fun s' h _ => h
  split
  · rename_i b hbb
    have hbb : s.appBuf = some b := hbb
    rw [hbb] at hb
    refine ⟨hrun, hcb, ?_, ?_, ?_, fun hx => absurd rfl hx, hbuf _ rfl, fun c d' k' hk' => ?_⟩
    · show r.busy = readers (.loop _ :: k)
      rw [readers_cons, if_neg (by simp)]; exact hz
    · show r.bytes = s.appReceived + _ + (coming (.loop _ :: k)).length
      rw [coming_cons, hk.2]
      simp only [comingF, List.append_nil, List.length_nil, Nat.add_zero]
      exact hy
    · show r.q = fed (.loop _ :: k) ++ [] ++ coming (.loop _ :: k)
      rw [fed_cons, coming_cons, hk.1, hk.2]
      simp only [fedF, comingF, List.append_nil, Option.getD_some]
      exact hb
    · cases (List.cons.inj (show Frame.loop _ :: k = .inBuf c d' :: k' from hk')).1
  · rename_i hbb
    have hbb : s.appBuf = none := hbb
    rw [hbb] at hb
    refine ⟨hrun, hcb, ?_, ?_, ?_, fun hx => absurd hbb hx, hbuf _ hbb, fun c d' k' hk' => ?_⟩
    · show r.busy = readers (.loop _ :: k)
      rw [readers_cons, if_neg (by simp)]; exact hz
    · show r.bytes = s.appReceived + _ + (coming (.loop _ :: k)).length
      rw [coming_cons, hk.2]
      simp only [comingF, List.append_nil, List.length_nil, Nat.add_zero]
      exact hy
    · show r.q = fed (.loop _ :: k) ++ s.appBuf.getD [] ++ coming (.loop _ :: k)
      rw [fed_cons, coming_cons, hk.1, hk.2, hbb]
      simp only [fedF, comingF, List.append_nil, Option.getD_none]
      exact hb
    · cases (List.cons.inj (show Frame.loop _ :: k = .inBuf c d' :: k' from hk')).1

/-- The invariant in a state where no bytes are in the hands of a frame. -/
theorem RInv.mk' {t : St} {r : R} {k : List Frame} (hst : t.stack = k)
    (hn : ∀ g ∈ k, Frame.delivering g = false) (hrun : R.run {} t.log = some r)
    (hcb : r.cb = t.readCb) (hz : r.busy = readers k) (hy : r.bytes = t.appReceived)
    (hq : r.q = t.appBuf.getD []) (hc : t.appBuf ≠ none → t.readCb = none) : RInv t r := by
  have hk := fed_nil hn
  refine ⟨hrun, hcb, by rw [hst]; exact hz, ?_, ?_, fun hx => .inl (hc hx), ?_, ?_⟩
  · rw [hst, hk.2]; exact hy
  · rw [hst, hk.1, hk.2]; simpa using hq
  · rintro ⟨f, hf, hff⟩
    rw [hst] at hf
    have := hn f hf
    rw [feeding_delivering hff] at this
    cases this
  · intro c d k' hk'
    rw [hst] at hk'
    have := hn (.inBuf c d) (by rw [hk']; exact List.mem_cons_self)
    cases this

theorem RInv.checkBufLen {s : St} {r : R} (h : RInv s r) : RInv s.checkBufLen r := by
  unfold St.checkBufLen
  split
  · exact ⟨h.run, h.cb, h.busy, h.bytes, h.held, h.calm, h.buf, h.room⟩
  · exact h

theorem r_loop {s : St} {r : R} (h : RInv s r) {d : Option Bytes} {k : List Frame}
    (hs : s.stack = .loop d :: k) (A : Above (.loop d) k) :
    ∃ r', RInv (St.loop { s with stack := k } d) r' := by
  have hno := A.once rfl
  have hk := fed_nil hno
  have hnone : s.appBuf = none := h.buf ⟨.loop d, by rw [hs]; exact List.mem_cons_self, rfl⟩
  have hb := h.held
  have hy := h.bytes
  have hz := h.busy
  rw [hs, fed_cons, coming_cons, hk.1, hk.2, hnone] at hb
  rw [hs, coming_cons, hk.2] at hy
  rw [hs, readers_cons, if_neg (by simp), Nat.add_zero] at hz
  simp only [fedF, comingF, List.append_nil, Option.getD_none, List.length_nil,
    Nat.add_zero] at hb hy
  have hrun := h.run
  have hcb := h.cb
  unfold St.loop
  split
  · rename_i _ _ c b hc
    have hc : s.readCb = some c := hc
    simp only [Option.getD_some] at hb
    rw [hc] at hcb
    split
    · refine ⟨{ r with q := [] }, RInv.mk' (k := .out :: k) rfl ?_ ?_ ?_ ?_ hy ?_ ?_⟩
      · intro g hg
        rcases List.mem_cons.1 hg with rfl | hg
        · rfl
        · exact hno g hg
      · show R.run {} (s.log ++ [.gaveBuf c b]) = _
        rw [R.run_append, hrun]
        simp [R.next, hcb, hb]
      · show r.cb = s.readCb
        rw [hcb, hc]
      · show r.busy = _
        rw [readers_cons, if_neg (by simp)]; exact hz
      · show [] = s.appBuf.getD []
        rw [hnone]; rfl
      · show s.appBuf ≠ none → _
        rw [hnone]; exact fun hx => absurd rfl hx
    · split
      · rename_i hbn
        refine ⟨r, RInv.checkBufLen (RInv.mk' (k := k) rfl hno hrun ?_ hz hy ?_ ?_)⟩
        · show r.cb = s.readCb
          rw [hcb, hc]
        · show r.q = s.appBuf.getD []
          rw [hnone, hb, hbn]; rfl
        · show s.appBuf ≠ none → _
          rw [hnone]; exact fun hx => absurd rfl hx
      · rename_i hbn
        refine ⟨r, hrun, ?_, ?_, ?_, ?_, ?_, ?_, ?_⟩
        · show r.cb = s.readCb
          rw [hcb, hc]
        · show r.busy = readers (.inBuf c b :: k)
          rw [readers_cons, if_neg (by simp)]; exact hz
        · show r.bytes = s.appReceived + (coming (.inBuf c b :: k)).length
          rw [coming_cons, hk.2]; exact hy
        · show r.q = fed (.inBuf c b :: k) ++ s.appBuf.getD [] ++ coming (.inBuf c b :: k)
          rw [fed_cons, coming_cons, hk.1, hk.2, hnone, hb]
          simp [fedF, comingF]
        · show s.appBuf ≠ none → _
          rw [hnone]; exact fun hx => absurd rfl hx
        · exact fun _ => hnone
        · intro c' d' k' hk'
          have hk' : Frame.inBuf c b :: k = .inBuf c' d' :: k' := hk'
          injection hk' with e1 e2
          injection e1 with e1 e3
          subst e1 e3
          exact ⟨hc, hbn⟩
  · rename_i _ _ c hc
    have hc : s.readCb = some c := hc
    refine ⟨r, RInv.checkBufLen (RInv.mk' (k := k) rfl hno hrun hcb hz hy ?_ ?_)⟩
    · show r.q = s.appBuf.getD []
      rw [hnone, hb]
    · show s.appBuf ≠ none → _
      rw [hnone]; exact fun hx => absurd rfl hx
  · rename_i _ _ b hc
    have hc : s.readCb = none := hc
    refine ⟨r, RInv.checkBufLen (RInv.mk' (k := k) rfl hno hrun hcb hz hy ?_ ?_)⟩
    · exact hb
    · exact fun _ => hc
  · rename_i _ _ hc
    have hc : s.readCb = none := hc
    refine ⟨r, RInv.checkBufLen (RInv.mk' (k := k) rfl hno hrun hcb hz hy ?_ ?_)⟩
    · show r.q = s.appBuf.getD []
      rw [hnone, hb]
    · exact fun _ => hc

/-- Replace the callback and tell the log. -/
theorem RInv.tell {s t : St} {r r' : R} (h : RInv s r) (o : Obs) (hl : t.log = s.log ++ [o])
    (hn : r.next o = some r') (hq : r'.q = r.q) (hz : r'.busy = r.busy) (hy : r'.bytes = r.bytes)
    (hcb : r'.cb = t.readCb) (hv : t.appBuf = s.appBuf) (hw : t.appReceived = s.appReceived)
    (old fs k : List Frame) (ho : s.stack = old ++ k) (ht : t.stack = fs ++ k)
    (io : ∀ f ∈ old, InertF f) (ifs : ∀ f ∈ fs, InertF f) (hk : Calm k)
    (hc : t.appBuf ≠ none → t.readCb = none) : RInv t r' := by
  have ho' := inertL io k
  have hf' := inertL ifs k
  rw [← ho] at ho'
  rw [← ht] at hf'
  refine ⟨?_, hcb, ?_, ?_, ?_, fun hx => .inl (hc hx), ?_, ?_⟩
  · rw [hl, R.run_append, h.run]; exact hn
  · rw [hf'.2.2, ← ho'.2.2, hz]; exact h.busy
  · rw [hf'.2.1, ← ho'.2.1, hw, hy]; exact h.bytes
  · rw [hf'.2.1, ← ho'.2.1, hf'.1, ← ho'.1, hv, hq]; exact h.held
  · refine h.buf.stable (.inl hv) (fun f hf hff => ?_)
    rw [ht] at hf
    rcases List.mem_append.1 hf with hf | hf
    · have := (ifs f hf).1
      rw [feeding_delivering hff] at this
      cases this
    · rw [ho]; exact List.mem_append_right _ hf
  · intro c d k' hk'
    exfalso
    rw [ht] at hk'
    match fs, hk', ifs with
    | [], hk', _ =>
      have := hk.tr (.inBuf c d) (by rw [show k = _ from hk']; rfl)
      cases this
    | f :: fs, hk', ifs =>
      have := (ifs f List.mem_cons_self).1
      rw [(List.cons.inj hk').1] at this
      cases this

/-- A loop that is not on top of the stack is waiting for a `readDataAvailable` to return. -/
theorem fed_readers : ∀ {k : List Frame}, Stacked k → Calm k → fed k = [] ∨ readers k ≠ 0
  | [], _, _ => .inl rfl
  | f :: k, hs, hc => by
    have htr := hc.tr f rfl
    have hlp := hc.lp
    by_cases hf : f = .inRead
    · right; rw [readers_cons, if_pos hf]; omega
    · have hd : f.delivering = false := by
        cases f <;> first | rfl | cases htr | skip
        exact absurd rfl (hlp _)
      rw [fed_cons, (fedF_nil hd).1, readers_cons, if_neg hf]
      exact fed_readers hs.2 (hs.1.low hf)

theorem r_err1 {s : St} {r : R} (h : RInv s r) {ex : Ex} {c : Bool} {k : List Frame}
    (hs : s.stack = .err1 ex c :: k) (hst : Stacked (.err1 ex c :: k)) :
    ∃ r', RInv (St.err1 { s with stack := k } ex c) r' := by
  have A := hst.1
  have hC := A.low (f := .err1 ex c) (by simp)
  unfold St.err1
  split
  · rename_i cb hcb
    have hcb : s.readCb = some cb := hcb
    have hi : InertF (.err1 ex c) := ⟨rfl, by simp⟩
    have hnil := hi.nil k
    have hnone : s.appBuf = none := by
      cases hb : s.appBuf with
      | none => rfl
      | some b =>
        rcases h.calm (by rw [hb]; simp) with h' | ⟨k', hk'⟩
        · rw [hcb] at h'; cases h'
        · rw [hs] at hk'; cases hk'
    have hq : r.q = [] ∨ r.busy ≠ 0 := by
      rw [h.held, h.busy, hs, hnil.1, hnil.2.1, hnil.2.2, hnone, coming_calm hst.2 hC.tr]
      rcases fed_readers hst.2 hC with h' | h'
      · left; rw [h']; rfl
      · exact .inr h'
    have hrcb := h.cb
    rw [hcb] at hrcb
    refine ⟨{ r with cb := none }, h.tell (match ex with
      | .eof _ => .rdEof cb
      | .err _ => .rdErr cb ex) ?_ ?_ rfl rfl rfl rfl rfl rfl [.err1 ex c]
      [.out, .err2 ex c true] k hs rfl (by simpa using hi) ?_ hC (fun _ => rfl)⟩
    · cases ex <;> rfl
    · cases ex <;> simp [R.next, hrcb, hq]
    · intro f hf
      simp only [List.mem_cons, List.not_mem_nil, or_false] at hf
      rcases hf with rfl | rfl <;> exact ⟨rfl, by simp⟩
  · rename_i hcb
    refine ⟨r, h.skip (l := []) ?_ ?_ (by simp) [.err1 ex c] [.err2 ex c false] k hs ?_ ?_ ?_
      (.inl hC)⟩
    · split <;> rfl
    · rw [List.append_nil]; split <;> rfl
    · split <;> rfl
    · simp [InertF, Frame.delivering]
    · simp [InertF, Frame.delivering]

theorem inert1 {f : Frame} (h : f.delivering = false) (h' : f ≠ .inRead) :
    ∀ g ∈ [f], InertF g := by
  intro g hg; rw [List.mem_singleton.1 hg]; exact ⟨h, h'⟩

theorem inert2 {f f' : Frame} (h : InertF f) (h' : InertF f') : ∀ g ∈ [f, f'], InertF g := by
  intro g hg
  rcases List.mem_cons.1 hg with rfl | hg
  · exact h
  · rw [List.mem_singleton.1 hg]; exact h'

theorem inert3 {f f' f'' : Frame} (h : InertF f) (h' : InertF f') (h'' : InertF f'') :
    ∀ g ∈ [f, f', f''], InertF g := by
  intro g hg
  rcases List.mem_cons.1 hg with rfl | hg
  · exact h
  · exact inert2 h' h'' g hg

theorem RInv.runFrame {s : St} {r : R} (hS : SInv s) (h : RInv s r) {f : Frame} {k : List Frame}
    (hs : s.stack = f :: k) (hin : ∀ c b, f ≠ .inBuf c b) (hrd : f ≠ .inRead) (hout : f ≠ .out) :
    ∃ r', RInv ({ s with stack := k }.runFrame f) r' := by
  have hst := hS.stacked
  rw [hs] at hst
  have A := hst.1
  have hal : f.harmless = false → s.alive = true := by
    intro hf
    cases ha : s.alive
    · rw [hS.dead ha f (by rw [hs]; exact List.mem_cons_self)] at hf; cases hf
    · rfl
  have io : InertF .out := ⟨rfl, by simp⟩
  unfold St.runFrame
  cases f with
  | deliver d =>
    dsimp only
    rw [if_pos (hal rfl)]
    exact ⟨r, r_deliver h hs A⟩
  | loop d =>
    dsimp only
    rw [if_pos (hal rfl)]
    exact r_loop h hs A
  | setRest =>
    dsimp only
    rw [if_pos (hal rfl)]
    rcases setRest_repl { s with stack := k } with ⟨ex, hr⟩ | hr
    · exact ⟨r, h.quiet hs A ⟨rfl, by simp⟩ (setRest_quiet _) hr
        (inert2 ⟨rfl, by simp⟩ ⟨rfl, by simp⟩)⟩
    · exact ⟨r, h.quiet hs A ⟨rfl, by simp⟩ (setRest_quiet _) hr (inert1 rfl (by simp))⟩
  | err1 ex c =>
    dsimp only
    rw [if_pos (hal rfl)]
    exact r_err1 h hs hst
  | err2 ex c d =>
    dsimp only
    rw [if_pos (hal rfl)]
    rcases err2_repl { s with stack := k } ex c d with ⟨_, _, hr⟩ | ⟨_, hr⟩
    · exact ⟨r, h.quiet hs A ⟨rfl, by simp⟩ (err2_quiet _ _ _ _) hr
        (inert2 ⟨rfl, by simp⟩ ⟨rfl, by simp⟩)⟩
    · exact ⟨r, h.quiet hs A ⟨rfl, by simp⟩ (err2_quiet _ _ _ _) hr (inert1 rfl (by simp))⟩
  | err3 c d =>
    dsimp only
    rw [if_pos (hal rfl)]
    rcases err3_repl { s with stack := k } c d with hr | hr
    · exact ⟨r, h.quiet hs A ⟨rfl, by simp⟩ (err3_quiet _ _ _) hr (inert2 io ⟨rfl, by simp⟩)⟩
    · exact ⟨r, h.quiet hs A ⟨rfl, by simp⟩ (err3_quiet _ _ _) hr (inert1 rfl (by simp))⟩
  | err4 d =>
    dsimp only
    rw [if_pos (hal rfl)]
    exact ⟨r, h.quiet hs A ⟨rfl, by simp⟩ (err4_quiet _ _) (err4_repl _ d) (by simp)⟩
  | start n =>
    rcases start_repl { s with stack := k } n with hr | hr
    · exact ⟨r, h.quiet hs A ⟨rfl, by simp⟩ (start_quiet _ _) hr (by simp)⟩
    · exact ⟨r, h.quiet hs A ⟨rfl, by simp⟩ (start_quiet _ _) hr (inert1 rfl (by simp))⟩
  | errReq n ex =>
    rcases errReq_repl { s with stack := k } n ex with hr | ⟨n', hr⟩ | ⟨n', hr⟩
    · exact ⟨r, h.quiet hs A ⟨rfl, by simp⟩ (errReq_quiet _ _ _) hr (by simp)⟩
    · exact ⟨r, h.quiet hs A ⟨rfl, by simp⟩ (errReq_quiet _ _ _) hr (inert1 rfl (by simp))⟩
    · exact ⟨r, h.quiet hs A ⟨rfl, by simp⟩ (errReq_quiet _ _ _) hr (inert2 io ⟨rfl, by simp⟩)⟩
  | succ n =>
    rcases succ_repl { s with stack := k } n with hr | hr | ⟨_, n', hr⟩ | ⟨_, n', hr⟩
    · exact ⟨r, h.quiet hs A ⟨rfl, by simp⟩ (succ_quiet _ _) hr (by simp)⟩
    · exact ⟨r, h.quiet hs A ⟨rfl, by simp⟩ (succ_quiet _ _) hr (inert1 rfl (by simp))⟩
    · exact ⟨r, h.quiet hs A ⟨rfl, by simp⟩ (succ_quiet _ _) hr
        (inert2 ⟨rfl, by simp⟩ ⟨rfl, by simp⟩)⟩
    · exact ⟨r, h.quiet hs A ⟨rfl, by simp⟩ (succ_quiet _ _) hr
        (inert3 io ⟨rfl, by simp⟩ ⟨rfl, by simp⟩)⟩
  | succ2 n =>
    dsimp only
    rw [if_pos (hal rfl)]
    rcases succ2_repl { s with stack := k } n with hr | ⟨n', hr⟩
    · exact ⟨r, h.quiet hs A ⟨rfl, by simp⟩ (succ2_quiet _ _) hr (by simp)⟩
    · exact ⟨r, h.quiet hs A ⟨rfl, by simp⟩ (succ2_quiet _ _) hr (inert1 rfl (by simp))⟩
  | unguard =>
    dsimp only
    rw [if_pos (hal rfl)]
    unfold St.unguard
    split
    · obtain ⟨hv, l, hl, hi⟩ := dtor_quiet { s with stack := k }
      exact ⟨r, h.skip hv l hl hi [.unguard] [] k hs (congrArg Life.stack (dtor_life _))
        (inert1 rfl (by simp)) (by simp) (.inl (A.low (by simp)))⟩
    · exact ⟨r, h.skip rfl [] (by simp) (by simp) [.unguard] [] k hs rfl
        (inert1 rfl (by simp)) (by simp) (.inl (A.low (by simp)))⟩
  | destroy2 =>
    dsimp only
    rw [if_pos (hal rfl)]
    unfold St.destroy2
    dsimp only
    split
    · obtain ⟨hv, l, hl, hi⟩ :=
        dtor_quiet { s with stack := k, reads := false, destroyPending := true }
      exact ⟨r, h.skip hv l hl hi [.destroy2] [] k hs (congrArg Life.stack (dtor_life _))
        (inert1 rfl (by simp)) (by simp) (.inl (A.low (by simp)))⟩
    · exact ⟨r, h.skip rfl [] (by simp) (by simp) [.destroy2] [] k hs rfl
        (inert1 rfl (by simp)) (by simp) (.inl (A.low (by simp)))⟩
  | inBuf c b => exact absurd rfl (hin c b)
  | inRead => exact absurd rfl hrd
  | out => exact absurd rfl hout

end Fizz.Async

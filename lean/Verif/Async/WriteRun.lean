import Verif.Async.WriteStep2
import Verif.Async.ReadRun

/-! # Every step keeps the write invariant -/

namespace Fizz.Async

open Spec

def unbase (q : Req) : Req := { q with base := false }

theorem w_dtor {s t : St} {w : W} {b : Bool} {ch : List Cell} (h : WInv s w b ch) {f : Frame}
    {k : List Frame} (hs : s.stack = f :: k) (hf : IdleF f) (hal : s.alive = true)
    (hv : t.wview = s.wview) (hlog : t.log = s.log) (hst : t.stack = k)
    (hpe : t.pendingEx = s.pendingEx) :
    ∃ w' b' ch', WInv t.dtor w' b' ch' := by
  have h0 : WInv t w b ch :=
    h.skip (old := [f]) (fs := []) (k := k) hv (by rw [hlog]; exact h.run)
      ⟨rfl, rfl, rfl, rfl, rfl⟩ (fun _ he => he) (by rw [hpe]; exact h.pend) hs hst
      (fun g hg => by rw [List.mem_singleton.1 hg]; exact hf.weak _) (by simp) (by simp)
  have hta : t.alive = true := by
    rw [show t.alive = s.alive from congrArg WView.alive hv]; exact hal
  clear hv hlog hst hpe hs hal h
  cases hl : ch.getLast? with
  | none =>
    have hch : ch = [] := List.getLast?_eq_none_iff.1 hl
    have htail : t.tail = none := by rw [h0.tail hta, hl]; rfl
    have e : t.dtor = { t with reads := false, alive := false } := by
      unfold St.dtor
      dsimp only
      rw [htail]
    rw [e]
    exact ⟨w, b, ch, ⟨h0.run, h0.crash, h0.q, h0.cnt, h0.whole, h0.bytes, h0.notOpen, h0.pend,
      h0.exs, h0.heap, h0.inc, h0.lt, h0.linked, fun hx => (by cases hx), fun hx => (by cases hx),
      fun _ p hp => (by rw [hl] at hp; cases hp), h0.own, h0.idle, h0.fly, h0.start, h0.succ, h0.imm,
      h0.failing, h0.immAt, h0.entire⟩⟩
  | some p =>
    have htail : t.tail = some p.1 := by rw [h0.tail hta, hl]; rfl
    have hmem : (p.1, p.2) ∈ ch := last_mem hl
    have hq : t.heap p.1 = some p.2 := (h0.heap _ _).2 hmem
    have hH := h0.heap.set h0.inc hmem unbase
    generalize hT : t.dtor = T
    have hT' : T = { St.setHeap { t with reads := false } p.1 (some (unbase p.2))
        with alive := false } := by
      rw [← hT]
      unfold St.dtor
      dsimp only
      rw [htail]
      dsimp only
      rw [hq]
      rfl
    clear hT
    have t1 : T.log = t.log := by rw [hT']; rfl
    have t2 : T.wview = { t.wview with
        heap := fun x => if x = p.1 then some (unbase p.2) else t.heap x
        alive := false } := by rw [hT']; rfl
    have t3 : T.stack = t.stack := by rw [hT']; rfl
    have t4 : T.pendingEx = t.pendingEx := by rw [hT']; rfl
    clear hT'
    obtain ⟨e1, e2, e3, e4, e5, e6, e7, e8, e9⟩ := WView.fields t2
    change T.alive = false at e1
    change T.crash = t.crash at e2
    change T.fresh = t.fresh at e3
    change T.noPartial = t.noPartial at e4
    change T.appWritten = t.appWritten at e5
    change T.heap = (fun x => if x = p.1 then some (unbase p.2) else t.heap x) at e6
    change T.tail = t.tail at e7
    change T.imm = t.imm at e8
    change T.flying = t.flying at e9
    clear t2
    have hhd : ∀ x, (ch.map (upd p.1 unbase)).head? = some x →
        ∃ y, ch.head? = some y ∧ x.2.data = y.2.data := by
      intro x hx
      rw [List.head?_map] at hx
      cases hc : ch.head? with
      | none => rw [hc] at hx; cases hx
      | some y =>
        rw [hc] at hx
        cases Option.some.inj hx
        refine ⟨y, rfl, ?_⟩
        unfold upd; split <;> rfl
    refine ⟨w, b, ch.map (upd p.1 unbase), ?_⟩
    constructor
    · rw [t1]; exact h0.run
    · rw [e2]; exact h0.crash
    · rw [items_upd b p.1 unbase (fun _ => ⟨rfl, rfl, rfl, rfl⟩)]; exact h0.q
    · rw [e3]; exact h0.cnt
    · rw [e4]; exact h0.whole
    · rw [e5]; exact h0.bytes
    · exact h0.notOpen
    · rw [t4]; exact h0.pend
    · rw [t3]; exact h0.exs
    · rw [e6]; exact hH
    · rw [Inc, map_upd_fst]; exact h0.inc
    · rw [e3]
      intro x hx
      obtain ⟨y, hy, rfl⟩ := List.mem_map.1 hx
      rw [upd_fst]; exact h0.lt y hy
    · exact linked_upd p.1 unbase (fun _ => rfl) _ h0.linked
    · rw [e1]; intro hx; cases hx
    · rw [e1]; intro hx; cases hx
    · intro _ x hx
      rw [getLast?_map_upd, hl] at hx
      cases Option.some.inj hx
      rw [upd_at rfl]; rfl
    · unfold St.owners
      rw [e8, e9, t3, map_upd_fst]
      exact h0.own
    · intro hx
      refine h0.idle ?_
      exact List.map_eq_nil_iff.1 hx
    · rw [e9]; exact h0.fly
    · rw [t3]
      intro r hr
      obtain ⟨h1, h2⟩ := h0.start r hr
      refine ⟨h1, fun x hx => ?_⟩
      obtain ⟨y, hy, e⟩ := hhd x hx
      rw [e]; exact h2 y hy
    · rw [t3]; exact h0.succ
    · rw [e8]; exact h0.imm
    · rw [t3]; exact h0.failing
    · rw [e8, t3]; exact h0.immAt
    · intro hp x hx
      rw [getLast?_map_upd, hl] at hx
      cases Option.some.inj hx
      rw [upd_at rfl, total_upd p.1 unbase (fun _ => rfl)]
      exact h0.entire hp p hl

theorem IdleF.mk' {f : Frame} (h : liveF f = none) (h' : ∀ r, f ≠ .succ2 (some r)) : IdleF f :=
  ⟨h, h'⟩

/-- A program point that has nothing to do with writing. -/
theorem WInv.plain {s t : St} {w w' : W} {b : Bool} {ch : List Cell} (h : WInv s w b ch)
    {f : Frame} {k : List Frame} (hs : s.stack = f :: k) (hf : IdleF f)
    (hv : t.wview = s.wview) (hrun : W.run {} t.log = some w')
    (hw : w'.q = w.q ∧ w'.phase = w.phase ∧ w'.count = w.count ∧ w'.whole = w.whole ∧
      w'.bytes = w.bytes) (he : ∀ e ∈ w.errs, e ∈ w'.errs)
    (hp : ∀ ex, t.pendingEx = some ex → ex ∈ w'.errs)
    (fs : List Frame) (ht : t.stack = fs ++ k) (ifs : ∀ f ∈ fs, IdleF f)
    (hx : ∀ f ∈ fs, ∀ ex, exF f = some ex → ex ∈ w'.errs) : WInv t w' b ch :=
  h.skip hv hrun hw he hp [f] fs k hs ht
    (fun g hg => by rw [List.mem_singleton.1 hg]; exact hf.weak _) ifs hx

/-- A call from outside that has nothing to do with writing. -/
theorem WInv.enter {s t : St} {w w' : W} {b : Bool} {ch : List Cell} (h : WInv s w b ch)
    (hv : t.wview = s.wview) (hrun : W.run {} t.log = some w')
    (hw : w'.q = w.q ∧ w'.phase = w.phase ∧ w'.count = w.count ∧ w'.whole = w.whole ∧
      w'.bytes = w.bytes) (he : ∀ e ∈ w.errs, e ∈ w'.errs)
    (hp : ∀ ex, t.pendingEx = some ex → ex ∈ w'.errs)
    (fs : List Frame) (ht : t.stack = fs ++ s.stack) (ifs : ∀ f ∈ fs, IdleF f)
    (hx : ∀ f ∈ fs, ∀ ex, exF f = some ex → ex ∈ w'.errs) : WInv t w' b ch :=
  h.skip hv hrun hw he hp [] fs s.stack rfl ht (by simp) ifs hx

theorem same (w : W) : w.q = w.q ∧ w.phase = w.phase ∧ w.count = w.count ∧ w.whole = w.whole ∧
    w.bytes = w.bytes := ⟨rfl, rfl, rfl, rfl, rfl⟩

theorem idle1 {f : Frame} (h : IdleF f) : ∀ g ∈ [f], IdleF g := by
  intro g hg; rw [List.mem_singleton.1 hg]; exact h

theorem idle2 {f f' : Frame} (h : IdleF f) (h' : IdleF f') : ∀ g ∈ [f, f'], IdleF g := by
  intro g hg
  rcases List.mem_cons.1 hg with rfl | hg
  · exact h
  · rw [List.mem_singleton.1 hg]; exact h'

theorem checkBufLen_wview (s : St) : s.checkBufLen.wview = s.wview ∧ s.checkBufLen.log = s.log ∧
    s.checkBufLen.stack = s.stack ∧ s.checkBufLen.pendingEx = s.pendingEx := by
  unfold St.checkBufLen
  split <;> exact ⟨rfl, rfl, rfl, rfl⟩

theorem W.run_inert {s : St} {w : W} {b : Bool} {ch : List Cell} (h : WInv s w b ch) (o : Obs)
    (ho : w.next o = some w) : W.run {} (s.log ++ [o]) = some w := by
  rw [W.run_append, h.run]; exact ho

theorem WInv.runFrame {s : St} {w : W} {b : Bool} {ch : List Cell} (hS : SInv s)
    (h : WInv s w b ch) {f : Frame} {k : List Frame}
    (hs : s.stack = f :: k) (hin : ∀ c b, f ≠ .inBuf c b) (hrd : f ≠ .inRead) (hout : f ≠ .out) :
    ∃ w' b' ch', WInv ({ s with stack := k }.runFrame f) w' b' ch' := by
  have hal : f.harmless = false → s.alive = true := by
    intro hf
    cases ha : s.alive
    · rw [hS.dead ha f (by rw [hs]; exact List.mem_cons_self)] at hf; cases hf
    · rfl
  have io : IdleF .out := ⟨rfl, by simp⟩
  unfold St.runFrame
  cases f with
  | deliver d =>
    dsimp only
    rw [if_pos (hal rfl)]
    unfold St.deliver
    refine ⟨w, b, ch, ?_⟩
    split
    · exact h.plain hs ⟨rfl, by simp⟩ rfl h.run (same w) (fun _ x => x) h.pend [.loop _] rfl
        (idle1 ⟨rfl, by simp⟩) (by simp [exF])
    · exact h.plain hs ⟨rfl, by simp⟩ rfl h.run (same w) (fun _ x => x) h.pend [.loop _] rfl
        (idle1 ⟨rfl, by simp⟩) (by simp [exF])
  | loop d =>
    dsimp only
    rw [if_pos (hal rfl)]
    have key : ∀ a, WInv (St.checkBufLen { s with stack := k, appBuf := a }) w b ch := by
      intro a
      obtain ⟨c1, c2, c3, c4⟩ := checkBufLen_wview { s with stack := k, appBuf := a }
      refine h.plain hs ⟨rfl, by simp⟩ c1 ?_ (same w) (fun _ x => x) ?_ [] c3 (by simp) (by simp)
      · rw [c2]; exact h.run
      · rw [c4]; exact h.pend
    unfold St.loop
    refine ⟨w, b, ch, ?_⟩
    split
    · split
      · exact h.plain hs ⟨rfl, by simp⟩ rfl (W.run_inert h (.gaveBuf _ _) rfl) (same w)
          (fun _ x => x) h.pend [.out] rfl (idle1 io) (by simp [exF])
      · split
        · exact key s.appBuf
        · exact h.plain hs ⟨rfl, by simp⟩ rfl h.run (same w) (fun _ x => x) h.pend [.inBuf _ _] rfl
            (idle1 ⟨rfl, by simp⟩) (by simp [exF])
    · exact key s.appBuf
    · exact key _
    · exact key s.appBuf
  | setRest =>
    dsimp only
    rw [if_pos (hal rfl)]
    unfold St.setRest
    refine ⟨w, b, ch, ?_⟩
    split
    · rename_i c ex _ hex
      have hex := h.pend ex hex
      refine h.plain hs ⟨rfl, by simp⟩ rfl h.run (same w) (fun _ x => x) (by simp [St.callError, St.push]) [.err1 _ _, .unguard] rfl
        (idle2 ⟨rfl, by simp⟩ ⟨rfl, by simp⟩) ?_
      intro f hf ex' he
      rcases List.mem_cons.1 hf with rfl | hf
      · cases Option.some.inj he; exact hex
      · rw [List.mem_singleton.1 hf] at he; cases he
    · split
      · refine h.plain hs ⟨rfl, by simp⟩ rfl h.run (same w) (fun _ x => x) h.pend
          [.err1 _ _, .unguard] rfl (idle2 ⟨rfl, by simp⟩ ⟨rfl, by simp⟩) ?_
        intro f hf ex' he
        rcases List.mem_cons.1 hf with rfl | hf
        · cases Option.some.inj he; exact h.notOpen
        · rw [List.mem_singleton.1 hf] at he; cases he
      · exact h.plain hs ⟨rfl, by simp⟩ rfl h.run (same w) (fun _ x => x) h.pend [.out] rfl
          (idle1 io) (by simp [exF])
  | err1 ex c =>
    dsimp only
    rw [if_pos (hal rfl)]
    have hex : ex ∈ w.errs := h.exs (.err1 ex c) (by rw [hs]; exact List.mem_cons_self) ex rfl
    unfold St.err1
    refine ⟨w, b, ch, ?_⟩
    split
    · rename_i cb _
      refine h.plain hs ⟨rfl, by simp⟩ rfl (W.run_inert h _ ?_) (same w)
          (fun _ x => x) h.pend [.out, .err2 ex c true] rfl (idle2 io ⟨rfl, by simp⟩) ?_
      · cases ex <;> rfl
      · intro f hf ex' he
        rcases List.mem_cons.1 hf with rfl | hf
        · cases he
        · rw [List.mem_singleton.1 hf] at he; cases Option.some.inj he; exact hex
    · split
      · refine h.plain hs ⟨rfl, by simp⟩ rfl h.run (same w) (fun _ x => x) ?_
          [.err2 ex c false] rfl (idle1 ⟨rfl, by simp⟩) ?_
        · intro ex' he; cases Option.some.inj he; exact hex
        · intro f hf ex' he
          rw [List.mem_singleton.1 hf] at he; cases Option.some.inj he; exact hex
      · refine h.plain hs ⟨rfl, by simp⟩ rfl h.run (same w) (fun _ x => x) h.pend
          [.err2 ex c false] rfl (idle1 ⟨rfl, by simp⟩) ?_
        intro f hf ex' he
        rw [List.mem_singleton.1 hf] at he; cases Option.some.inj he; exact hex
  | err2 ex c d =>
    dsimp only
    rw [if_pos (hal rfl)]
    exact w_err2 h hs
  | err3 c d =>
    dsimp only
    rw [if_pos (hal rfl)]
    unfold St.err3
    refine ⟨w, b, ch, ?_⟩
    dsimp only
    split
    · exact h.plain hs ⟨rfl, by simp⟩ rfl h.run (same w) (fun _ x => x) h.pend [.out, .err4 d] rfl
        (idle2 io ⟨rfl, by simp⟩) (by simp [exF])
    · exact h.plain hs ⟨rfl, by simp⟩ rfl h.run (same w) (fun _ x => x) h.pend [.err4 d] rfl
        (idle1 ⟨rfl, by simp⟩) (by simp [exF])
  | err4 d =>
    dsimp only
    rw [if_pos (hal rfl)]
    unfold St.err4
    refine ⟨w, b, ch, ?_⟩
    split
    · exact h.plain hs ⟨rfl, by simp⟩ rfl h.run (same w) (fun _ x => x) (by simp) [] rfl
        (by simp) (by simp)
    · exact h.plain hs ⟨rfl, by simp⟩ rfl h.run (same w) (fun _ x => x) h.pend [] rfl
        (by simp) (by simp)
  | start n => exact w_start hS h hs
  | errReq n ex =>
    cases n with
    | none =>
      exact ⟨w, b, ch, h.plain hs ⟨rfl, by simp⟩ rfl h.run (same w) (fun _ x => x) h.pend [] rfl
        (by simp) (by simp)⟩
    | some n => exact w_errReq h hs
  | succ n => exact w_succ hS h hs
  | succ2 n =>
    dsimp only
    rw [if_pos (hal rfl)]
    exact w_succ2 h hs
  | unguard =>
    dsimp only
    rw [if_pos (hal rfl)]
    unfold St.unguard
    split
    · exact w_dtor h hs ⟨rfl, by simp⟩ (hal rfl) rfl rfl rfl rfl
    · exact ⟨w, b, ch, h.plain hs ⟨rfl, by simp⟩ rfl h.run (same w) (fun _ x => x) h.pend [] rfl
        (by simp) (by simp)⟩
  | destroy2 =>
    dsimp only
    rw [if_pos (hal rfl)]
    unfold St.destroy2
    dsimp only
    split
    · exact w_dtor h hs ⟨rfl, by simp⟩ (hal rfl) rfl rfl rfl rfl
    · exact ⟨w, b, ch, h.plain hs ⟨rfl, by simp⟩ rfl h.run (same w) (fun _ x => x) h.pend [] rfl
        (by simp) (by simp)⟩
  | inBuf c b => exact absurd rfl (hin c b)
  | inRead => exact absurd rfl hrd
  | out => exact absurd rfl hout

end Fizz.Async

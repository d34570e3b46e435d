import Verif.Async.WriteEnter
import Verif.Async.SpecProps

/-! # No error is forgotten -/

namespace Fizz.Async

open Spec

/-- Frames of a `deliverError` that has told a read callback. -/
def toldF : Frame → Bool
  | .err2 _ _ d => d
  | .err3 _ d => d
  | .err4 d => d
  | _ => false

/-- Errors: reported by the derived class, or found by `deliverAppData`. -/
def IsErr (o : Obs) : Prop := (∃ ex, o = .error ex) ∨ ∃ c ex, o = .bufFail c ex

structure EInv (s : St) : Prop where
  told : (∃ o ∈ s.log, IsErr o) → (∃ o ∈ s.log, Told o) ∨ s.pendingEx ≠ none ∨
    ∃ ex c, .err1 ex c ∈ s.stack
  deliv : ∀ f ∈ s.stack, toldF f = true → ∃ o ∈ s.log, Told o
  wait : s.pendingEx ≠ none → s.readCb = none ∨ .setRest ∈ s.stack

/-- Frames the error invariant does not look at. -/
def DullF (f : Frame) : Prop := toldF f = false ∧ f ≠ .setRest ∧ ∀ ex c, f ≠ .err1 ex c

theorem EInv.skip {s t : St} (h : EInv s) (hr : t.readCb = s.readCb)
    (hp : t.pendingEx = s.pendingEx) (l : List Obs) (hl : t.log = s.log ++ l)
    (hi : ∀ o ∈ l, ¬ IsErr o) (old fs k : List Frame) (ho : s.stack = old ++ k)
    (ht : t.stack = fs ++ k) (io : ∀ f ∈ old, f ≠ .setRest ∧ ∀ ex c, f ≠ .err1 ex c)
    (ifs : ∀ f ∈ fs, toldF f = false ∨ ∃ o ∈ t.log, Told o) : EInv t := by
  have hmem : ∀ f ∈ s.stack, f ∈ old ∨ f ∈ t.stack := by
    intro f hf
    rw [ho] at hf
    rcases List.mem_append.1 hf with hf | hf
    · exact .inl hf
    · right; rw [ht]; exact List.mem_append_right _ hf
  constructor
  · rintro ⟨o, ho', hio⟩
    rw [hl] at ho'
    rcases List.mem_append.1 ho' with ho' | ho'
    · rcases h.told ⟨o, ho', hio⟩ with ⟨o', h1, h2⟩ | h1 | ⟨ex, c, h1⟩
      · exact .inl ⟨o', by rw [hl]; exact List.mem_append_left _ h1, h2⟩
      · right; left; rw [hp]; exact h1
      · rcases hmem _ h1 with h1 | h1
        · exact absurd rfl ((io _ h1).2 ex c)
        · exact .inr (.inr ⟨ex, c, h1⟩)
    · exact absurd hio (hi o ho')
  · intro f hf hfd
    rw [ht] at hf
    rcases List.mem_append.1 hf with hf | hf
    · rcases ifs f hf with h' | h'
      · rw [h'] at hfd; cases hfd
      · exact h'
    · obtain ⟨o, h1, h2⟩ := h.deliv f (by rw [ho]; exact List.mem_append_right _ hf) hfd
      exact ⟨o, by rw [hl]; exact List.mem_append_left _ h1, h2⟩
  · rw [hp, hr]
    intro hx
    rcases h.wait hx with h1 | h1
    · exact .inl h1
    · rcases hmem _ h1 with h1 | h1
      · exact absurd rfl (io _ h1).1
      · exact .inr h1

/-- A program point that does not touch the read callback or the pending error. -/
theorem EInv.plain {s t : St} (h : EInv s) {f : Frame} {k : List Frame} (hs : s.stack = f :: k)
    (hf : f ≠ .setRest ∧ ∀ ex c, f ≠ .err1 ex c) (hr : t.readCb = s.readCb)
    (hp : t.pendingEx = s.pendingEx) (l : List Obs) (hl : t.log = s.log ++ l)
    (hi : ∀ o ∈ l, ¬ IsErr o) (fs : List Frame) (ht : t.stack = fs ++ k)
    (ifs : ∀ g ∈ fs, toldF g = false ∨ toldF f = true) : EInv t := by
  refine h.skip hr hp l hl hi [f] fs k hs ht
    (fun g hg => by rw [List.mem_singleton.1 hg]; exact hf) (fun g hg => ?_)
  rcases ifs g hg with h' | h'
  · exact .inl h'
  · obtain ⟨o, h1, h2⟩ := h.deliv f (by rw [hs]; exact List.mem_cons_self) h'
    exact .inr ⟨o, by rw [hl]; exact List.mem_append_left _ h1, h2⟩

/-- What the write-side functions look like. -/
structure Dull (s t : St) : Prop where
  rcb : t.readCb = s.readCb
  pend : t.pendingEx = s.pendingEx
  log : ∃ l, t.log = s.log ++ l ∧ ∀ o ∈ l, ¬ IsErr o

theorem Dull.refl (s : St) : Dull s s := ⟨rfl, rfl, [], by simp, by simp⟩
theorem Dull.none {s t : St} (h1 : t.readCb = s.readCb) (h2 : t.pendingEx = s.pendingEx)
    (h3 : t.log = s.log) : Dull s t := ⟨h1, h2, [], by simp [h3], by simp⟩
theorem Dull.one {s t : St} (h1 : t.readCb = s.readCb) (h2 : t.pendingEx = s.pendingEx)
    (o : Obs) (h3 : t.log = s.log ++ [o]) (ho : ¬ IsErr o) : Dull s t :=
  ⟨h1, h2, [o], h3, by simpa using ho⟩

theorem dull_advance (s : St) (r : Nat) (q : Req) : Dull s (s.advanceOnBase r q) := by
  unfold St.advanceOnBase
  split
  · split
    · exact Dull.none rfl rfl rfl
    · split <;> exact Dull.none rfl rfl rfl
  · exact Dull.refl _

theorem dull_start (s : St) (r : Nat) : Dull s (s.startWriting r) := by
  unfold St.startWriting
  split
  · exact Dull.none rfl rfl rfl
  · split
    · exact Dull.none rfl rfl rfl
    · dsimp only
      split
      · exact Dull.none rfl rfl rfl
      · split
        · exact Dull.none rfl rfl rfl
        · exact Dull.one rfl rfl (.down _ _ _) rfl (by simp [IsErr])

theorem dull_errReq (s : St) (r : Option Nat) (ex : Ex) : Dull s (s.errReq r ex) := by
  unfold St.errReq
  split
  · exact Dull.refl _
  · split
    · exact Dull.none rfl rfl rfl
    · rename_i r' _ q _
      obtain ⟨a, b, l, c, d⟩ := dull_advance s r' q
      refine ⟨a, b, l ++ [.wErr r' q.written ex q.cb], ?_, ?_⟩
      · rw [← List.append_assoc, ← c]; rfl
      · intro o ho
        rcases List.mem_append.1 ho with ho | ho
        · exact d o ho
        · rw [List.mem_singleton.1 ho]; simp [IsErr]

theorem dull_succ (s : St) (r : Nat) : Dull s (s.succ r) := by
  unfold St.succ
  split
  · exact Dull.none rfl rfl rfl
  · rename_i q _
    split
    · exact Dull.none rfl rfl rfl
    · split
      · exact Dull.none rfl rfl rfl
      · obtain ⟨a, b, l, c, d⟩ := dull_advance s r q
        refine ⟨a, b, l ++ [.wOk r q.cb], ?_, ?_⟩
        · rw [← List.append_assoc, ← c]; rfl
        · intro o ho
          rcases List.mem_append.1 ho with ho | ho
          · exact d o ho
          · rw [List.mem_singleton.1 ho]; simp [IsErr]

theorem dull_dtor (s : St) : Dull s s.dtor := by
  unfold St.dtor
  dsimp only
  split
  · exact Dull.none rfl rfl rfl
  · split <;> exact Dull.none rfl rfl rfl

theorem dull_checkBufLen (s : St) : Dull s s.checkBufLen := by
  unfold St.checkBufLen
  split <;> exact Dull.none rfl rfl rfl

theorem EInv.dull {s t : St} (h : EInv s) {f : Frame} {k : List Frame} (hs : s.stack = f :: k)
    (hf : f ≠ .setRest ∧ ∀ ex c, f ≠ .err1 ex c) (hd : Dull { s with stack := k } t)
    (fs : List Frame) (ht : t.stack = fs ++ k)
    (ifs : ∀ g ∈ fs, toldF g = false ∨ toldF f = true) : EInv t := by
  obtain ⟨a, b, l, c, d⟩ := hd
  exact h.plain hs hf a b l c d fs ht ifs

theorem told1 {f g : Frame} (h : toldF g = false) : ∀ x ∈ [g], toldF x = false ∨ toldF f = true := by
  intro x hx; rw [List.mem_singleton.1 hx]; exact .inl h

theorem told2 {f g g' : Frame} (h : toldF g = false) (h' : toldF g' = false) :
    ∀ x ∈ [g, g'], toldF x = false ∨ toldF f = true := by
  intro x hx
  rcases List.mem_cons.1 hx with rfl | hx
  · exact .inl h
  · rw [List.mem_singleton.1 hx]; exact .inl h'

theorem told3 {f g g' g'' : Frame} (h : toldF g = false) (h' : toldF g' = false)
    (h'' : toldF g'' = false) : ∀ x ∈ [g, g', g''], toldF x = false ∨ toldF f = true := by
  intro x hx
  rcases List.mem_cons.1 hx with rfl | hx
  · exact .inl h
  · exact told2 h' h'' x hx

/-- Entering `deliverError`. -/
theorem EInv.call {s : St} (hp : s.pendingEx ≠ none → s.readCb = none ∨ .setRest ∈ s.stack)
    (hd : ∀ f ∈ s.stack, toldF f = true → ∃ o ∈ s.log, Told o) (ex : Ex) (c : Bool) :
    EInv (s.callError ex c) := by
  constructor
  · intro _; exact .inr (.inr ⟨ex, c, List.mem_cons_self⟩)
  · intro f hf hfd
    rcases List.mem_cons.1 hf with rfl | hf
    · cases hfd
    · rcases List.mem_cons.1 hf with rfl | hf
      · cases hfd
      · exact hd f hf hfd
  · intro hx
    rcases hp hx with h1 | h1
    · exact .inl h1
    · exact .inr (List.mem_cons_of_mem _ (List.mem_cons_of_mem _ h1))

theorem EInv.runFrame {s : St} (hS : SInv s) (h : EInv s) {f : Frame} {k : List Frame}
    (hs : s.stack = f :: k) (hin : ∀ c b, f ≠ .inBuf c b) (hrd : f ≠ .inRead) (hout : f ≠ .out) :
    EInv ({ s with stack := k }.runFrame f) := by
  have hal : f.harmless = false → s.alive = true := by
    intro hf
    cases ha : s.alive
    · rw [hS.dead ha f (by rw [hs]; exact List.mem_cons_self)] at hf; cases hf
    · rfl
  unfold St.runFrame
  cases f with
  | deliver d =>
    dsimp only
    rw [if_pos (hal rfl)]
    unfold St.deliver
    split
    · exact h.plain hs ⟨by simp, by simp⟩ rfl rfl [] (by simp [St.push]) (by simp) [.loop _] rfl (told1 rfl)
    · exact h.plain hs ⟨by simp, by simp⟩ rfl rfl [] (by simp [St.push]) (by simp) [.loop _] rfl (told1 rfl)
  | loop d =>
    dsimp only
    rw [if_pos (hal rfl)]
    have key : ∀ a, EInv (St.checkBufLen { s with stack := k, appBuf := a }) := by
      intro a
      obtain ⟨c1, c2, l, c3, c4⟩ := dull_checkBufLen { s with stack := k, appBuf := a }
      exact h.plain hs ⟨by simp, by simp⟩ c1 c2 l c3 c4 []
        (congrArg Life.stack (life_checkBufLen _)) (by simp)
    unfold St.loop
    split
    · split
      · exact h.plain hs ⟨by simp, by simp⟩ rfl rfl [.gaveBuf _ _] rfl (by simp [IsErr]) [.out] rfl
          (told1 rfl)
      · split
        · exact key s.appBuf
        · exact h.plain hs ⟨by simp, by simp⟩ rfl rfl [] (by simp [St.push]) (by simp) [.inBuf _ _]
            rfl (told1 rfl)
    · exact key s.appBuf
    · exact key _
    · exact key s.appBuf
  | setRest =>
    dsimp only
    rw [if_pos (hal rfl)]
    have hdel : ∀ f ∈ k, toldF f = true → ∃ o ∈ s.log, Told o :=
      fun f hf => h.deliv f (by rw [hs]; exact List.mem_cons_of_mem _ hf)
    unfold St.setRest
    split
    · exact EInv.call (by simp) hdel _ _
    · rename_i hno
      have hw : s.pendingEx ≠ none → s.readCb = none ∨ .setRest ∈ k := by
        intro hx
        left
        cases hr : s.readCb with
        | none => rfl
        | some c =>
          exfalso
          cases hp : s.pendingEx with
          | none => exact hx hp
          | some ex => exact hno c ex hr hp
      split
      · exact EInv.call hw hdel _ _
      · constructor
        · intro ht
          rcases h.told ht with h1 | h1 | ⟨ex, c, h1⟩
          · exact .inl h1
          · exact .inr (.inl h1)
          · rw [hs] at h1
            rcases List.mem_cons.1 h1 with h1 | h1
            · cases h1
            · exact .inr (.inr ⟨ex, c, List.mem_cons_of_mem _ h1⟩)
        · intro f hf hfd
          rcases List.mem_cons.1 (show f ∈ .out :: k from hf) with rfl | hf
          · cases hfd
          · exact hdel f hf hfd
        · intro hx
          rcases hw hx with h1 | h1
          · exact .inl h1
          · exact .inr (List.mem_cons_of_mem _ h1)
  | err1 ex c =>
    dsimp only
    rw [if_pos (hal rfl)]
    have hdel : ∀ f ∈ k, toldF f = true → ∃ o ∈ s.log, Told o :=
      fun f hf => h.deliv f (by rw [hs]; exact List.mem_cons_of_mem _ hf)
    have hwk : .setRest ∈ s.stack → Frame.setRest ∈ k := by
      intro hm
      rw [hs] at hm
      rcases List.mem_cons.1 hm with hm | hm
      · cases hm
      · exact hm
    unfold St.err1
    split
    · rename_i cb hcb
      have hT : ∃ o ∈ s.log ++ [match ex with
          | .eof _ => Obs.rdEof cb
          | .err _ => .rdErr cb ex], Told o := by
        refine ⟨_, List.mem_append_right _ List.mem_cons_self, ?_⟩
        cases ex
        · exact .inl ⟨cb, rfl⟩
        · exact .inr ⟨cb, _, rfl⟩
      constructor
      · intro _; exact .inl hT
      · intro f _ _; exact hT
      · intro _; exact .inl rfl
    · rename_i hcb
      split
      · constructor
        · intro _; exact .inr (.inl (by simp [St.push]))
        · intro f hf hfd
          rcases List.mem_cons.1 (show f ∈ .err2 ex c false :: k from hf) with rfl | hf
          · cases hfd
          · exact hdel f hf hfd
        · intro _; exact .inl hcb
      · rename_i ex' hp
        constructor
        · intro _
          refine .inr (.inl ?_)
          show s.pendingEx ≠ none
          rw [show s.pendingEx = _ from hp]; simp
        · intro f hf hfd
          rcases List.mem_cons.1 (show f ∈ .err2 ex c false :: k from hf) with rfl | hf
          · cases hfd
          · exact hdel f hf hfd
        · intro _; exact .inl hcb
  | err2 ex c d =>
    dsimp only
    rw [if_pos (hal rfl)]
    have hd : d = false ∨ toldF (.err2 ex c d) = true := by cases d <;> simp [toldF]
    unfold St.err2
    split
    · refine h.plain hs ⟨by simp, by simp⟩ rfl rfl [] (by simp [St.push]) (by simp)
        [.errReq _ ex, .err3 c d] rfl ?_
      intro g hg
      rcases List.mem_cons.1 hg with rfl | hg
      · exact .inl rfl
      · rw [List.mem_singleton.1 hg]
        exact hd.imp (fun e => by rw [e]; rfl) id
    · refine h.plain hs ⟨by simp, by simp⟩ rfl rfl [] (by simp [St.push]) (by simp)
        [.err3 c d] rfl ?_
      intro g hg
      rw [List.mem_singleton.1 hg]
      exact hd.imp (fun e => by rw [e]; rfl) id
  | err3 c d =>
    dsimp only
    rw [if_pos (hal rfl)]
    have hd : d = false ∨ toldF (.err3 c d) = true := by cases d <;> simp [toldF]
    unfold St.err3
    dsimp only
    split
    · refine h.plain hs ⟨by simp, by simp⟩ rfl rfl [] (by simp [St.push]) (by simp)
        [.out, .err4 d] rfl ?_
      intro g hg
      rcases List.mem_cons.1 hg with rfl | hg
      · exact .inl rfl
      · rw [List.mem_singleton.1 hg]
        exact hd.imp (fun e => by rw [e]; rfl) id
    · refine h.plain hs ⟨by simp, by simp⟩ rfl rfl [] (by simp [St.push]) (by simp)
        [.err4 d] rfl ?_
      intro g hg
      rw [List.mem_singleton.1 hg]
      exact hd.imp (fun e => by rw [e]; rfl) id
  | err4 d =>
    dsimp only
    rw [if_pos (hal rfl)]
    unfold St.err4
    split
    · rename_i hd
      have hT := h.deliv (.err4 d) (by rw [hs]; exact List.mem_cons_self) hd
      exact ⟨fun _ => .inl hT, fun _ _ _ => hT, fun hx => absurd rfl hx⟩
    · exact h.plain hs ⟨by simp, by simp⟩ rfl rfl [] (by simp) (by simp) [] rfl (by simp)
  | start n =>
    rcases start_repl { s with stack := k } n with hr | hr
    · exact h.dull hs ⟨by simp, by simp⟩ (dull_start _ _) [] hr.stack (by simp)
    · exact h.dull hs ⟨by simp, by simp⟩ (dull_start _ _) [.out] hr.stack (told1 rfl)
  | errReq n ex =>
    rcases errReq_repl { s with stack := k } n ex with hr | ⟨n', hr⟩ | ⟨n', hr⟩
    · exact h.dull hs ⟨by simp, by simp⟩ (dull_errReq _ _ _) [] hr.stack (by simp)
    · exact h.dull hs ⟨by simp, by simp⟩ (dull_errReq _ _ _) _ hr.stack (told1 rfl)
    · exact h.dull hs ⟨by simp, by simp⟩ (dull_errReq _ _ _) _ hr.stack (told2 rfl rfl)
  | succ n =>
    rcases succ_repl { s with stack := k } n with hr | hr | ⟨_, n', hr⟩ | ⟨_, n', hr⟩
    · exact h.dull hs ⟨by simp, by simp⟩ (dull_succ _ _) [] hr.stack (by simp)
    · exact h.dull hs ⟨by simp, by simp⟩ (dull_succ _ _) _ hr.stack (told1 rfl)
    · exact h.dull hs ⟨by simp, by simp⟩ (dull_succ _ _) _ hr.stack (told2 rfl rfl)
    · exact h.dull hs ⟨by simp, by simp⟩ (dull_succ _ _) _ hr.stack (told3 rfl rfl rfl)
  | succ2 n =>
    dsimp only
    rw [if_pos (hal rfl)]
    unfold St.succ2
    split
    · exact h.plain hs ⟨by simp, by simp⟩ rfl rfl [] (by simp) (by simp) [] rfl (by simp)
    · split
      · exact h.plain hs ⟨by simp, by simp⟩ rfl rfl [] (by simp [St.push]) (by simp) [.start _] rfl
          (told1 rfl)
      · exact h.plain hs ⟨by simp, by simp⟩ rfl rfl [] (by simp) (by simp) [] rfl (by simp)
  | unguard =>
    dsimp only
    rw [if_pos (hal rfl)]
    unfold St.unguard
    split
    · exact h.dull hs ⟨by simp, by simp⟩ (dull_dtor _) [] (congrArg Life.stack (dtor_life _))
        (by simp)
    · exact h.plain hs ⟨by simp, by simp⟩ rfl rfl [] (by simp) (by simp) [] rfl (by simp)
  | destroy2 =>
    dsimp only
    rw [if_pos (hal rfl)]
    unfold St.destroy2
    dsimp only
    split
    · obtain ⟨a, b, l, c, d⟩ := dull_dtor { s with stack := k, reads := false, destroyPending := true }
      exact h.plain hs ⟨by simp, by simp⟩ a b l c d [] (congrArg Life.stack (dtor_life _)) (by simp)
    · exact h.plain hs ⟨by simp, by simp⟩ rfl rfl [] (by simp) (by simp) [] rfl (by simp)
  | inBuf c b => exact absurd rfl (hin c b)
  | inRead => exact absurd rfl hrd
  | out => exact absurd rfl hout

/-- A call from outside. -/
theorem EInv.enter {s t : St} (h : EInv s) (hr : t.readCb = s.readCb)
    (hp : t.pendingEx = s.pendingEx) (l : List Obs) (hl : t.log = s.log ++ l)
    (hi : ∀ o ∈ l, ¬ IsErr o) (fs : List Frame) (ht : t.stack = fs ++ s.stack)
    (ifs : ∀ g ∈ fs, toldF g = false) : EInv t :=
  h.skip hr hp l hl hi [] fs s.stack rfl ht (by simp) (fun g hg => .inl (ifs g hg))

theorem EInv.step {s : St} (hS : SInv s) (h : EInv s) {o : Op} (ha : allowed s o = true) :
    EInv (step s o) := by
  cases o with
  | tau =>
    unfold allowed at ha
    unfold Fizz.Async.step
    dsimp only at ha ⊢
    split at ha
    · rename_i f k hs
      rw [Bool.and_eq_true] at ha
      refine h.runFrame hS hs ?_ ?_ ?_
      · rintro c b rfl; simp at ha
      · rintro rfl; simp [St.outside, hs] at ha
      · rintro rfl; simp [St.outside, hs] at ha
    · cases ha
  | ret =>
    unfold Fizz.Async.step
    dsimp only
    split
    · rename_i k hs
      exact h.plain hs ⟨by simp, by simp⟩ rfl rfl [.gaveRet] rfl (by simp [IsErr]) [] rfl (by simp)
    · rename_i k hs
      exact h.plain hs ⟨by simp, by simp⟩ rfl rfl [] (by simp) (by simp) [] rfl (by simp)
    · exact h
  | retBuf x =>
    unfold Fizz.Async.step
    dsimp only
    split
    · rename_i c d k hs
      have hfail : ∀ ex, EInv ((St.say { s with stack := k } (.bufFail c ex)).callError ex true) := by
        intro ex
        refine EInv.call ?_ ?_ ex true
        · intro hx
          rcases h.wait hx with h1 | h1
          · exact .inl h1
          · rw [hs] at h1
            rcases List.mem_cons.1 h1 with h1 | h1
            · cases h1
            · exact .inr h1
        · intro f hf hfd
          obtain ⟨o, h1, h2⟩ := h.deliv f (by rw [hs]; exact List.mem_cons_of_mem _ hf) hfd
          exact ⟨o, List.mem_append_left _ h1, h2⟩
      split
      · exact hfail _
      · exact hfail _
      · exact h.plain hs ⟨by simp, by simp⟩ rfl rfl [.gave _ _] rfl (by simp [IsErr])
          [.inRead, .loop _] rfl (told2 rfl rfl)
    · exact h
  | writeChain data flags cb b sh c rs =>
    unfold Fizz.Async.step
    dsimp only
    unfold St.writeChain
    dsimp only
    split
    · split
      · exact h.enter rfl rfl [] (by simp [St.crashed]) (by simp) [] rfl (by simp)
      · split
        · exact h.enter rfl rfl [.wrote _ data flags cb] rfl (by simp [IsErr]) [] rfl (by simp)
        · exact h.enter rfl rfl [.wrote _ data flags cb] rfl (by simp [IsErr]) [] rfl (by simp)
    · split
      · exact h.enter rfl rfl [.wrote _ data flags cb] rfl (by simp [IsErr]) [.start _] rfl
          (by simp [toldF])
      · exact h.enter rfl rfl [.direct _ data flags cb] rfl (by simp [IsErr]) [.out] rfl
          (by simp [toldF])
  | setReadCB c =>
    unfold Fizz.Async.step
    dsimp only
    unfold St.setReadCB
    dsimp only
    have key : ∀ fs : List Frame, (∀ f ∈ fs, toldF f = false) → (c = none ∨ .setRest ∈ fs) →
        EInv ((St.say { s with readCb := c } (.install c)).push fs) := by
      intro fs hfs hc
      constructor
      · rintro ⟨o, ho, hio⟩
        rcases List.mem_append.1 (show o ∈ s.log ++ [.install c] from ho) with ho | ho
        · rcases h.told ⟨o, ho, hio⟩ with ⟨o', h1, h2⟩ | h1 | ⟨ex, c, h1⟩
          · exact .inl ⟨o', List.mem_append_left _ h1, h2⟩
          · exact .inr (.inl h1)
          · exact .inr (.inr ⟨ex, c, List.mem_append_right _ h1⟩)
        · rw [List.mem_singleton.1 ho] at hio; simp [IsErr] at hio
      · intro f hf hfd
        rcases List.mem_append.1 (show f ∈ fs ++ s.stack from hf) with hf | hf
        · rw [hfs f hf] at hfd; cases hfd
        · obtain ⟨o, h1, h2⟩ := h.deliv f hf hfd
          exact ⟨o, List.mem_append_left _ h1, h2⟩
      · intro _
        rcases hc with hc | hc
        · exact .inl hc
        · exact .inr (List.mem_append_left _ hc)
    split
    · split
      · exact key [.deliver none, .setRest] (by simp [toldF]) (.inr (by simp))
      · exact key [.setRest] (by simp [toldF]) (.inr (by simp))
    · rename_i hc
      refine key [] (by simp) (.inl ?_)
      cases c
      · rfl
      · exact absurd rfl hc
  | preReceived d =>
    exact h.enter rfl rfl [.pre d] rfl (by simp [IsErr]) [] rfl (by simp)
  | destroy =>
    exact h.enter rfl rfl [] (by simp [Fizz.Async.step, St.push]) (by simp) [.out, .destroy2] rfl
      (by simp [toldF])
  | setNoPartial x => exact h.enter rfl rfl [.noPartial x] rfl (by simp [IsErr]) [] rfl (by simp)
  | setSecretCb _ =>
    exact h.enter rfl rfl [] (by simp [Fizz.Async.step]) (by simp) [] rfl (by simp)
  | arrive d =>
    exact h.enter rfl rfl [.arrive d] rfl (by simp [IsErr]) [.deliver (some d), .unguard] rfl
      (by simp [toldF])
  | error ex close =>
    refine EInv.call (s := s.say (.error ex)) h.wait ?_ ex close
    intro f hf hfd
    obtain ⟨o, h1, h2⟩ := h.deliv f hf hfd
    exact ⟨o, List.mem_append_left _ h1, h2⟩
  | compOk n =>
    exact h.enter rfl rfl [.compOk n] rfl (by simp [IsErr]) [.succ n] rfl (by simp [toldF])
  | compErr n ex =>
    exact h.enter rfl rfl [.compErr n ex] rfl (by simp [IsErr]) [.errReq (some n) ex] rfl
      (by simp [toldF])
  | transport g t =>
    exact h.enter rfl rfl [] (by simp [Fizz.Async.step]) (by simp) [] rfl (by simp)
  | transportRead =>
    obtain ⟨a, b, l, c, d⟩ := dull_checkBufLen s
    exact h.enter a b l c d [] (congrArg Life.stack (life_checkBufLen s)) (by simp)

theorem error_run {ops : List Op} {s : St} (h : Run ops s) : EInv s := by
  induction h with
  | new =>
    refine ⟨?_, ?_, ?_⟩
    · rintro ⟨o, ho, _⟩; cases ho
    · intro f hf; cases hf
    · intro hx; exact absurd rfl hx
  | step o hr ha ih => exact ih.step (read_run hr).1 ha

end Fizz.Async

import Verif.Async.StackStep

/-! # The log of every run is accepted by the reference reader -/

namespace Fizz.Async

open Spec

theorem R.run_append (r : R) (l : List Obs) (o : Obs) :
    R.run r (l ++ [o]) = (R.run r l).bind (fun r => r.next o) := by
  induction l generalizing r with
  | nil => simp [R.run]
  | cons a l ih =>
    simp only [List.cons_append, R.run]
    cases r.next a with
    | none => rfl
    | some r' => exact ih r'

/-- Bytes held by a frame. -/
def fedF : Frame → Bytes
  | .loop d => d.getD []
  | .inBuf _ d => d
  | _ => []

/-- Bytes about to be taken over by a frame. -/
def comingF : Frame → Bytes
  | .deliver d => d.getD []
  | _ => []

def fed (k : List Frame) : Bytes := (k.map fedF).flatten
def coming (k : List Frame) : Bytes := (k.map comingF).flatten
def readers (k : List Frame) : Nat := k.countP (· == .inRead)

theorem fed_cons (f : Frame) (k : List Frame) : fed (f :: k) = fedF f ++ fed k := rfl
theorem coming_cons (f : Frame) (k : List Frame) : coming (f :: k) = comingF f ++ coming k := rfl
theorem readers_cons (f : Frame) (k : List Frame) :
    readers (f :: k) = readers k + if f = .inRead then 1 else 0 := by
  unfold readers
  rw [List.countP_cons]
  by_cases h : f = .inRead
  · subst h; rfl
  · have : (f == Frame.inRead) = false := by simpa using h
    rw [this, if_neg h]; rfl

theorem fedF_nil {f : Frame} (h : f.delivering = false) : fedF f = [] ∧ comingF f = [] := by
  cases f <;> first | exact ⟨rfl, rfl⟩ | cases h

theorem fed_nil : ∀ {k : List Frame}, (∀ g ∈ k, Frame.delivering g = false) →
    fed k = [] ∧ coming k = []
  | [], _ => ⟨rfl, rfl⟩
  | f :: k, h => by
    have h1 := fedF_nil (h f List.mem_cons_self)
    have h2 := fed_nil (k := k) (fun g hg => h g (List.mem_cons_of_mem _ hg))
    rw [fed_cons, coming_cons, h1.1, h1.2, h2.1, h2.2]
    exact ⟨rfl, rfl⟩

theorem coming_calm {k : List Frame} (hs : Stacked k) (hc : ∀ g ∈ k.head?, g.transient = false) :
    coming k = [] := by
  unfold coming
  rw [List.flatten_eq_nil_iff]
  intro b hb
  obtain ⟨f, hf, rfl⟩ := List.mem_map.1 hb
  cases f <;> first | rfl | skip
  exact absurd hf (no_transient hs hc rfl)

structure RInv (s : St) (r : R) : Prop where
  run : R.run {} s.log = some r
  cb : r.cb = s.readCb
  busy : r.busy = readers s.stack
  bytes : r.bytes = s.appReceived + (coming s.stack).length
  held : r.q = fed s.stack ++ s.appBuf.getD [] ++ coming s.stack
  calm : s.appBuf ≠ none → s.readCb = none ∨ ∃ k, s.stack = .deliver none :: k
  buf : BInv s
  room : ∀ c d k, s.stack = .inBuf c d :: k → s.readCb = some c ∧ d ≠ []

/-- Calls the reference reader takes no notice of. -/
def InertO (o : Obs) : Prop := ∀ r : R, r.next o = some r

/-- Frames the reference reader takes no notice of. -/
def InertF (f : Frame) : Prop := f.delivering = false ∧ f ≠ .inRead

theorem InertF.nil {f : Frame} (h : InertF f) (k : List Frame) :
    fed (f :: k) = fed k ∧ coming (f :: k) = coming k ∧ readers (f :: k) = readers k := by
  have := fedF_nil h.1
  rw [fed_cons, coming_cons, readers_cons, this.1, this.2, if_neg h.2]
  exact ⟨rfl, rfl, rfl⟩

theorem inertL : ∀ {fs : List Frame}, (∀ f ∈ fs, InertF f) → ∀ k : List Frame,
    fed (fs ++ k) = fed k ∧ coming (fs ++ k) = coming k ∧ readers (fs ++ k) = readers k
  | [], _, _ => ⟨rfl, rfl, rfl⟩
  | f :: fs, h, k => by
    have h1 := (h f List.mem_cons_self).nil (fs ++ k)
    have h2 := inertL (fun g hg => h g (List.mem_cons_of_mem _ hg)) k
    rw [List.cons_append, h1.1, h1.2.1, h1.2.2]
    exact h2

/-- What the reader invariant reads besides the stack and the log. -/
structure RView where
  readCb : Option Rcb
  appBuf : Option Bytes
  appReceived : Nat

def St.rview (s : St) : RView := ⟨s.readCb, s.appBuf, s.appReceived⟩

theorem RInv.skip {s t : St} {r : R} (h : RInv s r) (hv : t.rview = s.rview)
    (l : List Obs) (hl : t.log = s.log ++ l) (hi : ∀ o ∈ l, InertO o)
    (old fs k : List Frame) (ho : s.stack = old ++ k) (ht : t.stack = fs ++ k)
    (io : ∀ f ∈ old, InertF f) (ifs : ∀ f ∈ fs, InertF f)
    (hk : Calm k ∨ (fs = [] ∧ old = [])) : RInv t r := by
  have e1 : t.readCb = s.readCb := congrArg RView.readCb hv
  have e2 : t.appBuf = s.appBuf := congrArg RView.appBuf hv
  have e3 : t.appReceived = s.appReceived := congrArg RView.appReceived hv
  have ho' := inertL io k
  have hf' := inertL ifs k
  rw [← ho] at ho'
  rw [← ht] at hf'
  have hmem : ∀ f ∈ t.stack, f.delivering = true → f ∈ s.stack := by
    intro f hf hd
    rw [ht] at hf
    rcases List.mem_append.1 hf with hf | hf
    · have := (ifs f hf).1; rw [hd] at this; cases this
    · rw [ho]; exact List.mem_append_right _ hf
  refine ⟨?_, ?_, ?_, ?_, ?_, ?_, ?_, ?_⟩
  · rw [hl]
    have : ∀ (l : List Obs) (l0 : List Obs), (∀ o ∈ l, InertO o) → R.run {} l0 = some r →
        R.run {} (l0 ++ l) = some r := by
      intro l
      induction l with
      | nil => intro l0 _ h0; rw [List.append_nil]; exact h0
      | cons o l ih =>
        intro l0 hi h0
        have : l0 ++ o :: l = (l0 ++ [o]) ++ l := by simp
        rw [this]
        refine ih _ (fun o' ho' => hi o' (List.mem_cons_of_mem _ ho')) ?_
        rw [R.run_append, h0]
        exact hi o List.mem_cons_self r
    exact this l _ hi h.run
  · rw [e1]; exact h.cb
  · rw [hf'.2.2, ← ho'.2.2]; exact h.busy
  · rw [hf'.2.1, ← ho'.2.1, e3]; exact h.bytes
  · rw [hf'.2.1, ← ho'.2.1, hf'.1, ← ho'.1, e2]; exact h.held
  · rw [e1, e2]
    intro hb
    rcases h.calm hb with h' | ⟨k', hk'⟩
    · exact .inl h'
    · right
      rcases hk with hk | ⟨h1, h2⟩
      · exfalso
        rw [ho] at hk'
        match old, hk', io with
        | [], hk', _ =>
          have := hk.tr (.deliver none) (by rw [show k = _ from hk']; rfl)
          cases this
        | f :: old, hk', io =>
          have := (io f List.mem_cons_self).1
          rw [(List.cons.inj hk').1] at this
          cases this
      · subst h1 h2
        exact ⟨k', by rw [ht]; rw [ho] at hk'; exact hk'⟩
  · refine h.buf.stable (.inl e2) (fun f hf hff => hmem f hf ?_)
    cases f <;> first | rfl | cases hff
  · intro c d k' hk'
    rw [e1]
    rw [ht] at hk'
    match fs, hk', ifs with
    | [], hk', _ =>
      rcases hk with hk | ⟨h1, h2⟩
      · have := hk.tr (.inBuf c d) (by rw [show k = _ from hk']; rfl)
        cases this
      · subst h2
        exact h.room c d k' (by rw [ho]; exact hk')
    | f :: fs, hk', ifs =>
      have := (ifs f List.mem_cons_self).1
      rw [(List.cons.inj hk').1] at this
      cases this

/-- How the write-side functions look to the reader: nothing it cares about happens. -/
def Quiet (s t : St) : Prop :=
  t.rview = s.rview ∧ ∃ l, t.log = s.log ++ l ∧ ∀ o ∈ l, InertO o

theorem Quiet.refl (s : St) : Quiet s s := ⟨rfl, [], by simp, by simp⟩

theorem Quiet.one {s t : St} (hv : t.rview = s.rview) (o : Obs) (hl : t.log = s.log ++ [o])
    (ho : InertO o) : Quiet s t :=
  ⟨hv, [o], hl, by simpa using ho⟩

theorem Quiet.none {s t : St} (hv : t.rview = s.rview) (hl : t.log = s.log) : Quiet s t :=
  ⟨hv, [], by simp [hl], by simp⟩

theorem advance_quiet (s : St) (r : Nat) (q : Req) :
    (s.advanceOnBase r q).rview = s.rview ∧ (s.advanceOnBase r q).log = s.log := by
  unfold St.advanceOnBase
  split
  · split
    · exact ⟨rfl, rfl⟩
    · split <;> exact ⟨rfl, rfl⟩
  · exact ⟨rfl, rfl⟩

theorem handDown_quiet (s : St) (r : Nat) (b : Bytes) (f : Flags) : Quiet s (s.handDown r b f) :=
  .one rfl (.down r b f) rfl (fun _ => rfl)

theorem start_quiet (s : St) (r : Nat) : Quiet s (s.startWriting r) := by
  unfold St.startWriting
  split
  · exact .none rfl rfl
  · rename_i q _
    by_cases h : (!q.base || !s.alive) = true
    · rw [if_pos h]; exact .none rfl rfl
    · rw [if_neg h]
      dsimp only
      split
      · exact .none rfl rfl
      · split
        · exact .none rfl rfl
        · exact ⟨(handDown_quiet _ r _ _).1, (handDown_quiet _ r _ _).2⟩

theorem errReq_quiet (s : St) (r : Option Nat) (ex : Ex) : Quiet s (s.errReq r ex) := by
  unfold St.errReq
  split
  · exact .refl s
  · split
    · exact .none rfl rfl
    · rename_i q _
      have := advance_quiet s (by assumption) q
      exact .one this.1 (.wErr _ q.written ex q.cb) (congrArg (· ++ [_]) this.2) (fun _ => rfl)

theorem succ_quiet (s : St) (r : Nat) : Quiet s (s.succ r) := by
  unfold St.succ
  split
  · exact .none rfl rfl
  · rename_i q _
    by_cases h : q.data ≠ []
    · rw [if_pos h]; exact .none rfl rfl
    · rw [if_neg h]
      by_cases h2 : (!q.base || !s.alive) = true
      · rw [if_pos h2]; exact .none rfl rfl
      · rw [if_neg h2]
        have := advance_quiet s r q
        exact .one this.1 (.wOk r q.cb) (congrArg (· ++ [_]) this.2) (fun _ => rfl)

theorem succ2_quiet (s : St) (n : Option Nat) : Quiet s (s.succ2 n) := by
  unfold St.succ2
  split
  · exact .refl s
  · split
    · exact .none rfl rfl
    · exact .refl s

theorem dtor_quiet (s : St) : Quiet s s.dtor := by
  unfold St.dtor
  dsimp only
  split
  · exact .none rfl rfl
  · split <;> exact .none rfl rfl

theorem err2_quiet (s : St) (ex : Ex) (c d : Bool) : Quiet s (s.err2 ex c d) := by
  unfold St.err2
  split <;> exact .none rfl rfl

theorem err3_quiet (s : St) (c d : Bool) : Quiet s (s.err3 c d) := by
  unfold St.err3
  cases c <;> exact .none rfl rfl

theorem err4_quiet (s : St) (d : Bool) : Quiet s (s.err4 d) := by
  unfold St.err4
  cases d <;> exact .none rfl rfl

theorem checkBufLen_quiet (s : St) : Quiet s s.checkBufLen := by
  unfold St.checkBufLen
  split <;> exact .none rfl rfl

theorem setRest_quiet (s : St) : Quiet s s.setRest := by
  unfold St.setRest
  split
  · exact .none rfl rfl
  · split <;> exact .none rfl rfl

end Fizz.Async

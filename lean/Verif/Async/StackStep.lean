import Verif.Async.Stack

/-! # Every step keeps the stack in order -/

namespace Fizz.Async

@[simp] theorem life_say (s : St) (o : Obs) : (s.say o).life = s.life := rfl
@[simp] theorem life_push (s : St) (fs : List Frame) :
    (s.push fs).life = ⟨s.alive, s.destroyCalled, s.destroyPending, fs ++ s.stack⟩ := rfl
@[simp] theorem life_crashed (s : St) : s.crashed.life = s.life := rfl
@[simp] theorem life_setHeap (s : St) (r : Nat) (q : Option Req) :
    (s.setHeap r q).life = s.life := rfl

theorem life_checkBufLen (s : St) : s.checkBufLen.life = s.life := by
  unfold St.checkBufLen
  split <;> rfl

theorem life_advance (s : St) (r : Nat) (q : Req) : (s.advanceOnBase r q).life = s.life := by
  unfold St.advanceOnBase
  split
  · split
    · rfl
    · split <;> rfl
  · rfl

/-- What a program point does to the stack: it is replaced by `fs`. -/
def Repl (s t : St) (fs : List Frame) : Prop :=
  t.life = ⟨s.alive, s.destroyCalled, s.destroyPending, fs ++ s.stack⟩

theorem deliver_repl (s : St) (d : Option Bytes) : ∃ d', Repl s (s.deliver d) [.loop d'] := by
  unfold St.deliver
  split <;> exact ⟨_, rfl⟩

theorem loop_repl (s : St) (d : Option Bytes) :
    Repl s (s.loop d) [] ∨ Repl s (s.loop d) [.out] ∨ ∃ c b, Repl s (s.loop d) [.inBuf c b] := by
  unfold St.loop
  split
  · split
    · exact .inr (.inl rfl)
    · split
      · exact .inl (life_checkBufLen _)
      · exact .inr (.inr ⟨_, _, rfl⟩)
  · exact .inl (life_checkBufLen _)
  · exact .inl (life_checkBufLen _)
  · exact .inl (life_checkBufLen _)

theorem setRest_repl (s : St) :
    (∃ ex, Repl s s.setRest [.err1 ex true, .unguard]) ∨ Repl s s.setRest [.out] := by
  unfold St.setRest
  split
  · exact .inl ⟨_, rfl⟩
  · split
    · exact .inl ⟨_, rfl⟩
    · exact .inr rfl

theorem err1_repl (s : St) (ex : Ex) (c : Bool) :
    Repl s (s.err1 ex c) [.out, .err2 ex c true] ∨ Repl s (s.err1 ex c) [.err2 ex c false] := by
  unfold St.err1
  split
  · exact .inl rfl
  · split <;> exact .inr rfl

theorem err2_repl (s : St) (ex : Ex) (c d : Bool) :
    (∃ r, s.imm = some r ∧ Repl s (s.err2 ex c d) [.errReq (some r) ex, .err3 c d]) ∨
      (s.imm = none ∧ Repl s (s.err2 ex c d) [.err3 c d]) := by
  unfold St.err2
  split
  · rename_i r hr; exact .inl ⟨r, hr, rfl⟩
  · rename_i hr; exact .inr ⟨hr, rfl⟩

theorem err3_repl (s : St) (c d : Bool) :
    Repl s (s.err3 c d) [.out, .err4 d] ∨ Repl s (s.err3 c d) [.err4 d] := by
  unfold St.err3
  cases c
  · exact .inr rfl
  · exact .inl rfl

theorem err4_repl (s : St) (d : Bool) : Repl s (s.err4 d) [] := by
  unfold St.err4
  cases d <;> rfl

theorem start_repl (s : St) (r : Nat) :
    Repl s (s.startWriting r) [] ∨ Repl s (s.startWriting r) [.out] := by
  unfold St.startWriting
  split
  · exact .inl rfl
  · rename_i q _
    by_cases h : (!q.base || !s.alive) = true
    · rw [if_pos h]; exact .inl rfl
    · rw [if_neg h]
      dsimp only
      split
      · exact .inl rfl
      · split
        · exact .inl rfl
        · exact .inr rfl

theorem errReq_repl (s : St) (r : Option Nat) (ex : Ex) :
    Repl s (s.errReq r ex) [] ∨
      (∃ n, Repl s (s.errReq r ex) [.errReq n ex]) ∨
      (∃ n, Repl s (s.errReq r ex) [.out, .errReq n ex]) := by
  unfold St.errReq
  split
  · exact .inl rfl
  · split
    · exact .inl rfl
    · rename_i q _
      have := life_advance s (by assumption) q
      have e1 := congrArg Life.alive this
      have e2 := congrArg Life.destroyCalled this
      have e3 := congrArg Life.destroyPending this
      have e4 := congrArg Life.stack this
      cases hc : q.cb
      · refine .inr (.inl ⟨q.next, ?_⟩)
        unfold Repl St.errDone
        rw [life_push, hc]
        exact congr (congr (congr (congrArg Life.mk e1) e2) e3) (congrArg _ e4)
      · refine .inr (.inr ⟨q.next, ?_⟩)
        unfold Repl St.errDone
        rw [life_push, hc]
        exact congr (congr (congr (congrArg Life.mk e1) e2) e3) (congrArg _ e4)

theorem succ_repl (s : St) (r : Nat) :
    Repl s (s.succ r) [] ∨ Repl s (s.succ r) [.start r] ∨
      (s.alive = true ∧ ∃ n, Repl s (s.succ r) [.succ2 n, .unguard]) ∨
      (s.alive = true ∧ ∃ n, Repl s (s.succ r) [.out, .succ2 n, .unguard]) := by
  unfold St.succ
  split
  · exact .inl rfl
  · rename_i q _
    by_cases h : q.data ≠ []
    · rw [if_pos h]; exact .inr (.inl rfl)
    · rw [if_neg h]
      by_cases h2 : (!q.base || !s.alive) = true
      · rw [if_pos h2]; exact .inl rfl
      · rw [if_neg h2]
        have hal : s.alive = true := by
          cases h' : s.alive
          · rw [h'] at h2; simp at h2
          · rfl
        have := life_advance s r q
        have e1 := congrArg Life.alive this
        have e2 := congrArg Life.destroyCalled this
        have e3 := congrArg Life.destroyPending this
        have e4 := congrArg Life.stack this
        cases hc : q.cb
        · refine .inr (.inr (.inl ⟨hal, q.next, ?_⟩))
          unfold Repl St.succDone
          rw [life_push, hc]
          exact congr (congr (congr (congrArg Life.mk e1) e2) e3) (congrArg _ e4)
        · refine .inr (.inr (.inr ⟨hal, q.next, ?_⟩))
          unfold Repl St.succDone
          rw [life_push, hc]
          exact congr (congr (congr (congrArg Life.mk e1) e2) e3) (congrArg _ e4)

theorem succ2_repl (s : St) (n : Option Nat) :
    Repl s (s.succ2 n) [] ∨ ∃ r, Repl s (s.succ2 n) [.start r] := by
  unfold St.succ2
  split
  · exact .inl rfl
  · split
    · exact .inr ⟨_, rfl⟩
    · exact .inl rfl

theorem dtor_life (s : St) : s.dtor.life = ⟨false, s.destroyCalled, s.destroyPending, s.stack⟩ := by
  unfold St.dtor
  dsimp only
  split
  · rfl
  · split <;> rfl

/-- The destructor runs when nothing in progress will touch the object again. -/
theorem SInv.dtor {s : St} {f : Frame} {k : List Frame} (h : SInv s) (hs : s.stack = f :: k)
    (hc : s.destroyCalled = true) (hg : guards k = 0) (he : exposed k = false)
    (hd : Frame.destroy2 ∉ k) {t : St} (e : t.life = ⟨false, true, true, k⟩) : SInv t := by
  have e1 : t.alive = false := congrArg Life.alive e
  have e2 : t.destroyCalled = true := congrArg Life.destroyCalled e
  have e3 : t.destroyPending = true := congrArg Life.destroyPending e
  have e4 : t.stack = k := congrArg Life.stack e
  have hst := h.stacked
  rw [hs] at hst
  refine ⟨?_, ?_, ?_, ?_, ?_, ?_, ?_⟩
  · rw [e4]; exact hst.2
  · rw [e4]
    exact fun _ => all_harmless hst.2 hg he hd hst.1.calm
  · rw [e1]; exact fun _ hx => by cases hx
  · rw [e4]; exact fun _ => he
  · rw [e4]; exact fun _ => hd
  · rw [e2]; exact fun hx => by cases hx
  · rw [e2, e3]; exact fun _ => ⟨rfl, rfl⟩

theorem SInv.runFrame {s : St} (h : SInv s) {f : Frame} {k : List Frame} (hs : s.stack = f :: k)
    (hin : ∀ c b, f ≠ .inBuf c b) (hrd : f ≠ .inRead) (hout : f ≠ .out) :
    SInv ({ s with stack := k }.runFrame f) := by
  have hst := h.stacked
  rw [hs] at hst
  have A := hst.1
  have hal : f.harmless = false → s.alive = true := by
    intro hf
    cases ha : s.alive
    · rw [h.dead ha f (by rw [hs]; exact List.mem_cons_self)] at hf; cases hf
    · rfl
  have hC : Calm k := A.low hrd
  have key : ∀ {t : St} (fs : List Frame), Repl { s with stack := k } t fs → f ≠ .unguard →
      Ons fs k → (s.alive = true ∨ ∀ f ∈ fs, f.harmless = true) → Frame.destroy2 ∉ fs → SInv t :=
    fun fs hr hf ho ha hd => h.repl hs hf fs ho ha hd hr
  unfold St.runFrame
  cases f with
  | deliver d =>
    have ha := hal rfl
    dsimp only
    rw [if_pos ha]
    obtain ⟨d', hd'⟩ := deliver_repl { s with stack := k } d
    exact key _ hd' (by simp) ⟨above_delivering rfl (A.loops rfl) (A.once rfl), trivial⟩ (.inl ha)
      (by simp)
  | loop d =>
    have ha := hal rfl
    dsimp only
    rw [if_pos ha]
    rcases loop_repl { s with stack := k } d with hr | hr | ⟨c, b, hr⟩
    · exact key _ hr (by simp) trivial (.inl ha) (by simp)
    · exact key _ hr (by simp) ⟨above_plain rfl hC, trivial⟩ (.inl ha) (by simp)
    · exact key _ hr (by simp) ⟨above_delivering rfl (A.loops rfl) (A.once rfl), trivial⟩ (.inl ha)
        (by simp)
  | setRest =>
    have ha := hal rfl
    dsimp only
    rw [if_pos ha]
    rcases setRest_repl { s with stack := k } with ⟨ex, hr⟩ | hr
    · exact key _ hr (by simp) (ons_error hC) (.inl ha) (by simp)
    · exact key _ hr (by simp) ⟨above_plain rfl hC, trivial⟩ (.inl ha) (by simp)
  | err1 ex c =>
    have ha := hal rfl
    dsimp only
    rw [if_pos ha]
    have hg := A.err1 _ _ rfl
    rcases err1_repl { s with stack := k } ex c with hr | hr
    · exact key _ hr (by simp)
        ⟨above_plain rfl (calm_cons rfl (by simp)), above_guard rfl hC hg, trivial⟩ (.inl ha)
        (by simp)
    · exact key _ hr (by simp) ⟨above_guard rfl hC hg, trivial⟩ (.inl ha) (by simp)
  | err2 ex c d =>
    have ha := hal rfl
    dsimp only
    rw [if_pos ha]
    have hg := A.err2 _ _ _ rfl
    rcases err2_repl { s with stack := k } ex c d with ⟨r, _, hr⟩ | ⟨_, hr⟩
    · exact key _ hr (by simp)
        ⟨above_plain rfl (calm_cons rfl (by simp)), above_guard rfl hC hg, trivial⟩ (.inl ha)
        (by simp)
    · exact key _ hr (by simp) ⟨above_guard rfl hC hg, trivial⟩ (.inl ha) (by simp)
  | err3 c d =>
    have ha := hal rfl
    dsimp only
    rw [if_pos ha]
    have hg := A.err3 _ _ rfl
    rcases err3_repl { s with stack := k } c d with hr | hr
    · exact key _ hr (by simp)
        ⟨above_plain rfl (calm_cons rfl (by simp)), above_guard rfl hC hg, trivial⟩ (.inl ha)
        (by simp)
    · exact key _ hr (by simp) ⟨above_guard rfl hC hg, trivial⟩ (.inl ha) (by simp)
  | err4 d =>
    have ha := hal rfl
    dsimp only
    rw [if_pos ha]
    exact key _ (err4_repl _ d) (by simp) trivial (.inl ha) (by simp)
  | start r =>
    have ha := hal rfl
    rcases start_repl { s with stack := k } r with hr | hr
    · exact key _ hr (by simp) trivial (.inl ha) (by simp)
    · exact key _ hr (by simp) ⟨above_plain rfl hC, trivial⟩ (.inl ha) (by simp)
  | errReq r ex =>
    rcases errReq_repl { s with stack := k } r ex with hr | ⟨n, hr⟩ | ⟨n, hr⟩
    · exact key _ hr (by simp) trivial (.inr (by simp)) (by simp)
    · exact key _ hr (by simp) ⟨above_plain rfl hC, trivial⟩ (.inr (by simp [Frame.harmless]))
        (by simp)
    · exact key _ hr (by simp)
        ⟨above_plain rfl (calm_cons rfl (by simp)), above_plain rfl hC, trivial⟩
        (.inr (by simp [Frame.harmless])) (by simp)
  | succ r =>
    have ha := hal rfl
    rcases succ_repl { s with stack := k } r with hr | hr | ⟨_, n, hr⟩ | ⟨_, n, hr⟩
    · exact key _ hr (by simp) trivial (.inl ha) (by simp)
    · exact key _ hr (by simp) ⟨above_plain rfl hC, trivial⟩ (.inl ha) (by simp)
    · exact key _ hr (by simp)
        ⟨above_guard rfl (calm_unguard k) (guard_unguard k), above_plain rfl hC, trivial⟩ (.inl ha)
        (by simp)
    · exact key _ hr (by simp)
        ⟨above_plain rfl (calm_cons rfl (by simp)),
          above_guard rfl (calm_unguard k) (guard_unguard k), above_plain rfl hC, trivial⟩
        (.inl ha) (by simp)
  | succ2 n =>
    have ha := hal rfl
    dsimp only
    rw [if_pos ha]
    rcases succ2_repl { s with stack := k } n with hr | ⟨r, hr⟩
    · exact key _ hr (by simp) trivial (.inl ha) (by simp)
    · exact key _ hr (by simp) ⟨above_plain rfl hC, trivial⟩ (.inl ha) (by simp)
  | unguard =>
    have ha := hal rfl
    dsimp only
    rw [if_pos ha]
    unfold St.unguard
    by_cases hp : (s.destroyPending && guards k == 0) = true
    · rw [if_pos hp]
      rw [Bool.and_eq_true, beq_iff_eq] at hp
      have hx := h.shut hp.1
      have hd := h.gone hp.1
      rw [hs] at hx hd
      have hcall : s.destroyCalled = true := by
        cases hc : s.destroyCalled
        · rw [(h.fresh hc).1] at hp; cases hp.1
        · rfl
      refine h.dtor hs hcall hp.2 (exposed_cons.1 hx).1
        (fun hm => hd (List.mem_cons_of_mem _ hm)) ?_
      rw [dtor_life]
      show Life.mk _ s.destroyCalled s.destroyPending k = _
      rw [hcall, hp.1]
    · rw [if_neg hp]
      have e : ({ s with stack := k } : St).life =
          ⟨s.alive, s.destroyCalled, s.destroyPending, k⟩ := rfl
      obtain ⟨h1, h2, h3, h4, h5, h6, h7⟩ := h
      rw [hs] at h1 h2 h3 h4 h5 h6
      refine ⟨h1.2, fun ha g hg => h2 ha g (List.mem_cons_of_mem _ hg), fun hp' _ => ?_,
        fun hp => (exposed_cons.1 (h4 hp)).1, fun hp hm => h5 hp (List.mem_cons_of_mem _ hm),
        fun hc => ⟨(h6 hc).1, fun hm => (h6 hc).2 (List.mem_cons_of_mem _ hm)⟩, h7⟩
      rw [show s.destroyPending = true from hp'] at hp
      show 0 < guards k
      rw [Bool.true_and, beq_iff_eq] at hp
      omega
  | destroy2 =>
    have ha := hal rfl
    dsimp only
    rw [if_pos ha]
    have hD := A.destroy rfl
    have hcall : s.destroyCalled = true := by
      cases hc : s.destroyCalled
      · exact absurd (by rw [hs]; exact List.mem_cons_self) (h.fresh hc).2
      · rfl
    unfold St.destroy2
    dsimp only
    by_cases hg : (guards k == 0) = true
    · rw [if_pos hg]
      refine h.dtor hs hcall (beq_iff_eq.1 hg) hD.1 hD.2 ?_
      rw [dtor_life]
      show Life.mk _ s.destroyCalled true k = _
      rw [hcall]
    · rw [if_neg hg]
      rw [beq_iff_eq] at hg
      refine ⟨hst.2, fun hx => ?_, fun _ _ => ?_, fun _ => hD.1, fun _ => hD.2, fun hx => ?_,
        fun hx => ?_⟩
      · rw [show s.alive = false from hx] at ha; cases ha
      · show 0 < guards k
        omega
      · rw [show s.destroyCalled = false from hx] at hcall; cases hcall
      · rw [show s.alive = false from hx] at ha; cases ha
  | inBuf c b => exact absurd rfl (hin c b)
  | inRead => exact absurd rfl hrd
  | out => exact absurd rfl hout

/-- Below the top there are no transient frames. -/
theorem no_transient : ∀ {k : List Frame}, Stacked k → (∀ g ∈ k.head?, g.transient = false) →
    ∀ {f : Frame}, f.transient = true → f ∉ k
  | [], _, _, _, _ => by simp
  | g :: k, hs, hc, f, hf => by
    intro hm
    rcases List.mem_cons.1 hm with h | hm
    · subst h; rw [hc f rfl] at hf; cases hf
    · exact no_transient hs.2 hs.1.calm hf hm

/-- Frames that hold bytes for the application. -/
def Frame.feeding : Frame → Bool
  | .loop _ => true
  | .inBuf _ _ => true
  | _ => false

/-- While bytes are being fed to the application none are buffered. -/
def BInv (s : St) : Prop := (∃ f ∈ s.stack, f.feeding = true) → s.appBuf = none

theorem SInv.step {s : St} (h : SInv s) (hb : BInv s) {o : Op} (ha : allowed s o = true) : SInv (step s o) := by
  have hcalm : s.outside = true → Calm s.stack := calm_outside
  cases o with
  | tau =>
    unfold allowed at ha
    unfold Fizz.Async.step
    dsimp only at ha ⊢
    split at ha
    · rename_i f k hs
      rw [Bool.and_eq_true] at ha
      refine h.runFrame hs ?_ ?_ ?_
      · rintro c b rfl; simp at ha
      · rintro rfl; simp [St.outside, hs] at ha
      · rintro rfl; simp [St.outside, hs] at ha
    · cases ha
  | ret =>
    unfold Fizz.Async.step
    dsimp only
    split
    · rename_i k hs; exact h.pop hs (by simp) rfl
    · rename_i k hs; exact h.pop hs (by simp) rfl
    · exact h
  | retBuf r =>
    unfold Fizz.Async.step
    dsimp only
    split
    · rename_i c d k hs
      have hst := h.stacked
      rw [hs] at hst
      have A := hst.1
      have hC : Calm k := A.low (by simp)
      have hal : s.alive = true := by
        cases hx : s.alive
        · have := h.dead hx (.inBuf c d) (by rw [hs]; exact List.mem_cons_self)
          cases this
        · rfl
      cases r with
      | threw ex => exact h.repl hs (by simp) _ (ons_error hC) (.inl hal) (by simp) rfl
      | bad => exact h.repl hs (by simp) _ (ons_error hC) (.inl hal) (by simp) rfl
      | room n =>
        exact h.repl hs (by simp)
          [.inRead, .loop (if d.drop (n + 1) = [] then none else some (d.drop (n + 1)))]
          ⟨above_inRead, above_delivering rfl (A.loops rfl) (A.once rfl), trivial⟩ (.inl hal)
          (by simp) rfl
    · exact h
  | writeChain data flags cb b sh c rs =>
    simp only [allowed, Bool.and_eq_true] at ha
    unfold Fizz.Async.step
    dsimp only
    unfold St.writeChain
    dsimp only
    split
    · split
      · exact h.congr rfl
      · split <;> exact h.congr rfl
    · split
      · exact h.pushL [.start _] ⟨above_plain rfl (hcalm ha.1), trivial⟩ (.inl ha.2) (by simp) rfl
      · exact h.pushL [.out] ⟨above_plain rfl (hcalm ha.1), trivial⟩ (.inl ha.2) (by simp) rfl
  | setReadCB c =>
    simp only [allowed, Bool.and_eq_true] at ha
    unfold Fizz.Async.step
    dsimp only
    unfold St.setReadCB
    dsimp only
    cases c with
    | none => exact h.congr rfl
    | some c =>
      rw [if_pos (by rfl)]
      split
      · rename_i hbuf
        have hbuf : s.appBuf.isSome = true := hbuf
        refine h.pushL [.deliver none, .setRest]
          ⟨above_delivering rfl (.inl rfl) (fun g hg => ?_), above_plain rfl (hcalm ha.1), trivial⟩
          (.inl ha.2) (by simp) rfl
        rcases List.mem_cons.1 hg with rfl | hg
        · rfl
        · have hst := h.stacked
          have hout := ha.1
          cases hg' : g.delivering
          · rfl
          · exfalso
            have hfd : g.feeding = true := by
              cases g <;> first | rfl | cases hg' | skip
              exact absurd hg (no_transient hst (hcalm hout).tr rfl)
            rw [hb ⟨g, hg, hfd⟩] at hbuf
            cases hbuf
      · exact h.pushL [.setRest] ⟨above_plain rfl (hcalm ha.1), trivial⟩ (.inl ha.2) (by simp) rfl
  | preReceived d => exact h.congr rfl
  | destroy =>
    simp only [allowed, Bool.and_eq_true, Bool.not_eq_true'] at ha
    obtain ⟨⟨⟨h1, h2⟩, h3⟩, h4⟩ := ha
    have hf := h.fresh h3
    have hA := above_destroy (hcalm h1) h4 hf.2
    have hO : Above .out (.destroy2 :: s.stack) := above_plain rfl (calm_cons rfl (by simp))
    refine ⟨⟨hO, hA, h.stacked⟩, fun hx => ?_, fun hx => ?_, fun hx => ?_, fun hx => ?_,
      fun hx => ?_, fun hx => ?_⟩
    · rw [show s.alive = false from hx] at h2; cases h2
    · rw [show s.destroyPending = true from hx] at hf; cases hf.1
    · rw [show s.destroyPending = true from hx] at hf; cases hf.1
    · rw [show s.destroyPending = true from hx] at hf; cases hf.1
    · cases hx
    · rw [show s.alive = false from hx] at h2; cases h2
  | setNoPartial b => exact h.congr rfl
  | setSecretCb _ => exact h.congr rfl
  | arrive d =>
    simp only [allowed, Bool.and_eq_true, Bool.not_eq_true', List.any_eq_false,
      Bool.not_eq_true] at ha
    exact h.pushL [.deliver (some d), .unguard]
      ⟨above_delivering rfl (.inr rfl) (fun g hg => by
          rcases List.mem_cons.1 hg with rfl | hg
          · rfl
          · exact ha.2 g hg),
        above_plain rfl (hcalm ha.1.1), trivial⟩ (.inl ha.1.2) (by simp) rfl
  | error ex close =>
    simp only [allowed, Bool.and_eq_true] at ha
    exact h.pushL _ (ons_error (hcalm ha.1)) (.inl ha.2) (by simp) rfl
  | compOk r =>
    simp only [allowed, Bool.and_eq_true] at ha
    exact h.pushL [.succ r] ⟨above_plain rfl (hcalm ha.1.1), trivial⟩ (.inl ha.1.2) (by simp) rfl
  | compErr r ex =>
    simp only [allowed, Bool.and_eq_true] at ha
    exact h.pushL [.errReq (some r) ex] ⟨above_plain rfl (hcalm ha.1), trivial⟩
      (.inr (by simp [Frame.harmless])) (by simp) rfl
  | transport g t => exact h.congr rfl
  | transportRead => exact h.congr (life_checkBufLen s).symm

theorem BInv.stable {s t : St} (h : BInv s) (ha : t.appBuf = s.appBuf ∨ t.appBuf = none)
    (hs : ∀ f ∈ t.stack, f.feeding = true → f ∈ s.stack) : BInv t := by
  rintro ⟨f, hf, hff⟩
  rcases ha with ha | ha
  · rw [ha]; exact h ⟨f, hs f hf hff, hff⟩
  · exact ha

end Fizz.Async

import Verif.Async.Secrets
import Verif.Async.Props

/-!
# C106: the secret callback
-/

namespace Fizz.Async.Secrets

open Fizz.Async Fizz.KeyLog Fizz.Text Spec

theorem dtor_secret (s : St) : s.dtor.secretCb = s.secretCb := by
  unfold St.dtor; dsimp only
  split
  · rfl
  · split <;> rfl

theorem check_secret (s : St) : s.checkBufLen.secretCb = s.secretCb := by unfold St.checkBufLen; split <;> rfl

theorem advance_secret (s : St) (r q) : (s.advanceOnBase r q).secretCb = s.secretCb := by
  unfold St.advanceOnBase
  split
  · split
    · rfl
    · split <;> rfl
  · rfl

theorem check_stack (s : St) : s.checkBufLen.stack = s.stack := by unfold St.checkBufLen; split <;> rfl

theorem advance_stack (s : St) (r q) : (s.advanceOnBase r q).stack = s.stack := by
  unfold St.advanceOnBase
  split
  · split
    · rfl
    · split <;> rfl
  · rfl

theorem dtor_stack (s : St) : s.dtor.stack = s.stack := by
  unfold St.dtor; dsimp only
  split
  · rfl
  · split <;> rfl

theorem start_secret (s : St) (r) : (s.startWriting r).secretCb = s.secretCb := by
  unfold St.startWriting
  split
  · rfl
  · dsimp only
    split
    · rfl
    · repeat' split
      all_goals rfl

theorem start_stack (s : St) (r) : s.stack <:+ (s.startWriting r).stack := by
  unfold St.startWriting
  split
  · exact List.suffix_refl _
  · dsimp only
    split
    · exact List.suffix_refl _
    · repeat' split
      all_goals first | exact List.suffix_refl _ | exact List.suffix_append [_] _

/-- Only `err3` touches the secret callback. -/
theorem runFrame_secret (s : St) (f : Frame) (hf : ∀ c d, f ≠ .err3 c d) : (s.runFrame f).secretCb = s.secretCb := by
  unfold St.runFrame
  cases f with
  | err3 c d => exact absurd rfl (hf c d)
  | deliver d =>
    dsimp only
    split
    · unfold St.deliver; split <;> rfl
    · rfl
  | loop d =>
    dsimp only
    split
    · unfold St.loop
      repeat' split
      all_goals first | rfl | exact check_secret _
    · rfl
  | setRest =>
    dsimp only
    split
    · unfold St.setRest
      repeat' split
      all_goals rfl
    · rfl
  | err1 ex c =>
    dsimp only
    split
    · unfold St.err1
      split
      · rfl
      · split <;> rfl
    · rfl
  | err2 ex c d =>
    dsimp only
    split
    · unfold St.err2; split <;> rfl
    · rfl
  | err4 d =>
    dsimp only
    split
    · unfold St.err4; split <;> rfl
    · rfl
  | start r => exact start_secret s r
  | errReq r ex =>
    dsimp only
    unfold St.errReq
    split
    · rfl
    · split
      · rfl
      · exact advance_secret s _ _
  | succ r =>
    dsimp only
    unfold St.succ
    split
    · rfl
    · split
      · rfl
      · split
        · rfl
        · exact advance_secret s _ _
  | succ2 n =>
    dsimp only
    split
    · unfold St.succ2
      split
      · rfl
      · split <;> rfl
    · rfl
  | unguard =>
    dsimp only
    split
    · unfold St.unguard
      split
      · exact dtor_secret s
      · rfl
    · rfl
  | destroy2 =>
    dsimp only
    split
    · unfold St.destroy2
      dsimp only
      split
      · exact dtor_secret _
      · rfl
    · rfl
  | inBuf c d => rfl
  | inRead => rfl
  | out => rfl

/-- A program point leaves the rest of the stack alone. -/
theorem runFrame_stack (s : St) (f : Frame) : s.stack <:+ (s.runFrame f).stack := by
  have add : ∀ (fs : List Frame), s.stack <:+ fs ++ s.stack := fun fs => List.suffix_append fs _
  unfold St.runFrame
  cases f with
  | deliver d =>
    dsimp only
    split
    · unfold St.deliver; split <;> exact add [_]
    · exact add []
  | loop d =>
    dsimp only
    split
    · unfold St.loop
      repeat' split
      all_goals first | exact add [_] | (rw [check_stack]; exact add [])
    · exact add []
  | setRest =>
    dsimp only
    split
    · unfold St.setRest
      repeat' split
      all_goals first | exact add [_] | exact add [_, _]
    · exact add []
  | err1 ex c =>
    dsimp only
    split
    · unfold St.err1
      split
      · exact add [_, _]
      · split <;> exact add [_]
    · exact add []
  | err2 ex c d =>
    dsimp only
    split
    · unfold St.err2; split <;> first | exact add [_, _] | exact add [_]
    · exact add []
  | err3 c d =>
    dsimp only
    split
    · unfold St.err3; dsimp only; split <;> first | exact add [_, _] | exact add [_]
    · exact add []
  | err4 d =>
    dsimp only
    split
    · unfold St.err4; split <;> exact add []
    · exact add []
  | start r => exact start_stack s r
  | errReq r ex =>
    dsimp only
    unfold St.errReq
    split
    · exact add []
    · split
      · exact add []
      · unfold St.errDone
        simp only [St.push, St.say, St.setHeap, advance_stack]
        exact add _
  | succ r =>
    dsimp only
    unfold St.succ
    split
    · exact add []
    · split
      · exact add [_]
      · split
        · exact add []
        · unfold St.succDone
          simp only [St.push, St.say, St.setHeap, advance_stack]
          exact add _
  | succ2 n =>
    dsimp only
    split
    · unfold St.succ2
      split
      · exact add []
      · split
        · exact add [_]
        · exact add []
    · exact add []
  | unguard =>
    dsimp only
    split
    · unfold St.unguard
      split
      · rw [dtor_stack]; exact add []
      · exact add []
    · exact add []
  | destroy2 =>
    dsimp only
    split
    · unfold St.destroy2
      dsimp only
      split
      · rw [dtor_stack]; exact add []
      · exact add []
    · exact add []
  | inBuf c d => exact add []
  | inRead => exact add []
  | out => exact add []

theorem write_secret (s : St) (data : Bytes) (flags : Flags) (cb b sh c rs : Bool) :
    (s.writeChain data flags cb b sh c rs).secretCb = s.secretCb := by
  unfold St.writeChain; dsimp only
  repeat' split
  all_goals rfl

theorem write_stack (s : St) (data : Bytes) (flags : Flags) (cb b sh c rs : Bool) :
    s.stack <:+ (s.writeChain data flags cb b sh c rs).stack := by
  unfold St.writeChain; dsimp only
  repeat' split
  all_goals first | exact List.suffix_refl _ | exact List.suffix_append [_] _

/-- Only `setSecretCallback` and `err3` touch the secret callback. -/
theorem step_secret (s : St) (o : Op) (h : ∀ b, o ≠ .setSecretCb b)
    (h3 : ∀ c d k, o = .tau → s.stack ≠ .err3 c d :: k) : (step s o).secretCb = s.secretCb := by
  unfold step
  cases o with
  | tau =>
    dsimp only
    split
    next f k e =>
      exact runFrame_secret _ f fun c d hf => h3 c d k rfl (by rw [e, hf])
    · rfl
  | ret => dsimp only; split <;> rfl
  | retBuf r =>
    dsimp only
    split
    · cases r <;> rfl
    · rfl
  | writeChain data flags cb b sh c rs => exact write_secret s _ _ _ _ _ _ _
  | setReadCB c =>
    dsimp only; unfold St.setReadCB; dsimp only
    repeat' split
    all_goals rfl
  | preReceived d => rfl
  | destroy => rfl
  | setNoPartial b => rfl
  | setSecretCb b => exact absurd rfl (h b)
  | arrive d => rfl
  | error ex c => rfl
  | compOk r => rfl
  | compErr r ex => rfl
  | transport g t => rfl
  | transportRead => exact check_secret s

/-- A program point that leads to the secret callback being cleared. -/
def isErr : Frame → Bool
  | .err1 _ _ => true
  | .err2 _ _ _ => true
  | .err3 _ _ => true
  | _ => false

/-- A step keeps `deliverError` on the stack, until it has cleared the secret callback. -/
theorem step_err (s : St) (o : Op) (hc : (step s o).crash = false)
    (h : ∃ f ∈ s.stack, isErr f = true) :
    (∃ f ∈ (step s o).stack, isErr f = true) ∨ (step s o).secretCb = false := by
  obtain ⟨e, he, hi⟩ := h
  have keep : s.stack <:+ (step s o).stack →
      (∃ f ∈ (step s o).stack, isErr f = true) ∨ (step s o).secretCb = false :=
    fun hs => .inl ⟨e, hs.subset he, hi⟩
  cases o with
  | tau =>
    unfold step at *
    dsimp only at *
    split at hc
    next f k hk =>
      rw [hk] at he
      rcases List.mem_cons.1 he with rfl | he
      · cases e with
        | err1 ex c =>
          dsimp only [St.runFrame] at hc ⊢
          split at hc
          next ha =>
            rw [if_pos ha]
            left
            unfold St.err1
            split
            · exact ⟨.err2 ex c true, by simp [St.push], rfl⟩
            · exact ⟨.err2 ex c false, by simp [St.push], rfl⟩
          · simp [St.crashed] at hc
        | err2 ex c d =>
          dsimp only [St.runFrame] at hc ⊢
          split at hc
          next ha =>
            rw [if_pos ha]
            refine .inl ⟨.err3 c d, ?_, rfl⟩
            unfold St.err2
            split <;> simp [St.push]
          · simp [St.crashed] at hc
        | err3 c d =>
          dsimp only [St.runFrame] at hc ⊢
          split at hc
          next ha =>
            rw [if_pos ha]
            refine .inr ?_
            unfold St.err3
            dsimp only
            split <;> rfl
          · simp [St.crashed] at hc
        | _ => cases hi
      · exact .inl ⟨e, (runFrame_stack { s with stack := k } f).subset he, hi⟩
    next hk => rw [hk] at he; cases he
  | ret =>
    unfold step at *
    dsimp only at *
    split
    next k hk =>
      rw [hk] at he
      rcases List.mem_cons.1 he with rfl | he
      · cases hi
      · exact .inl ⟨e, he, hi⟩
    next k hk =>
      rw [hk] at he
      rcases List.mem_cons.1 he with rfl | he
      · cases hi
      · exact .inl ⟨e, he, hi⟩
    · exact .inl ⟨e, he, hi⟩
  | retBuf r =>
    unfold step at *
    dsimp only at *
    split
    next c d k hk =>
      rw [hk] at he
      rcases List.mem_cons.1 he with rfl | he
      · cases hi
      · refine .inl ⟨e, ?_, hi⟩
        cases r <;> simp [St.callError, St.push, St.say, he]
    · exact .inl ⟨e, he, hi⟩
  | writeChain data flags cb b sh c rs => exact keep (write_stack s _ _ _ _ _ _ _)
  | setReadCB c =>
    refine keep ?_
    unfold step; dsimp only; unfold St.setReadCB; dsimp only
    repeat' split
    all_goals first | exact List.suffix_refl _ | exact List.suffix_append [_] _ | exact List.suffix_append [_, _] _
  | preReceived d => exact keep (List.suffix_refl _)
  | destroy => exact keep (List.suffix_append [_, _] _)
  | setNoPartial b => exact keep (List.suffix_refl _)
  | setSecretCb b => exact keep (List.suffix_refl _)
  | arrive d => exact keep (List.suffix_append [_, _] _)
  | error ex c => exact keep (List.suffix_append [_, _] _)
  | compOk r => exact keep (List.suffix_append [_] _)
  | compErr r ex => exact keep (List.suffix_append [_] _)
  | transport g t => exact keep (List.suffix_refl _)
  | transportRead => exact keep (by unfold step; rw [check_stack]; exact List.suffix_refl _)

/-- An error was reported after the last `setSecretCallback`. -/
def owed (log : List Seen) : Bool :=
  log.foldl (fun c o => match o with
    | .set _ => false
    | .error _ => true
    | _ => c) false

/-- One element of the fold of `installed`. -/
def inst1 (c : Option Nat) : Seen → Option Nat
  | .set c' => c'
  | .failed => none
  | _ => c

/-- One element of the fold of `owed`. -/
def owed1 (c : Bool) : Seen → Bool
  | .set _ => false
  | .error _ => true
  | _ => c

theorem installed_eq (l : List Seen) : installed l = l.foldl inst1 none := by
  unfold installed
  congr 1

theorem owed_eq (l : List Seen) : owed l = l.foldl owed1 false := by
  unfold owed
  congr 1

theorem installed_append (l m : List Seen) : installed (l ++ m) = m.foldl inst1 (installed l) := by
  rw [installed_eq, installed_eq, List.foldl_append]

theorem owed_append (l m : List Seen) : owed (l ++ m) = m.foldl owed1 (owed l) := by
  rw [owed_eq, owed_eq, List.foldl_append]

/-- The two forms of `calls`. -/
theorem calls_cases (cb : Option Nat) (t : SecretType) (b : Bytes) :
    calls cb t b = [] ∨ ∃ c k, cb = some c ∧ visit t = some k ∧ calls cb t b = [.told c k b] := by
  unfold calls
  cases cb with
  | none => exact .inl rfl
  | some c =>
    unfold secretAvailable
    cases hv : visit t with
    | none => exact .inl rfl
    | some k => exact .inr ⟨c, k, rfl, rfl, rfl⟩

structure Inv (w : W) : Prop where
  run : ∃ ops, Run ops w.s
  sec : w.s.secretCb = w.cb.isSome
  inst : installed w.log = w.cb
  owes : owed w.log = true → w.cb = none ∨ ∃ f ∈ w.s.stack, isErr f = true

theorem marks_none (s : St) (o : Op) (he : ∀ ex c, o ≠ .error ex c)
    (h3 : ∀ c d k, o = .tau → s.stack ≠ .err3 c d :: k) : marks s o = [] := by
  unfold marks
  cases o with
  | error ex c => exact absurd rfl (he ex c)
  | tau =>
    dsimp only
    split
    next c d k e => exact absurd e (h3 c d k rfl)
    · rfl
  | _ => rfl

theorem inv_base {w : W} (h : Inv w) (o : Op) (ha : w.allowed (.base o) = true) : Inv (w.step (.base o)) := by
  have hn : ∀ b, o ≠ .setSecretCb b := by rintro b rfl; cases ha
  have ha' : Async.allowed w.s o = true := by
    cases o with
    | setSecretCb b => exact absurd rfl (hn b)
    | _ => exact ha
  obtain ⟨ops, hr⟩ := h.run
  have hr' := Run.step o hr ha'
  have hc := C73_safe hr'
  -- either the program point `err3`, or the callback stays
  by_cases h3 : ∃ c d k, o = .tau ∧ w.s.stack = .err3 c d :: k
  · obtain ⟨c, d, k, rfl, hk⟩ := h3
    have hs : (Async.step w.s .tau).secretCb = false := by
      unfold Async.step at hc ⊢
      rw [hk] at hc ⊢
      dsimp only [St.runFrame] at hc ⊢
      split at hc
      next ha =>
        rw [if_pos ha]
        unfold St.err3
        dsimp only
        split <;> rfl
      · simp [St.crashed] at hc
    have hm : marks w.s .tau = [.failed] := by unfold marks; rw [hk]
    have hcb : (w.step (.base .tau)).cb = none := by simp [W.step, hs]
    refine ⟨⟨_, hr'⟩, ?_, ?_, fun _ => .inl hcb⟩
    · rw [hcb]; exact hs
    · rw [hcb]
      show installed (w.log ++ marks w.s .tau) = none
      rw [hm, installed_append]; rfl
  · have h3' : ∀ c d k, o = .tau → w.s.stack ≠ .err3 c d :: k :=
      fun c d k e e' => h3 ⟨c, d, k, e, e'⟩
    have hs := step_secret w.s o hn h3'
    have hcb : (w.step (.base o)).cb = w.cb := by
      show (if (Async.step w.s o).secretCb then w.cb else none) = w.cb
      rw [hs, h.sec]
      cases w.cb <;> rfl
    have hsec : (w.step (.base o)).s.secretCb = (w.step (.base o)).cb.isSome := by
      rw [hcb]; exact hs.trans h.sec
    by_cases he : ∃ ex c, o = .error ex c
    · obtain ⟨ex, c, rfl⟩ := he
      refine ⟨⟨_, hr'⟩, hsec, ?_, fun _ => .inr ⟨.err1 ex c, ?_, rfl⟩⟩
      · rw [hcb]
        show installed (w.log ++ [.error ex]) = w.cb
        rw [installed_append, h.inst]; rfl
      · simp [W.step, Async.step, St.callError, St.push, St.say]
    · have hm := marks_none w.s o (fun ex c e => he ⟨ex, c, e⟩) h3'
      have hl : (w.step (.base o)).log = w.log := by
        show w.log ++ marks w.s o = w.log
        rw [hm, List.append_nil]
      refine ⟨⟨_, hr'⟩, hsec, by rw [hl, hcb]; exact h.inst, ?_⟩
      rw [hl, hcb]
      intro ho
      rcases h.owes ho with h0 | h0
      · exact .inl h0
      · rcases step_err w.s o hc h0 with h1 | h1
        · exact .inr h1
        · refine .inl ?_
          rw [hs, h.sec] at h1
          cases hw : w.cb with
          | none => rfl
          | some c => rw [hw] at h1; cases h1

theorem inv_reach {w : W} (h : Reach w) : Inv w := by
  induction h with
  | new => exact ⟨⟨[], .new⟩, rfl, rfl, fun h => (by cases h)⟩
  | @step w a _ ha ih =>
    cases a with
    | base o => exact inv_base ih o ha
    | set c =>
      obtain ⟨ops, hr⟩ := ih.run
      have hr' := Run.step (.setSecretCb c.isSome) hr ha
      refine ⟨⟨_, hr'⟩, rfl, ?_, ?_⟩
      · show installed (w.log ++ [.set c]) = c
        rw [installed_append]; rfl
      · show owed (w.log ++ [.set c]) = true → _
        rw [owed_append]
        exact fun h => (by cases h)
    | secret t b =>
      refine ⟨ih.run, ih.sec, ?_, ?_⟩
      · show installed (w.log ++ .secret t b :: calls w.cb t b) = w.cb
        rw [installed_append, ih.inst]
        rcases calls_cases w.cb t b with e | ⟨c, k, _, _, e⟩ <;> rw [e] <;> rfl
      · show owed (w.log ++ .secret t b :: calls w.cb t b) = true → _
        rw [owed_append]
        intro ho
        refine ih.owes ?_
        rcases calls_cases w.cb t b with e | ⟨c, k, _, _, e⟩ <;> (rw [e] at ho; exact ho)

/-! ## The history -/

/-- A history in which each secret is followed at once by its calls, and there are no others. -/
inductive Told : List Seen → Prop where
  | nil : Told []
  | other {l o} : Told l → (∀ t b, o ≠ .secret t b) → (∀ c k b, o ≠ .told c k b) → Told (l ++ [o])
  | secret {l} (t b) : Told l → Told (l ++ .secret t b :: calls (installed l) t b)

theorem told_reach {w : W} (h : Reach w) : Told w.log := by
  induction h with
  | new => exact .nil
  | @step w a hw ha ih =>
    cases a with
    | base o =>
      show Told (w.log ++ marks w.s o)
      unfold marks
      cases o with
      | error ex c => exact .other ih (by simp) (by simp)
      | tau =>
        dsimp only
        split
        · exact .other ih (by simp) (by simp)
        · rw [List.append_nil]; exact ih
      | _ => rw [List.append_nil]; exact ih
    | set c => exact .other ih (by simp) (by simp)
    | secret t b =>
      have := Told.secret t b ih
      rw [(inv_reach hw).inst] at this
      exact this

theorem append_one {α} {pre post l : List α} {x o : α} (h : pre ++ x :: post = l ++ [o]) :
    (post = [] ∧ pre = l ∧ x = o) ∨ ∃ p, post = p ++ [o] ∧ pre ++ x :: p = l := by
  rcases List.eq_nil_or_concat post with rfl | ⟨p, y, rfl⟩
  · have := List.append_inj' h rfl
    exact .inl ⟨rfl, this.1, (List.cons.inj this.2).1⟩
  · rw [List.concat_eq_append, ← List.cons_append, ← List.append_assoc] at h
    have := List.append_inj' h rfl
    exact .inr ⟨p, by rw [List.concat_eq_append, this.2], this.1⟩

/-- The two places of an element of a history, before the last secret or not. -/
theorem append_calls {pre post l : List Seen} {x : Seen} {t b} {cs : List Seen}
    (hcs : cs = [] ∨ ∃ y, cs = [y]) (h : pre ++ x :: post = l ++ .secret t b :: cs) :
    (∃ p, post = p ++ .secret t b :: cs ∧ pre ++ x :: p = l) ∨
    (pre = l ∧ x = .secret t b ∧ post = cs) ∨
    (∃ y, cs = [y] ∧ pre = l ++ [.secret t b] ∧ x = y ∧ post = []) := by
  rcases hcs with rfl | ⟨y, rfl⟩
  · rcases append_one h with ⟨rfl, rfl, rfl⟩ | ⟨p, rfl, rfl⟩
    · exact .inr (.inl ⟨rfl, rfl, rfl⟩)
    · exact .inl ⟨p, rfl, rfl⟩
  · have h' : pre ++ x :: post = (l ++ [.secret t b]) ++ [y] := by rw [h]; simp
    rcases append_one h' with ⟨rfl, rfl, rfl⟩ | ⟨p, rfl, e⟩
    · exact .inr (.inr ⟨_, rfl, rfl, rfl, rfl⟩)
    · rcases append_one e with ⟨rfl, rfl, rfl⟩ | ⟨p', rfl, rfl⟩
      · exact .inr (.inl ⟨rfl, rfl, rfl⟩)
      · exact .inl ⟨p', by simp, rfl⟩

theorem calls_le (cb : Option Nat) (t : SecretType) (b : Bytes) :
    calls cb t b = [] ∨ ∃ y, calls cb t b = [y] := by
  rcases calls_cases cb t b with e | ⟨c, k, _, _, e⟩
  · exact .inl e
  · exact .inr ⟨_, e⟩

/-- C106: when the state machine announces a secret, the callback installed at that moment — the last
one set, unless a failure has been dealt with since — is told at once, by the function for that
secret, with exactly those bytes; nobody is told when none is installed. -/
theorem C106_told {w : W} (h : Reach w) (pre post : List Seen) (t : SecretType) (b : Bytes)
    (hl : w.log = pre ++ .secret t b :: post) (c : Nat) (hc : installed pre = some c) (k : Callback)
    (hk : visit t = some k) : ∃ rest, post = .told c k b :: rest := by
  have ht := told_reach h
  rw [hl] at ht
  clear hl h
  generalize hL : pre ++ .secret t b :: post = L at ht
  induction ht generalizing pre post with
  | nil => simp at hL
  | @other l o hT h1 h2 ih =>
    rcases append_one hL with ⟨rfl, rfl, e⟩ | ⟨p, rfl, e⟩
    · exact absurd e.symm (h1 t b)
    · obtain ⟨r, hr⟩ := ih pre p hc e
      exact ⟨r ++ [o], by rw [hr]; rfl⟩
  | @secret l t' b' hT ih =>
    rcases append_calls (calls_le _ _ _) hL with ⟨p, rfl, e⟩ | ⟨rfl, e, rfl⟩ | ⟨y, e, _, e2, _⟩
    · obtain ⟨r, hr⟩ := ih pre p hc e
      exact ⟨r ++ _, by rw [hr]; rfl⟩
    · cases e
      refine ⟨[], ?_⟩
      unfold calls
      rw [hc]
      simp [secretAvailable, hk]
    · rcases calls_cases (installed l) t' b' with e3 | ⟨c', k', _, _, e3⟩
      · rw [e3] at e; cases e
      · rw [e3] at e
        cases e
        cases e2

/-- C106: a callback is called with nothing but a secret that has just been announced, for which the
function is the right one, and only while it is installed. -/
theorem C106_only {w : W} (h : Reach w) (pre post : List Seen) (c : Nat) (k : Callback) (b : Bytes)
    (hl : w.log = pre ++ .told c k b :: post) :
    ∃ before t, pre = before ++ [.secret t b] ∧ visit t = some k ∧ installed before = some c := by
  have ht := told_reach h
  rw [hl] at ht
  clear hl h
  generalize hL : pre ++ .told c k b :: post = L at ht
  induction ht generalizing pre post with
  | nil => simp at hL
  | @other l o hT h1 h2 ih =>
    rcases append_one hL with ⟨rfl, rfl, e⟩ | ⟨p, rfl, e⟩
    · exact absurd e.symm (h2 c k b)
    · exact ih pre p e
  | @secret l t' b' hT ih =>
    rcases append_calls (calls_le _ _ _) hL with ⟨p, rfl, e⟩ | ⟨rfl, e, rfl⟩ | ⟨y, e, rfl, e2, rfl⟩
    · exact ih pre p e
    · cases e
    · rcases calls_cases (installed l) t' b' with e3 | ⟨c', k', hc, hk, e3⟩
      · rw [e3] at e; cases e
      · rw [e3] at e
        cases e
        cases e2
        exact ⟨l, t', rfl, hk, hc⟩

theorem owed_of (post : List Seen) (h : ∀ c, .set c ∉ post) : post.foldl owed1 true = true := by
  induction post with
  | nil => rfl
  | cons o l ih =>
    have h' : ∀ c, .set c ∉ l := fun c hm => h c (List.mem_cons_of_mem _ hm)
    cases o with
    | set c => exact absurd List.mem_cons_self (h c)
    | _ => exact ih h'

/-- C106: once the class has returned from everything it was called for, a callback set before an
error was reported is no longer called: a secret announced then reaches nobody. -/
theorem C106_withdrawn {w : W} (h : Reach w) (hr : w.s.stack = []) (pre post : List Seen) (ex : Ex)
    (hl : w.log = pre ++ .error ex :: post) (hs : ∀ c, .set c ∉ post) (t : SecretType) (b : Bytes) :
    (w.step (.secret t b)).log = w.log ++ [.secret t b] := by
  have hi := inv_reach h
  have ho : owed w.log = true := by
    rw [hl, owed_append]
    exact owed_of post hs
  have hcb : w.cb = none := by
    rcases hi.owes ho with h0 | ⟨f, hf, _⟩
    · exact h0
    · rw [hr] at hf; cases hf
  show w.log ++ .secret t b :: calls w.cb t b = _
  rw [hcb]; rfl

end Fizz.Async.Secrets

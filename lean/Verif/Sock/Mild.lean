import Verif.Sock.Doom

/-!
# Every step, by what it does to early data
-/

namespace Fizz.Sock

open Spec

/-- `onReplaySafe` was called. -/
def isRep : Obs → Bool
  | .replaySafe => true
  | _ => false

/-- Entries about neither data, progress, replay safety nor the state machine. -/
def mild : Obs → Bool
  | .replaySafe => false
  | .take _ => false
  | .write .. => false
  | .error => true
  | o => dull o

/-- Nothing happened to early data. -/
structure Mild (s t : St) : Prop where
  log : ∃ l, t.log = s.log ++ l ∧ ∀ o ∈ l, mild o = true
  early : t.early.map (·.remaining) = s.early.map (·.remaining)
  phase : t.phase = s.phase
  rcb : t.replayCb = true → s.replayCb = true ∨ s.early ≠ none
  frames : t.stack.count .replay ≤ s.stack.count .replay
  keep : t.replayCb = true → s.stack.count .replay ≤ t.stack.count .replay

/-- All steps. -/
inductive Gen (cfg : Cfg) (s : St) : St → Prop where
  | mild {t} : Mild s t → Gen cfg s t
  | write (d c) : s.good = true → Gen cfg s (s.write cfg d c)
  | badWrite (d c) : s.good = false → Gen cfg s (s.write cfg d c)
  | take (e q) : s.guard = false → s.terminal = false →
      Gen cfg s (St.startMachine (St.say { s with queue := q } (.take e)))
  | replay (rest) : s.stack = .replay :: rest → s.replayCb = true →
      Gen cfg s (St.push (St.say { s with stack := rest, replayCb := false } .replaySafe) [.out])
  | earlyOk (m rest) : s.stack = .acts :: rest → s.mayVisit cfg (.earlyOk m) = true → Gen cfg s (s.visit cfg (.earlyOk m))
  | success (a n q rest) : s.stack = .acts :: rest → s.mayVisit cfg (.success a n q) = true →
      Gen cfg s (s.visit cfg (.success a n q))

theorem Mild.grow {s t : St} {fs} (hl : ∃ l, t.log = s.log ++ l ∧ ∀ o ∈ l, mild o = true) (he : t.early = s.early)
    (hp : t.phase = s.phase) (hr : t.replayCb = true → s.replayCb = true ∨ s.early ≠ none)
    (hst : t.stack = fs ++ s.stack) (hf : .replay ∉ fs) : Mild s t := by
  have hc : t.stack.count .replay = s.stack.count .replay := by
    rw [hst, List.count_append, List.count_eq_zero_of_not_mem hf]; omega
  exact ⟨hl, by rw [he], hp, hr, Nat.le_of_eq hc, fun _ => Nat.le_of_eq hc.symm⟩

theorem Mild.pop {s t : St} {g rest fs} (hs : s.stack = g :: rest) (hl : ∃ l, t.log = s.log ++ l ∧ ∀ o ∈ l, mild o = true)
    (he : t.early = s.early) (hp : t.phase = s.phase) (hr : t.replayCb = true → s.replayCb = true ∨ s.early ≠ none)
    (hst : t.stack = fs ++ rest) (hf : .replay ∉ fs) (hg : g ≠ .replay ∨ t.replayCb = false := by first | exact .inl (by simp) | assumption) : Mild s t := by
  have hc : t.stack.count .replay = rest.count .replay := by
    rw [hst, List.count_append, List.count_eq_zero_of_not_mem hf]; omega
  refine ⟨hl, by rw [he], hp, hr, ?_, fun z => ?_⟩
  · rw [hc, hs, List.count_cons]; omega
  · rcases hg with w | w
    · rw [hc, hs, List.count_cons]; simp [w]
    · rw [z] at w; cases w

theorem noLog {s t : St} (h : t.log = s.log) : ∃ l, t.log = s.log ++ l ∧ ∀ o ∈ l, mild o = true :=
  ⟨[], by simp [h], by simp⟩

theorem oneLog {s t : St} {o} (h : t.log = s.log ++ [o]) (ho : mild o = true) :
    ∃ l, t.log = s.log ++ l ∧ ∀ o ∈ l, mild o = true := ⟨[o], h, by simpa using ho⟩

theorem failW_log (s : St) (t) : ∃ l, (s.failW t).log = s.log ++ l ∧ ∀ o ∈ l, mild o = true := by
  unfold St.failW; split
  · exact oneLog rfl rfl
  · exact noLog rfl

theorem errStep_mild {s : St} {rest p} (hs : s.stack = .err p :: rest) : Mild s (s.errStep rest p) := by
  have outs : ∀ (fs : List Frame) (q : Ph), (∀ f ∈ fs, f = .out) → .replay ∉ fs ++ [.err q] := by
    intro fs q h m
    rcases List.mem_append.1 m with w | w
    · cases h _ w
    · cases List.mem_singleton.1 w
  cases p with
  | hs =>
    obtain ⟨fs, h, hl⟩ := hsError_stack { s with stack := .err .unreplay :: rest }
    refine Mild.pop (fs := fs ++ [.err .unreplay]) hs ?_ (by simp [St.errStep]) (by simp [St.errStep]) (by simpa [St.errStep] using Or.inl) (by simpa [St.errStep] using h)
      (outs _ _ hl)
    simp only [St.errStep, St.hsError]
    split
    · exact noLog rfl
    · exact oneLog (o := .hsErr) rfl rfl
    · exact noLog rfl
  | unreplay => exact Mild.pop (fs := [.err .pendHs]) hs (noLog rfl) rfl rfl nofun rfl (by simp)
  | pendHs =>
    simp only [St.errStep]
    rcases list_cases s.hsPend with hq | ⟨w, ws, hq⟩
    · rw [pendHs1_nil hq]
      exact Mild.pop (fs := [.err .pendEarly]) hs (noLog rfl) rfl rfl .inl rfl (by simp)
    · rw [pendHs1_cons hq]
      obtain ⟨fs, h, hl⟩ := failW_stack { s with hsPend := ws, stack := .err .pendHs :: rest } w.token
      exact Mild.pop (fs := fs ++ [.err .pendHs]) hs (failW_log { s with hsPend := ws, stack := .err .pendHs :: rest } _) (by simp) (by simp) (by simpa using Or.inl) (by simpa using h) (outs _ _ hl)
  | pendEarly =>
    simp only [St.errStep]
    rcases earlyPend_cases s with he0 | ⟨e, w, ws, he, hq⟩
    · rw [pendEarly1_nil he0]
      exact Mild.pop (fs := [.err .move]) hs (noLog rfl) rfl rfl .inl rfl (by simp)
    · rw [pendEarly1_cons he hq]
      obtain ⟨fs, h, hl⟩ := failW_stack { s with early := some { e with pend := ws }, stack := .err .pendEarly :: rest } w.token
      refine ⟨failW_log { s with early := some { e with pend := ws }, stack := .err .pendEarly :: rest } _, by simp [he], by simp, by simpa using Or.inl, ?_, fun _ => ?_⟩
      all_goals have : (St.failW { s with early := some { e with pend := ws }, stack := .err .pendEarly :: rest } w.token).stack = (fs ++ [.err .pendEarly]) ++ rest := by simpa using h
      all_goals rw [this, hs, List.count_append, List.count_eq_zero_of_not_mem (outs _ _ hl), List.count_cons]
      · omega
      · simp
  | move =>
    simp only [St.errStep]
    split
    · exact Mild.pop (fs := [.err .fin]) hs (noLog rfl) rfl rfl .inl rfl (by simp)
    · exact Mild.pop (fs := [.err .drain]) hs (noLog rfl) rfl rfl .inl rfl (by simp)
  | drain =>
    simp only [St.errStep]
    rcases list_cases s.queue with hq | ⟨e, q, hq⟩
    · rw [drain1_nil hq]
      exact Mild.pop (fs := [.err .fin]) hs (noLog rfl) rfl rfl .inl rfl (by simp)
    · rw [drain1_cons hq]
      obtain ⟨fs, h, hl⟩ := failW_stack { s with queue := q, stack := .err .drain :: rest } e.token
      exact Mild.pop (fs := fs ++ [.err .drain]) hs (failW_log { s with queue := q, stack := .err .drain :: rest } _) (by simp) (by simp) (by simpa using Or.inl) (by simpa using h) (outs _ _ hl)
  | fin => exact Mild.pop (fs := [.out]) hs (oneLog (o := .errorDone) rfl rfl) rfl rfl .inl rfl (by simp)

theorem badWrite_eq {cfg s d c} (hg : St.good s = false) : ∃ l, (St.write cfg s d c).log = s.log ++ l ∧
    l = (if c then [.write s.nextId d c false, .wErr s.nextId] else [.write s.nextId d c false]) ∧
    (St.write cfg s d c).early = s.early ∧ (St.write cfg s d c).phase = s.phase ∧
    (St.write cfg s d c).replayCb = s.replayCb ∧ (St.write cfg s d c).stack.count .replay = s.stack.count .replay := by
  unfold St.write
  simp only [hg, Bool.false_eq_true, if_false]
  cases c with
  | true => exact ⟨_, by simp [St.push, St.say], rfl, rfl, rfl, rfl, by simp [St.push, St.say, List.count_cons]⟩
  | false => exact ⟨_, by simp [St.say], rfl, rfl, rfl, rfl, rfl⟩

theorem kind_gen {cfg s s'} (k : Kind cfg s s') : Gen cfg s s' := by
  cases k with
  | connect c v =>
    refine .mild ?_
    unfold St.connect
    simp only []
    split
    · exact Mild.grow (fs := [.acts]) (oneLog (o := .connect c) rfl rfl) rfl rfl .inl rfl (by simp)
    · split
      · exact Mild.grow (fs := [.out]) (oneLog (o := .connect c) rfl rfl) rfl rfl .inl rfl (by simp)
      · split
        · exact Mild.grow (fs := [.acts]) (oneLog (o := .connect c) rfl rfl) rfl rfl .inl rfl (by simp)
        · exact Mild.grow (fs := [.err .hs]) ⟨[.connect c, .error], by simp [St.fail, St.push, St.say], by simp [mild, dull]⟩ rfl rfl .inl rfl (by simp)
  | sockConnected => exact .mild (Mild.grow (fs := [.acts]) (noLog rfl) rfl rfl .inl rfl (by simp))
  | write d c =>
    cases hg : s.good with
    | true => exact .write d c hg
    | false => exact .badWrite d c hg
  | close k =>
    refine .mild ?_
    obtain ⟨fs, h1, hl⟩ := close_stack s k
    refine Mild.grow (fs := fs) ?_ (by simp) (by simp) (by simpa using Or.inl) h1 (fun m => by simpa using hl _ m)
    cases k <;> simp only [St.close] <;> split
    · exact oneLog (o := .submit (.close true)) (by simp [St.submit, St.say]) rfl
    · exact oneLog (o := .error) rfl rfl
    · exact oneLog (o := .submit (.close true)) (by simp [St.submit, St.say]) rfl
    · exact oneLog (o := .error) rfl rfl
    · exact oneLog (o := .submit (.close false)) (by simp [St.submit, St.say]) rfl
    · exact noLog rfl
  | submit e _ _ hor =>
    refine .mild ?_
    obtain ⟨fs, h1, hl⟩ := enter_stack (s.submit e)
    refine Mild.grow (fs := fs) (oneLog (o := .submit e) (by simp [St.submit, St.say]) ?_) (by simp) (by simp) (by simpa using Or.inl) h1 (fun m => by simpa using hl _ m)
    rcases hor with rfl | rfl <;> rfl
  | setReplay b _ _ hb =>
    refine .mild (Mild.grow (fs := []) (noLog rfl) rfl rfl ?_ rfl (by simp))
    intro q
    rcases hb with w | w
    · rw [show b = true from q] at w; cases w
    · exact .inr (Option.isSome_iff_ne_none.1 w)
  | transportError => exact .mild (Mild.grow (fs := [.err .hs]) (oneLog (o := .error) rfl rfl) rfl rfl .inl rfl (by simp))
  | data =>
    obtain ⟨fs, h1, hl⟩ := enter_stack s
    exact .mild (Mild.grow (fs := fs) (noLog (by simp)) (by simp) (by simp) (by simpa using Or.inl) h1 (fun m => by simpa using hl _ m))
  | env g e c => exact .mild (Mild.grow (fs := []) (noLog rfl) rfl rfl .inl rfl (by simp))
  | ret rest hs => exact .mild (Mild.pop (fs := []) hs (noLog rfl) rfl rfl .inl rfl (by simp))
  | count n rest hs => exact .mild (Mild.pop (fs := []) hs (noLog rfl) rfl rfl .inl rfl (by simp))
  | countFires n rest hs =>
    obtain ⟨fs, h1, hl⟩ := enter_stack (St.submit { s with stack := rest, bytes := 0 } (.keyUpdate true))
    exact .mild (Mild.pop (fs := fs) hs (oneLog (o := .submit (.keyUpdate true)) (by simp [St.submit, St.say]) rfl) (by simp) (by simp) (by simpa using Or.inl) h1 (fun m => by simpa using hl _ m))
  | doFail rest hs => exact .mild (Mild.pop (fs := [.err .hs]) hs (oneLog (o := .error) rfl rfl) rfl rfl .inl rfl (by simp))
  | err p rest hs => exact .mild (errStep_mild hs)
  | hsCb rest hs =>
    obtain ⟨fs, h1, hl⟩ := hsSuccess_stack { s with stack := rest }
    refine .mild (Mild.pop (fs := fs) hs ?_ (by simp) (by simp) (by simpa using Or.inl) h1 (fun m => by simpa using hl _ m))
    unfold St.hsSuccess
    split
    · exact noLog rfl
    · exact oneLog (o := .hsOk) rfl rfl
    · exact noLog rfl
  | replay rest hs hr => exact .replay rest hs hr
  | noReplay rest hs hr => exact .mild (Mild.pop (fs := []) hs (noLog rfl) rfl rfl .inl rfl (by simp) (.inr hr))
  | take e q rest hs _ h1 h2 => exact .take e q h1 h2
  | sock rest hs => exact .mild (Mild.grow (fs := [.acts]) (noLog rfl) rfl rfl .inl rfl (by simp))
  | stop rest hs => exact .mild (Mild.pop (fs := []) hs (noLog rfl) rfl rfl .inl rfl (by simp))
  | visit a rest hs hm =>
    cases a with
    | earlyOk m => exact .earlyOk m rest hs hm
    | success a n q => exact .success a n q rest hs hm
    | error => exact .mild (Mild.grow (fs := [.err .hs]) (oneLog (o := .error) rfl rfl) rfl rfl .inl rfl (by simp))
    | fallback =>
      simp only [St.visit]
      split
      · split
        · exact .mild (Mild.grow (fs := [.out]) (oneLog (o := .hsFallback) rfl rfl) rfl rfl .inl rfl (by simp))
        · exact .mild (Mild.grow (fs := []) (noLog rfl) rfl rfl .inl rfl (by simp))
      · exact .mild (Mild.grow (fs := []) (noLog rfl) rfl rfl .inl rfl (by simp))
    | earlyFailed t =>
      cases t with
      | none => exact .mild (Mild.grow (fs := []) (noLog rfl) rfl rfl .inl rfl (by simp))
      | some i => exact .mild (Mild.grow (fs := [.out]) (oneLog (o := .wOk i) rfl rfl) rfl rfl .inl rfl (by simp))
    | mutate e c => exact .mild (Mild.grow (fs := []) (noLog rfl) rfl rfl .inl rfl (by simp))
    | other => exact .mild (Mild.grow (fs := [.out]) (noLog rfl) rfl rfl .inl rfl (by simp))
  | done rest hs =>
    obtain ⟨fs, h1, hl⟩ := enter_stack { s with stack := rest, guard := false }
    exact .mild (Mild.pop (fs := fs) hs (noLog (by simp)) (by simp) (by simp) (by simpa using Or.inl) h1 (fun m => by simpa using hl _ m))
  | suspend rest hs => exact .mild (Mild.pop (fs := []) hs (noLog rfl) rfl rfl .inl rfl (by simp))
  | resumed => exact .mild (Mild.grow (fs := [.acts]) (noLog rfl) rfl rfl .inl rfl (by simp))

end Fizz.Sock

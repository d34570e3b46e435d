import Verif.Sock.Flow

/-!
# History only grows
-/

namespace Fizz.Sock

open Spec

theorem LowLog.prefix {s t : St} (h : LowLog s t) : s.log <+: t.log := by
  obtain ⟨l, h, _⟩ := h
  exact ⟨l, h.symm⟩

theorem fail_prefix (s : St) : s.log <+: s.fail.log := ⟨[.error], rfl⟩

theorem hsSuccess_prefix (s : St) : s.log <+: s.hsSuccess.log := by
  obtain ⟨l, h, _⟩ := hsSuccess_dull s
  exact ⟨l, h.symm⟩

theorem hsError_prefix (s : St) : s.log <+: s.hsError.log := by
  unfold St.hsError; split
  · exact List.prefix_refl _
  · exact ⟨[.hsErr], rfl⟩
  · exact List.prefix_refl _

theorem successEarly_prefix (cfg) (s : St) (a n q) : s.log <+: (s.successEarly cfg a n q).log := by
  unfold St.successEarly
  split
  · exact List.prefix_refl _
  · rename_i e he
    split
    · exact (LowLog.flush cfg e.pend s).prefix
    · split
      · simp only []
        split
        · exact (LowLog.flush cfg e.pend s).prefix
        · exact ((LowLog.flush1 cfg s ⟨none, e.resend⟩).trans (LowLog.flush cfg e.pend _)).prefix
      · exact ⟨[.removePsk, .error], by simp [St.fail, St.push, St.say]⟩

theorem successClient_prefix (cfg) (s : St) (a n q) : s.log <+: (s.successClient cfg a n q).log :=
  List.IsPrefix.trans (LowLog.flush cfg s.hsPend { s with hsPend := [] }).prefix
    (successEarly_prefix cfg (St.flush cfg { s with hsPend := [] } s.hsPend) a n q)

theorem visit_prefix (cfg) (s : St) (a) : s.log <+: (s.visit cfg a).log := by
  cases a with
  | earlyOk m =>
    have h1 : s.log <+: (St.say { s with phase := 1 } (.earlyOk m)).log := ⟨[_], rfl⟩
    simp only [St.visit]
    split
    · split
      · exact h1.trans (hsSuccess_prefix _)
      · exact h1.trans (fail_prefix _)
    · refine List.IsPrefix.trans ?_ (hsSuccess_prefix _)
      exact h1
  | success a n q =>
    have h1 : s.log <+: (St.say { s with phase := 2 } (.success a n q)).log := ⟨[_], rfl⟩
    simp only [St.visit]
    split
    · split
      · exact h1.trans (hsSuccess_prefix _)
      · exact h1.trans (fail_prefix _)
    · exact h1.trans (successClient_prefix cfg _ a n q)
  | error => exact fail_prefix s
  | fallback =>
    simp only [St.visit]
    split
    · split
      · exact ⟨[.hsFallback], rfl⟩
      · exact List.prefix_refl _
    · exact List.prefix_refl _
  | earlyFailed t =>
    cases t with
    | none => exact List.prefix_refl _
    | some i => exact ⟨[.wOk i], rfl⟩
  | mutate e c => exact List.prefix_refl _
  | other => exact List.prefix_refl _

theorem errStep_prefix (s : St) (rest p) : s.log <+: (s.errStep rest p).log := by
  cases p with
  | hs => exact hsError_prefix { s with stack := .err .unreplay :: rest }
  | unreplay => exact List.prefix_refl _
  | pendHs =>
    simp only [St.errStep]
    rcases list_cases s.hsPend with hq | ⟨w, ws, hq⟩
    · rw [pendHs1_nil hq]; exact List.prefix_refl _
    · rw [pendHs1_cons hq]; exact (LowLog.failW { s with hsPend := ws, stack := .err .pendHs :: rest } w.token).prefix
  | pendEarly =>
    simp only [St.errStep]
    rcases earlyPend_cases s with he0 | ⟨e, w, ws, he, hq⟩
    · rw [pendEarly1_nil he0]; exact List.prefix_refl _
    · rw [pendEarly1_cons he hq]
      exact (LowLog.failW { s with early := some { e with pend := ws }, stack := .err .pendEarly :: rest } w.token).prefix
  | move => simp only [St.errStep]; split <;> exact List.prefix_refl _
  | drain =>
    simp only [St.errStep]
    rcases list_cases s.queue with hq | ⟨e, q, hq⟩
    · rw [drain1_nil hq]; exact List.prefix_refl _
    · rw [drain1_cons hq]; exact (LowLog.failW { s with queue := q, stack := .err .drain :: rest } e.token).prefix
  | fin => exact ⟨[.errorDone], rfl⟩

theorem close_prefix (s : St) (k) : s.log <+: (s.close k).log := by
  cases k <;> simp only [St.close] <;> split
  · exact ⟨[.submit (.close true)], by simp [St.submit, St.say]⟩
  · exact fail_prefix (s.push [.out])
  · exact ⟨[.submit (.close true)], by simp [St.submit, St.say]⟩
  · exact fail_prefix (s.push [.out])
  · exact ⟨[.submit (.close false)], by simp [St.submit, St.say]⟩
  · exact List.prefix_refl _

theorem connect_prefix (cfg) (s : St) (c v) : s.log <+: (s.connect cfg c v).log := by
  unfold St.connect
  simp only []
  split
  · exact ⟨[.connect c], rfl⟩
  · split
    · exact ⟨[.connect c], rfl⟩
    · split
      · exact ⟨[.connect c], rfl⟩
      · exact ⟨[.connect c, .error], by simp [St.fail, St.push, St.say]⟩

theorem kind_prefix {cfg s s'} (k : Kind cfg s s') : s.log <+: s'.log := by
  cases k with
  | connect c v => exact connect_prefix cfg s c v
  | write d c => exact (LowLog.write cfg s d c).prefix
  | close k => exact close_prefix s k
  | submit e => exact ⟨[.submit e], by simp [St.submit, St.say]⟩
  | transportError => exact fail_prefix s
  | countFires n rest hs => exact ⟨[.submit (.keyUpdate true)], by simp [St.submit, St.say]⟩
  | doFail rest hs => exact fail_prefix { s with stack := rest }
  | err p rest hs => exact errStep_prefix s rest p
  | hsCb rest hs => exact hsSuccess_prefix { s with stack := rest }
  | replay rest hs => exact ⟨[.replaySafe], rfl⟩
  | take e q rest hs => exact ⟨[.take e], rfl⟩
  | visit a => exact visit_prefix cfg s a
  | data | done => simp
  | _ => exact List.prefix_refl _

theorem kind_mem {cfg s s'} (k : Kind cfg s s') {o} (h : o ∈ s.log) : o ∈ s'.log := by
  obtain ⟨l, e⟩ := kind_prefix k
  rw [← e]; exact List.mem_append_left _ h

/-- A connection that has not failed. -/
theorem Reach.noErr {cfg s} (h : Reach cfg s) : .error ∉ s.log → NoErr s := by
  induction h with
  | init g e c => intro _; exact ⟨rfl, by simp⟩
  | step _ hs ih =>
    intro he
    have k := step_kind hs
    exact (kind_flow k (ih fun m => he (kind_mem k m)) he).1

end Fizz.Sock

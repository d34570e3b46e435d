import Verif.Sock.Shape

/-!
# The steps, listed
-/

namespace Fizz.Sock

open Spec

/-- The result of a step, by what it was. -/
inductive Kind (cfg : Cfg) (s : St) : St → Prop where
  | connect (c v) : s.outside = true → s.connected = false → s.guard = false → Kind cfg s (s.connect cfg c v)
  | sockConnected : s.outside = true → s.connected = true → s.guard = false → cfg.server = false →
      Kind cfg s s.startMachine
  | write (d c) : s.outside = true → s.connected = true → Kind cfg s (s.write cfg d c)
  | close (k) : s.outside = true → s.connected = true → Kind cfg s (s.close k)
  | submit (e) : s.outside = true → s.connected = true → (e = .keyUpdate false ∨ e = .ticket) →
      Kind cfg s (St.enter (s.submit e))
  | setReplay (b) : s.outside = true → s.connected = true → (b = false ∨ s.early.isSome = true) →
      Kind cfg s { s with replayCb := b }
  | transportError : s.outside = true → s.connected = true → Kind cfg s s.fail
  | data : s.outside = true → s.connected = true → Kind cfg s s.enter
  | env (g e c) : s.outside = true → (c = false ∨ s.tConn = true ∨ s.connected = false) →
      Kind cfg s { s with tGood := g, tErr := e, tConn := c }
  | ret (rest) : s.stack = .out :: rest → Kind cfg s { s with stack := rest }
  | count (n rest) : s.stack = .count n :: rest → fires cfg s.bytes n = false →
      Kind cfg s { s with stack := rest, bytes := s.bytes + n }
  | countFires (n rest) : s.stack = .count n :: rest → fires cfg s.bytes n = true →
      Kind cfg s (St.enter (St.submit { s with stack := rest, bytes := 0 } (.keyUpdate true)))
  | doFail (rest) : s.stack = .doFail :: rest → Kind cfg s (St.fail { s with stack := rest })
  | err (p rest) : s.stack = .err p :: rest → Kind cfg s (s.errStep rest p)
  | hsCb (rest) : s.stack = .hsCb :: rest → Kind cfg s (St.hsSuccess { s with stack := rest })
  | replay (rest) : s.stack = .replay :: rest → s.replayCb = true →
      Kind cfg s (St.push (St.say { s with stack := rest, replayCb := false } .replaySafe) [.out])
  | noReplay (rest) : s.stack = .replay :: rest → s.replayCb = false → Kind cfg s { s with stack := rest }
  | take (e q rest) : s.stack = .loop :: rest → s.queue = e :: q → s.guard = false → s.terminal = false →
      Kind cfg s (St.startMachine (St.say { s with queue := q } (.take e)))
  | sock (rest) : s.stack = .loop :: rest → s.guard = false → s.terminal = false → Kind cfg s s.startMachine
  | stop (rest) : s.stack = .loop :: rest → Kind cfg s { s with stack := rest, inProc := false }
  | visit (a rest) : s.stack = .acts :: rest → s.mayVisit cfg a = true → Kind cfg s (s.visit cfg a)
  | done (rest) : s.stack = .acts :: rest → Kind cfg s (St.enter { s with stack := rest, guard := false })
  | suspend (rest) : s.stack = .acts :: rest → cfg.server = true → Kind cfg s { s with stack := rest, susp := true }
  | resumed : s.outside = true → s.susp = true → Kind cfg s (St.push { s with susp := false } [.acts])

theorem step_kind {cfg s s' o} (h : step cfg s o = some s') : Kind cfg s s' := by
  cases o with
  | connect c v =>
    simp only [step] at h
    split at h
    · rename_i q; simp at q; cases Option.some.inj h; exact .connect c v q.1.1 q.1.2 q.2
    · cases h
  | sockConnected =>
    simp only [step] at h
    split at h
    · rename_i q; simp at q; cases Option.some.inj h; exact .sockConnected q.1.1.1 q.1.1.2 q.1.2 q.2
    · cases h
  | write d c =>
    simp only [step] at h
    split at h
    · rename_i q; simp at q; cases Option.some.inj h; exact .write d c q.1 q.2
    · cases h
  | close k =>
    simp only [step] at h
    split at h
    · rename_i q; simp at q; cases Option.some.inj h; exact .close k q.1 q.2
    · cases h
  | keyUpdate =>
    simp only [step] at h
    split at h
    · rename_i q; simp at q; cases Option.some.inj h; exact .submit _ q.1 q.2 (.inl rfl)
    · cases h
  | ticket =>
    simp only [step] at h
    split at h
    · rename_i q; simp at q; cases Option.some.inj h; exact .submit _ q.1.1 q.1.2 (.inr rfl)
    · cases h
  | setReplay b =>
    simp only [step] at h
    split at h
    · rename_i q; simp at q; cases Option.some.inj h; exact .setReplay b q.1.1 q.1.2 q.2
    · cases h
  | transportError =>
    simp only [step] at h
    split at h
    · rename_i q; simp at q; cases Option.some.inj h; exact .transportError q.1 q.2
    · cases h
  | data =>
    simp only [step] at h
    split at h
    · rename_i q; simp at q; cases Option.some.inj h; exact .data q.1 q.2
    · cases h
  | env g e c =>
    simp only [step] at h
    split at h
    · rename_i q
      simp only [Bool.and_eq_true, Bool.or_eq_true, Bool.not_eq_true'] at q
      cases Option.some.inj h
      refine .env g e c q.1 ?_
      rcases q.2 with (q | q) | q
      · exact .inl q
      · exact .inr (.inl q)
      · exact .inr (.inr q)
    · cases h
  | ret =>
    simp only [step] at h
    split at h
    · rename_i rest hs; cases Option.some.inj h; exact .ret rest hs
    · cases h
  | tau =>
    simp only [step, St.tau] at h
    split at h
    · rename_i n rest hs
      cases Option.some.inj h
      cases hf : fires cfg s.bytes n with
      | true =>
        have : St.count cfg { s with stack := rest } n =
            St.submit { s with stack := rest, bytes := 0 } (.keyUpdate true) := by
          unfold St.count; simp [hf]
        simp only [if_true, this]
        exact .countFires n rest hs hf
      | false =>
        have : St.count cfg { s with stack := rest } n = { s with stack := rest, bytes := s.bytes + n } := by
          unfold St.count; simp [hf]
        simp only [this]
        exact .count n rest hs hf
    · rename_i rest hs; cases Option.some.inj h; exact .doFail rest hs
    · rename_i p rest hs; cases Option.some.inj h; exact .err p rest hs
    · rename_i rest hs; cases Option.some.inj h; exact .hsCb rest hs
    · rename_i rest hs
      cases Option.some.inj h
      split
      · rename_i hr; exact .replay rest hs hr
      · rename_i hr; exact .noReplay rest hs (by simpa using hr)
    · cases h
  | take =>
    simp only [step] at h
    split at h
    · rename_i rest e q hs hq
      split at h
      · rename_i g; simp at g; cases Option.some.inj h; exact .take e q rest hs hq g.1 g.2
      · cases h
    · cases h
  | sock =>
    simp only [step] at h
    split at h
    · rename_i rest hs
      split at h
      · rename_i g; simp at g; cases Option.some.inj h; exact .sock rest hs g.1 g.2
      · cases h
    · cases h
  | stop =>
    simp only [step] at h
    split at h
    · rename_i rest hs; cases Option.some.inj h; exact .stop rest hs
    · cases h
  | visit a =>
    simp only [step] at h
    split at h
    · rename_i rest hs
      split at h
      · rename_i g; cases Option.some.inj h; exact .visit a rest hs g
      · cases h
    · cases h
  | done =>
    simp only [step] at h
    split at h
    · rename_i rest hs; cases Option.some.inj h; exact .done rest hs
    · cases h
  | suspend =>
    simp only [step] at h
    split at h
    · rename_i rest hs
      split at h
      · rename_i g; cases Option.some.inj h; exact .suspend rest hs g
      · cases h
    · cases h
  | resumed =>
    simp only [step] at h
    split at h
    · rename_i q; simp at q; cases Option.some.inj h; exact .resumed q.1 q.2
    · cases h

theorem Plain.of_top {s : St} {f rest} (h : s.stack = f :: rest) (hf : Calm f) : Plain s := by
  intro g r hg
  rw [h] at hg
  injection hg with h1 _
  exact h1 ▸ hf

/-- A pop that is followed by calls: the shape below need not be plain, so the calls are checked
against the state before the pop. -/
theorem Shape.popCall {cfg s t f rest fs} (h : Shape cfg s) (hst : s.stack = f :: rest) (hf : f ≠ .err .drain)
    (ht : t.stack = fs ++ rest) (hc : ∀ g ∈ fs, Calm g)
    (he : t.early = s.early) (hph : t.phase = s.phase) (hh : t.hsPend = s.hsPend) (hx : t.extErr = s.extErr)
    (hq : (∀ e ∈ s.queue, e.token = none) → ∀ e ∈ t.queue, e.token = none) : Shape cfg t := by
  rcases list_cases fs with hfs | ⟨g, gs, hfs⟩
  · subst hfs
    have h1 := h.popped hst hf
    refine ⟨by rw [he, hph]; exact h.early, by rw [hh]; exact h.hs, ?_, ?_, ?_⟩
    · intro g r hg
      have := h1.top g r (by rw [show ({ s with stack := rest } : St).stack = rest from rfl]; simpa [ht] using hg)
      rw [hh, St.earlyPend, he]
      exact this
    · intro g r hg
      exact h1.tail g r (by rw [show ({ s with stack := rest } : St).stack = rest from rfl]; simpa [ht] using hg)
    · rw [hx, hh, St.earlyPend, he]
      intro q
      obtain ⟨a, b, _⟩ := h.ext q
      refine ⟨a, b, (h.drain_or hst hf (l := t.stack) (fun g hg => by rw [ht]; exact hg) q).imp id hq⟩
  · refine h.replace hst ht (by rw [hfs]; simp) hc he hph hh ?_ hx
    intro q
    exact (h.drain_or hst hf (l := t.stack) (fun g hg => by rw [ht]; exact List.mem_append_right _ hg) q).imp id hq

theorem Shape.kind {cfg s s'} (h : Shape cfg s) (k : Kind cfg s s') : Shape cfg s' := by
  cases k with
  | connect c v ho => exact h.connect (.of_outside ho)
  | sockConnected ho => exact h.startMachine (.of_outside ho)
  | write d c ho => exact h.write (.of_outside ho)
  | close k ho => exact h.close (.of_outside ho)
  | submit e ho _ he =>
    exact (h.submit (.of_outside ho) (by rcases he with rfl | rfl <;> rfl)).enter
      ((Plain.of_outside ho).same rfl)
  | setReplay b ho => exact h.quiet (.of_outside ho) (fs := []) rfl (by simp) rfl rfl rfl rfl id
  | transportError ho => exact h.fail (.of_outside ho)
  | data ho => exact h.enter (.of_outside ho)
  | env g e c ho => exact h.quiet (.of_outside ho) (fs := []) rfl (by simp) rfl rfl rfl rfl id
  | ret rest hs => exact h.popped hs (by simp)
  | count n rest hs _ => exact h.pop hs rfl (by simp) rfl rfl rfl rfl rfl
  | countFires n rest hs _ =>
    obtain ⟨fs, hfs, hl⟩ := enter_stack (St.submit { s with stack := rest, bytes := 0 } (.keyUpdate true))
    exact h.popCall hs (by simp) hfs (fun f hf => by rw [hl f hf]; simp [Calm]) (by simp) (by simp) (by simp)
      (by simp) (fun q => by simpa using submit_none (s := { s with stack := rest, bytes := 0 }) rfl q)
  | doFail rest hs => exact h.popCall hs (by simp) (fs := [.err .hs]) rfl (by simp [Calm]) rfl rfl rfl rfl id
  | err p rest hs => exact h.errStep hs
  | hsCb rest hs =>
    obtain ⟨fs, hfs, hl⟩ := hsSuccess_stack { s with stack := rest }
    exact h.popCall hs (by simp) hfs (fun f hf => by rw [hl f hf]; simp [Calm]) (by simp) (by simp) (by simp)
      (by simp) (by simp)
  | replay rest hs _ => exact h.popCall hs (by simp) (fs := [.out]) rfl (by simp [Calm]) rfl rfl rfl rfl id
  | noReplay rest hs => exact h.popped hs (by simp)
  | take e q rest hs hq =>
    exact h.quiet (Plain.of_top hs (by simp [Calm])) (fs := [.acts]) rfl (by simp [Calm]) rfl rfl rfl rfl
      (fun n e' he' => n e' (by rw [hq]; exact List.mem_cons_of_mem _ he'))
  | sock rest hs => exact h.startMachine (Plain.of_top hs (by simp [Calm]))
  | stop rest hs => exact h.pop hs rfl (by simp) rfl rfl rfl rfl rfl
  | visit a rest hs hm => exact h.visit (Plain.of_top hs (by simp [Calm])) hm
  | done rest hs =>
    obtain ⟨fs, hfs, hl⟩ := enter_stack { s with stack := rest, guard := false }
    exact h.popCall hs (by simp) hfs (fun f hf => by rw [hl f hf]; simp [Calm]) (by simp) (by simp) (by simp)
      (by simp) (by simp)
  | suspend rest hs => exact h.pop hs rfl (by simp) rfl rfl rfl rfl rfl
  | resumed ho => exact h.quiet (.of_outside ho) (fs := [.acts]) rfl (by simp [Calm]) rfl rfl rfl rfl id

theorem Acc.kind {cfg s s'} (h : Acc s []) (hs : Shape cfg s) (k : Kind cfg s s') : Acc s' [] := by
  cases k with
  | connect c v ho => exact h.connect
  | sockConnected ho => exact h.startMachine
  | write d c ho => exact h.write
  | close k ho => exact h.close
  | submit e ho _ he =>
    rcases he with rfl | rfl <;> exact (Acc.submit _ h.nil).enter
  | setReplay b ho => exact h.same ⟨rfl, rfl, rfl, rfl, rfl⟩
  | transportError ho => exact h.fail
  | data ho => exact h.enter
  | env g e c ho => exact h.same ⟨rfl, rfl, rfl, rfl, rfl⟩
  | ret rest hs => exact h.same ⟨rfl, rfl, rfl, rfl, rfl⟩
  | count n rest hs _ => exact h.same ⟨rfl, rfl, rfl, rfl, rfl⟩
  | countFires n rest hs _ =>
    refine Acc.enter (Acc.submit (.keyUpdate true) (Acc.nil ?_))
    exact h.same ⟨rfl, rfl, rfl, rfl, rfl⟩
  | doFail rest hs =>
    refine Acc.fail ?_
    exact h.same ⟨rfl, rfl, rfl, rfl, rfl⟩
  | err p rest hs => exact h.errStep
  | hsCb rest hs =>
    refine Acc.hsSuccess ?_
    exact h.same ⟨rfl, rfl, rfl, rfl, rfl⟩
  | replay rest hs _ =>
    refine Acc.push (Acc.say ?_ fun _ => ⟨rfl, rfl, rfl⟩)
    exact h.same ⟨rfl, rfl, rfl, rfl, rfl⟩
  | noReplay rest hs => exact h.same ⟨rfl, rfl, rfl, rfl, rfl⟩
  | take e q rest hs hq => exact (h.take hq).startMachine
  | sock rest hs => exact h.startMachine
  | stop rest hs => exact h.same ⟨rfl, rfl, rfl, rfl, rfl⟩
  | visit a rest _ hm =>
    refine h.visit hm ?_
    intro h0
    cases he : s.early with
    | none => simp [St.earlyPend, he]
    | some e => exact absurd (hs.early (by rw [he]; simp)).2.2 (by omega)
  | done rest hs =>
    refine Acc.enter ?_
    exact h.same ⟨rfl, rfl, rfl, rfl, rfl⟩
  | suspend rest hs => exact h.same ⟨rfl, rfl, rfl, rfl, rfl⟩
  | resumed ho =>
    refine Acc.push ?_
    exact h.same ⟨rfl, rfl, rfl, rfl, rfl⟩

end Fizz.Sock

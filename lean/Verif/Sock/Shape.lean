import Verif.Sock.Fields

/-!
# What the pending writes and the call stack look like
-/

namespace Fizz.Sock

open Spec

/-- Frames that are not in the middle of failing the pending writes. -/
def Calm (f : Frame) : Prop := f ≠ .err .move ∧ f ≠ .err .pendEarly

/-- The three queues against the configuration and the progress of `deliverAllErrors`. -/
structure Shape (cfg : Cfg) (s : St) : Prop where
  early : s.early ≠ none → cfg.server = false ∧ cfg.sendEarly = true ∧ 1 ≤ s.phase
  hs : s.hsPend ≠ [] → cfg.server = false ∧ cfg.sendEarly = false
  top : ∀ f rest, s.stack = f :: rest →
    (f = .err .pendEarly → s.hsPend = []) ∧ (f = .err .move → s.hsPend = [] ∧ s.earlyPend = [])
  tail : ∀ f rest, s.stack = f :: rest → ∀ g ∈ rest,
    g ≠ .err .move ∧ (g = .err .pendEarly → cfg.server = false ∧ cfg.sendEarly = true)
  ext : s.extErr = true → s.hsPend = [] ∧ s.earlyPend = [] ∧
    (.err .drain ∈ s.stack ∨ ∀ e ∈ s.queue, e.token = none)

/-- The top frame is calm. -/
def Plain (s : St) : Prop := ∀ f rest, s.stack = f :: rest → Calm f

theorem Plain.of_outside {s : St} (h : s.outside = true) : Plain s := by
  intro f rest hs
  unfold St.outside at h
  rw [hs] at h
  cases f <;> simp [Calm] at h ⊢

/-- Calling something. -/
theorem Shape.grow {cfg s t fs} (h : Shape cfg s) (hp : Plain s) (hst : t.stack = fs ++ s.stack)
    (hc : ∀ f ∈ fs, Calm f)
    (he : t.early ≠ none → cfg.server = false ∧ cfg.sendEarly = true ∧ 1 ≤ t.phase)
    (hh : t.hsPend ≠ [] → cfg.server = false ∧ cfg.sendEarly = false)
    (hx : t.extErr = true → t.hsPend = [] ∧ t.earlyPend = [] ∧
      (.err .drain ∈ s.stack ∨ ∀ e ∈ t.queue, e.token = none)) : Shape cfg t := by
  have hall : ∀ f ∈ s.stack, f ≠ .err .move ∧ (f = .err .pendEarly → cfg.server = false ∧ cfg.sendEarly = true) := by
    intro f hf
    cases hs : s.stack with
    | nil => rw [hs] at hf; cases hf
    | cons g rest =>
      rw [hs] at hf
      rcases List.mem_cons.1 hf with rfl | hf
      · exact ⟨(hp _ _ hs).1, fun q => absurd q (hp _ _ hs).2⟩
      · exact h.tail _ _ hs f hf
  have hcalm : ∀ f rest, t.stack = f :: rest → Calm f := by
    intro f rest hf
    rw [hst] at hf
    cases fs with
    | nil => exact hp _ _ hf
    | cons g fs =>
      injection hf with h1 _
      exact h1 ▸ hc g List.mem_cons_self
  refine ⟨he, hh, ?_, ?_, ?_⟩
  · intro f rest hf
    exact ⟨fun q => absurd q (hcalm f rest hf).2, fun q => absurd q (hcalm f rest hf).1⟩
  · intro f rest hf g hg
    have hg' : g ∈ fs ++ s.stack := by rw [← hst, hf]; exact List.mem_cons_of_mem _ hg
    rcases List.mem_append.1 hg' with hg' | hg'
    · exact ⟨(hc g hg').1, fun q => absurd q (hc g hg').2⟩
    · exact hall g hg'
  · intro q
    obtain ⟨a, b, c⟩ := hx q
    exact ⟨a, b, c.imp (fun m => by rw [hst]; exact List.mem_append_right _ m) id⟩

/-- Calling something without touching a pending write. -/
theorem Shape.quiet {cfg s t fs} (h : Shape cfg s) (hp : Plain s) (hst : t.stack = fs ++ s.stack)
    (hc : ∀ f ∈ fs, Calm f) (he : t.early = s.early) (hph : t.phase = s.phase) (hh : t.hsPend = s.hsPend)
    (hx : t.extErr = s.extErr)
    (hq : (∀ e ∈ s.queue, e.token = none) → ∀ e ∈ t.queue, e.token = none) : Shape cfg t := by
  refine h.grow hp hst hc ?_ ?_ ?_
  · rw [he, hph]; exact h.early
  · rw [hh]; exact h.hs
  · rw [hx, hh, St.earlyPend, he]
    intro q
    obtain ⟨a, b, c⟩ := h.ext q
    exact ⟨a, b, c.imp id hq⟩

/-- Returning: the frame below is exposed. -/
theorem Shape.pop {cfg s t f rest} (h : Shape cfg s) (hst : s.stack = f :: rest) (ht : t.stack = rest)
    (hf : f ≠ .err .drain) (he : t.early = s.early) (hph : t.phase = s.phase) (hh : t.hsPend = s.hsPend)
    (hx : t.extErr = s.extErr) (hq : t.queue = s.queue) : Shape cfg t := by
  have hr := h.tail _ _ hst
  refine ⟨by rw [he, hph]; exact h.early, by rw [hh]; exact h.hs, ?_, ?_, ?_⟩
  · intro g r hg
    have := hr g (by rw [← ht, hg]; exact List.mem_cons_self)
    refine ⟨fun q => ?_, fun q => absurd q this.1⟩
    rw [hh]
    cases hs : s.hsPend with
    | nil => rfl
    | cons w ws =>
      have a := (this.2 q).2
      have b := (h.hs (by rw [hs]; simp)).2
      rw [a] at b; cases b
  · intro g r hg k hk
    exact hr k (by rw [← ht, hg]; exact List.mem_cons_of_mem _ hk)
  · rw [hx, hh, St.earlyPend, he, hq]
    intro q
    obtain ⟨a, b, c⟩ := h.ext q
    refine ⟨a, b, c.imp (fun m => ?_) id⟩
    rw [hst] at m
    rw [ht]
    rcases List.mem_cons.1 m with m | m
    · exact absurd m.symm hf
    · exact m

/-- Popping a frame leaves a plain top or the same discipline; then something is called.  Used when
the popped frame is replaced. -/
theorem Shape.plain_pop {cfg s f rest} (h : Shape cfg s) (hst : s.stack = f :: rest) :
    ∀ g ∈ rest, g ≠ .err .move := fun g hg => (h.tail _ _ hst g hg).1

theorem enter_stack (s : St) : ∃ fs, s.enter.stack = fs ++ s.stack ∧ ∀ f ∈ fs, f = .loop := by
  unfold St.enter; split
  · exact ⟨[], rfl, by simp⟩
  · exact ⟨[.loop], rfl, by simp⟩

/-- The result of `enter`. -/
theorem Shape.enter {cfg s} (h : Shape cfg s) (hp : Plain s) : Shape cfg s.enter := by
  obtain ⟨fs, hfs, hl⟩ := enter_stack s
  exact h.quiet hp hfs (fun f hf => by rw [hl f hf]; simp [Calm]) (by simp) (by simp) (by simp) (by simp)
    (by simp)

theorem submit_none {s : St} {e : Ev} (he : e.token = none) (h : ∀ e ∈ s.queue, e.token = none) :
    ∀ e' ∈ (s.submit e).queue, e'.token = none := by
  intro e' h'
  simp only [St.submit, St.say, List.mem_append, List.mem_singleton] at h'
  rcases h' with h' | rfl
  · exact h _ h'
  · exact he

theorem count_none {cfg} {s : St} {n} (h : ∀ e ∈ s.queue, e.token = none) :
    ∀ e ∈ (s.count cfg n).queue, e.token = none := by
  unfold St.count; split
  · exact submit_none rfl h
  · exact h

theorem Shape.submit {cfg s e} (h : Shape cfg s) (hp : Plain s) (he : e.token = none) :
    Shape cfg (s.submit e) :=
  h.quiet hp (fs := []) (by simp) (by simp) rfl rfl rfl rfl (submit_none he)

theorem Shape.push {cfg s fs} (h : Shape cfg s) (hp : Plain s) (hc : ∀ f ∈ fs, Calm f) :
    Shape cfg (s.push fs) :=
  h.quiet hp rfl hc rfl rfl rfl rfl id

theorem Shape.fail {cfg s} (h : Shape cfg s) (hp : Plain s) : Shape cfg s.fail :=
  h.quiet hp (fs := [.err .hs]) rfl (by simp [Calm]) rfl rfl rfl rfl id

theorem Plain.push {s : St} {f fs} (hf : Calm f) : Plain (s.push (f :: fs)) := by
  intro g rest hg
  injection hg with h1 _
  exact h1 ▸ hf

theorem Plain.same {s t : St} (h : Plain s) (e : t.stack = s.stack) : Plain t :=
  fun f rest hf => h f rest (e ▸ hf)

theorem good_ext {s : St} (h : s.good = true) : s.extErr = false := by
  simp [St.good, St.terminal] at h
  exact h.1.2.1.2

theorem Shape.performAppWrite {cfg s w} (h : Shape cfg s) (hp : Plain s) (hx : s.extErr = false) :
    Shape cfg (s.performAppWrite w) := by
  refine Shape.enter ?_ (Plain.push (by simp [Calm]))
  refine h.grow hp (fs := [.count w.data.length]) rfl (by simp [Calm]) ?_ ?_ ?_
  · exact h.early
  · exact h.hs
  · intro q
    have q : s.extErr = true := q
    rw [hx] at q; cases q

theorem Shape.writeGood {cfg s w} (h : Shape cfg s) (hp : Plain s) (hx : s.extErr = false) :
    Shape cfg (s.writeGood cfg w) := by
  unfold St.writeGood
  split
  · exact h.performAppWrite hp hx
  · rename_i hsv
    split
    · rename_i e he
      have hE := h.early (by rw [he]; simp)
      unfold St.writeEarly
      split
      · refine h.grow hp (fs := []) rfl (by simp) (fun _ => hE) h.hs ?_
        intro q
        have q : s.extErr = true := q
        rw [hx] at q; cases q
      · refine Shape.enter ?_ (hp.same rfl)
        refine h.grow hp (fs := []) rfl (by simp) (fun _ => hE) h.hs ?_
        intro q
        have q : s.extErr = true := q
        rw [hx] at q; cases q
    · split
      · rename_i hcn
        refine h.grow hp (fs := []) rfl (by simp) h.early (fun _ => ?_) ?_
        · refine ⟨by simpa using hsv, by simp at hcn; exact hcn.2⟩
        · intro q
          have q : s.extErr = true := q
          rw [hx] at q; cases q
      · exact h.performAppWrite hp hx

theorem Shape.write {cfg s d c} (h : Shape cfg s) (hp : Plain s) : Shape cfg (s.write cfg d c) := by
  unfold St.write
  simp only []
  have h1 : Shape cfg (St.say { s with nextId := s.nextId + 1 } (.write s.nextId d c s.good)) :=
    h.quiet hp (fs := []) rfl (by simp) rfl rfl rfl rfl id
  split
  · rename_i hg
    exact h1.writeGood (hp.same rfl) (good_ext hg)
  · split
    · exact h.quiet hp (fs := [.out]) rfl (by simp [Calm]) rfl rfl rfl rfl id
    · exact h1

theorem Shape.startMachine {cfg s} (h : Shape cfg s) (hp : Plain s) : Shape cfg s.startMachine :=
  h.quiet hp (fs := [.acts]) rfl (by simp [Calm]) rfl rfl rfl rfl id

theorem Shape.connect {cfg s c v} (h : Shape cfg s) (hp : Plain s) : Shape cfg (s.connect cfg c v) := by
  unfold St.connect
  simp only []
  split
  · exact h.quiet hp (fs := [.acts]) rfl (by simp [Calm]) rfl rfl rfl rfl id
  · split
    · exact h.quiet hp (fs := [.out]) rfl (by simp [Calm]) rfl rfl rfl rfl id
    · split
      · exact h.quiet hp (fs := [.acts]) rfl (by simp [Calm]) rfl rfl rfl rfl id
      · exact h.quiet hp (fs := [.err .hs]) rfl (by simp [Calm]) rfl rfl rfl rfl id

theorem Shape.close {cfg s k} (h : Shape cfg s) (hp : Plain s) : Shape cfg (s.close k) := by
  cases k <;> simp only [St.close] <;> split
  · exact (h.submit hp rfl).enter (hp.same rfl)
  · exact (h.push hp (by simp [Calm])).fail (Plain.push (by simp [Calm]))
  · exact ((h.push hp (by simp [Calm])).submit (Plain.push (by simp [Calm])) rfl).enter
      ((Plain.push (f := .doFail) (fs := [.out]) (by simp [Calm])).same rfl)
  · exact (h.push hp (by simp [Calm])).fail (Plain.push (by simp [Calm]))
  · exact ((h.push hp (by simp [Calm])).submit (Plain.push (by simp [Calm])) rfl).enter
      ((Plain.push (f := .out) (fs := []) (by simp [Calm])).same rfl)
  · exact h.push hp (by simp [Calm])

theorem hsSuccess_stack (s : St) : ∃ fs, s.hsSuccess.stack = fs ++ s.stack ∧ ∀ f ∈ fs, f = .out := by
  unfold St.hsSuccess; split
  · exact ⟨[], rfl, by simp⟩
  · exact ⟨[.out], rfl, by simp⟩
  · exact ⟨[], rfl, by simp⟩

theorem hsError_stack (s : St) : ∃ fs, s.hsError.stack = fs ++ s.stack ∧ ∀ f ∈ fs, f = .out := by
  unfold St.hsError; split
  · exact ⟨[], rfl, by simp⟩
  · exact ⟨[.out], rfl, by simp⟩
  · exact ⟨[], rfl, by simp⟩

theorem Shape.hsSuccess {cfg s} (h : Shape cfg s) (hp : Plain s) : Shape cfg s.hsSuccess := by
  obtain ⟨fs, hfs, hl⟩ := hsSuccess_stack s
  exact h.quiet hp hfs (fun f hf => by rw [hl f hf]; simp [Calm]) (by simp) (by simp) (by simp) (by simp)
    (by simp)

theorem Shape.hsError {cfg s} (h : Shape cfg s) (hp : Plain s) : Shape cfg s.hsError := by
  obtain ⟨fs, hfs, hl⟩ := hsError_stack s
  exact h.quiet hp hfs (fun f hf => by rw [hl f hf]; simp [Calm]) (by simp) (by simp) (by simp) (by simp)
    (by simp)

theorem flush1_none {cfg} {s : St} {d} (h : ∀ e ∈ s.queue, e.token = none) :
    ∀ e ∈ (s.flush1 cfg ⟨none, d⟩).queue, e.token = none := count_none (submit_none rfl h)

/-- Full success, client. -/
theorem Shape.successClient {cfg s a now old} (h : Shape cfg s) (hp : Plain s)
    (hsv : cfg.server = false) : Shape cfg (s.successClient cfg a now old) := by
  show Shape cfg ((St.flush cfg { s with hsPend := [] } s.hsPend).successEarly cfg a now old)
  have hq : ∀ {p : Prop}, s.extErr = true → (p ∨ ∀ e ∈ s.queue, e.token = none) →
      p ∨ ∀ e ∈ (St.flush cfg { s with hsPend := [] } s.hsPend).queue, e.token = none := by
    intro p q hor
    rw [(h.ext q).1]
    exact hor
  have h1 : Shape cfg (St.flush cfg { s with hsPend := [] } s.hsPend) := by
    refine h.grow hp (fs := []) (by simp) (by simp) (by simpa using h.early) (by simp) ?_
    intro q
    have q : s.extErr = true := by simpa using q
    obtain ⟨a, b, c⟩ := h.ext q
    exact ⟨by simp, by simpa [St.earlyPend] using b, hq q c⟩
  have hp1 : Plain (St.flush cfg { s with hsPend := [] } s.hsPend) := hp.same (by simp)
  revert h1 hp1
  generalize St.flush cfg { s with hsPend := [] } s.hsPend = t
  intro h1 hp1
  unfold St.successEarly
  cases he : t.early with
  | none => exact h1.push hp1 (fs := [.hsCb, .replay]) (by simp [Calm])
  | some e =>
    simp only []
    have hx : t.extErr = true → e.pend = [] := by
      intro q
      have := (h1.ext q).2.1
      simpa [St.earlyPend, he] using this
    split
    · refine h1.grow hp1 (fs := [.hsCb, .replay]) (by simp [St.push]) (by simp [Calm]) (by simp) (by simpa using h1.hs) ?_
      intro q
      have q : t.extErr = true := by simpa using q
      rw [hx q]
      obtain ⟨a, b, c⟩ := h1.ext q
      exact ⟨by simpa using a, rfl, c⟩
    · split
      · split
        · refine h1.grow hp1 (fs := [.hsCb, .replay]) (by simp [St.push]) (by simp [Calm]) (by simp) (by simpa using h1.hs) ?_
          intro q
          have q : t.extErr = true := by simpa using q
          rw [hx q]
          obtain ⟨a, b, c⟩ := h1.ext q
          exact ⟨by simpa using a, rfl, c⟩
        · refine h1.grow hp1 (fs := [.hsCb, .replay]) (by simp [St.push]) (by simp [Calm]) (by simp) (by simpa using h1.hs) ?_
          intro q
          have q : t.extErr = true := by simpa using q
          rw [hx q]
          obtain ⟨a, b, c⟩ := h1.ext q
          exact ⟨by simpa using a, rfl, c.imp id flush1_none⟩
      · refine Shape.fail ?_ (Plain.push (by simp [Calm]))
        exact h1.quiet hp1 (fs := [.out]) rfl (by simp [Calm]) rfl rfl rfl rfl id

theorem Shape.visit {cfg s a} (h : Shape cfg s) (hp : Plain s) (hm : s.mayVisit cfg a = true) :
    Shape cfg (s.visit cfg a) := by
  cases a with
  | earlyOk m =>
    simp only [St.mayVisit, Bool.and_eq_true, decide_eq_true_eq, Bool.or_eq_true] at hm
    have he0 : s.early = none := by
      cases he : s.early with
      | none => rfl
      | some e => exact absurd (h.early (by rw [he]; simp)).2.2 (by omega)
    simp only [St.visit]
    split
    · have h1 : Shape cfg (St.say { s with phase := 1 } (.earlyOk m)) := by
        refine h.grow hp (fs := []) rfl (by simp) (fun q => absurd he0 q) h.hs h.ext
      split
      · exact h1.hsSuccess (hp.same rfl)
      · exact h1.fail (hp.same rfl)
    · rename_i hsv
      have hsv : cfg.server = false := by simpa using hsv
      refine Shape.hsSuccess ?_ (hp.same rfl)
      refine h.grow hp (fs := []) rfl (by simp) (fun _ => ⟨hsv, ?_, by simp⟩) h.hs ?_
      · rcases hm.2 with q | q
        · rw [hsv] at q; cases q
        · exact q
      · intro q
        obtain ⟨a, _, c⟩ := h.ext q
        exact ⟨a, rfl, c⟩
  | success a now old =>
    simp only [St.visit]
    have h1 : Shape cfg (St.say { s with phase := 2 } (.success a now old)) := by
      refine h.grow hp (fs := []) rfl (by simp) ?_ h.hs h.ext
      intro q
      have := h.early q
      exact ⟨this.1, this.2.1, by simp⟩
    split
    · split
      · exact h1.hsSuccess (hp.same rfl)
      · exact h1.fail (hp.same rfl)
    · rename_i hsv
      exact h1.successClient (hp.same rfl) (by simpa using hsv)
  | error => exact h.fail hp
  | fallback =>
    simp only [St.visit]
    split
    · split
      · exact h.quiet hp (fs := [.out]) rfl (by simp [Calm]) rfl rfl rfl rfl id
      · exact h
    · exact h
  | earlyFailed t =>
    cases t with
    | none => exact h
    | some i => exact h.quiet hp (fs := [.out]) rfl (by simp [Calm]) rfl rfl rfl rfl id
  | mutate e c => exact h.quiet hp (fs := []) rfl (by simp) rfl rfl rfl rfl id
  | other => exact h.push hp (by simp [Calm])

theorem failW_stack (s : St) (t) : ∃ fs, (s.failW t).stack = fs ++ s.stack ∧ ∀ f ∈ fs, f = .out := by
  unfold St.failW; split
  · exact ⟨[.out], rfl, by simp⟩
  · exact ⟨[], rfl, by simp⟩

/-- Replacing the frame on top by a calm one, and calling something. -/
theorem Shape.replace {cfg s t f rest fs} (h : Shape cfg s) (hst : s.stack = f :: rest)
    (ht : t.stack = fs ++ rest) (hne : fs ≠ []) (hc : ∀ g ∈ fs, Calm g)
    (he : t.early = s.early) (hph : t.phase = s.phase) (hh : t.hsPend = s.hsPend)
    (hx : s.extErr = true → .err .drain ∈ t.stack ∨ ∀ e ∈ t.queue, e.token = none)
    (hxx : t.extErr = s.extErr) : Shape cfg t := by
  have hr := h.tail _ _ hst
  have hcalm : ∀ g r, t.stack = g :: r → Calm g := by
    intro g r hg
    rw [ht] at hg
    cases fs with
    | nil => exact absurd rfl hne
    | cons k fs =>
      injection hg with h1 _
      exact h1 ▸ hc k List.mem_cons_self
  refine ⟨by rw [he, hph]; exact h.early, by rw [hh]; exact h.hs, ?_, ?_, ?_⟩
  · intro g r hg
    exact ⟨fun q => absurd q (hcalm g r hg).2, fun q => absurd q (hcalm g r hg).1⟩
  · intro g r hg k hk
    have : k ∈ fs ++ rest := by rw [← ht, hg]; exact List.mem_cons_of_mem _ hk
    rcases List.mem_append.1 this with q | q
    · exact ⟨(hc k q).1, fun e => absurd e (hc k q).2⟩
    · exact hr k q
  · rw [hxx, hh, St.earlyPend, he]
    intro q
    obtain ⟨a, b, _⟩ := h.ext q
    exact ⟨a, b, hx q⟩

theorem drain_mem {f : Frame} {rest l : List Frame} (hf : f ≠ .err .drain) (h : Frame.err .drain ∈ f :: rest)
    (hl : ∀ g ∈ rest, g ∈ l) : Frame.err .drain ∈ l := by
  rcases List.mem_cons.1 h with m | m
  · exact absurd m.symm hf
  · exact hl _ m

theorem Shape.drain_or {cfg s f rest} {l : List Frame} (h : Shape cfg s) (hst : s.stack = f :: rest) (hf : f ≠ .err .drain)
    (hl : ∀ g ∈ rest, g ∈ l) (q : s.extErr = true) :
    Frame.err .drain ∈ l ∨ ∀ e ∈ s.queue, e.token = none :=
  (h.ext q).2.2.imp (fun m => drain_mem hf (hst ▸ m) hl) id

theorem pendHs1_nil {s : St} {rest} (h : s.hsPend = []) :
    s.pendHs1 rest = { s with stack := .err .pendEarly :: rest } := by unfold St.pendHs1; rw [h]

theorem pendHs1_cons {s : St} {rest w ws} (h : s.hsPend = w :: ws) :
    s.pendHs1 rest = St.failW { s with hsPend := ws, stack := .err .pendHs :: rest } w.token := by
  unfold St.pendHs1; rw [h]

theorem pendEarly1_nil {s : St} {rest} (h : s.earlyPend = []) :
    s.pendEarly1 rest = { s with stack := .err .move :: rest } := by
  unfold St.pendEarly1
  unfold St.earlyPend at h
  split
  · rfl
  · rename_i e he
    rw [he] at h
    simp only [Option.map_some, Option.getD_some] at h
    split
    · rfl
    · rename_i hq
      rw [h] at hq; cases hq

theorem pendEarly1_cons {s : St} {rest e w ws} (h : s.early = some e) (hq : e.pend = w :: ws) :
    s.pendEarly1 rest = St.failW { s with early := some { e with pend := ws }, stack := .err .pendEarly :: rest } w.token := by
  unfold St.pendEarly1; rw [h]; simp only []; rw [hq]

theorem drain1_nil {s : St} {rest} (h : s.queue = []) :
    s.drain1 rest = { s with stack := .err .fin :: rest } := by unfold St.drain1; rw [h]

theorem drain1_cons {s : St} {rest e q} (h : s.queue = e :: q) :
    s.drain1 rest = St.failW { s with queue := q, stack := .err .drain :: rest } e.token := by
  unfold St.drain1; rw [h]

theorem list_cases {α} (l : List α) : l = [] ∨ ∃ a r, l = a :: r := by
  cases l <;> simp

theorem earlyPend_cases (s : St) : s.earlyPend = [] ∨ ∃ e w ws, s.early = some e ∧ e.pend = w :: ws := by
  unfold St.earlyPend
  cases s.early with
  | none => exact .inl rfl
  | some e =>
    rcases list_cases e.pend with h | ⟨w, ws, h⟩
    · exact .inl h
    · exact .inr ⟨e, w, ws, rfl, h⟩

theorem Shape.errStep {cfg s rest p} (h : Shape cfg s) (hst : s.stack = .err p :: rest) :
    Shape cfg (s.errStep rest p) := by
  have hr := h.tail _ _ hst
  cases p with
  | hs =>
    obtain ⟨fs, hfs, hl⟩ := hsError_stack { s with stack := .err .unreplay :: rest }
    refine h.replace hst (fs := fs ++ [.err .unreplay]) (by simpa [St.errStep] using hfs) (by simp) ?_
      (by simp [St.errStep]) (by simp [St.errStep]) (by simp [St.errStep]) ?_ (by simp [St.errStep])
    · intro g hg
      rcases List.mem_append.1 hg with q | q
      · rw [hl g q]; simp [Calm]
      · rw [List.mem_singleton.1 q]; simp [Calm]
    · intro q
      have := h.drain_or hst (by simp) (l := (St.errStep s rest .hs).stack)
        (fun g hg => by rw [show (St.errStep s rest .hs).stack = _ from hfs]; simp [hg]) q
      exact this.imp id (by simp [St.errStep])
  | unreplay =>
    refine h.replace hst (fs := [.err .pendHs]) rfl (by simp) (by simp [Calm]) rfl rfl rfl ?_ rfl
    exact h.drain_or hst (by simp) (fun g hg => List.mem_cons_of_mem _ hg)
  | pendHs =>
    simp only [St.errStep]
    rcases list_cases s.hsPend with hq | ⟨w, ws, hq⟩
    · rw [pendHs1_nil hq]
      refine ⟨h.early, fun n => h.hs n, ?_, ?_, ?_⟩
      · intro g r hg
        injection hg with h1 _
        subst h1
        exact ⟨fun _ => hq, (nomatch ·)⟩
      · intro g r hg k hk
        injection hg with _ h2
        subst h2
        exact hr k hk
      · intro q
        exact ⟨(h.ext q).1, (h.ext q).2.1, h.drain_or hst (by simp) (fun g hg => List.mem_cons_of_mem _ hg) q⟩
    · rw [pendHs1_cons hq]
      have hx : s.extErr = false := by
        cases hx : s.extErr with
        | false => rfl
        | true => have := (h.ext hx).1; rw [hq] at this; cases this
      obtain ⟨fs, hfs, hl⟩ := failW_stack { s with hsPend := ws, stack := .err .pendHs :: rest } w.token
      have hcl : ∀ g ∈ fs ++ [.err .pendHs], Calm g := by
        intro g hg
        rcases List.mem_append.1 hg with q | q
        · rw [hl g q]; simp [Calm]
        · rw [List.mem_singleton.1 q]; simp [Calm]
      have hst' : (St.failW { s with hsPend := ws, stack := .err .pendHs :: rest } w.token).stack =
          (fs ++ [.err .pendHs]) ++ rest := by simpa using hfs
      have hnorm : Shape cfg { s with hsPend := ws } :=
        ⟨h.early, fun _ => h.hs (by rw [hq]; simp), fun f r e => by
            rw [show s.stack = _ from hst] at e
            injection e with e1 _
            subst e1
            exact ⟨(nomatch ·), (nomatch ·)⟩, h.tail, fun q => by
            have q : s.extErr = true := q
            rw [hx] at q; cases q⟩
      refine hnorm.replace (f := .err .pendHs) hst hst' (by simp) hcl (by simp) (by simp) (by simp) ?_ (by simp)
      intro q
      have q : s.extErr = true := q
      rw [hx] at q; cases q
  | pendEarly =>
    have hp0 : s.hsPend = [] := (h.top _ _ hst).1 rfl
    have hmove : s.earlyPend = [] → Shape cfg { s with stack := .err .move :: rest } := by
      intro he0
      refine ⟨h.early, h.hs, ?_, ?_, ?_⟩
      · intro g r hg
        injection hg with h1 _
        subst h1
        exact ⟨(nomatch ·), fun _ => ⟨hp0, he0⟩⟩
      · intro g r hg k hk
        injection hg with _ h2
        subst h2
        exact hr k hk
      · intro q
        exact ⟨(h.ext q).1, (h.ext q).2.1, h.drain_or hst (by simp) (fun g hg => List.mem_cons_of_mem _ hg) q⟩
    simp only [St.errStep]
    rcases earlyPend_cases s with he0 | ⟨e, w, ws, he, hq⟩
    · rw [pendEarly1_nil he0]
      exact hmove he0
    · rw [pendEarly1_cons he hq]
      · have hE := h.early (by rw [he]; simp)
        have hx : s.extErr = false := by
          cases hx : s.extErr with
          | false => rfl
          | true =>
            have := (h.ext hx).2.1
            simp [St.earlyPend, he, hq] at this
        generalize hT : St.failW { s with early := some { e with pend := ws }, stack := .err .pendEarly :: rest } w.token = T
        obtain ⟨fs, hfs, hl⟩ := failW_stack
          { s with early := some { e with pend := ws }, stack := .err .pendEarly :: rest } w.token
        rw [hT] at hfs
        have t1 : T.hsPend = [] := by rw [← hT]; simpa using hp0
        have t2 : T.extErr = false := by rw [← hT]; simpa using hx
        have t3 : T.phase = s.phase := by rw [← hT]; simp
        refine ⟨fun _ => by rw [t3]; exact hE, fun n => absurd t1 n, ?_, ?_, fun q => by rw [t2] at q; cases q⟩
        · intro g r hg
          refine ⟨fun _ => t1, fun n => ?_⟩
          rw [hfs] at hg
          cases fs with
          | nil => injection hg with h1 _; subst h1; cases n
          | cons k fs =>
            injection hg with h1 _
            rw [← h1, hl k List.mem_cons_self] at n; cases n
        · intro g r hg k hk
          have : k ∈ fs ++ .err .pendEarly :: rest := by
            rw [show fs ++ .err .pendEarly :: rest = T.stack from hfs.symm, hg]; exact List.mem_cons_of_mem _ hk
          rcases List.mem_append.1 this with q | q
          · rw [hl k q]; exact ⟨by simp, by simp⟩
          · rcases List.mem_cons.1 q with q | q
            · rw [q]; exact ⟨by simp, fun _ => ⟨hE.1, hE.2.1⟩⟩
            · exact hr k q
  | move =>
    have ht := (h.top _ _ hst).2 rfl
    simp only [St.errStep]
    split
    · refine h.replace hst (fs := [.err .fin]) rfl (by simp) (by simp [Calm]) rfl rfl rfl ?_ rfl
      exact h.drain_or hst (by simp) (fun g hg => List.mem_cons_of_mem _ hg)
    · refine ⟨h.early, h.hs, ?_, ?_, fun _ => ⟨ht.1, ht.2, .inl List.mem_cons_self⟩⟩
      · intro g r hg
        injection hg with h1 _
        subst h1
        exact ⟨(nomatch ·), (nomatch ·)⟩
      · intro g r hg k hk
        injection hg with _ h2
        subst h2
        exact hr k hk
  | drain =>
    simp only [St.errStep]
    rcases list_cases s.queue with hq | ⟨e, q, hq⟩
    · rw [drain1_nil hq]
      refine h.replace hst (fs := [.err .fin]) rfl (by simp) (by simp [Calm]) rfl rfl rfl ?_ rfl
      exact fun _ => .inr (by simp [hq])
    · rw [drain1_cons hq]
      obtain ⟨fs, hfs, hl⟩ := failW_stack { s with queue := q, stack := .err .drain :: rest } e.token
      have hcl : ∀ g ∈ fs ++ [.err .drain], Calm g := by
        intro g hg
        rcases List.mem_append.1 hg with q | q
        · rw [hl g q]; simp [Calm]
        · rw [List.mem_singleton.1 q]; simp [Calm]
      have hst' : (St.failW { s with queue := q, stack := .err .drain :: rest } e.token).stack =
          (fs ++ [.err .drain]) ++ rest := by simpa using hfs
      refine h.replace hst hst' (by simp) hcl (by simp) (by simp) (by simp) ?_ (by simp)
      exact fun _ => .inl (by rw [hst']; simp)
  | fin =>
    refine h.replace hst (fs := [.out]) rfl (by simp) (by simp [Calm]) rfl rfl rfl ?_ rfl
    exact h.drain_or hst (by simp) (fun g hg => List.mem_cons_of_mem _ hg)

/-- Popping the top and continuing below with calls. -/
theorem Shape.popped {cfg s f rest} (h : Shape cfg s) (hst : s.stack = f :: rest) (hf : f ≠ .err .drain) :
    Shape cfg { s with stack := rest } := h.pop hst rfl hf rfl rfl rfl rfl rfl

end Fizz.Sock

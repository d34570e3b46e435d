import Verif.Sock.EarlyStep

/-!
# Key updates by byte count
-/

namespace Fizz.Sock

open Spec

/-- The bytes a frame is still to count. -/
def cnt : Frame → Nat
  | .count n => n
  | _ => 0

/-- The bytes the stack is still to count. -/
def pending (l : List Frame) : Nat := (l.map cnt).sum

theorem pending_append (a b) : pending (a ++ b) = pending a + pending b := by simp [pending]

theorem pending_zero {l : List Frame} (h : ∀ f ∈ l, cnt f = 0) : pending l = 0 := by
  unfold pending
  rw [List.sum_eq_zero_iff_forall_eq_nat]
  intro x hx
  obtain ⟨f, m, rfl⟩ := List.mem_map.1 hx
  exact h f m

/-- Entries that the count does not see. -/
def keyless : Obs → Bool
  | .submit (.app ..) => false
  | .submit (.keyUpdate _) => false
  | _ => true

theorem sinceKey_append : ∀ (a b n), sinceKey (a ++ b) n = sinceKey b (sinceKey a n)
  | [], b, n => rfl
  | o :: a, b, n => by
    cases o with
    | submit e => cases e <;> exact sinceKey_append a b _
    | _ => exact sinceKey_append a b n

theorem sinceKey_keyless : ∀ (l n), (∀ o ∈ l, keyless o = true) → sinceKey l n = n
  | [], n, _ => rfl
  | o :: l, n, h => by
    have ih := sinceKey_keyless l n fun x m => h x (List.mem_cons_of_mem _ m)
    have ho := h o List.mem_cons_self
    cases o with
    | submit e => cases e <;> first | exact ih | cases ho
    | _ => exact ih

theorem autoKeys_append (a b) : autoKeys (a ++ b) = autoKeys a + autoKeys b := by simp [autoKeys]

theorem autoKeys_keyless {l} (h : ∀ o ∈ l, keyless o = true) : autoKeys l = 0 := by
  unfold autoKeys
  rw [List.countP_eq_zero]
  intro o m
  have := h o m
  cases o with
  | submit e => cases e <;> simp_all [keyless]
  | _ => simp

theorem app_keyless {l} (h : ∀ o ∈ l, keyless o = true) : app l = [] := by
  refine List.flatMap_eq_nil_iff.2 fun o m => ?_
  have := h o m
  cases o with
  | submit e => cases e <;> simp_all [keyless, appBy]
  | _ => rfl

/-- The count against the history; `x` bytes are in the hands of the code that is running. -/
structure Keys (cfg : Cfg) (s : St) (x : Nat) : Prop where
  since : sinceKey s.log 0 ≤ s.bytes + pending s.stack + x
  auto : autoKeys s.log * cfg.threshold + s.bytes + pending s.stack + x ≤ (app s.log).length
  low : cfg.threshold ≠ 0 → s.bytes < cfg.threshold
  off : cfg.threshold = 0 → autoKeys s.log = 0

theorem Keys.same {cfg s t x} (h : Keys cfg s x) {l} (hlog : t.log = s.log ++ l) (hl : ∀ o ∈ l, keyless o = true)
    (hb : t.bytes = s.bytes) (hp : pending t.stack = pending s.stack) : Keys cfg t x := by
  refine ⟨?_, ?_, ?_, fun z => by rw [hlog, autoKeys_append, autoKeys_keyless hl, h.off z]⟩
  · rw [hlog, sinceKey_append, sinceKey_keyless l _ hl, hb, hp]; exact h.since
  · rw [hlog, autoKeys_append, autoKeys_keyless hl, app_app, app_keyless hl, hb, hp]
    simpa using h.auto
  · rw [hb]; exact h.low

theorem Keys.grow {cfg s t x fs} (h : Keys cfg s x) {l} (hlog : t.log = s.log ++ l) (hl : ∀ o ∈ l, keyless o = true)
    (hb : t.bytes = s.bytes) (hst : t.stack = fs ++ s.stack) (hf : ∀ f ∈ fs, cnt f = 0) : Keys cfg t x :=
  h.same hlog hl hb (by rw [hst, pending_append, pending_zero hf]; omega)

theorem Keys.pop {cfg s t x g rest fs} (h : Keys cfg s x) (hs : s.stack = g :: rest) (hg : cnt g = 0) {l}
    (hlog : t.log = s.log ++ l) (hl : ∀ o ∈ l, keyless o = true)
    (hb : t.bytes = s.bytes) (hst : t.stack = fs ++ rest) (hf : ∀ f ∈ fs, cnt f = 0) : Keys cfg t x := by
  refine h.same hlog hl hb ?_
  rw [hst, hs, pending_append, pending_zero hf]
  simp [pending, hg]

theorem Keys.enter {cfg s x} (h : Keys cfg s x) : Keys cfg s.enter x := by
  obtain ⟨fs, h1, hl⟩ := enter_stack s
  exact h.grow (l := []) (by simp) (by simp) (by simp) h1 (fun f m => by rw [hl f m]; rfl)

theorem Keys.submitApp {cfg s x t d} (h : Keys cfg s x) : Keys cfg (s.submit (.app t d)) (x + d.length) := by
  have hlog : (s.submit (.app t d)).log = s.log ++ [.submit (.app t d)] := rfl
  refine ⟨?_, ?_, h.low, fun z => by rw [hlog, autoKeys_append, h.off z]; rfl⟩
  · rw [hlog, sinceKey_append]
    show sinceKey s.log 0 + d.length ≤ s.bytes + pending s.stack + (x + d.length)
    have := h.since; omega
  · rw [hlog, autoKeys_append, app_app, List.length_append]
    have e1 : autoKeys [.submit (.app t d)] = 0 := rfl
    have e2 : app [.submit (.app t d)] = d := by simp [app, appBy]
    rw [e1, e2]
    show (autoKeys s.log + 0) * cfg.threshold + s.bytes + pending s.stack + (x + d.length) ≤ _
    have := h.auto
    simp only [Nat.add_zero]; omega

theorem Keys.submitOther {cfg s x e} (h : Keys cfg s x) (he : keyless (.submit e) = true ∨ e = .keyUpdate false) :
    Keys cfg (s.submit e) x := by
  rcases he with he | rfl
  · exact h.grow (fs := []) (l := [.submit e]) rfl (by simpa using he) rfl rfl (by simp)
  · have hlog : (s.submit (.keyUpdate false)).log = s.log ++ [.submit (.keyUpdate false)] := rfl
    refine ⟨?_, ?_, h.low, fun z => by rw [hlog, autoKeys_append, h.off z]; rfl⟩
    · rw [hlog, sinceKey_append]
      exact Nat.zero_le _
    · rw [hlog, autoKeys_append, app_app]
      have e1 : autoKeys [.submit (.keyUpdate false)] = 0 := rfl
      have e2 : app [.submit (.keyUpdate false)] = [] := rfl
      rw [e1, e2]
      simpa using h.auto

theorem Keys.count {cfg s x n} (h : Keys cfg s (x + n)) : Keys cfg (s.count cfg n) x := by
  unfold St.count
  split
  · rename_i hf
    simp [fires] at hf
    have hlog : (St.submit { s with bytes := 0 } (.keyUpdate true)).log = s.log ++ [.submit (.keyUpdate true)] := rfl
    refine ⟨?_, ?_, fun z => Nat.pos_of_ne_zero z, fun z => absurd z hf.1⟩
    · rw [hlog, sinceKey_append]
      exact Nat.zero_le _
    · rw [hlog, autoKeys_append, app_app, List.length_append]
      have e1 : autoKeys [.submit (.keyUpdate true)] = 1 := rfl
      rw [e1, Nat.add_mul]
      show autoKeys s.log * cfg.threshold + 1 * cfg.threshold + 0 + pending s.stack + x ≤ _
      have := h.auto
      omega
  · rename_i hf
    simp [fires] at hf
    refine ⟨?_, ?_, ?_, h.off⟩
    · show sinceKey s.log 0 ≤ s.bytes + n + pending s.stack + x
      have := h.since; omega
    · show autoKeys s.log * cfg.threshold + (s.bytes + n) + pending s.stack + x ≤ (app s.log).length
      have := h.auto; omega
    · exact hf

theorem Keys.flush1 {cfg s x w} (h : Keys cfg s x) : Keys cfg (s.flush1 cfg w) x :=
  Keys.count (Keys.submitApp h)

theorem Keys.flush {cfg x} : ∀ {ws s}, Keys cfg s x → Keys cfg (s.flush cfg ws) x
  | [], _, h => h
  | w :: ws, s, h => Keys.flush (ws := ws) (s := s.flush1 cfg w) (Keys.flush1 h)

theorem Keys.performAppWrite {cfg s w} (h : Keys cfg s 0) : Keys cfg (s.performAppWrite w) 0 := by
  refine Keys.enter ?_
  have h1 := Keys.submitApp (t := w.token) (d := w.data) h
  refine ⟨?_, ?_, h1.low, h1.off⟩
  · have := h1.since
    simp only [St.push, pending_append]
    have e : pending [.count w.data.length] = w.data.length := by simp [pending, cnt]
    rw [e]; omega
  · have := h1.auto
    simp only [St.push, pending_append]
    have e : pending [.count w.data.length] = w.data.length := by simp [pending, cnt]
    rw [e]; omega

theorem Keys.writeGood {cfg s w} (h : Keys cfg s 0) : Keys cfg (s.writeGood cfg w) 0 := by
  unfold St.writeGood
  split
  · exact h.performAppWrite
  · split
    · unfold St.writeEarly
      split
      · exact h.same (l := []) (by simp) (by simp) rfl rfl
      · refine Keys.enter (Keys.submitOther ?_ (.inl rfl))
        exact h.same (l := []) (by simp) (by simp) rfl rfl
    · split
      · exact h.same (l := []) (by simp) (by simp) rfl rfl
      · exact h.performAppWrite

theorem Keys.write {cfg s d c} (h : Keys cfg s 0) : Keys cfg (s.write cfg d c) 0 := by
  unfold St.write
  simp only []
  have h1 : Keys cfg (St.say { s with nextId := s.nextId + 1 } (.write s.nextId d c s.good)) 0 :=
    h.same (l := [_]) rfl (by simp [keyless]) rfl rfl
  split
  · exact h1.writeGood
  · split
    · exact h1.grow (fs := [.out]) (l := [.wErr s.nextId]) rfl (by simp [keyless]) rfl rfl (by simp [cnt])
    · exact h1

theorem Keys.successEarly {cfg s a n q} (h : Keys cfg s 0) : Keys cfg (s.successEarly cfg a n q) 0 := by
  unfold St.successEarly
  split
  · exact h.grow (fs := [.hsCb, .replay]) (l := []) (by simp) (by simp) rfl rfl (by simp [cnt])
  · rename_i e he
    split
    · exact (Keys.flush (ws := e.pend) h).grow (fs := [.hsCb, .replay]) (l := []) (by simp) (by simp) rfl rfl (by simp [cnt])
    · split
      · simp only []
        split
        · exact (Keys.flush (ws := e.pend) h).grow (fs := [.hsCb, .replay]) (l := []) (by simp) (by simp) rfl rfl (by simp [cnt])
        · exact (Keys.flush (ws := e.pend) (Keys.flush1 (w := ⟨none, e.resend⟩) h)).grow (fs := [.hsCb, .replay]) (l := []) (by simp) (by simp) rfl rfl (by simp [cnt])
      · exact h.grow (fs := [.err .hs, .out]) (l := [.removePsk, .error]) (by simp [St.fail, St.push, St.say]) (by simp [keyless]) rfl rfl (by simp [cnt])

theorem Keys.hsSuccess {cfg s} (h : Keys cfg s 0) : Keys cfg s.hsSuccess 0 := by
  obtain ⟨fs, h1, h2⟩ := hsSuccess_stack s
  have : ∃ l, s.hsSuccess.log = s.log ++ l ∧ ∀ o ∈ l, keyless o = true := by
    unfold St.hsSuccess
    split
    · exact ⟨[], by simp, by simp⟩
    · exact ⟨[.hsOk], rfl, by simp [keyless]⟩
    · exact ⟨[], by simp, by simp⟩
  obtain ⟨l, hl, hk⟩ := this
  exact h.grow hl hk (by simp) h1 (fun f m => by rw [h2 f m]; rfl)

theorem Keys.fail {cfg s} (h : Keys cfg s 0) : Keys cfg s.fail 0 :=
  h.grow (fs := [.err .hs]) (l := [.error]) rfl (by simp [keyless]) rfl rfl (by simp [cnt])

theorem Keys.visit {cfg s a} (h : Keys cfg s 0) : Keys cfg (s.visit cfg a) 0 := by
  cases a with
  | earlyOk m =>
    have h1 : Keys cfg (St.say { s with phase := 1 } (.earlyOk m)) 0 := h.same (l := [_]) rfl (by simp [keyless]) rfl rfl
    simp only [St.visit]
    split
    · split
      · exact h1.hsSuccess
      · exact h1.fail
    · refine Keys.hsSuccess ?_
      exact h1.same (l := []) (by simp) (by simp) rfl rfl
  | success a n q =>
    have h1 : Keys cfg (St.say { s with phase := 2 } (.success a n q)) 0 := h.same (l := [_]) rfl (by simp [keyless]) rfl rfl
    simp only [St.visit]
    split
    · split
      · exact h1.hsSuccess
      · exact h1.fail
    · refine Keys.successEarly (Keys.flush ?_)
      exact h1.same (l := []) (by simp) (by simp) rfl rfl
  | error => exact h.fail
  | fallback =>
    simp only [St.visit]
    split
    · split
      · exact h.grow (fs := [.out]) (l := [.hsFallback]) rfl (by simp [keyless]) rfl rfl (by simp [cnt])
      · exact h
    · exact h
  | earlyFailed t =>
    cases t with
    | none => exact h
    | some i => exact h.grow (fs := [.out]) (l := [.wOk i]) rfl (by simp [keyless]) rfl rfl (by simp [cnt])
  | mutate e c => exact h.same (l := []) (by simp [St.visit]) (by simp) rfl rfl
  | other => exact h.grow (fs := [.out]) (l := []) (by simp [St.visit]) (by simp) rfl rfl (by simp [cnt])

theorem errStep_bytes (s : St) (rest p) : (s.errStep rest p).bytes = s.bytes := by
  cases p with
  | hs => simp [St.errStep]
  | unreplay => simp [St.errStep]
  | pendHs =>
    simp only [St.errStep]
    rcases list_cases s.hsPend with hq | ⟨w, ws, hq⟩
    · rw [pendHs1_nil hq]
    · rw [pendHs1_cons hq]; simp
  | pendEarly =>
    simp only [St.errStep]
    rcases earlyPend_cases s with he0 | ⟨e, w, ws, he, hq⟩
    · rw [pendEarly1_nil he0]
    · rw [pendEarly1_cons he hq]; simp
  | move => simp only [St.errStep]; split <;> simp
  | drain =>
    simp only [St.errStep]
    rcases list_cases s.queue with hq | ⟨e, q, hq⟩
    · rw [drain1_nil hq]
    · rw [drain1_cons hq]; simp
  | fin => simp [St.errStep, St.say]

/-- The entries `deliverAllErrors` makes. -/
def errEntry : Obs → Bool
  | .hsErr => true
  | .wErr _ => true
  | .errorDone => true
  | _ => false

theorem errStep_log (s : St) (rest p) : ∃ l, (s.errStep rest p).log = s.log ++ l ∧ ∀ o ∈ l, errEntry o = true := by
  have fw : ∀ t : St, ∀ tok, t.log = s.log → ∃ l, (t.failW tok).log = s.log ++ l ∧ ∀ o ∈ l, errEntry o = true := by
    intro t tok ht
    unfold St.failW; split
    · rename_i i
      exact ⟨[.wErr i], by simp [St.push, St.say, ht], by simp [errEntry]⟩
    · exact ⟨[], by simp [ht], by simp⟩
  have nl : ∀ t : St, t.log = s.log → ∃ l, t.log = s.log ++ l ∧ ∀ o ∈ l, errEntry o = true :=
    fun t ht => ⟨[], by simp [ht], by simp⟩
  cases p with
  | hs =>
    simp only [St.errStep, St.hsError]
    split
    · exact nl _ rfl
    · exact ⟨[.hsErr], rfl, by simp [errEntry]⟩
    · exact nl _ rfl
  | unreplay => exact nl _ rfl
  | pendHs =>
    simp only [St.errStep]
    rcases list_cases s.hsPend with hq | ⟨w, ws, hq⟩
    · rw [pendHs1_nil hq]; exact nl _ rfl
    · rw [pendHs1_cons hq]; exact fw _ _ rfl
  | pendEarly =>
    simp only [St.errStep]
    rcases earlyPend_cases s with he0 | ⟨e, w, ws, he, hq⟩
    · rw [pendEarly1_nil he0]; exact nl _ rfl
    · rw [pendEarly1_cons he hq]; exact fw _ _ rfl
  | move => simp only [St.errStep]; split <;> exact nl _ rfl
  | drain =>
    simp only [St.errStep]
    rcases list_cases s.queue with hq | ⟨e, q, hq⟩
    · rw [drain1_nil hq]; exact nl _ rfl
    · rw [drain1_cons hq]; exact fw _ _ rfl
  | fin => exact ⟨[.errorDone], rfl, by simp [errEntry]⟩

theorem Keys.kind {cfg s s'} (h : Keys cfg s 0) (k : Kind cfg s s') : Keys cfg s' 0 := by
  cases k with
  | connect c v =>
    unfold St.connect
    simp only []
    have h1 : Keys cfg (St.say { s with connected := true } (.connect c)) 0 := h.same (l := [_]) rfl (by simp [keyless]) rfl rfl
    split
    · exact h1.grow (fs := [.acts]) (l := []) (by simp [St.startMachine, St.push]) (by simp) rfl rfl (by simp [cnt])
    · split
      · exact h1.grow (fs := [.out]) (l := []) (by simp [St.push]) (by simp) rfl rfl (by simp [cnt])
      · split
        · exact h1.grow (fs := [.acts]) (l := []) (by simp [St.startMachine, St.push]) (by simp) rfl rfl (by simp [cnt])
        · exact h1.grow (fs := [.err .hs]) (l := [.error]) rfl (by simp [keyless]) rfl rfl (by simp [cnt])
  | sockConnected => exact h.grow (fs := [.acts]) (l := []) (by simp) (by simp) rfl rfl (by simp [cnt])
  | write d c => exact h.write
  | close k =>
    have hp : ∀ fs, (∀ f ∈ fs, cnt f = 0) → Keys cfg (s.push fs) 0 := fun fs hf => h.grow (fs := fs) (l := []) (by simp) (by simp) rfl rfl hf
    cases k with
    | normal =>
      simp only [St.close]
      split
      · exact Keys.enter (h.submitOther (.inl rfl))
      · exact (hp [.out] (by simp [cnt])).fail
    | now =>
      simp only [St.close]
      split
      · exact Keys.enter (Keys.submitOther (hp [.doFail, .out] (by simp [cnt])) (.inl rfl))
      · exact (hp [.out] (by simp [cnt])).fail
    | tls =>
      simp only [St.close]
      split
      · exact Keys.enter (Keys.submitOther (hp [.out] (by simp [cnt])) (.inl rfl))
      · exact hp [.out] (by simp [cnt])
  | submit e _ _ hor =>
    refine Keys.enter (h.submitOther ?_)
    rcases hor with rfl | rfl
    · exact .inr rfl
    · exact .inl rfl
  | setReplay b => exact h.same (l := []) (by simp) (by simp) rfl rfl
  | transportError => exact h.fail
  | data => exact h.enter
  | env g e c => exact h.same (l := []) (by simp) (by simp) rfl rfl
  | ret rest hs => exact h.pop (fs := []) hs rfl (l := []) (by simp) (by simp) rfl rfl (by simp)
  | count n rest hs hf =>
    have h1 : Keys cfg { s with stack := rest } (0 + n) := by
      have hp : pending s.stack = n + pending rest := by rw [hs]; simp [pending, cnt]
      refine ⟨?_, ?_, h.low, h.off⟩
      · have := h.since
        show sinceKey s.log 0 ≤ s.bytes + pending rest + (0 + n)
        omega
      · have := h.auto
        show autoKeys s.log * cfg.threshold + s.bytes + pending rest + (0 + n) ≤ (app s.log).length
        omega
    have h2 := Keys.count h1
    unfold St.count at h2
    simpa [hf] using h2
  | countFires n rest hs hf =>
    have h1 : Keys cfg { s with stack := rest } (0 + n) := by
      have hp : pending s.stack = n + pending rest := by rw [hs]; simp [pending, cnt]
      refine ⟨?_, ?_, h.low, h.off⟩
      · have := h.since
        show sinceKey s.log 0 ≤ s.bytes + pending rest + (0 + n)
        omega
      · have := h.auto
        show autoKeys s.log * cfg.threshold + s.bytes + pending rest + (0 + n) ≤ (app s.log).length
        omega
    have h2 := Keys.count h1
    unfold St.count at h2
    simp only [hf, if_true] at h2
    exact Keys.enter h2
  | doFail rest hs => exact h.pop (fs := [.err .hs]) hs rfl (l := [.error]) rfl (by simp [keyless]) rfl rfl (by simp [cnt])
  | err p rest hs =>
    obtain ⟨fs, h1, h2, _⟩ := errStep_stack s rest p
    obtain ⟨l, h3, h4⟩ := errStep_log s rest p
    refine h.pop hs rfl h3 ?_ (errStep_bytes s rest p) h1 ?_
    · intro o m; have := h4 o m; cases o <;> simp_all [errEntry, keyless]
    · intro f m; rcases h2 f m with rfl | ⟨p', rfl⟩ <;> rfl
  | hsCb rest hs =>
    refine Keys.hsSuccess ?_
    exact h.pop (fs := []) hs rfl (l := []) (by simp) (by simp) rfl rfl (by simp)
  | replay rest hs => exact h.pop (fs := [.out]) hs rfl (l := [.replaySafe]) rfl (by simp [keyless]) rfl rfl (by simp [cnt])
  | noReplay rest hs => exact h.pop (fs := []) hs rfl (l := []) (by simp) (by simp) rfl rfl (by simp)
  | take e q rest hs => exact h.grow (fs := [.acts]) (l := [.take e]) rfl (by simp [keyless]) rfl rfl (by simp [cnt])
  | sock rest hs => exact h.grow (fs := [.acts]) (l := []) (by simp) (by simp) rfl rfl (by simp [cnt])
  | stop rest hs => exact h.pop (fs := []) hs rfl (l := []) (by simp) (by simp) rfl rfl (by simp)
  | visit a => exact h.visit
  | done rest hs =>
    refine Keys.enter ?_
    exact h.pop (fs := []) hs rfl (l := []) (by simp) (by simp) rfl rfl (by simp)
  | suspend rest hs => exact h.pop (fs := []) hs rfl (l := []) (by simp) (by simp) rfl rfl (by simp)
  | resumed => exact h.grow (fs := [.acts]) (l := []) (by simp) (by simp) rfl rfl (by simp [cnt])

theorem Reach.keys {cfg s} (h : Reach cfg s) : Keys cfg s 0 := by
  induction h with
  | init g e c => exact ⟨by simp [sinceKey], by simp [autoKeys, pending], fun z => Nat.pos_of_ne_zero z, fun _ => rfl⟩
  | step _ hs ih => exact ih.kind (step_kind hs)

/-- A server gives every write to the state machine at once, and a write to a socket that is not good
is reported at once. -/
structure Direct (cfg : Cfg) (s : St) : Prop where
  server : cfg.server = true → app s.log = written s.log ∧ early s.log = []
  refused : ∀ i d, .write i d true false ∈ s.log → .wErr i ∈ s.log

theorem Direct.same {cfg s t l} (h : Direct cfg s) (hlog : t.log = s.log ++ l)
    (hl : ∀ o ∈ l, appBy o = [] ∧ writtenBy o = [] ∧ earlyBy o = [])
    (hw : ∀ i d, .write i d true false ∈ l → .wErr i ∈ l) : Direct cfg t := by
  constructor
  · intro hsv
    obtain ⟨a, b⟩ := h.server hsv
    have e1 : app l = [] := List.flatMap_eq_nil_iff.2 fun o m => (hl o m).1
    have e2 : written l = [] := List.flatMap_eq_nil_iff.2 fun o m => (hl o m).2.1
    have e3 : early l = [] := List.flatMap_eq_nil_iff.2 fun o m => (hl o m).2.2
    rw [hlog, app_app, written_app, early_app, e1, e2, e3, a, b]
    exact ⟨rfl, rfl⟩
  · intro i d m
    rw [hlog] at m ⊢
    rcases List.mem_append.1 m with w | w
    · exact List.mem_append_left _ (h.refused i d w)
    · exact List.mem_append_right _ (hw i d w)

theorem Reach.direct {cfg s} (h : Reach cfg s) : Direct cfg s := by
  induction h with
  | init g e c => exact ⟨fun _ => ⟨rfl, rfl⟩, fun _ _ m => nomatch m⟩
  | @step s s' o hr hs ih =>
    have k := step_kind hs
    have hrep : ∀ t o, RepEff s t o → appBy o = [] ∧ writtenBy o = [] ∧ earlyBy o = [] → (∀ i d, o ≠ .write i d true false) →
        Direct cfg t := by
      intro t o hr ho hn
      obtain ⟨l, h1, h2⟩ := hr.log
      refine ih.same (l := o :: l) h1 ?_ ?_
      · intro x m
        rcases List.mem_cons.1 m with rfl | m
        · exact ho
        · rcases h2 x m with rfl | rfl <;> exact ⟨rfl, rfl, rfl⟩
      · intro i d m
        rcases List.mem_cons.1 m with m | m
        · exact absurd m.symm (hn i d)
        · rcases h2 _ m with z | z <;> cases z
    cases kind_gen k with
    | mild q =>
      obtain ⟨l, h1, h2⟩ := q.log
      refine ih.same h1 ?_ fun i d m => ?_
      · intro o m
        have := h2 o m
        cases o with
        | submit e => cases e <;> simp_all [Fizz.Sock.mild, dull, appBy, writtenBy, earlyBy]
        | write i d c ok => simp [Fizz.Sock.mild] at this
        | _ => exact ⟨rfl, rfl, rfl⟩
      · have := h2 _ m
        simp [Fizz.Sock.mild] at this
    | badWrite d c hg =>
      obtain ⟨l, h1, h2, _⟩ := badWrite_eq (cfg := cfg) (d := d) (c := c) hg
      refine ih.same h1 ?_ ?_
      · rw [h2]; cases c <;> simp [appBy, writtenBy, earlyBy]
      · intro i d'
        rw [h2]; cases c
        · simp
        · simp; intro a _; exact a
    | write d c hg =>
      constructor
      · intro hsv
        obtain ⟨a, b⟩ := ih.server hsv
        rw [write_good_eq hg]
        unfold St.writeGood
        simp only [hsv, if_true]
        obtain ⟨f1, f2, f3, _⟩ := performAppWrite_flow (St.say { s with nextId := s.nextId + 1 } (.write s.nextId d c true)) ⟨if c then some s.nextId else none, d⟩
        rw [f1, f2, f3]
        constructor
        · have e1 : (St.say { s with nextId := s.nextId + 1 } (.write s.nextId d c true)).log = s.log ++ [.write s.nextId d c true] := rfl
          rw [e1, app_app, written_app, a]
          simp [written, writtenBy, app, appBy]
        · simpa [St.say, early, earlyBy] using b
      · intro i d' m
        obtain ⟨l, h1, h2⟩ := (write_eff (d := d) (c := c) hg hr.inv.shape).log
        rw [h1] at m ⊢
        rcases List.mem_append.1 m with w | w
        · exact List.mem_append_left _ (ih.refused i d' w)
        · have := h2 _ w
          simp [subEntry] at this
    | take e q => exact ih.same (l := [.take e]) rfl (by simp [appBy, writtenBy, earlyBy]) (by simp)
    | replay rest hst hrc => exact ih.same (l := [.replaySafe]) rfl (by simp [appBy, writtenBy, earlyBy]) (by simp)
    | earlyOk m rest hst hm => exact hrep _ _ earlyOk_eff.1 ⟨rfl, rfl, rfl⟩ (by simp)
    | success a n q rest hst hm =>
      cases hsv : cfg.server with
      | true => exact hrep _ _ (serverSuccess_eff hsv).1 ⟨rfl, rfl, rfl⟩ (by simp)
      | false =>
        obtain ⟨⟨l, hlog, hl, _⟩, _⟩ := clientSuccess_eff (cfg := cfg) (s := s) (a := a) (n := n) (q := q) hsv
        constructor
        · intro z; rw [hsv] at z; cases z
        · intro i d m
          rw [hlog] at m ⊢
          rcases List.mem_append.1 m with w | w
          · exact List.mem_append_left _ (ih.refused i d w)
          · exfalso
            rcases List.mem_cons.1 w with w | w
            · cases w
            · rcases hl _ w with z | z | z <;> simp [subEntry] at z

end Fizz.Sock

import Verif.Sock.Mild

/-!
# Early data: invariants
-/

namespace Fizz.Sock

open Spec

/-- Entries made by writing. -/
def subEntry : Obs → Bool
  | .write _ _ _ ok => ok
  | .submit _ => true
  | _ => false

/-- Only such entries were added. -/
def SubLog (s t : St) : Prop := ∃ l, t.log = s.log ++ l ∧ ∀ o ∈ l, subEntry o = true

theorem SubLog.rfl' {s t : St} (h : t.log = s.log) : SubLog s t := ⟨[], by simp [h], by simp⟩

theorem SubLog.trans {s t u : St} (h : SubLog s t) (k : SubLog t u) : SubLog s u := by
  obtain ⟨l, hl, hp⟩ := h
  obtain ⟨m, hm, hq⟩ := k
  refine ⟨l ++ m, by rw [hm, hl, List.append_assoc], ?_⟩
  intro o ho
  rcases List.mem_append.1 ho with h | h
  · exact hp o h
  · exact hq o h

theorem SubLog.submit (s : St) (e) : SubLog s (s.submit e) := ⟨[.submit e], rfl, by simp [subEntry]⟩

theorem SubLog.count (cfg) (s : St) (n) : SubLog s (s.count cfg n) := by
  unfold St.count; split
  · exact ⟨[.submit (.keyUpdate true)], rfl, by simp [subEntry]⟩
  · exact .rfl' rfl

theorem SubLog.flush1 (cfg) (s : St) (w) : SubLog s (s.flush1 cfg w) :=
  (SubLog.submit s _).trans (SubLog.count cfg _ _)

theorem SubLog.flush (cfg) : ∀ (ws) (s : St), SubLog s (s.flush cfg ws)
  | [], _ => .rfl' rfl
  | w :: ws, s => (SubLog.flush1 cfg s w).trans (SubLog.flush cfg ws _)

theorem SubLog.enter (s : St) : SubLog s s.enter := .rfl' (by simp)

theorem SubLog.performAppWrite (s : St) (w) : SubLog s (s.performAppWrite w) :=
  (SubLog.submit s (.app w.token w.data)).trans ((SubLog.rfl' (t := St.push _ _) rfl).trans (SubLog.enter _))

theorem SubLog.writeGood (cfg) (s : St) (w) : SubLog s (s.writeGood cfg w) := by
  unfold St.writeGood
  split
  · exact .performAppWrite s w
  · split
    · unfold St.writeEarly
      split
      · exact .rfl' rfl
      · exact SubLog.trans (t := St.submit _ _) ⟨[.submit _], rfl, by simp [subEntry]⟩ (SubLog.enter _)
    · split
      · exact .rfl' rfl
      · exact .performAppWrite s w

theorem write_good_eq {cfg s d c} (hg : s.good = true) : St.write cfg s d c =
    St.writeGood cfg (St.say { s with nextId := s.nextId + 1 } (.write s.nextId d c true))
      ⟨if c then some s.nextId else none, d⟩ := by
  unfold St.write; simp [hg]

theorem SubLog.write {cfg s d c} (hg : s.good = true) : SubLog s (s.write cfg d c) := by
  rw [write_good_eq hg]
  exact SubLog.trans (t := St.say { s with nextId := s.nextId + 1 } (.write s.nextId d c true))
    ⟨[_], rfl, by simp [subEntry]⟩ (SubLog.writeGood cfg _ _)

/-- `remainingEarlyData`, zero when there is no early data. -/
def St.rem (s : St) : Nat := (s.early.map (·.remaining)).getD 0

/-- The outcome of early data that makes everything sent safe from replay: accepted, or turned down
and sent again over a connection with the same parameters. -/
def Resolved (cfg : Cfg) (log : List Obs) : Prop :=
  ∃ a n q, .success a n q ∈ log ∧ (a = true ∨ (cfg.policy = .resend ∧ SameParams n q))

theorem certIdentityMatch_iff (a b : Option Bytes) : certIdentityMatch a b = true ↔ a = b := by
  cases a <;> cases b <;> simp [certIdentityMatch]

theorem paramsMatch_iff (n q : Params) : earlyParametersMatch n q = true ↔ SameParams n q := by
  unfold earlyParametersMatch
  constructor
  · intro h
    split at h
    · cases h
    · rename_i h1
      split at h
      · cases h
      · rename_i h2
        split at h
        · cases h
        · rename_i h3
          split at h
          · cases h
          · rename_i h4
            split at h
            · cases h
            · rename_i h5
              simp only [Bool.not_eq_true', Bool.not_eq_false, certIdentityMatch_iff] at h4 h5
              simp at h1 h2 h3
              refine ⟨?_, h2, h3, h4, h5⟩
              by_cases hv : n.version = q.version
              · exact .inl hv
              · exact .inr (h1 hv)
  · rintro ⟨h1, h2, h3, h4, h5⟩
    rw [← certIdentityMatch_iff] at h4 h5
    rcases h1 with h1 | ⟨h1, h1'⟩
    · simp [h1, h2, h3, h4, h5]
    · simp [h1, h1', h2, h3, h4, h5]

/-- What a successful write does to early data. -/
structure WriteEff (s t : St) : Prop where
  log : SubLog s t
  phase : t.phase = s.phase
  rcb : t.replayCb = s.replayCb
  frames : t.stack.count .replay = s.stack.count .replay
  eNone : s.early = none → t.early = none ∧ Spec.early t.log = Spec.early s.log
  eSome : s.early ≠ none → t.early ≠ none ∧ (Spec.early t.log).length + t.rem ≤ (Spec.early s.log).length + s.rem

theorem write_eff {cfg s d c} (hg : s.good = true) (hsh : Shape cfg s) : WriteEff s (s.write cfg d c) := by
  obtain ⟨fs, h1, hl⟩ := write_stack cfg s d c
  refine ⟨SubLog.write hg, by simp, by simp, ?_, ?_, ?_⟩
  · rw [h1, List.count_append, List.count_eq_zero_of_not_mem]
    · omega
    · intro m; simpa using hl _ m
  · intro he
    rw [write_good_eq hg]
    have f2 : early (St.say { s with nextId := s.nextId + 1 } (.write s.nextId d c true)).log = early s.log := by
      simp [St.say, early, earlyBy]
    have g2 : (St.say { s with nextId := s.nextId + 1 } (.write s.nextId d c true)).early = none := he
    revert f2 g2
    generalize St.say { s with nextId := s.nextId + 1 } (.write s.nextId d c true) = t
    generalize (⟨if c then some s.nextId else none, d⟩ : W) = w
    intro f2 g2
    unfold St.writeGood
    have : (t.performAppWrite w).early = none ∧ early (t.performAppWrite w).log = early s.log :=
      ⟨by simpa using g2, (performAppWrite_flow t w).2.1.trans f2⟩
    split
    · exact this
    · rw [g2]
      simp only []
      split
      · exact ⟨rfl, f2⟩
      · exact this
  · intro he
    obtain ⟨e, he⟩ := Option.ne_none_iff_exists'.1 he
    have hcl := (hsh.early (by rw [he]; simp)).1
    rw [write_good_eq hg]
    have f2 : early (St.say { s with nextId := s.nextId + 1 } (.write s.nextId d c true)).log = early s.log := by
      simp [St.say, early, earlyBy]
    have g2 : (St.say { s with nextId := s.nextId + 1 } (.write s.nextId d c true)).early = some e := he
    revert f2 g2
    generalize St.say { s with nextId := s.nextId + 1 } (.write s.nextId d c true) = t
    generalize (⟨if c then some s.nextId else none, d⟩ : W) = w
    intro f2 g2
    unfold St.writeGood
    simp only [hcl, Bool.false_eq_true, if_false, g2]
    unfold St.writeEarly
    have hr : s.rem = e.remaining := by simp [St.rem, he]
    split
    · refine ⟨by simp, ?_⟩
      show (early t.log).length + _ ≤ _
      rw [f2]
      simp [St.rem]
    · rename_i hc
      refine ⟨by simp, ?_⟩
      have hlog : (St.enter (St.submit { t with early := some { e with
            resend := if cfg.policy = .resend then e.resend ++ w.data else e.resend, remaining := e.remaining - w.data.length } } (.early w.token w.data))).log =
            t.log ++ [.submit (.early w.token w.data)] := by simp [St.submit, St.say]
      rw [hlog, early_app, f2, hr]
      simp at hc
      have : early [.submit (.early w.token w.data)] = w.data := by simp [early, earlyBy]
      rw [this, List.length_append]
      simp only [St.rem, enter_early, submit_early, Option.map_some, Option.getD_some]
      omega

/-- Early data against the history. -/
structure EarlyInv (cfg : Cfg) (s : St) : Prop where
  lim : (s.early = none ∧ early s.log = []) ∨ ∃ m, .earlyOk m ∈ s.log ∧ (early s.log).length + s.rem ≤ m
  one : cfg.server = false → s.phase = 1 → s.early ≠ none
  res : cfg.server = false → s.early = none → EarlyStarted s.log → Resolved cfg s.log
  rcb : s.replayCb = true → EarlyStarted s.log
  fr : .replay ∈ s.stack → cfg.server = false ∧ s.early = none
  safe : ∀ pre suf, s.log = pre ++ .replaySafe :: suf → EarlyStarted pre ∧ Resolved cfg pre
  once : s.log.countP isRep + s.stack.count .replay ≤ (if 2 ≤ s.phase then 1 else 0)
  kept : s.replayCb = true → s.early ≠ none ∨ .replay ∈ s.stack

theorem EarlyInv.some {cfg s} (h : EarlyInv cfg s) (he : s.early ≠ none) : EarlyStarted s.log := by
  rcases h.lim with ⟨q, _⟩ | ⟨m, q, _⟩
  · exact absurd q he
  · exact ⟨m, q⟩

theorem split_old {α} {o : α} {a l pre suf : List α} (h : a ++ l = pre ++ o :: suf) (ho : o ∉ l) :
    ∃ suf', a = pre ++ o :: suf' ∧ suf = suf' ++ l := by
  rcases List.append_eq_append_iff.1 h with ⟨x, h1, h2⟩ | ⟨x, h1, h2⟩
  · exact absurd (by rw [h2]; simp) ho
  · cases x with
    | nil => exact absurd (by rw [show l = o :: suf by simpa using h2.symm]; simp) ho
    | cons y x =>
      injection h2 with e1 e2
      subst e1
      exact ⟨x, h1, e2⟩

theorem mild_flow {o : Obs} (h : mild o = true) : earlyBy o = [] := by
  cases o with
  | submit e => cases e <;> simp_all [mild, dull, earlyBy]
  | _ => rfl

/-- What everything here depends on, when early data is left alone. -/
theorem EarlyInv.same {cfg s t} (h : EarlyInv cfg s) {l} (hlog : t.log = s.log ++ l)
    (hl : ∀ o ∈ l, isRep o = false ∧ (∀ m, o ≠ .earlyOk m) ∧ (∀ a n q, o ≠ .success a n q))
    (hp : t.phase = s.phase) (hr : t.replayCb = true → s.replayCb = true ∨ s.early ≠ none)
    (hf : t.stack.count .replay ≤ s.stack.count .replay)
    (hkeep : t.replayCb = true → s.stack.count .replay ≤ t.stack.count .replay)
    (hn : s.early = none → t.early = none ∧ Spec.early t.log = Spec.early s.log)
    (hs : s.early ≠ none → t.early ≠ none ∧ (Spec.early t.log).length + t.rem ≤ (Spec.early s.log).length + s.rem) :
    EarlyInv cfg t := by
  have m1 : ∀ {o}, o ∈ s.log → o ∈ t.log := fun m => by rw [hlog]; exact List.mem_append_left _ m
  have st : EarlyStarted t.log → EarlyStarted s.log := by
    rintro ⟨m, w⟩
    rw [hlog] at w
    rcases List.mem_append.1 w with w | w
    · exact ⟨m, w⟩
    · exact absurd rfl ((hl _ w).2.1 m)
  have st' : EarlyStarted s.log → EarlyStarted t.log := fun ⟨m, w⟩ => ⟨m, m1 w⟩
  have rm : s.early = none → s.rem = 0 := fun q => by simp [St.rem, q]
  refine ⟨?_, ?_, ?_, ?_, ?_, ?_, ?_, ?_⟩
  · by_cases he : s.early = none
    · obtain ⟨a, b⟩ := hn he
      rcases h.lim with ⟨_, q⟩ | ⟨m, q, w⟩
      · exact .inl ⟨a, b.trans q⟩
      · refine .inr ⟨m, m1 q, ?_⟩
        rw [b, St.rem, a]
        simp
        omega
    · obtain ⟨a, b⟩ := hs he
      rcases h.lim with ⟨q, _⟩ | ⟨m, q, w⟩
      · exact absurd q he
      · exact .inr ⟨m, m1 q, Nat.le_trans b w⟩
  · intro c p
    exact (hs (h.one c (hp ▸ p))).1
  · intro c e w
    have he : s.early = none := Decidable.byContradiction fun q => (hs q).1 e
    obtain ⟨a, n, q, z1, z2⟩ := h.res c he (st w)
    exact ⟨a, n, q, m1 z1, z2⟩
  · intro q
    rcases hr q with w | w
    · exact st' (h.rcb w)
    · exact st' (h.some w)
  · intro m
    have : 0 < s.stack.count .replay := Nat.lt_of_lt_of_le (List.count_pos_iff.2 m) hf
    obtain ⟨a, b⟩ := h.fr (List.count_pos_iff.1 this)
    exact ⟨a, (hn b).1⟩
  · intro pre suf e
    rw [hlog] at e
    obtain ⟨suf', e1, _⟩ := split_old e (fun m => by have := (hl _ m).1; simp [isRep] at this)
    exact h.safe pre suf' e1
  · have : l.countP isRep = 0 := by
      rw [List.countP_eq_zero]; intro o m; simp [(hl o m).1]
    rw [hlog, List.countP_append, this, hp]
    have := h.once
    omega
  · intro q
    have : s.early ≠ none ∨ .replay ∈ s.stack := by
      rcases hr q with w | w
      · exact h.kept w
      · exact .inl w
    rcases this with w | w
    · exact .inl (hs w).1
    · exact .inr (List.count_pos_iff.1 (Nat.lt_of_lt_of_le (List.count_pos_iff.2 w) (hkeep q)))

theorem EarlyInv.mild {cfg s t} (h : EarlyInv cfg s) (q : Mild s t) : EarlyInv cfg t := by
  obtain ⟨l, hl, hm⟩ := q.log
  have hfl : Spec.early t.log = Spec.early s.log := by
    rw [hl, early_app, show Spec.early l = [] from List.flatMap_eq_nil_iff.2 fun o ho => mild_flow (hm o ho)]
    simp
  have hrem : t.rem = s.rem := by rw [St.rem, q.early]; rfl
  have hnn : t.early = none ↔ s.early = none := by
    have e := q.early
    cases h1 : t.early <;> cases h2 : s.early <;> rw [h1, h2] at e <;> simp at e ⊢
  refine h.same hl ?_ q.phase q.rcb q.frames q.keep (fun w => ⟨hnn.2 w, hfl⟩) (fun w => ⟨fun z => w (hnn.1 z), by rw [hfl, hrem]; exact Nat.le_refl _⟩)
  intro o ho
  have := hm o ho
  cases o <;> simp_all [Fizz.Sock.mild, dull, isRep]

theorem EarlyInv.write {cfg s d c} (h : EarlyInv cfg s) (hg : s.good = true) (hsh : Shape cfg s) :
    EarlyInv cfg (s.write cfg d c) := by
  have w := write_eff (d := d) (c := c) hg hsh
  obtain ⟨l, hl, hm⟩ := w.log
  refine h.same hl ?_ w.phase (by rw [w.rcb]; exact .inl) (Nat.le_of_eq w.frames) (fun _ => Nat.le_of_eq w.frames.symm) w.eNone w.eSome
  intro o ho
  have := hm o ho
  cases o <;> simp_all [subEntry, isRep]

theorem EarlyInv.badWrite {cfg s d c} (h : EarlyInv cfg s) (hg : s.good = false) : EarlyInv cfg (s.write cfg d c) := by
  obtain ⟨l, h1, h2, h3, h4, h5, h6⟩ := badWrite_eq (cfg := cfg) (d := d) (c := c) hg
  have hfl : Spec.early (s.write cfg d c).log = Spec.early s.log := by
    rw [h1, early_app, h2]; cases c <;> simp [early, earlyBy]
  have hrem : (s.write cfg d c).rem = s.rem := by rw [St.rem, h3]; rfl
  refine h.same h1 ?_ h4 (by rw [h5]; exact .inl) (Nat.le_of_eq h6) (fun _ => Nat.le_of_eq h6.symm) (fun w => ⟨h3.trans w, hfl⟩)
    (fun w => ⟨by rw [h3]; exact w, by rw [hfl, hrem]; exact Nat.le_refl _⟩)
  rw [h2]; cases c <;> simp [isRep]

theorem EarlyInv.take {cfg s e q} (h : EarlyInv cfg s) :
    EarlyInv cfg (St.startMachine (St.say { s with queue := q } (.take e))) := by
  have hfl : Spec.early (St.startMachine (St.say { s with queue := q } (.take e))).log = Spec.early s.log := by
    simp [St.startMachine, St.push, St.say, early, earlyBy]
  have hc : (St.startMachine (St.say { s with queue := q } (.take e))).stack.count .replay = s.stack.count .replay := by
    show (Frame.acts :: s.stack).count .replay = _
    rw [List.count_cons]; simp
  refine h.same (l := [.take e]) rfl (by simp [isRep]) rfl .inl (Nat.le_of_eq hc) (fun _ => Nat.le_of_eq hc.symm) (fun w => ⟨w, hfl⟩) (fun w => ⟨w, by rw [hfl]; exact Nat.le_refl _⟩)

theorem EarlyInv.replay {cfg s rest} (h : EarlyInv cfg s) (hs : s.stack = .replay :: rest) (hr : s.replayCb = true) :
    EarlyInv cfg (St.push (St.say { s with stack := rest, replayCb := false } .replaySafe) [.out]) := by
  obtain ⟨hcl, hn⟩ := h.fr (by rw [hs]; exact List.mem_cons_self)
  have hst := h.rcb hr
  have hres := h.res hcl hn hst
  have hlog : (St.push (St.say { s with stack := rest, replayCb := false } .replaySafe) [.out]).log = s.log ++ [.replaySafe] := rfl
  have m1 : ∀ {o}, o ∈ s.log → o ∈ s.log ++ [.replaySafe] := fun m => List.mem_append_left _ m
  refine ⟨?_, fun a b => h.one a b, ?_, nofun, ?_, ?_, ?_, nofun⟩
  · rw [hlog, early_app]
    rcases h.lim with ⟨a, b⟩ | ⟨m, a, b⟩
    · exact .inl ⟨a, by rw [b]; rfl⟩
    · exact .inr ⟨m, m1 a, by simpa [early, earlyBy, St.rem, St.push, St.say] using b⟩
  · intro _ _ _
    obtain ⟨a, n, q, z1, z2⟩ := hres
    exact ⟨a, n, q, m1 z1, z2⟩
  · intro m
    refine h.fr ?_
    rw [hs]; exact List.mem_cons_self
  · intro pre suf e
    rw [hlog] at e
    by_cases hsuf : suf = []
    · subst hsuf
      have := List.append_inj' e rfl
      rw [← this.1]; exact ⟨hst, hres⟩
    · obtain ⟨x, y, rfl⟩ : ∃ x y, suf = x ++ [y] := ⟨suf.dropLast, suf.getLast hsuf, (List.dropLast_concat_getLast hsuf).symm⟩
      have e' : s.log ++ [Obs.replaySafe] = (pre ++ .replaySafe :: x) ++ [y] := by rw [e]; simp
      exact h.safe pre x (List.append_inj' e' rfl).1
  · have := h.once
    rw [hs, List.count_cons] at this
    rw [hlog, List.countP_append]
    show _ + (Frame.out :: rest).count .replay ≤ if 2 ≤ s.phase then 1 else 0
    rw [List.count_cons]
    simp [isRep] at this ⊢
    omega

end Fizz.Sock

import Verif.Sock.Timer
import Verif.Sock.Props
import Verif.Sock.Late
import Verif.Sock.EarlyStep

/-!
# C105: the invariant of the handshake timer
-/

namespace Fizz.Sock

open Spec

/-- Entries that leave the handshake alone. -/
def tameEntry (o : Obs) : Prop := lowEntry o = true ∨ o = .error

/-- The handshake is left alone. -/
structure Tame (s t : St) : Prop where
  cb : t.cb = s.cb
  log : ∃ l, t.log = s.log ++ l ∧ ∀ o ∈ l, tameEntry o
  top : .error ∈ t.log → .error ∈ s.log ∨ ∃ rest, t.stack = .err .hs :: rest

theorem Tame.low {s t : St} (hcb : t.cb = s.cb) (h : LowLog s t) : Tame s t := by
  refine ⟨hcb, ?_, fun m => .inl ((h.mem rfl).1 m)⟩
  obtain ⟨l, h1, h2⟩ := h
  exact ⟨l, h1, fun o m => .inl (h2 o m)⟩

theorem Tame.fail {s t : St} (hcb : t.cb = s.cb) (hl : t.log = s.log) : Tame s t.fail :=
  ⟨hcb, ⟨[.error], by simp [St.fail, St.push, St.say, hl], by simp [tameEntry]⟩, fun _ => .inr ⟨_, rfl⟩⟩

theorem Tame.mem {s t : St} (h : Tame s t) {o} (ho : ¬ tameEntry o) : o ∈ t.log ↔ o ∈ s.log := by
  obtain ⟨l, hl, hq⟩ := h.log
  rw [hl, List.mem_append]
  exact ⟨fun m => m.elim id fun m => absurd (hq o m) ho, .inl⟩

theorem Tame.complete {s t : St} (h : Tame s t) : Complete t.log ↔ Complete s.log := by
  constructor <;> rintro ⟨a, b, c, m⟩
  · exact ⟨a, b, c, (h.mem (by simp [tameEntry, lowEntry])).1 m⟩
  · exact ⟨a, b, c, (h.mem (by simp [tameEntry, lowEntry])).2 m⟩

theorem Tame.hsErr {s t : St} (h : Tame s t) : .hsErr ∈ t.log ↔ .hsErr ∈ s.log :=
  h.mem (by simp [tameEntry, lowEntry])

theorem Tame.conn {s t : St} (h : Tame s t) : .connect true ∈ t.log ↔ .connect true ∈ s.log :=
  h.mem (by simp [tameEntry, lowEntry])

theorem tame_err {s : St} {p rest} (hs : s.stack = .err p :: rest) (hp : p ≠ .hs) : Tame s (s.errStep rest p) := by
  cases p with
  | hs => exact absurd rfl hp
  | unreplay => exact .low rfl (.rfl' rfl)
  | pendHs =>
    simp only [St.errStep]
    rcases list_cases s.hsPend with hq | ⟨w, ws, hq⟩
    · rw [pendHs1_nil hq]; exact .low rfl (.rfl' rfl)
    · rw [pendHs1_cons hq]
      exact .low (by simp) (LowLog.failW { s with hsPend := ws, stack := .err .pendHs :: rest } w.token)
  | pendEarly =>
    simp only [St.errStep]
    rcases earlyPend_cases s with he0 | ⟨e, w, ws, he, hq⟩
    · rw [pendEarly1_nil he0]; exact .low rfl (.rfl' rfl)
    · rw [pendEarly1_cons he hq]
      exact .low (by simp) (LowLog.failW { s with early := some { e with pend := ws }, stack := .err .pendEarly :: rest } w.token)
  | move => simp only [St.errStep]; split <;> exact .low rfl (.rfl' rfl)
  | drain =>
    simp only [St.errStep]
    rcases list_cases s.queue with hq | ⟨e, q, hq⟩
    · rw [drain1_nil hq]; exact .low rfl (.rfl' rfl)
    · rw [drain1_cons hq]
      exact .low (by simp) (LowLog.failW { s with queue := q, stack := .err .drain :: rest } e.token)
  | fin => exact .low rfl ⟨[.errorDone], rfl, by simp [lowEntry]⟩

theorem tame_close (s : St) (k) : Tame s (s.close k) := by
  cases k <;> simp only [St.close] <;> split
  · exact .low (by simp) ((LowLog.submit s _).trans (.enter _))
  · exact .fail (t := s.push [.out]) rfl rfl
  · refine .low (by simp) (LowLog.trans (t := (s.push [.doFail, .out]).submit (.close true)) ?_ (.enter _))
    exact ⟨[_], rfl, by simp [lowEntry]⟩
  · exact .fail (t := s.push [.out]) rfl rfl
  · refine .low (by simp) (LowLog.trans (t := (s.push [.out]).submit (.close false)) ?_ (.enter _))
    exact ⟨[_], rfl, by simp [lowEntry]⟩
  · exact .low rfl (.rfl' rfl)

theorem errStep_connected (s : St) (rest p) : (s.errStep rest p).connected = s.connected := by
  cases p with
  | hs => simp [St.errStep]
  | unreplay => simp [St.errStep]
  | pendHs =>
    simp only [St.errStep]
    rcases list_cases s.hsPend with hq | ⟨w, ws, hq⟩
    · rw [pendHs1_nil hq]
    · rw [pendHs1_cons hq]; simp
  | pendEarly =>
    simp only [St.errStep]
    rcases earlyPend_cases s with he0 | ⟨e, w, ws, he, hq⟩
    · rw [pendEarly1_nil he0]
    · rw [pendEarly1_cons he hq]; simp
  | move => simp only [St.errStep]; split <;> simp
  | drain =>
    simp only [St.errStep]
    rcases list_cases s.queue with hq | ⟨e, q, hq⟩
    · rw [drain1_nil hq]
    · rw [drain1_cons hq]; simp
  | fin => simp [St.errStep, St.say]

/-- The steps that matter to the handshake of a client, and the rest. -/
inductive TKind (cfg : Cfg) (s : St) : Op → St → Prop where
  | connect (c v) : s.connected = false → TKind cfg s (.connect c v) (s.connect cfg c v)
  | earlyOk (m rest) : s.stack = .acts :: rest → TKind cfg s (.visit (.earlyOk m)) (s.visit cfg (.earlyOk m))
  | success (a n q rest) : s.stack = .acts :: rest → TKind cfg s (.visit (.success a n q)) (s.visit cfg (.success a n q))
  | hsErr (rest) : s.stack = .err .hs :: rest → TKind cfg s .tau (St.hsError { s with stack := .err .unreplay :: rest })
  | hsCb (rest) : s.stack = .hsCb :: rest → TKind cfg s .tau (St.hsSuccess { s with stack := rest })
  | tame (o t) : Tame s t → (∀ rest, s.stack ≠ .err .hs :: rest) → t.connected = s.connected →
      stops cfg s o = false → TKind cfg s o t

theorem quiet_top {s : St} (h : s.outside = true) : ∀ rest, s.stack ≠ .err .hs :: rest := by
  intro rest e
  unfold St.outside at h
  rw [e] at h
  cases h

theorem tkind {cfg s s' o} (hcl : cfg.server = false) (h : step cfg s o = some s') : TKind cfg s o s' := by
  have hno : ∀ o, (∀ a n q, o ≠ .visit (.success a n q)) → o ≠ .tau → stops cfg s o = false := by
    intro o h1 h2
    unfold stops
    split
    · rename_i a n q; exact absurd rfl (h1 a n q)
    · exact absurd rfl h2
    · rfl
  cases o with
  | connect c v =>
    simp only [step] at h
    split at h
    · rename_i q; simp at q; cases Option.some.inj h; exact .connect c v q.1.2
    · cases h
  | sockConnected =>
    simp only [step] at h
    split at h
    · rename_i q; simp at q; cases Option.some.inj h
      exact .tame _ _ (.low rfl (.rfl' rfl)) (quiet_top q.1.1.1) rfl (hno _ (by simp) (by simp))
    · cases h
  | write d c =>
    simp only [step] at h
    split at h
    · rename_i q; simp at q; cases Option.some.inj h
      exact .tame _ _ (.low (by simp) (.write cfg s d c)) (quiet_top q.1) (by simp) (hno _ (by simp) (by simp))
    · cases h
  | close k =>
    simp only [step] at h
    split at h
    · rename_i q; simp at q; cases Option.some.inj h
      exact .tame _ _ (tame_close s k) (quiet_top q.1) (by simp) (hno _ (by simp) (by simp))
    · cases h
  | keyUpdate =>
    simp only [step] at h
    split at h
    · rename_i q; simp at q; cases Option.some.inj h
      exact .tame _ _ (.low (by simp) ((LowLog.submit s _).trans (.enter _))) (quiet_top q.1) (by simp) (hno _ (by simp) (by simp))
    · cases h
  | ticket =>
    simp only [step] at h
    split at h
    · rename_i q; simp at q; cases Option.some.inj h
      exact .tame _ _ (.low (by simp) ((LowLog.submit s _).trans (.enter _))) (quiet_top q.1.1) (by simp) (hno _ (by simp) (by simp))
    · cases h
  | setReplay b =>
    simp only [step] at h
    split at h
    · rename_i q; simp only [Bool.and_eq_true] at q; cases Option.some.inj h
      exact .tame _ _ (.low rfl (.rfl' rfl)) (quiet_top q.1.1) rfl (hno _ (by simp) (by simp))
    · cases h
  | transportError =>
    simp only [step] at h
    split at h
    · rename_i q; simp at q; cases Option.some.inj h
      exact .tame _ _ (.fail rfl rfl) (quiet_top q.1) rfl (hno _ (by simp) (by simp))
    · cases h
  | data =>
    simp only [step] at h
    split at h
    · rename_i q; simp at q; cases Option.some.inj h
      exact .tame _ _ (.low (by simp) (.enter s)) (quiet_top q.1) (by simp) (hno _ (by simp) (by simp))
    · cases h
  | env g e c =>
    simp only [step] at h
    split at h
    · rename_i q; simp only [Bool.and_eq_true] at q; cases Option.some.inj h
      exact .tame _ _ (.low rfl (.rfl' rfl)) (quiet_top q.1) rfl (hno _ (by simp) (by simp))
    · cases h
  | ret =>
    simp only [step] at h
    split at h
    · rename_i rest hs; cases Option.some.inj h
      exact .tame _ _ (.low rfl (.rfl' rfl)) (by simp [hs]) rfl (hno _ (by simp) (by simp))
    · cases h
  | tau =>
    simp only [step, St.tau] at h
    have hst : ∀ f rest, s.stack = f :: rest → f ≠ .err .hs → stops cfg s .tau = false := by
      intro f rest hs hf
      unfold stops
      simp only []
      split
      · rename_i r e; rw [hs] at e; exact absurd (List.cons.inj e).1 hf
      · rfl
    split at h
    · rename_i n rest hs
      cases Option.some.inj h
      refine .tame _ _ ?_ (by simp [hs]) ?_ (hst _ _ hs (by simp))
      · split
        · refine .low (by simp) (LowLog.trans (t := St.count cfg { s with stack := rest } n) ?_ (.enter _))
          exact LowLog.trans (t := { s with stack := rest }) (.rfl' rfl) (.count cfg _ n)
        · refine .low (by simp) ?_
          exact LowLog.trans (t := { s with stack := rest }) (.rfl' rfl) (.count cfg _ n)
      · split <;> simp
    · rename_i rest hs; cases Option.some.inj h
      exact .tame _ _ (.fail (t := { s with stack := rest }) rfl rfl) (by simp [hs]) rfl (hst _ _ hs (by simp))
    · rename_i p rest hs; cases Option.some.inj h
      by_cases hp : p = .hs
      · cases hp; exact .hsErr rest hs
      · refine .tame _ _ (tame_err hs hp) (by simp [hs, hp]) ?_ (hst _ _ hs (by simp [hp]))
        have := errStep_connected s rest p
        exact this
    · rename_i rest hs; cases Option.some.inj h; exact .hsCb rest hs
    · rename_i rest hs
      cases Option.some.inj h
      refine .tame _ _ ?_ (by simp [hs]) ?_ (hst _ _ hs (by simp))
      · split
        · exact .low rfl ⟨[.replaySafe], rfl, by simp [lowEntry]⟩
        · exact .low rfl (.rfl' rfl)
      · split <;> rfl
    · cases h
  | take =>
    simp only [step] at h
    split at h
    · rename_i rest e q hs hq
      split at h
      · cases Option.some.inj h
        exact .tame _ _ (.low rfl ⟨[.take e], rfl, by simp [lowEntry]⟩) (by simp [hs]) rfl (hno _ (by simp) (by simp))
      · cases h
    · cases h
  | sock =>
    simp only [step] at h
    split at h
    · rename_i rest hs
      split at h
      · cases Option.some.inj h
        exact .tame _ _ (.low rfl (.rfl' rfl)) (by simp [hs]) rfl (hno _ (by simp) (by simp))
      · cases h
    · cases h
  | stop =>
    simp only [step] at h
    split at h
    · rename_i rest hs; cases Option.some.inj h
      exact .tame _ _ (.low rfl (.rfl' rfl)) (by simp [hs]) rfl (hno _ (by simp) (by simp))
    · cases h
  | visit a =>
    simp only [step] at h
    split at h
    · rename_i rest hs
      split at h
      · cases Option.some.inj h
        have top : ∀ r, s.stack ≠ .err .hs :: r := by simp [hs]
        cases a with
        | earlyOk m => exact .earlyOk m rest hs
        | success a n q => exact .success a n q rest hs
        | error => exact .tame _ _ (.fail rfl rfl) top rfl (hno _ (by simp) (by simp))
        | fallback =>
          refine .tame _ _ ?_ top ?_ (hno _ (by simp) (by simp))
          · simp only [St.visit, hcl]; split <;> exact .low rfl (.rfl' rfl)
          · simp only [St.visit, hcl]; split <;> rfl
        | earlyFailed t =>
          refine .tame _ _ ?_ top ?_ (hno _ (by simp) (by simp))
          · simp only [St.visit]; split
            · exact .low rfl ⟨[.wOk _], rfl, by simp [lowEntry]⟩
            · exact .low rfl (.rfl' rfl)
          · simp only [St.visit]; split <;> rfl
        | mutate e c => exact .tame _ _ (.low rfl (.rfl' rfl)) top rfl (hno _ (by simp) (by simp))
        | other => exact .tame _ _ (.low rfl (.rfl' rfl)) top rfl (hno _ (by simp) (by simp))
      · cases h
    · cases h
  | done =>
    simp only [step] at h
    split at h
    · rename_i rest hs; cases Option.some.inj h
      exact .tame _ _ (.low (by simp) (LowLog.trans (t := { s with stack := rest, guard := false }) (.rfl' rfl) (.enter _))) (by simp [hs]) (by simp) (hno _ (by simp) (by simp))
    · cases h
  | suspend =>
    simp only [step] at h
    split at h
    · rename_i rest hs
      split at h
      · cases Option.some.inj h
        exact .tame _ _ (.low rfl (.rfl' rfl)) (by simp [hs]) rfl (hno _ (by simp) (by simp))
      · cases h
    · cases h
  | resumed =>
    simp only [step] at h
    split at h
    · rename_i q; simp at q; cases Option.some.inj h
      exact .tame _ _ (.low rfl (.rfl' rfl)) (quiet_top q.1) rfl (hno _ (by simp) (by simp))
    · cases h

/-- What early success of a client adds. -/
theorem earlyOk_client {cfg} {s : St} {m} (hcl : cfg.server = false) :
    (∃ l, (s.visit cfg (.earlyOk m)).log = s.log ++ .earlyOk m :: l ∧ ∀ o ∈ l, o = .hsOk) ∧
      (s.visit cfg (.earlyOk m)).connected = s.connected := by
  simp only [St.visit, hcl, Bool.false_eq_true, if_false]
  unfold St.hsSuccess
  split
  · exact ⟨⟨[], rfl, by simp⟩, rfl⟩
  · exact ⟨⟨[.hsOk], by simp [St.push, St.say], by simp⟩, rfl⟩
  · exact ⟨⟨[], rfl, by simp⟩, rfl⟩

theorem base_append : ∀ (l m : List TObs), base (l ++ m) = base l ++ base m
  | [], _ => rfl
  | .obs o :: l, m => by simp [base, base_append l m]
  | .started :: l, m => by simp [base, base_append l m]
  | .fired :: l, m => by simp [base, base_append l m]

theorem base_map : ∀ (l : List Obs), base (l.map .obs) = l
  | [] => rfl
  | o :: l => by simp [base, base_map l]

theorem base_news {s s' : St} (h : s.log <+: s'.log) : s.log ++ base (news s s') = s'.log := by
  obtain ⟨l, e⟩ := h
  rw [news, base_map, ← e]
  simp

theorem news_fired (s s' : St) : .fired ∉ news s s' := by
  unfold news
  intro m
  obtain ⟨o, _, h⟩ := List.mem_map.1 m
  cases h

theorem news_started (s s' : St) : .started ∉ news s s' := by
  unfold news
  intro m
  obtain ⟨o, _, h⟩ := List.mem_map.1 m
  cases h

/-- What holds when the timer fires, of the history so far. -/
structure Due (pre : List TObs) : Prop where
  started : .started ∈ pre
  once : .fired ∉ pre
  open_ : ¬ Complete (base pre)
  untold : .hsErr ∉ base pre
  clean : .error ∈ base pre → EarlyStarted (base pre)

/-- The invariant of the timer, for a client. -/
structure TInv (cfg : Cfg) (t : TSt) : Prop where
  reach : Reach cfg t.s
  base : base t.log = t.s.log
  conn : .started ∈ t.log → t.s.connected = true
  bal : t.log.count .fired + (if t.armed then 1 else 0) ≤ t.log.count .started
  one : t.log.count .started ≤ 1
  open_ : t.armed = true → ¬ Complete t.s.log
  untold : t.armed = true → .hsErr ∉ t.s.log
  held : t.armed = true → EarlyStarted t.s.log ∨ t.s.cb = some true ∨ (t.s.cb = some false ∧ .connect true ∉ t.s.log)
  clean : t.armed = true → .error ∈ t.s.log → EarlyStarted t.s.log ∨ ∃ rest, t.s.stack = .err .hs :: rest
  off : .started ∈ t.log → t.armed = false → Complete t.s.log ∨ .error ∈ t.s.log
  told : .fired ∈ t.log → .error ∈ t.s.log ∧ (.hsErr ∈ t.s.log ∨ EarlyStarted t.s.log ∨ .connect true ∉ t.s.log ∨
    (t.s.cb = some true ∧ ∃ rest, t.s.stack = .err .hs :: rest))
  due : ∀ pre suf, t.log = pre ++ .fired :: suf → Due pre

theorem due_append {L l : List TObs} (h : ∀ pre suf, L = pre ++ .fired :: suf → Due pre) (hl : .fired ∉ l) :
    ∀ pre suf, L ++ l = pre ++ .fired :: suf → Due pre := by
  intro pre suf e
  rcases List.append_eq_append_iff.1 e with ⟨m, e1, e2⟩ | ⟨m, e1, e2⟩
  · exact absurd (by rw [e2]; simp) hl
  · cases m with
    | nil =>
      simp only [List.nil_append] at e2
      exact absurd (by rw [← e2]; simp) hl
    | cons x m =>
      have := (List.cons.inj e2).1
      subst this
      exact h pre m e1

theorem mem_mono {cfg s s' o x} (h : step cfg s o = some s') (m : x ∈ s.log) : x ∈ s'.log := kind_mem (step_kind h) m

theorem complete_mono {cfg s s' o} (h : step cfg s o = some s') (m : Complete s.log) : Complete s'.log := by
  obtain ⟨a, n, q, m⟩ := m
  exact ⟨a, n, q, mem_mono h m⟩

theorem started_mono {cfg s s' o} (h : step cfg s o = some s') (m : EarlyStarted s.log) : EarlyStarted s'.log := by
  obtain ⟨a, m⟩ := m
  exact ⟨a, mem_mono h m⟩

theorem TInv.init {cfg} (g e c : Bool) : TInv cfg { s := { tGood := g, tErr := e, tConn := c } } where
  reach := .init g e c
  base := rfl
  conn := by simp
  bal := by simp
  one := by simp
  open_ := by simp
  untold := by simp
  held := by simp
  clean := by simp
  off := by simp
  told := by simp
  due := by simp

/-- A step of the socket, not `connect`. -/
theorem TInv.other {cfg t o s'} (hcl : cfg.server = false) (h : TInv cfg t) (hs : step cfg t.s o = some s')
    (hc : ∀ c v, o ≠ .connect c v) :
    TInv cfg { s := s', armed := t.armed && !stops cfg t.s o, log := t.log ++ news t.s s' } := by
  have hpre : t.s.log <+: s'.log := kind_prefix (step_kind hs)
  have hnf := news_fired t.s s'
  have hns := news_started t.s s'
  have cs : (t.log ++ news t.s s').count .started = t.log.count .started := by
    rw [List.count_append, List.count_eq_zero_of_not_mem hns]; omega
  have cf : (t.log ++ news t.s s').count .fired = t.log.count .fired := by
    rw [List.count_append, List.count_eq_zero_of_not_mem hnf]; omega
  have ms : .started ∈ t.log ++ news t.s s' → .started ∈ t.log := fun m => (List.mem_append.1 m).elim id fun m => absurd m hns
  have mf : .fired ∈ t.log ++ news t.s s' → .fired ∈ t.log := fun m => (List.mem_append.1 m).elim id fun m => absurd m hnf
  have hcalls := h.reach.inv.calls
  have hlate := h.reach.late
  have k := tkind hcl hs
  -- the parts that need the kind of step
  have hk : (t.s.connected = true → s'.connected = true) ∧
      (t.armed = true → stops cfg t.s o = false → ¬ Complete s'.log ∧ .hsErr ∉ s'.log ∧
        (EarlyStarted s'.log ∨ s'.cb = some true ∨ (s'.cb = some false ∧ .connect true ∉ s'.log)) ∧
        (.error ∈ s'.log → EarlyStarted s'.log ∨ ∃ rest, s'.stack = .err .hs :: rest)) ∧
      (stops cfg t.s o = true → Complete s'.log ∨ .error ∈ t.s.log ∨ t.armed = false) ∧
      (.fired ∈ t.log → .hsErr ∈ s'.log ∨ EarlyStarted s'.log ∨ .connect true ∉ s'.log ∨
        (s'.cb = some true ∧ ∃ rest, s'.stack = .err .hs :: rest)) := by
    cases k with
    | connect c v => exact absurd rfl (hc c v)
    | earlyOk m rest hst =>
      obtain ⟨⟨l, hl, hq⟩, hco⟩ := earlyOk_client (s := t.s) (m := m) hcl
      have hes : EarlyStarted (t.s.visit cfg (.earlyOk m)).log := ⟨m, by rw [hl]; simp⟩
      refine ⟨fun q => by rw [hco]; exact q, fun ha _ => ⟨?_, ?_, .inl hes, fun _ => .inl hes⟩, by simp [stops], fun _ => .inr (.inl hes)⟩
      · rintro ⟨a, n, q, m⟩
        rw [hl] at m
        rcases List.mem_append.1 m with w | w
        · exact h.open_ ha ⟨a, n, q, w⟩
        · rcases List.mem_cons.1 w with w | w
          · cases w
          · cases hq _ w
      · intro m
        rw [hl] at m
        rcases List.mem_append.1 m with w | w
        · exact h.untold ha w
        · rcases List.mem_cons.1 w with w | w
          · cases w
          · cases hq _ w
    | success a n q rest hst =>
      obtain ⟨l, hl, hq, _⟩ := (clientSuccess_eff (s := t.s) (a := a) (n := n) (q := q) hcl).log
      refine ⟨fun w => by simp [St.visit, hcl, w], by simp [stops, hcl], fun _ => .inl ⟨a, n, q, by rw [hl]; simp⟩, fun m => ?_⟩
      rcases (h.told m).2 with w | w | w | ⟨_, r, w⟩
      · exact .inl (mem_mono hs w)
      · exact .inr (.inl (started_mono hs w))
      · refine .inr (.inr (.inl fun m => ?_))
        rw [hl] at m
        rcases List.mem_append.1 m with z | z
        · exact w z
        · rcases List.mem_cons.1 z with z | z
          · cases z
          · rcases hq _ z with z | z | z
            · simp [subEntry] at z
            · cases z
            · cases z
      · rw [hst] at w; cases w
    | hsErr rest hst =>
      rcases cb_cases t.s with c | c | c
      · rw [hsError_none (s := { t.s with stack := .err .unreplay :: rest }) c]
        refine ⟨id, fun ha _ => ?_, by simp [stops, hst, c], fun m => ?_⟩
        · have hes : EarlyStarted t.s.log := by
            rcases h.held ha with w | w | w
            · exact w
            · rw [c] at w; cases w
            · rw [c] at w; cases w.1
          exact ⟨h.open_ ha, h.untold ha, .inl hes, fun _ => .inl hes⟩
        · rcases (h.told m).2 with w | w | w | ⟨w, _⟩
          · exact .inl w
          · exact .inr (.inl w)
          · exact .inr (.inr (.inl w))
          · rw [c] at w; cases w
      · rw [hsError_true (s := { t.s with stack := .err .unreplay :: rest }) c]
        refine ⟨id, by simp [stops, hst, c], fun _ => .inr (.inl ?_), fun m => .inl (by simp [St.push, St.say])⟩
        apply Classical.byContradiction
        intro he
        exact (h.reach.noErr he).2 .hs (by rw [hst]; simp)
      · rw [hsError_false (s := { t.s with stack := .err .unreplay :: rest }) c]
        refine ⟨id, by simp [stops, hst, c], fun _ => .inr (.inl ?_), fun m => ?_⟩
        · apply Classical.byContradiction
          intro he
          exact (h.reach.noErr he).2 .hs (by rw [hst]; simp)
        · rcases (h.told m).2 with w | w | w | ⟨w, _⟩
          · exact .inl w
          · exact .inr (.inl w)
          · exact .inr (.inr (.inl w))
          · rw [c] at w; cases w
    | hsCb rest hst =>
      have hcomp : Complete t.s.log := by
        have := hlate .hsCb (by rw [hst]; simp) (.inl rfl)
        exact hcalls.ph3 (by omega) (by omega)
      refine ⟨fun w => by simpa using w, fun ha => absurd hcomp (h.open_ ha), by simp [stops, hst], fun m => ?_⟩
      rcases (h.told m).2 with w | w | w | ⟨_, r, w⟩
      · exact .inl (mem_mono hs w)
      · exact .inr (.inl (started_mono hs w))
      · refine .inr (.inr (.inl fun m => w ?_))
        rcases cb_cases t.s with c | c | c
        · rw [hsSuccess_none (s := { t.s with stack := rest }) c] at m; exact m
        · rw [hsSuccess_true (s := { t.s with stack := rest }) c] at m; simpa [St.push, St.say] using m
        · rw [hsSuccess_false (s := { t.s with stack := rest }) c] at m; exact m
      · rw [hst] at w; cases w
    | tame _ _ ht htop hco hno =>
      refine ⟨fun q => by rw [hco]; exact q, fun ha _ => ⟨?_, ?_, ?_, ?_⟩, fun w => (by rw [hno] at w; cases w), fun m => ?_⟩
      · rw [ht.complete]; exact h.open_ ha
      · rw [ht.hsErr]; exact h.untold ha
      · rw [ht.cb, ht.conn]
        exact (h.held ha).imp (started_mono hs) id
      · intro m
        rcases ht.top m with w | w
        · rcases h.clean ha w with z | ⟨r, z⟩
          · exact .inl (started_mono hs z)
          · exact absurd z (htop r)
        · exact .inr w
      · rcases (h.told m).2 with w | w | w | ⟨_, r, w⟩
        · exact .inl (mem_mono hs w)
        · exact .inr (.inl (started_mono hs w))
        · rw [← ht.conn] at w; exact .inr (.inr (.inl w))
        · exact absurd w (htop r)
  exact
    { reach := h.reach.step hs
      base := by rw [base_append, h.base]; exact base_news hpre
      conn := fun m => hk.1 (h.conn (ms m))
      bal := by
        have := h.bal
        rw [cs, cf]
        cases ha : t.armed <;> simp [ha] at this ⊢
        · omega
        · split <;> omega
      one := by rw [cs]; exact h.one
      open_ := fun ha => (hk.2.1 (by simp at ha; exact ha.1) (by simp at ha; exact ha.2)).1
      untold := fun ha => (hk.2.1 (by simp at ha; exact ha.1) (by simp at ha; exact ha.2)).2.1
      held := fun ha => (hk.2.1 (by simp at ha; exact ha.1) (by simp at ha; exact ha.2)).2.2.1
      clean := fun ha => (hk.2.1 (by simp at ha; exact ha.1) (by simp at ha; exact ha.2)).2.2.2
      off := fun m ha => by
        cases hst : stops cfg t.s o with
        | true =>
          rcases hk.2.2.1 hst with q | q | q
          · exact .inl q
          · exact .inr (mem_mono hs q)
          · exact (h.off (ms m) q).imp (complete_mono hs) (mem_mono hs)
        | false =>
          simp [hst] at ha
          exact (h.off (ms m) ha).imp (complete_mono hs) (mem_mono hs)
      told := fun m => ⟨mem_mono hs (h.told (mf m)).1, hk.2.2.2 (mf m)⟩
      due := due_append h.due hnf }

/-- The timer expires. -/
theorem TInv.expire {cfg t s'} (h : TInv cfg t) (ha : t.armed = true)
    (hs : step cfg t.s .transportError = some s') :
    TInv cfg { s := s', armed := false, log := t.log ++ .fired :: news t.s s' } := by
  have hpre : t.s.log <+: s'.log := kind_prefix (step_kind hs)
  have hnf := news_fired t.s s'
  have hns := news_started t.s s'
  simp only [step] at hs
  split at hs
  case isFalse => cases hs
  rename_i q
  simp only [Bool.and_eq_true] at q
  cases Option.some.inj hs
  have cs : (t.log ++ .fired :: news t.s t.s.fail).count .started = t.log.count .started := by
    rw [List.count_append, List.count_cons, List.count_eq_zero_of_not_mem hns]; simp
  have cf : (t.log ++ .fired :: news t.s t.s.fail).count .fired = t.log.count .fired + 1 := by
    rw [List.count_append, List.count_cons, List.count_eq_zero_of_not_mem hnf]; simp
  have hb := h.bal
  have h1 := h.one
  simp only [ha, if_true] at hb
  have hf0 : .fired ∉ t.log := by
    rw [← List.count_eq_zero]; omega
  have hst : .started ∈ t.log := by
    rw [← List.count_pos_iff]; omega
  have herr : .error ∈ t.s.fail.log := by simp [St.fail, St.push, St.say]
  have hdue : Due t.log :=
    { started := hst
      once := hf0
      open_ := by rw [h.base]; exact h.open_ ha
      untold := by rw [h.base]; exact h.untold ha
      clean := by
        rw [h.base]
        intro m
        rcases h.clean ha m with w | ⟨r, w⟩
        · exact w
        · exact absurd w (quiet_top q.1 r) }
  exact
    { reach := h.reach.step (o := .transportError) (by simp [step, q.1, q.2])
      base := by
        rw [base_append, h.base]; exact base_news hpre
      conn := fun _ => q.2
      bal := by rw [cs, cf]; simp; omega
      one := by rw [cs]; exact h1
      open_ := by simp
      untold := by simp
      held := by simp
      clean := by simp
      off := fun _ _ => .inr herr
      told := fun _ => ⟨herr, by
        rcases h.held ha with w | w | w
        · obtain ⟨m, w⟩ := w
          exact .inr (.inl ⟨m, by simp [St.fail, St.push, St.say, w]⟩)
        · exact .inr (.inr (.inr ⟨w, _, rfl⟩))
        · exact .inr (.inr (.inl (by simpa [St.fail, St.push, St.say] using w.2)))⟩
      due := by
        intro pre suf e
        rcases List.append_eq_append_iff.1 e with ⟨m, e1, e2⟩ | ⟨m, e1, e2⟩
        · cases m with
          | nil => simp only [List.append_nil] at e1; rw [e1]; exact hdue
          | cons x m =>
            have := (List.cons.inj e2).2
            exact absurd (by rw [this]; simp) hnf
        · cases m with
          | nil => simp only [List.append_nil] at e1; rw [← e1]; exact hdue
          | cons x m =>
            have := (List.cons.inj e2).1
            subst this
            exact absurd (by rw [e1]; simp) hf0 }

/-- `connect`. -/
theorem TInv.connect {cfg t c v lim s'} (hcl : cfg.server = false) (h : TInv cfg t)
    (hs : step cfg t.s (.connect c v) = some s') :
    TInv cfg { s := s', armed := t.armed || starts cfg t.s v lim, log := t.log ++ news t.s s' ++ (if starts cfg t.s v lim then [.started] else []) } := by
  have hpre : t.s.log <+: s'.log := kind_prefix (step_kind hs)
  have hr := h.reach.step hs
  have hnf := news_fired t.s s'
  have hns := news_started t.s s'
  simp only [step] at hs
  split at hs
  case isFalse => cases hs
  rename_i q
  simp only [Bool.and_eq_true, Bool.not_eq_true'] at q
  cases Option.some.inj hs
  have hs0 : .started ∉ t.log := fun m => by
    have := h.conn m
    rw [q.1.2] at this; cases this
  have c0 : t.log.count .started = 0 := List.count_eq_zero_of_not_mem hs0
  have hb := h.bal
  have hna : t.armed = false := by
    cases ha : t.armed with
    | false => rfl
    | true => simp [ha, c0] at hb
  have hf0 : t.log.count .fired = 0 := by omega
  have hnft : .fired ∉ t.log := by rw [← List.count_eq_zero]; exact hf0
  have hl0 : t.s.log = [] := (h.reach.inv.calls.fresh q.1.2).log
  cases hstart : starts cfg t.s v lim with
  | false =>
    have nf : .fired ∉ t.log ++ news t.s (t.s.connect cfg c v) := by simp [hnft, hnf]
    have ns : .started ∉ t.log ++ news t.s (t.s.connect cfg c v) := by simp [hs0, hns]
    simp only [hna, Bool.or_self, Bool.false_eq_true, if_false, List.append_nil]
    exact
      { reach := hr
        base := by rw [base_append, h.base]; exact base_news hpre
        conn := fun m => absurd m ns
        bal := by simp [List.count_eq_zero_of_not_mem nf]
        one := by simp [List.count_eq_zero_of_not_mem ns]
        open_ := by simp
        untold := by simp
        held := by simp
        clean := by simp
        off := fun m => absurd m ns
        told := fun m => absurd m nf
        due := due_append h.due hnf }
  | true =>
    have nf : .fired ∉ t.log ++ news t.s (t.s.connect cfg c v) ++ [.started] := by simp [hnft, hnf]
    have cs : (t.log ++ news t.s (t.s.connect cfg c v) ++ [TObs.started]).count TObs.started = 1 := by
      simp [List.count_append, c0, List.count_eq_zero_of_not_mem hns]
    have hvt : v = true ∨ t.s.tGood = true := by simpa [starts] using (by simpa [starts, hcl] using hstart : _ ∧ _).2
    have hlog : (t.s.connect cfg c v).log = [.connect c] ∧ (t.s.connect cfg c v).cb = some c := by
      unfold St.connect
      simp only [hcl, Bool.false_eq_true, if_false]
      split
      · simp [St.push, St.say, hl0]
      · rename_i hv
        have : t.s.tGood = true := hvt.resolve_left hv
        have : (t.s.say (.connect c)).tGood = true := this
        simp [St.startMachine, St.push, St.say, hl0, hvt.resolve_left hv]
    simp only [hna, Bool.false_or, if_true]
    exact
      { reach := hr
        base := by rw [base_append, base_append, h.base, base_news hpre]; simp [Spec.base]
        conn := fun _ => by
          unfold St.connect
          simp only []
          split
          · rfl
          · split
            · rfl
            · split <;> rfl
        bal := by rw [cs, List.count_eq_zero_of_not_mem nf]; simp
        one := by rw [cs]; exact Nat.le_refl 1
        open_ := fun _ => by rintro ⟨a, n, q, m⟩; rw [hlog.1] at m; simp at m
        untold := fun _ m => by rw [hlog.1] at m; simp at m
        held := fun _ => by
          rw [hlog.1, hlog.2]
          cases c with
          | true => exact .inr (.inl rfl)
          | false => exact .inr (.inr ⟨rfl, by simp⟩)
        clean := fun _ m => by rw [hlog.1] at m; simp at m
        off := by simp
        told := fun m => absurd m nf
        due := due_append (due_append h.due hnf) (by simp) }

theorem TReach.inv {cfg t} (hcl : cfg.server = false) (h : TReach cfg t) : TInv cfg t := by
  induction h with
  | init g e c => exact .init g e c
  | @step t t' o _ hs ih =>
    cases o with
    | connect c v lim =>
      simp only [tstep, Option.map_eq_some_iff] at hs
      obtain ⟨s', h1, rfl⟩ := hs
      exact ih.connect hcl h1
    | expire =>
      simp only [tstep] at hs
      split at hs
      · rename_i ha
        simp only [Option.map_eq_some_iff] at hs
        obtain ⟨s', h1, rfl⟩ := hs
        exact ih.expire ha h1
      · cases hs
    | other o =>
      cases o with
      | connect c v => cases hs
      | _ =>
        simp only [tstep, Option.map_eq_some_iff] at hs
        obtain ⟨s', h1, rfl⟩ := hs
        exact ih.other hcl h1 (by simp)

end Fizz.Sock

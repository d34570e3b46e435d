import Verif.Sock.Late

/-!
# The order of the application data
-/

namespace Fizz.Sock

open Spec

/-- The bytes of some writes. -/
def bytesOf (ws : List W) : Bytes := ws.flatMap (·.data)

theorem dull_flow {o : Obs} (h : dull o = true) : writtenBy o = [] ∧ earlyBy o = [] ∧ appBy o = [] := by
  cases o with
  | write i d c ok => cases ok <;> simp_all [dull, writtenBy, earlyBy, appBy]
  | submit e => cases e <;> simp_all [dull, writtenBy, earlyBy, appBy]
  | _ => simp [writtenBy, earlyBy, appBy]

theorem Dull.flow {s t : St} (h : Dull s t) :
    written t.log = written s.log ∧ early t.log = early s.log ∧ app t.log = app s.log := by
  obtain ⟨l, e, hl⟩ := h
  have : ∀ l : List Obs, (∀ o ∈ l, dull o = true) → written l = [] ∧ early l = [] ∧ app l = [] := by
    intro l hl
    refine ⟨List.flatMap_eq_nil_iff.2 fun o ho => ?_, List.flatMap_eq_nil_iff.2 fun o ho => ?_,
      List.flatMap_eq_nil_iff.2 fun o ho => ?_⟩
    · exact (dull_flow (hl o ho)).1
    · exact (dull_flow (hl o ho)).2.1
    · exact (dull_flow (hl o ho)).2.2
  obtain ⟨a, b, c⟩ := this l hl
  unfold written early app at *
  rw [e]
  simp [a, b, c]

theorem Dull.mem {s t : St} (h : Dull s t) {o} (ho : dull o = false) : o ∈ t.log ↔ o ∈ s.log := by
  obtain ⟨l, hl, hq⟩ := h
  rw [hl, List.mem_append]
  refine ⟨fun m => m.elim id fun m => ?_, .inl⟩
  rw [hq o m] at ho; cases ho

theorem Dull.rejected {s t : St} (h : Dull s t) : Rejected t.log ↔ Rejected s.log := by
  constructor <;> rintro ⟨b, c, m⟩
  · exact ⟨b, c, (h.mem rfl).1 m⟩
  · exact ⟨b, c, (h.mem rfl).2 m⟩

theorem Dull.delivered {s t : St} (h : Dull s t) {b} : Delivered t.log b ↔ Delivered s.log b := by
  unfold Delivered
  rw [h.rejected, h.flow.2.1, h.flow.2.2]

theorem written_app (a b) : written (a ++ b) = written a ++ written b := by simp [written]
theorem early_app (a b) : early (a ++ b) = early a ++ early b := by simp [early]
theorem app_app (a b) : app (a ++ b) = app a ++ app b := by simp [app]

/-- The client's data, by how far the handshake is. -/
structure Stream (cfg : Cfg) (s : St) : Prop where
  conn : s.connected = true → s.phase = 0 → s.cb ≠ none
  p0 : s.phase = 0 → early s.log = [] ∧ app s.log = [] ∧ s.early = none ∧ written s.log = bytesOf s.hsPend ∧
    (cfg.sendEarly = true → written s.log = [])
  p1 : s.phase = 1 → ∃ e, s.early = some e ∧ s.hsPend = [] ∧ app s.log = [] ∧
    written s.log = early s.log ++ bytesOf e.pend ∧ (cfg.policy = .resend → e.resend = early s.log) ∧
    s.cb = none
  p2 : s.phase ≠ 0 → s.phase ≠ 1 → s.early = none ∧ s.hsPend = [] ∧ Delivered s.log (written s.log) ∧
    s.tConn = false ∧ (s.stack.head? = some .hsCb ∨ s.cb = none)

theorem Stream.still {cfg s t} (h : Stream cfg s) (hk : s.connected = false → s.phase = 0) (q : Still s t) : Stream cfg t := by
  obtain ⟨f1, f2, f3⟩ := q.log.flow
  refine ⟨?_, ?_, ?_, ?_⟩
  · rw [q.conn, q.phase, q.cb]; exact h.conn
  · rw [q.phase, f1, f2, f3, q.early, q.hs]; exact h.p0
  · rw [q.phase, f1, f2, f3, q.early, q.hs, q.cb]; exact h.p1
  · rw [q.phase, f1, q.early, q.hs, q.log.delivered, q.cb]
    intro a b
    obtain ⟨h1, h2, h3, h4, h5⟩ := h.p2 a b
    refine ⟨h1, h2, h3, ?_, .inr (h5.resolve_left q.top)⟩
    cases ht : t.tConn with
    | false => rfl
    | true =>
      rcases q.tconn ht with w | w
      · rw [h4] at w; cases w
      · exact absurd (hk w) a

theorem count_flow (cfg) (s : St) (n) : Dull s (s.count cfg n) := by
  unfold St.count; split
  · exact .one (o := .submit (.keyUpdate true)) rfl rfl
  · exact .rfl' rfl

theorem flush_flow (cfg) : ∀ (ws) (s : St), written (s.flush cfg ws).log = written s.log ∧
    early (s.flush cfg ws).log = early s.log ∧ app (s.flush cfg ws).log = app s.log ++ bytesOf ws ∧
    (Rejected (s.flush cfg ws).log ↔ Rejected s.log)
  | [], s => ⟨rfl, rfl, by simp [St.flush, bytesOf], Iff.rfl⟩
  | w :: ws, s => by
    obtain ⟨h1, h2, h3, h4⟩ := flush_flow cfg ws (s.flush1 cfg w)
    have hd := count_flow cfg (s.submit (.app w.token w.data)) w.data.length
    obtain ⟨g1, g2, g3⟩ := hd.flow
    have e1 : s.flush cfg (w :: ws) = (s.flush1 cfg w).flush cfg ws := rfl
    rw [e1, h1, h2, h3, h4]
    have e2 : (s.submit (.app w.token w.data)).log = s.log ++ [.submit (.app w.token w.data)] := rfl
    refine ⟨g1.trans ?_, g2.trans ?_, ?_, ?_⟩
    · rw [e2, written_app]; simp [written, writtenBy]
    · rw [e2, early_app]; simp [early, earlyBy]
    · rw [show app (s.flush1 cfg w).log = _ from g3, e2, app_app]; simp [app, appBy, bytesOf]
    · rw [show Rejected (s.flush1 cfg w).log ↔ _ from hd.rejected, e2]
      simp [Rejected]

theorem flush1_eq (cfg) (s : St) (w) : s.flush1 cfg w = s.flush cfg [w] := rfl

/-- What success leaves behind. -/
structure After (s t : St) (b : Bytes) : Prop where
  early : t.early = none
  hs : t.hsPend = []
  cb : t.cb = s.cb
  conn : t.connected = s.connected
  tconn : t.tConn = s.tConn
  phase : t.phase = s.phase
  top : t.stack.head? = some .hsCb
  w : written t.log = written s.log
  e : Spec.early t.log = Spec.early s.log
  a : app t.log = app s.log ++ b
  rej : Rejected t.log ↔ Rejected s.log

theorem successEarly_after {cfg} {s : St} {a n q} (hs : s.hsPend = []) (he : .error ∉ (s.successEarly cfg a n q).log) :
    (s.early = none ∧ After s (s.successEarly cfg a n q) []) ∨
    ∃ e, s.early = some e ∧ ((a = true ∧ After s (s.successEarly cfg a n q) (bytesOf e.pend)) ∨
      (a = false ∧ cfg.policy = .resend ∧ After s (s.successEarly cfg a n q) (e.resend ++ bytesOf e.pend))) := by
  revert he
  unfold St.successEarly
  split
  · rename_i e0
    intro _
    exact .inl ⟨e0, ⟨e0, hs, rfl, rfl, rfl, rfl, rfl, rfl, rfl, by simp, Iff.rfl⟩⟩
  · rename_i e e0
    split
    · rename_i ha
      intro _
      refine .inr ⟨e, e0, .inl ⟨ha, ?_⟩⟩
      obtain ⟨h1, h2, h3, h4⟩ := flush_flow cfg e.pend s
      exact ⟨rfl, by simpa using hs, by simp, by simp, by simp, by simp, by simp [St.push], h1, h2, h3, h4⟩
    · rename_i ha
      split
      · rename_i hm
        intro _
        simp at hm
        refine .inr ⟨e, e0, .inr ⟨by simpa using ha, hm.1, ?_⟩⟩
        simp only []
        split
        · rename_i hr
          obtain ⟨h1, h2, h3, h4⟩ := flush_flow cfg e.pend s
          refine ⟨rfl, by simpa using hs, by simp, by simp, by simp, by simp, by simp [St.push], h1, h2, ?_, h4⟩
          simp at hr
          simpa [hr] using h3
        · obtain ⟨h1, h2, h3, h4⟩ := flush_flow cfg (⟨none, e.resend⟩ :: e.pend) s
          exact ⟨rfl, by simpa using hs, by simp, by simp, by simp, by simp, by simp [St.push], h1, h2, h3.trans (by simp [bytesOf]), h4⟩
      · intro he; exact absurd (fail_log _) he

theorem Stream.success {cfg s a n q} (h : Stream cfg s) (hph : s.phase ≤ 1) (ht : s.tConn = false)
    (he : .error ∉ (St.successClient cfg (St.say { s with phase := 2 } (.success a n q)) a n q).log)
    (hr : ¬ Rejected s.log) :
    Stream cfg (St.successClient cfg (St.say { s with phase := 2 } (.success a n q)) a n q) := by
  revert he
  show Obs.error ∉ (St.successEarly cfg (St.flush cfg { St.say { s with phase := 2 } (.success a n q) with hsPend := [] } s.hsPend) a n q).log → Stream cfg (St.successEarly cfg (St.flush cfg { St.say { s with phase := 2 } (.success a n q) with hsPend := [] } s.hsPend) a n q)
  have f := flush_flow cfg s.hsPend { St.say { s with phase := 2 } (.success a n q) with hsPend := [] }
  have e1 : St.log { St.say { s with phase := 2 } (.success a n q) with hsPend := [] } = s.log ++ [.success a n q] := rfl
  rw [e1, written_app, early_app, app_app] at f
  have z1 : written [.success a n q] = [] := rfl
  have z2 : early [.success a n q] = [] := rfl
  have z3 : app [.success a n q] = [] := rfl
  have z4 : Rejected (s.log ++ [.success a n q]) ↔ a = false := by
    constructor
    · rintro ⟨b, c, m⟩
      rcases List.mem_append.1 m with w | w
      · exact absurd ⟨b, c, w⟩ hr
      · have := List.mem_singleton.1 w; injection this with w _ _; exact w.symm
    · rintro rfl; exact ⟨n, q, by simp⟩
  rw [z1, z2, z3, z4] at f
  have g1 : (St.flush cfg { St.say { s with phase := 2 } (.success a n q) with hsPend := [] } s.hsPend).hsPend = [] := by simp
  have g2 : (St.flush cfg { St.say { s with phase := 2 } (.success a n q) with hsPend := [] } s.hsPend).early = s.early := by simp
  have g3 : (St.flush cfg { St.say { s with phase := 2 } (.success a n q) with hsPend := [] } s.hsPend).tConn = s.tConn := by simp
  have g4 : (St.flush cfg { St.say { s with phase := 2 } (.success a n q) with hsPend := [] } s.hsPend).phase = 2 := by simp
  revert f g1 g2 g3 g4
  generalize St.flush cfg { St.say { s with phase := 2 } (.success a n q) with hsPend := [] } s.hsPend = t
  rintro ⟨f1, f2, f3, f4⟩ g1 g2 g3 g4 he
  simp only [List.append_nil] at f1 f2 f3
  -- the data after it
  have fin : ∀ b u, After t u b → (a = false → app t.log ++ b = written t.log) →
      (a = true → early t.log ++ (app t.log ++ b) = written t.log) → Stream cfg u := by
    intro b u ha h1 h2
    have hp : u.phase = 2 := by rw [ha.phase, g4]
    refine ⟨by rw [hp]; simp, by rw [hp]; simp, by rw [hp]; simp, fun _ _ => ⟨ha.early, ha.hs, ?_, by rw [ha.tconn, g3, ht], .inl ha.top⟩⟩
    unfold Delivered
    rw [ha.rej, f4, ha.w, ha.e, ha.a]
    constructor
    · intro w; exact (h1 w).symm
    · intro w; exact (h2 (by simpa using w)).symm
  have hw0 : s.phase = 0 → early t.log = [] ∧ app t.log = written t.log := by
    intro p
    obtain ⟨w1, w2, w3, w4, _⟩ := h.p0 p
    rw [f1, f2, f3, w1, w2, w4]; simp
  rcases successEarly_after g1 he with ⟨e0, ha⟩ | ⟨e, e0, (⟨hac, ha⟩ | ⟨hac, hpol, ha⟩)⟩
  · have p : s.phase = 0 := by
      rcases Nat.lt_or_ge s.phase 1 with w | w
      · omega
      · obtain ⟨e, h1, _⟩ := h.p1 (by omega)
        rw [g2, h1] at e0; cases e0
    obtain ⟨w1, w2⟩ := hw0 p
    exact fin _ _ ha (fun _ => by simpa using w2) (fun _ => by rw [w1]; simpa using w2)
  all_goals
    have p : s.phase = 1 := by
      rcases Nat.lt_or_ge s.phase 1 with w | w
      · have := (h.p0 (by omega)).2.2.1
        rw [g2, this] at e0; cases e0
      · omega
    obtain ⟨e', h1, h2, h3, h4, h5, _⟩ := h.p1 p
    rw [g2, h1] at e0
    cases e0
    have z : app t.log = [] := by rw [f3, h3, h2]; rfl
  · refine fin _ _ ha (fun w => by rw [hac] at w; cases w) (fun _ => ?_)
    rw [z, f1, f2, h4]; rfl
  · refine fin _ _ ha (fun w => ?_) (fun w => by rw [hac] at w; cases w)
    rw [z, f1, h5 hpol, h4]; rfl

theorem performAppWrite_flow (s : St) (w) : written (s.performAppWrite w).log = written s.log ∧
    early (s.performAppWrite w).log = early s.log ∧ app (s.performAppWrite w).log = app s.log ++ w.data ∧
    (Rejected (s.performAppWrite w).log ↔ Rejected s.log) := by
  have : (s.performAppWrite w).log = s.log ++ [.submit (.app w.token w.data)] := by
    simp [St.performAppWrite, St.submit, St.say]
  rw [this, written_app, early_app, app_app]
  refine ⟨?_, ?_, ?_, ?_⟩
  · simp [written, writtenBy]
  · simp [early, earlyBy]
  · simp [app, appBy]
  · simp [Rejected]

theorem Stream.write {cfg s d c} (h : Stream cfg s) (hcl : cfg.server = false) (hk : s.connected = true)
    (ho : s.outside = true) (hg : s.good = true)
    (hw : cfg.sendEarly = true → s.phase ≠ 0) : Stream cfg (s.write cfg d c) := by
  have e0 : s.write cfg d c = St.writeGood cfg (St.say { s with nextId := s.nextId + 1 } (.write s.nextId d c true))
      ⟨if c then some s.nextId else none, d⟩ := by
    unfold St.write; simp [hg]
  rw [e0]
  have f1 : written (St.say { s with nextId := s.nextId + 1 } (.write s.nextId d c true)).log = written s.log ++ d := by
    simp [St.say, written, writtenBy]
  have f2 : early (St.say { s with nextId := s.nextId + 1 } (.write s.nextId d c true)).log = early s.log := by
    simp [St.say, early, earlyBy]
  have f3 : app (St.say { s with nextId := s.nextId + 1 } (.write s.nextId d c true)).log = app s.log := by
    simp [St.say, app, appBy]
  have f4 : Rejected (St.say { s with nextId := s.nextId + 1 } (.write s.nextId d c true)).log ↔ Rejected s.log := by
    simp [St.say, Rejected]
  have g1 : (St.say { s with nextId := s.nextId + 1 } (.write s.nextId d c true)).hsPend = s.hsPend := rfl
  have g2 : (St.say { s with nextId := s.nextId + 1 } (.write s.nextId d c true)).early = s.early := rfl
  have g3 : (St.say { s with nextId := s.nextId + 1 } (.write s.nextId d c true)).tConn = s.tConn := rfl
  have g4 : (St.say { s with nextId := s.nextId + 1 } (.write s.nextId d c true)).phase = s.phase := rfl
  have g5 : (St.say { s with nextId := s.nextId + 1 } (.write s.nextId d c true)).cb = s.cb := rfl
  have g6 : (St.say { s with nextId := s.nextId + 1 } (.write s.nextId d c true)).connected = s.connected := rfl
  revert f1 f2 f3 f4 g1 g2 g3 g4 g5 g6
  generalize St.say { s with nextId := s.nextId + 1 } (.write s.nextId d c true) = t
  generalize (if c then some s.nextId else none : Option Nat) = tok
  intro f1 f2 f3 f4 g1 g2 g3 g4 g5 g6
  have htop := outside_top ho
  unfold St.writeGood
  simp only [hcl, Bool.false_eq_true, if_false]
  rcases Nat.lt_or_ge s.phase 1 with hp | hp
  · -- before anything was reported
    have hp : s.phase = 0 := by omega
    obtain ⟨w1, w2, w3, w4, _⟩ := h.p0 hp
    have hse : cfg.sendEarly = false := by
      cases hse : cfg.sendEarly with
      | false => rfl
      | true => exact absurd hp (hw hse)
    rw [g2, w3]
    have hcb : s.cb.isSome = true := Option.isSome_iff_ne_none.2 (h.conn hk hp)
    have : t.connecting = true := by unfold St.connecting; rw [g5, hcb]; rfl
    simp only [this, hse, Bool.not_false, Bool.and_self, if_true]
    refine ⟨fun _ _ => ?_, fun _ => ⟨?_, ?_, ?_, ?_, fun q => by rw [hse] at q; cases q⟩, fun q => ?_, fun q => ?_⟩
    · show t.cb ≠ none
      rw [g5]; exact h.conn hk hp
    · show early t.log = []
      rw [f2, w1]
    · show app t.log = []
      rw [f3, w2]
    · rfl
    · show written t.log = _
      rw [f1, w4, g1]; simp [bytesOf]
    · have : t.phase = 1 := q
      omega
    · exact absurd (g4.trans hp) q
  · rcases Nat.lt_or_ge s.phase 2 with hp2 | hp2
    · have hp : s.phase = 1 := by omega
      obtain ⟨e, w1, w2, w3, w4, w5, w6⟩ := h.p1 hp
      rw [g2, w1]
      simp only []
      unfold St.writeEarly
      split
      · refine ⟨fun _ q => ?_, fun q => ?_, fun _ => ⟨_, rfl, g1.trans w2, f3.trans w3, ?_, ?_, g5.trans w6⟩, fun _ q => absurd (g4.trans hp) q⟩
        · have : t.phase = 0 := q
          omega
        · have : t.phase = 0 := q
          omega
        · show written t.log = early t.log ++ _
          rw [f1, f2, w4]; simp [bytesOf]
        · intro q; exact (w5 q).trans f2.symm
      · rename_i hc
        have hpe : e.pend = [] := by
          cases hq : e.pend with
          | nil => rfl
          | cons a b => rw [hq] at hc; simp at hc
        have hlog : (St.enter (St.submit { t with early := some { e with
            resend := if cfg.policy = .resend then e.resend ++ d else e.resend, remaining := e.remaining - d.length } } (.early tok d))).log =
            t.log ++ [.submit (.early tok d)] := by simp [St.submit, St.say]
        refine ⟨fun _ q => ?_, fun q => ?_, fun _ => ⟨{ e with
            resend := if cfg.policy = .resend then e.resend ++ d else e.resend, remaining := e.remaining - d.length }, by simp,
            by simpa using g1.trans w2, ?_, ?_, ?_, by simpa using g5.trans w6⟩, fun _ q => ?_⟩
        · have : t.phase = 0 := by simpa using q
          omega
        · have : t.phase = 0 := by simpa using q
          omega
        · rw [hlog, app_app, f3, w3]; rfl
        · rw [hlog, written_app, early_app, f1, f2, w4]
          simp [hpe, bytesOf, written, early, writtenBy, earlyBy]
        · intro q
          rw [hlog, early_app, f2]
          simp [q, w5 q, early, earlyBy]
        · exact absurd (by simpa using g4.trans hp) q
    · have hp0 : s.phase ≠ 0 := by omega
      have hp1 : s.phase ≠ 1 := by omega
      obtain ⟨w1, w2, w3, w4, w5⟩ := h.p2 hp0 hp1
      have w5 := w5.resolve_left htop
      rw [g2, w1]
      have : t.connecting = false := by unfold St.connecting; rw [g5, g3, w5, w4]; rfl
      simp only [this, Bool.false_and, Bool.false_eq_true, if_false]
      obtain ⟨k1, k2, k3, k4⟩ := performAppWrite_flow t ⟨tok, d⟩
      refine ⟨fun _ q => absurd (by simpa [g4] using q) hp0, fun q => absurd (by simpa [g4] using q) hp0,
        fun q => absurd (by simpa [g4] using q) hp1, fun _ _ => ⟨by simpa using g2.trans w1, by simpa using g1.trans w2, ?_,
        by simpa using g3.trans w4, .inr (by simpa using g5.trans w5)⟩⟩
      unfold Delivered at w3 ⊢
      rw [k1, k2, k3, k4, f1, f2, f3, f4]
      constructor
      · intro r; rw [w3.1 r]
      · intro r; rw [w3.2 r]; simp

theorem write_log {cfg s d c} (hg : s.good = true) : ∃ suf, (St.write cfg s d c).log = s.log ++ .write s.nextId d c true :: suf := by
  have e0 : s.write cfg d c = St.writeGood cfg (St.say { s with nextId := s.nextId + 1 } (.write s.nextId d c true))
      ⟨if c then some s.nextId else none, d⟩ := by
    unfold St.write; simp [hg]
  obtain ⟨l, h, _⟩ := LowLog.writeGood cfg (St.say { s with nextId := s.nextId + 1 } (.write s.nextId d c true))
    ⟨if c then some s.nextId else none, d⟩
  exact ⟨l, by rw [e0, h]; simp [St.say]⟩

theorem Stream.earlyOk {cfg s m} (h : Stream cfg s) (hsh : Shape cfg s) (hse : cfg.sendEarly = true) (h0 : s.phase = 0) :
    Stream cfg (St.hsSuccess { St.say { s with phase := 1 } (.earlyOk m) with early := some { remaining := m } }) := by
  obtain ⟨w1, w2, w3, w4, w5⟩ := h.p0 h0
  have hd := hsSuccess_dull { St.say { s with phase := 1 } (.earlyOk m) with early := some { remaining := m } }
  obtain ⟨f1, f2, f3⟩ := hd.flow
  have e1 : St.log { St.say { s with phase := 1 } (.earlyOk m) with early := some { remaining := m } } = s.log ++ [.earlyOk m] := rfl
  rw [e1] at f1 f2 f3
  have hh : s.hsPend = [] := by
    cases hq : s.hsPend with
    | nil => rfl
    | cons a b =>
      have := (hsh.hs (by rw [hq]; simp)).2
      rw [hse] at this; cases this
  refine ⟨fun _ q => ?_, fun q => ?_, fun _ => ⟨{ remaining := m }, by simp, by simpa using hh, ?_, ?_, ?_, by simp⟩, fun _ q => ?_⟩
  · simp at q
  · simp at q
  · rw [f3, app_app, w2]; rfl
  · rw [f1, f2, written_app, early_app, w5 hse, w1]; rfl
  · intro _; rw [f2, early_app, w1]; rfl
  · simp at q

theorem Stream.connect {cfg s c v} (hf : Fresh s) (hcl : cfg.server = false) (hse : s.early = none)
    (he : .error ∉ (s.connect cfg c v).log) : Stream cfg (s.connect cfg c v) := by
  have gen : ∀ t : St, t.log = [.connect c] → t.cb = some c → t.phase = 0 → t.early = none → t.hsPend = [] → Stream cfg t := by
    intro t h1 h2 h3 h4 h5
    refine ⟨fun _ _ => by rw [h2]; simp, fun _ => ?_, fun q => by omega, fun q => absurd h3 q⟩
    rw [h1, h4, h5]
    exact ⟨rfl, rfl, rfl, rfl, fun _ => rfl⟩
  have l1 : s.log ++ [.connect c] = [.connect c] := by rw [hf.log]; rfl
  revert he
  unfold St.connect
  simp only [hcl, Bool.false_eq_true, if_false]
  split
  · intro _; exact gen _ l1 rfl hf.phase hse hf.hs
  · split
    · intro _; exact gen _ l1 rfl hf.phase hse hf.hs
    · intro he; exact absurd (fail_log _) he

theorem Stream.kind {cfg s s'} (hcl : cfg.server = false) (h : Stream cfg s) (hi : Inv cfg s) (hn : NoErr s) (hla : Late s)
    (k : Kind cfg s s') (he : .error ∉ s'.log) (hw : cfg.sendEarly = true → WritesWait s'.log) : Stream cfg s' := by
  have hk0 : s.connected = false → s.phase = 0 := fun q => (hi.calls.fresh q).phase
  obtain ⟨_, fl⟩ := kind_flow k hn he
  cases fl with
  | still q => exact h.still hk0 q
  | connect c v hk =>
    have hf := hi.calls.fresh hk
    exact Stream.connect hf hcl (h.p0 hf.phase).2.2.1 he
  | write d c hk ho hg =>
    refine h.write hcl hk ho hg fun hse hp => ?_
    obtain ⟨suf, hl⟩ := write_log (cfg := cfg) (d := d) (c := c) hg
    rcases hw hse _ _ _ _ _ hl with w | w
    · exact hi.calls.ph1 hp w
    · exact hi.calls.ph0 (.inl hp) w
  | hsCb htop hd h1 h2 h3 h4 h5 h6 =>
    obtain ⟨f1, f2, f3⟩ := hd.flow
    have hp : s.phase ≠ 0 ∧ s.phase ≠ 1 := by
      have := hla _ (List.mem_of_head? htop) (.inl rfl)
      omega
    refine ⟨fun _ q => absurd (h3 ▸ q) hp.1, fun q => absurd (h3 ▸ q) hp.1, fun q => absurd (h3 ▸ q) hp.2, ?_⟩
    intro a b
    rw [h3] at a b
    obtain ⟨w1, w2, w3, w4, _⟩ := h.p2 a b
    exact ⟨h2.trans w1, h1.trans w2, by rw [f1, hd.delivered]; exact w3, h6.trans w4, .inr h4⟩
  | visit a rest hs hm hor =>
    rcases hor with ⟨m, rfl⟩ | ⟨b, n, q, rfl⟩
    · simp [St.mayVisit, hcl] at hm
      have := h.earlyOk (m := m) hi.shape hm.2 hm.1
      simpa [St.visit, hcl] using this
    · simp [St.mayVisit, hcl] at hm
      have hr : ¬ Rejected s.log := by
        rintro ⟨x, y, z⟩
        exact hi.calls.ph0 (by omega) ⟨false, x, y, z⟩
      simp only [St.visit, hcl, Bool.false_eq_true, if_false] at he ⊢
      exact h.success hm.1 hm.2 he hr
  | fallback hsv => rw [hcl] at hsv; cases hsv

theorem WritesWait.mono {a b : List Obs} (h : WritesWait b) (hp : a <+: b) : WritesWait a := by
  obtain ⟨l, rfl⟩ := hp
  intro pre i d c suf hs
  exact h pre i d c (suf ++ l) (by rw [hs]; simp)

theorem Reach.stream {cfg s} (h : Reach cfg s) (hcl : cfg.server = false) : .error ∉ s.log →
    (cfg.sendEarly = true → WritesWait s.log) → Stream cfg s := by
  induction h with
  | init g e c =>
    intro _ _
    exact ⟨nofun, fun _ => ⟨rfl, rfl, rfl, rfl, fun _ => rfl⟩, nofun, fun q => absurd rfl q⟩
  | step hr hs ih =>
    intro he hw
    have k := step_kind hs
    have he' := fun m => he (kind_mem k m)
    exact (ih he' fun q => Fizz.Sock.WritesWait.mono (hw q) (kind_prefix k)).kind hcl hr.inv (hr.noErr he') hr.late k he hw

end Fizz.Sock

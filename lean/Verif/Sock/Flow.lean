import Verif.Sock.Guard

/-!
# Steps of a connection that has not failed
-/

namespace Fizz.Sock

open Spec

/-- Entries that move no application data and report no progress. -/
def dull : Obs → Bool
  | .write _ _ _ ok => !ok
  | .submit (.app ..) => false
  | .submit (.early ..) => false
  | .earlyOk _ => false
  | .success .. => false
  | .error => false
  | _ => true

/-- Only such entries were added. -/
def Dull (s t : St) : Prop := ∃ l, t.log = s.log ++ l ∧ ∀ o ∈ l, dull o = true

theorem Dull.rfl' {s t : St} (h : t.log = s.log) : Dull s t := ⟨[], by simp [h], by simp⟩

theorem Dull.one {s t : St} {o} (h : t.log = s.log ++ [o]) (ho : dull o = true) : Dull s t :=
  ⟨[o], h, by simpa using ho⟩

/-- The connection has not begun to fail. -/
structure NoErr (s : St) : Prop where
  ext : s.extErr = false
  stack : ∀ p, Frame.err p ∉ s.stack

/-- Nothing that matters for the order of the data changed. -/
structure Still (s t : St) : Prop where
  log : Dull s t
  hs : t.hsPend = s.hsPend
  early : t.early = s.early
  phase : t.phase = s.phase
  cb : t.cb = s.cb
  conn : t.connected = s.connected
  tconn : t.tConn = true → s.tConn = true ∨ s.connected = false
  top : s.stack.head? ≠ some .hsCb

/-- The steps of a connection that has not failed, by what they do to the data. -/
inductive Flow (cfg : Cfg) (s : St) : St → Prop where
  | still {t} : Still s t → Flow cfg s t
  | connect (c v) : s.connected = false → Flow cfg s (s.connect cfg c v)
  | write (d c) : s.connected = true → s.outside = true → s.good = true → Flow cfg s (s.write cfg d c)
  | hsCb {t} : s.stack.head? = some .hsCb → Dull s t → t.hsPend = s.hsPend → t.early = s.early →
      t.phase = s.phase → t.cb = none → t.connected = s.connected → t.tConn = s.tConn → Flow cfg s t
  | visit (a rest) : s.stack = .acts :: rest → s.mayVisit cfg a = true →
      ((∃ m, a = .earlyOk m) ∨ ∃ b n q, a = .success b n q) → Flow cfg s (s.visit cfg a)
  | fallback {t} : cfg.server = true → Dull s t → t.connected = s.connected → t.phase = s.phase → Flow cfg s t

theorem NoErr.grow {s t : St} {fs} (h : NoErr s) (hx : t.extErr = s.extErr) (hst : t.stack = fs ++ s.stack)
    (hf : ∀ f ∈ fs, ∀ p, f ≠ .err p) : NoErr t := by
  refine ⟨hx.trans h.ext, fun p m => ?_⟩
  rw [hst] at m
  rcases List.mem_append.1 m with q | q
  · exact hf _ q p rfl
  · exact h.stack p q

theorem NoErr.pop {s t : St} {f rest fs} (h : NoErr s) (hs : s.stack = f :: rest) (hx : t.extErr = s.extErr)
    (hst : t.stack = fs ++ rest) (hf : ∀ f ∈ fs, ∀ p, f ≠ .err p) : NoErr t := by
  refine ⟨hx.trans h.ext, fun p m => ?_⟩
  rw [hst] at m
  rcases List.mem_append.1 m with q | q
  · exact hf _ q p rfl
  · exact h.stack p (by rw [hs]; exact List.mem_cons_of_mem _ q)

theorem outside_top {s : St} (h : s.outside = true) : s.stack.head? ≠ some .hsCb := by
  intro q
  unfold St.outside at h
  split at h
  · rename_i e; rw [e] at q; cases q
  · rename_i e; rw [e] at q; cases q
  · cases h

theorem fail_log (s : St) : .error ∈ s.fail.log := by simp [St.fail, St.push, St.say]

theorem hsSuccess_dull (s : St) : Dull s s.hsSuccess := by
  unfold St.hsSuccess; split
  · exact .rfl' rfl
  · exact .one (o := .hsOk) rfl rfl
  · exact .rfl' rfl

@[simp] theorem hsSuccess_cb (s : St) : s.hsSuccess.cb = none := by
  unfold St.hsSuccess; split
  · assumption
  · rfl
  · rfl

theorem kind_flow {cfg s s'} (k : Kind cfg s s') (h : NoErr s) (he : .error ∉ s'.log) :
    NoErr s' ∧ Flow cfg s s' := by
  cases k with
  | connect c v _ hk hg =>
    refine ⟨?_, .connect c v hk⟩
    revert he
    unfold St.connect
    simp only []
    split
    · intro _; exact h.grow (fs := [.acts]) rfl rfl (by simp)
    · split
      · intro _; exact h.grow (fs := [.out]) rfl rfl (by simp)
      · split
        · intro _; exact h.grow (fs := [.acts]) rfl rfl (by simp)
        · intro he; exact absurd (fail_log _) he
  | sockConnected ho hk =>
    exact ⟨h.grow (fs := [.acts]) rfl rfl (by simp), .still ⟨.rfl' rfl, rfl, rfl, rfl, rfl, rfl, .inl, outside_top ho⟩⟩
  | write d c ho hk =>
    obtain ⟨fs, hfs, hl⟩ := write_stack cfg s d c
    refine ⟨h.grow (by simp) hfs fun f hf p => ?_, ?_⟩
    · rcases hl f hf with q | q | ⟨n, q⟩ <;> simp [q]
    · cases hg : s.good with
      | true => exact .write d c hk ho hg
      | false =>
        refine .still ⟨?_, ?_, ?_, ?_, ?_, ?_, ?_, outside_top ho⟩
        · unfold St.write
          simp only [hg, Bool.false_eq_true, if_false]
          split
          · exact ⟨[.write s.nextId d c false, .wErr s.nextId], by simp [St.push, St.say], by simp [dull]⟩
          · exact .one (o := .write s.nextId d c false) rfl rfl
        all_goals
          unfold St.write
          simp only [hg, Bool.false_eq_true, if_false]
          split
          · first | rfl | exact .inl
          · first | rfl | exact .inl
  | close k ho hk =>
    have key : ∀ t : St, ∀ e fs, t.log = s.log → t.hsPend = s.hsPend → t.early = s.early → t.phase = s.phase →
        t.cb = s.cb → t.connected = s.connected → t.tConn = s.tConn → t.extErr = s.extErr →
        dull (.submit e) = true → t.stack = fs ++ s.stack → (∀ f ∈ fs, ∀ p, f ≠ .err p) →
        NoErr (St.enter (t.submit e)) ∧ Flow cfg s (St.enter (t.submit e)) := by
      intro t e fs h1 h2 h3 h4 h5 h6 h7 h8 h9 h10 h11
      obtain ⟨gs, hs, hl⟩ := enter_stack (t.submit e)
      refine ⟨h.grow (fs := gs ++ fs) (by simpa using h8) (by rw [hs, submit_stack, h10, List.append_assoc]) ?_, .still
        ⟨⟨[.submit e], by simp [St.submit, St.say, h1], by simpa using h9⟩, by simpa using h2, by simpa using h3, by simpa using h4,
        by simpa using h5, by simpa using h6, ?_, outside_top ho⟩⟩
      · intro f hf p
        rcases List.mem_append.1 hf with q | q
        · simp [hl f q]
        · exact h11 f q p
      · simp only [enter_tConn, submit_tConn, h7]; exact .inl
    revert he
    cases k with
    | normal =>
      simp only [St.close]
      split
      · intro _; exact key s (.close true) [] rfl rfl rfl rfl rfl rfl rfl rfl rfl rfl (by simp)
      · intro he; exact absurd (fail_log _) he
    | now =>
      simp only [St.close]
      split
      · intro _; exact key (s.push [.doFail, .out]) (.close true) [.doFail, .out] rfl rfl rfl rfl rfl rfl rfl rfl rfl rfl (by simp)
      · intro he; exact absurd (fail_log _) he
    | tls =>
      simp only [St.close]
      split
      · intro _; exact key (s.push [.out]) (.close false) [.out] rfl rfl rfl rfl rfl rfl rfl rfl rfl rfl (by simp)
      · intro _
        exact ⟨h.grow (fs := [.out]) rfl rfl (by simp), .still ⟨.rfl' rfl, rfl, rfl, rfl, rfl, rfl, .inl, outside_top ho⟩⟩
  | submit e ho hk hor =>
    obtain ⟨fs, hs, hl⟩ := enter_stack (s.submit e)
    refine ⟨h.grow (by simp) hs (fun f hf p => by simp [hl f hf]), .still ⟨.one (o := .submit e) (by simp [St.submit, St.say]) ?_,
      by simp, by simp, by simp, by simp, by simp, by simpa using Or.inl, outside_top ho⟩⟩
    rcases hor with rfl | rfl <;> rfl
  | setReplay b ho hk => exact ⟨h.grow (fs := []) rfl rfl (by simp), .still ⟨.rfl' rfl, rfl, rfl, rfl, rfl, rfl, .inl, outside_top ho⟩⟩
  | transportError => exact absurd (fail_log _) he
  | data ho hk =>
    obtain ⟨fs, hs, hl⟩ := enter_stack s
    exact ⟨h.grow (by simp) hs (fun f hf p => by simp [hl f hf]), .still ⟨.rfl' (by simp),
      by simp, by simp, by simp, by simp, by simp, by simpa using Or.inl, outside_top ho⟩⟩
  | env g e c ho hc =>
    refine ⟨h.grow (fs := []) rfl rfl (by simp), .still ⟨.rfl' rfl, rfl, rfl, rfl, rfl, rfl, fun q => ?_, outside_top ho⟩⟩
    rcases hc with w | w
    · rw [show c = true from q] at w; cases w
    · exact w
  | ret rest hs => exact ⟨h.pop (fs := []) hs rfl rfl (by simp), .still ⟨.rfl' rfl, rfl, rfl, rfl, rfl, rfl, .inl, by simp [hs]⟩⟩
  | count n rest hs => exact ⟨h.pop (fs := []) hs rfl rfl (by simp), .still ⟨.rfl' rfl, rfl, rfl, rfl, rfl, rfl, .inl, by simp [hs]⟩⟩
  | countFires n rest hs =>
    obtain ⟨fs, h1, hl⟩ := enter_stack (St.submit { s with stack := rest, bytes := 0 } (.keyUpdate true))
    exact ⟨h.pop hs (by simp) h1 (fun f hf p => by simp [hl f hf]), .still ⟨.one (o := .submit (.keyUpdate true)) (by simp [St.submit, St.say]) rfl,
      by simp, by simp, by simp, by simp, by simp, by simpa using Or.inl, by simp [hs]⟩⟩
  | doFail rest hs => exact absurd (fail_log _) he
  | err p rest hs => exact absurd (show Frame.err p ∈ s.stack by rw [hs]; exact List.mem_cons_self) (h.stack p)
  | hsCb rest hs =>
    obtain ⟨fs, h1, hl⟩ := hsSuccess_stack { s with stack := rest }
    refine ⟨h.pop hs (by simp) h1 (fun f hf p => by simp [hl f hf]), .hsCb (by simp [hs]) ?_ (by simp) (by simp) (by simp) (by simp) (by simp) (by simp)⟩
    exact hsSuccess_dull { s with stack := rest }
  | replay rest hs =>
    exact ⟨h.pop (fs := [.out]) hs rfl rfl (by simp), .still ⟨.one (o := .replaySafe) rfl rfl, rfl, rfl, rfl, rfl, rfl, .inl, by simp [hs]⟩⟩
  | noReplay rest hs => exact ⟨h.pop (fs := []) hs rfl rfl (by simp), .still ⟨.rfl' rfl, rfl, rfl, rfl, rfl, rfl, .inl, by simp [hs]⟩⟩
  | take e q rest hs =>
    exact ⟨h.grow (fs := [.acts]) rfl rfl (by simp), .still ⟨.one (o := .take e) rfl rfl, rfl, rfl, rfl, rfl, rfl, .inl, by simp [hs]⟩⟩
  | sock rest hs =>
    exact ⟨h.grow (fs := [.acts]) rfl rfl (by simp), .still ⟨.rfl' rfl, rfl, rfl, rfl, rfl, rfl, .inl, by simp [hs]⟩⟩
  | stop rest hs => exact ⟨h.pop (fs := []) hs rfl rfl (by simp), .still ⟨.rfl' rfl, rfl, rfl, rfl, rfl, rfl, .inl, by simp [hs]⟩⟩
  | visit a rest hs hm =>
    have hsu : ∀ t : St, t.stack = s.stack → t.extErr = s.extErr → NoErr t.hsSuccess := by
      intro t h1 h2
      obtain ⟨fs, h3, hl⟩ := hsSuccess_stack t
      exact h.grow (by simpa using h2) (by rw [h3, h1]) (fun f hf p => by simp [hl f hf])
    cases a with
    | earlyOk m =>
      refine ⟨?_, .visit _ rest hs hm (.inl ⟨m, rfl⟩)⟩
      revert he
      simp only [St.visit]
      split
      · split
        · intro _; exact hsu _ rfl rfl
        · intro he; exact absurd (fail_log _) he
      · intro _; exact hsu _ rfl rfl
    | success a now old =>
      refine ⟨?_, .visit _ rest hs hm (.inr ⟨a, now, old, rfl⟩)⟩
      revert he
      simp only [St.visit]
      split
      · split
        · intro _; exact hsu _ rfl rfl
        · intro he; exact absurd (fail_log _) he
      · intro he
        obtain ⟨fs, h1, hl⟩ := successClient_stack cfg (St.say { s with phase := 2 } (.success a now old)) a now old
        rcases hl with rfl | ⟨rfl, e, h2, rfl, h4⟩
        · exact h.grow (by simp) h1 (by simp)
        · exfalso
          apply he
          have : (St.flush cfg { St.say { s with phase := 2 } (.success false now old) with hsPend := [] } s.hsPend).early = some e := by
            simpa using h2
          show Obs.error ∈ (St.successEarly cfg (St.flush cfg { St.say { s with phase := 2 } (.success false now old) with hsPend := [] } s.hsPend) false now old).log
          revert this
          generalize St.flush cfg { St.say { s with phase := 2 } (.success false now old) with hsPend := [] } s.hsPend = t
          intro ht
          unfold St.successEarly
          rw [ht]
          simp only [Bool.false_eq_true, if_false, h4]
          exact fail_log _
    | error => exact absurd (fail_log _) he
    | fallback =>
      simp only [St.visit]
      split
      · split
        · rename_i hsv
          exact ⟨h.grow (fs := [.out]) rfl rfl (by simp), .fallback hsv (.one (o := .hsFallback) rfl rfl) rfl rfl⟩
        · exact ⟨h, .still ⟨.rfl' rfl, rfl, rfl, rfl, rfl, rfl, .inl, by simp [hs]⟩⟩
      · exact ⟨h, .still ⟨.rfl' rfl, rfl, rfl, rfl, rfl, rfl, .inl, by simp [hs]⟩⟩
    | earlyFailed t =>
      cases t with
      | none => exact ⟨h, .still ⟨.rfl' rfl, rfl, rfl, rfl, rfl, rfl, .inl, by simp [hs]⟩⟩
      | some i =>
        exact ⟨h.grow (fs := [.out]) rfl rfl (by simp), .still ⟨.one (o := .wOk i) rfl rfl, rfl, rfl, rfl, rfl, rfl, .inl, by simp [hs]⟩⟩
    | mutate e c => exact ⟨h.grow (fs := []) rfl rfl (by simp), .still ⟨.rfl' rfl, rfl, rfl, rfl, rfl, rfl, .inl, by simp [hs]⟩⟩
    | other => exact ⟨h.grow (fs := [.out]) rfl rfl (by simp), .still ⟨.rfl' rfl, rfl, rfl, rfl, rfl, rfl, .inl, by simp [hs]⟩⟩
  | done rest hs =>
    obtain ⟨fs, h1, hl⟩ := enter_stack { s with stack := rest, guard := false }
    exact ⟨h.pop hs (by simp) h1 (fun f hf p => by simp [hl f hf]), .still ⟨.rfl' (by simp),
      by simp, by simp, by simp, by simp, by simp, by simpa using Or.inl, by simp [hs]⟩⟩
  | suspend rest hs => exact ⟨h.pop (fs := []) hs rfl rfl (by simp), .still ⟨.rfl' rfl, rfl, rfl, rfl, rfl, rfl, .inl, by simp [hs]⟩⟩
  | resumed ho hsu =>
    exact ⟨h.grow (fs := [.acts]) rfl rfl (by simp), .still ⟨.rfl' rfl, rfl, rfl, rfl, rfl, rfl, .inl, outside_top ho⟩⟩

end Fizz.Sock

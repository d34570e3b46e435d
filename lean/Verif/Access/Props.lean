import Verif.Access.Walk
import Verif.KeyLog.Props

/-!
# C103: what a 0-RTT client says about the connection
-/

namespace Fizz.Access
open Fizz Fizz.ClientSM Fizz.Conn
open Fizz.Server (deref)

/-- What holds between any two actions. -/
structure Good (e : Setup) (cfg : Cfg) (seen : List Action) (k : Sock) : Prop where
  state : k.state = applyAll seen {}
  params : k.early = true → From cfg k.state.earlyDataParams
  untold : ¬ Spec.EarlyTold seen → k.early = false ∧ k.rejected = false
  fresh : ¬ Spec.Succeeded seen → k.rejected = false
  told : Spec.EarlyTold seen → (k.early = true ∧ (Spec.Succeeded seen → k.rejected = true)) ∨
    (k.early = false ∧ k.rejected = false ∧ Spec.Succeeded seen ∧
      ((∀ psk, cfg.cachedPsk = some psk → ClientSM.Spec.PskAuth psk) →
        ∃ psk, cfg.cachedPsk = some psk ∧ Spec.Like e psk k.state))
  turned : k.rejected = true → .reportHandshakeSuccess false ∈ seen ∧ (e.policy = .fatalConnectionError ∨
    ∃ psk, cfg.cachedPsk = some psk ∧ ¬ Spec.Like e psk k.state)

/-- What holds between two steps. -/
structure Rest (e : Setup) (cfg : Cfg) (seen : List Action) (k : Sock) : Prop extends Good e cfg seen k where
  over : Spec.Succeeded seen → Done k.state
  start : k.state.state = .uninitialized → ¬ Spec.EarlyTold seen ∧ ¬ Spec.Succeeded seen

theorem like_of {e psk} {s t : St} (h : compared t = compared s) (hl : Spec.Like e psk s) : Spec.Like e psk t := by
  simp only [compared, Prod.mk.injEq] at h
  obtain ⟨h1, h2, h3, h4, h5⟩ := h
  exact ⟨by rw [h1]; exact hl.version, by rw [h2]; exact hl.cipher, by rw [h3]; exact hl.alpn,
    by rw [h4]; exact hl.server, by rw [h5]; exact hl.client⟩

theorem applyAll_append (a b : List Action) (s : St) : applyAll (a ++ b) s = applyAll b (applyAll a s) :=
  List.foldl_append

theorem told_quiet {seen as} (hq : ∀ a ∈ as, Quiet a) : Spec.EarlyTold (seen ++ as) ↔ Spec.EarlyTold seen := by
  constructor
  · rintro ⟨n, h⟩
    rcases List.mem_append.1 h with h | h
    · exact ⟨n, h⟩
    · exact absurd rfl ((hq _ h).1 n)
  · rintro ⟨n, h⟩; exact ⟨n, by simp [h]⟩

theorem succeeded_quiet {seen as} (hq : ∀ a ∈ as, Quiet a) : Spec.Succeeded (seen ++ as) ↔ Spec.Succeeded seen := by
  constructor
  · rintro ⟨n, h⟩
    rcases List.mem_append.1 h with h | h
    · exact ⟨n, h⟩
    · exact absurd rfl ((hq _ h).2 n)
  · rintro ⟨n, h⟩; exact ⟨n, by simp [h]⟩

theorem good_quiet {e cfg seen k} (hr : Rest e cfg seen k) {as : List Action} (hq : ∀ a ∈ as, Quiet a)
    (hp : ∀ a ∈ as, Keeps (·.earlyDataParams) a) (hd : Done k.state → ∀ a ∈ as, Keeps compared a) :
    visitAll e k as = .ok { k with state := applyAll as k.state } ∧
      Good e cfg (seen ++ as) { k with state := applyAll as k.state } := by
  refine ⟨quiet_walk hq, ?_, ?_, ?_, ?_, ?_, ?_⟩
  · dsimp only; rw [applyAll_append, hr.state]
  · intro h
    have : (applyAll as k.state).earlyDataParams = k.state.earlyDataParams :=
      keeps_all (view := (·.earlyDataParams)) hp
    show From cfg (applyAll as k.state).earlyDataParams
    rw [this]; exact hr.params h
  · rw [told_quiet hq]; exact hr.untold
  · rw [succeeded_quiet hq]; exact hr.fresh
  · rw [told_quiet hq, succeeded_quiet hq]
    intro ht
    rcases hr.told ht with h | ⟨h1, h2, h3, h4⟩
    · exact .inl h
    · refine .inr ⟨h1, h2, h3, fun ha => ?_⟩
      obtain ⟨psk, h5, h6⟩ := h4 ha
      exact ⟨psk, h5, like_of (keeps_all (hd (hr.over h3))) h6⟩
  · intro h
    have h : k.rejected = true := h
    obtain ⟨h1, h2⟩ := hr.turned h
    refine ⟨List.mem_append_left _ h1, ?_⟩
    rcases h2 with h2 | ⟨psk, h2, h3⟩
    · exact .inl h2
    · exact .inr ⟨psk, h2, fun hl => h3 (like_of (keeps_all (hd (hr.over ⟨_, h1⟩))).symm hl)⟩

/-- Any prefix of the actions of a step may have been visited. -/
def StepGood (e : Setup) (cfg : Cfg) (seen : List Action) (k : Sock) (acts : List Action) : Prop :=
  (∃ k', visitAll e k acts = .ok k' ∧ Rest e cfg (seen ++ acts) k') ∧
  ∀ pre, pre <+: acts → ∃ k', visitAll e k pre = .ok k' ∧ Good e cfg (seen ++ pre) k'

theorem step_quiet {e cfg seen k} (hr : Rest e cfg seen k) {as : List Action} (hq : ∀ a ∈ as, Quiet a)
    (hp : ∀ a ∈ as, Keeps (·.earlyDataParams) a)
    (hd : Done k.state → Done (applyAll as k.state) ∧ ∀ a ∈ as, Keeps compared a)
    (hu : (applyAll as k.state).state = .uninitialized → k.state.state = .uninitialized) :
    StepGood e cfg seen k as := by
  refine ⟨?_, fun pre hpre => ?_⟩
  · obtain ⟨h1, h2⟩ := good_quiet hr hq hp fun h => (hd h).2
    refine ⟨_, h1, h2, fun ht => ?_, fun h => ?_⟩
    · rw [succeeded_quiet hq] at ht
      exact (hd (hr.over ht)).1
    · rw [told_quiet hq, succeeded_quiet hq]; exact hr.start (hu h)
  · have hm : ∀ a ∈ pre, a ∈ as := fun a ha => hpre.subset ha
    obtain ⟨h1, h2⟩ := good_quiet hr (as := pre) (fun a ha => hq a (hm a ha)) (fun a ha => hp a (hm a ha))
      fun h a ha => (hd h).2 a (hm a ha)
    exact ⟨_, h1, h2⟩

theorem prefix_split {α} {pre a c : List α} {x : α} (h : pre <+: a ++ x :: c) :
    pre <+: a ∨ ∃ q, q <+: c ∧ pre = a ++ x :: q := by
  induction a generalizing pre with
  | nil =>
    cases pre with
    | nil => exact .inl List.prefix_rfl
    | cons y l =>
      obtain ⟨h1, h2⟩ := List.cons_prefix_cons.1 (show y :: l <+: x :: c from h)
      subst h1
      exact .inr ⟨l, h2, rfl⟩
  | cons z a ih =>
    cases pre with
    | nil => exact .inl List.nil_prefix
    | cons y l =>
      obtain ⟨h1, h2⟩ := List.cons_prefix_cons.1 (show y :: l <+: z :: (a ++ x :: c) from h)
      subst h1
      rcases ih h2 with h3 | ⟨q, h3, rfl⟩
      · exact .inl (List.cons_prefix_cons.2 ⟨rfl, h3⟩)
      · exact .inr ⟨q, h3, rfl⟩

theorem prefix_append {α} {pre a c : List α} (h : pre <+: a ++ c) :
    pre <+: a ∨ ∃ q, q <+: c ∧ pre = a ++ q := by
  induction a generalizing pre with
  | nil => exact .inr ⟨pre, h, rfl⟩
  | cons z a ih =>
    cases pre with
    | nil => exact .inl List.nil_prefix
    | cons y l =>
      obtain ⟨h1, h2⟩ := List.cons_prefix_cons.1 (show y :: l <+: z :: (a ++ c) from h)
      subst h1
      rcases ih h2 with h3 | ⟨q, h3, rfl⟩
      · exact .inl (List.cons_prefix_cons.2 ⟨rfl, h3⟩)
      · exact .inr ⟨q, h3, rfl⟩

theorem step_connect {e cfg inp seen k c} (hr : Rest e cfg seen k) (hu : k.state.state = .uninitialized)
    (hc : prepareConnect cfg inp = .ok c) : StepGood e cfg seen k (connectActions cfg c) := by
  obtain ⟨hnt, hns⟩ := hr.start hu
  obtain ⟨hearly, hrej⟩ := hr.untold hnt
  have hnd : ¬ Done k.state := by unfold Done; rw [hu]; simp
  rcases connectActions_cases (cfg := cfg) (c := c) with ⟨p, t, x, hp, he, hacts⟩ | ⟨-, hacts⟩
  · rw [hacts]
    obtain ⟨psk, h1, h2⟩ := params_from hc hp
    generalize hn : ((c.psk.map (·.maxEarlyDataSize)).getD 0) = n
    generalize hw : (Action.write none [Server.content ⟨.plaintext, []⟩ 22 c.final.encoded] 0) = w
    have hwq : Quiet w := by subst hw; exact ⟨nofun, nofun⟩
    have hwm : ∀ f, w ≠ .mutate f := by subst hw; exact nofun
    let A : List Action := [.mutate (saveConnect c), .mutate (saveEarly cfg p t x), w,
      .secretAvailable .clientEarlyTraffic t]
    let C : List Action := [.secretAvailable .earlyExporter x, transition .expectingServerHello]
    have hA : ∀ a ∈ A, Quiet a := by
      intro a ha
      simp only [A, List.mem_cons, List.not_mem_nil, or_false] at ha
      rcases ha with rfl | rfl | rfl | rfl
      · exact ⟨nofun, nofun⟩
      · exact ⟨nofun, nofun⟩
      · exact hwq
      · exact ⟨nofun, nofun⟩
    have hC : ∀ a ∈ C, Quiet a ∧ Keeps (·.earlyDataParams) a := by
      intro a ha
      simp only [C, List.mem_cons, List.not_mem_nil, or_false, transition] at ha
      rcases ha with rfl | rfl
      · exact ⟨⟨nofun, nofun⟩, nofun⟩
      · exact ⟨⟨nofun, nofun⟩, by rintro f h s; cases h; rfl⟩
    have hpar : (applyAll A k.state).earlyDataParams = some { p with earlyExporterSecret := x } := by
      subst hw; rfl
    show StepGood e cfg seen k (A ++ .reportEarlyHandshakeSuccess n :: C)
    have key : ∀ q, q <+: C → visitAll e k (A ++ .reportEarlyHandshakeSuccess n :: q) =
        .ok { k with state := applyAll q (applyAll A k.state), early := true } ∧
        Good e cfg (seen ++ (A ++ .reportEarlyHandshakeSuccess n :: q))
          { k with state := applyAll q (applyAll A k.state), early := true } := by
      intro q hq
      have hq' : ∀ a ∈ q, Quiet a ∧ Keeps (·.earlyDataParams) a := fun a ha => hC a (hq.subset ha)
      have hns' : ¬ Spec.Succeeded (seen ++ (A ++ .reportEarlyHandshakeSuccess n :: q)) := by
        rintro ⟨b, hb⟩
        simp only [List.mem_append, List.mem_cons, reduceCtorEq, false_or] at hb
        rcases hb with hb | hb | hb
        · exact absurd ⟨b, hb⟩ hns
        · exact absurd rfl ((hA _ hb).2 b)
        · exact absurd rfl ((hq' _ hb).1.2 b)
      refine ⟨?_, ?_, fun _ => ?_, fun h => absurd ⟨n, by simp⟩ h, fun _ => hrej,
        fun _ => .inl ⟨rfl, fun hs => absurd hs hns'⟩, fun h => absurd h (by simp [hrej])⟩
      · rw [visitAll_append, quiet_walk hA]
        show visitAll e { k with state := applyAll A k.state, early := true } q = _
        rw [quiet_walk fun a ha => (hq' a ha).1]
      · dsimp only
        rw [applyAll_append, applyAll_append, ← hr.state]; rfl
      · have hk : (applyAll q (applyAll A k.state)).earlyDataParams = (applyAll A k.state).earlyDataParams :=
          keeps_all (view := (·.earlyDataParams)) fun a ha => (hq' a ha).2
        exact ⟨psk, _, h1, hk.trans hpar, h2⟩
    refine ⟨?_, fun pre hpre => ?_⟩
    · obtain ⟨k1, k2⟩ := key C List.prefix_rfl
      refine ⟨_, k1, k2, fun h => ?_, fun h => ?_⟩
      · obtain ⟨b, hb⟩ := h
        simp only [List.mem_append, List.mem_cons, reduceCtorEq, false_or] at hb
        rcases hb with hb | hb | hb
        · exact absurd ⟨b, hb⟩ hns
        · exact absurd rfl ((hA _ hb).2 b)
        · exact absurd rfl ((hC _ hb).1.2 b)
      · cases h
    · rcases prefix_split hpre with h | ⟨q, h, rfl⟩
      · have hpq : ∀ a ∈ pre, Quiet a := fun a ha => hA a (h.subset ha)
        refine ⟨_, quiet_walk hpq, ?_, fun h => absurd h (by simp [hearly]), fun _ => ⟨hearly, hrej⟩,
          fun _ => hrej, fun ht => absurd ((told_quiet hpq).1 ht) hnt, fun h => absurd h (by simp [hrej])⟩
        dsimp only
        rw [applyAll_append, hr.state]
      · obtain ⟨k1, k2⟩ := key q h
        exact ⟨_, k1, k2⟩
  · rw [hacts]
    refine step_quiet hr ?_ ?_ (fun h => absurd h hnd) (fun h => by cases h)
    · simp [Quiet, transition]
    · intro a ha f h s
      subst h
      simp only [List.mem_cons, List.not_mem_nil, or_false, Action.mutate.injEq, reduceCtorEq, transition, false_or] at ha
      rcases ha with rfl | rfl <;> rfl

theorem told_one {seen a b} : Spec.EarlyTold (seen ++ (a ++ [.reportHandshakeSuccess b])) ↔ Spec.EarlyTold (seen ++ a) := by
  unfold Spec.EarlyTold
  simp

theorem step_success {e cfg seen k h g th early d b} (hr : Rest e cfg seen k)
    (hs : k.state.state = .expectingFinished) (hns : ¬ Spec.Succeeded seen)
    (hl : Live cfg h g th early (applyAll (doneActions cfg d b) k.state)) (hb : b = decide (early = .accepted)) :
    StepGood e cfg seen k (doneActions cfg d b) := by
  have hnd : ¬ Done k.state := by unfold Done; rw [hs]; simp
  obtain ⟨A, hA⟩ : ∃ A, doneActions cfg d b = A ++ [.reportHandshakeSuccess b] ∧ A = [.mutate (saveFinished cfg d),
    transition .established,
    .secretAvailable .serverAppTraffic d.read, .secretAvailable .clientAppTraffic d.write,
    .secretAvailable .exporterMaster d.exporter, .secretAvailable .resumptionMaster d.resumption,
    .write none d.flight 0] := ⟨_, rfl, rfl⟩
  obtain ⟨hacts, hA⟩ := hA
  have hq : ∀ a ∈ A, Quiet a := by subst hA; simp [Quiet, transition]
  have hp : ∀ a ∈ A, Keeps (·.earlyDataParams) a := by
    subst hA
    intro a ha f h s
    subst h
    simp only [List.mem_cons, List.not_mem_nil, or_false, Action.mutate.injEq, reduceCtorEq, transition] at ha
    rcases ha with rfl | rfl <;> rfl
  have hst : (applyAll A k.state).state = .established := by subst hA; rfl
  rw [hacts] at hl ⊢
  have hpost : applyAll (A ++ [.reportHandshakeSuccess b]) k.state = applyAll A k.state := by
    rw [applyAll_append]; rfl
  rw [hpost] at hl
  clear hA hacts
  obtain ⟨w1, g1⟩ := good_quiet hr hq hp fun h => absurd h hnd
  have hdone : Done (applyAll A k.state) := .inl hst
  have hstate : applyAll A k.state = applyAll (seen ++ (A ++ [.reportHandshakeSuccess b])) {} := by
    rw [applyAll_append, ← hr.state, hpost]
  have hmem : .reportHandshakeSuccess b ∈ seen ++ (A ++ [.reportHandshakeSuccess b]) := by simp
  have hsucc : Spec.Succeeded (seen ++ (A ++ [.reportHandshakeSuccess b])) := ⟨b, hmem⟩
  have htold : Spec.EarlyTold (seen ++ (A ++ [.reportHandshakeSuccess b])) ↔ Spec.EarlyTold seen := by
    rw [told_one, told_quiet hq]
  have hvisit : visitAll e k (A ++ [.reportHandshakeSuccess b]) =
      onSuccess e b { k with state := applyAll A k.state } := by
    rw [visitAll_append, w1]
    simp only [visitAll, visit, Res.ok_bind]
    cases onSuccess e b { k with state := applyAll A k.state } <;> rfl
  have hrej : k.rejected = false := hr.fresh hns
  have full : ∃ k', visitAll e k (A ++ [.reportHandshakeSuccess b]) = .ok k' ∧
      Rest e cfg (seen ++ (A ++ [.reportHandshakeSuccess b])) k' := by
    have hun : (applyAll A k.state).state = .uninitialized →
        ¬ Spec.EarlyTold (seen ++ (A ++ [.reportHandshakeSuccess b])) ∧
        ¬ Spec.Succeeded (seen ++ (A ++ [.reportHandshakeSuccess b])) := by
      intro h; rw [hst] at h; cases h
    rw [hvisit]
    unfold onSuccess
    cases he : k.early with
    | false =>
      have hnt : ¬ Spec.EarlyTold seen := fun ht => by
        rcases hr.told ht with ⟨h, -⟩ | ⟨-, -, h, -⟩
        · rw [he] at h; cases h
        · exact hns h
      simp only [Bool.false_eq_true, if_false]
      exact ⟨_, rfl, ⟨hstate, nofun, fun _ => ⟨rfl, hrej⟩, fun _ => hrej,
        fun h => absurd (htold.1 h) hnt, fun h => absurd h (by simp [hrej])⟩, fun _ => hdone, hun⟩
    | true =>
      have ht : Spec.EarlyTold seen := Classical.byContradiction fun hn => by
        rw [(hr.untold hn).1] at he; cases he
      have hpar : From cfg (applyAll A k.state).earlyDataParams := g1.params he
      simp only [if_true]
      have closed : ((∀ psk, cfg.cachedPsk = some psk → ClientSM.Spec.PskAuth psk) →
            ∃ psk, cfg.cachedPsk = some psk ∧ Spec.Like e psk (applyAll A k.state)) →
          Rest e cfg (seen ++ (A ++ [.reportHandshakeSuccess b]))
            { state := applyAll A k.state, early := false, rejected := k.rejected } := by
        intro hh
        exact ⟨⟨hstate, fun h => (by cases h), fun h => absurd (htold.2 ht) h, fun _ => hrej,
          fun _ => .inr ⟨rfl, hrej, hsucc, hh⟩, fun h => absurd h (by simp [hrej])⟩, fun _ => hdone, hun⟩
      have failed : b = false → (e.policy = .fatalConnectionError ∨
          ∃ psk, cfg.cachedPsk = some psk ∧ ¬ Spec.Like e psk (applyAll A k.state)) →
          Rest e cfg (seen ++ (A ++ [.reportHandshakeSuccess b]))
            { state := applyAll A k.state, early := true, rejected := true } := by
        intro hbf hh
        subst hbf
        exact ⟨⟨hstate, fun _ => hpar, fun h => absurd (htold.2 ht) h, fun h => absurd hsucc h,
          fun _ => .inl ⟨rfl, fun _ => rfl⟩, fun _ => ⟨hmem, hh⟩⟩, fun _ => hdone, hun⟩
      cases hbv : b with
      | true =>
        rw [hbv] at closed
        have : early = .accepted := by rw [hbv] at hb; simpa using hb.symm
        subst this
        refine ⟨_, rfl, closed fun ha => ?_⟩
        obtain ⟨psk, h1, h2, h3, h4, h5, h6⟩ := accepted_like (e := e) hl ha
        exact ⟨psk, h1, .inl h2, h3, h4, by rw [h5], by rw [h6]⟩
      | false =>
        have failed := failed hbv
        rw [hbv] at closed failed
        simp only [Bool.false_eq_true, if_false]
        unfold handleEarlyReject
        cases hpol : e.policy with
        | fatalConnectionError =>
          exact ⟨_, rfl, failed (.inl hpol)⟩
        | automaticResend =>
          obtain ⟨same, psk, h1, h2, h3⟩ := match_like (e := e) hpar hl.info.version hl.info.cipher
          simp only [h1, Res.ok_bind]
          cases same with
          | true => exact ⟨_, rfl, closed fun _ => ⟨psk, h2, h3.1 rfl⟩⟩
          | false => exact ⟨_, rfl, failed (.inr ⟨psk, h2, fun hh => by cases h3.2 hh⟩)⟩
  refine ⟨full, fun pre hpre => ?_⟩
  rcases prefix_split hpre with h | ⟨q, h, rfl⟩
  · have hpq : ∀ a ∈ pre, a ∈ A := fun a ha => h.subset ha
    obtain ⟨h1, h2⟩ := good_quiet hr (as := pre) (fun a ha => hq a (hpq a ha)) (fun a ha => hp a (hpq a ha))
      fun h => absurd h hnd
    exact ⟨_, h1, h2⟩
  · obtain rfl : q = [] := List.prefix_nil.1 h
    obtain ⟨k', h1, h2⟩ := full
    exact ⟨k', h1, h2.toGood⟩

/-! ## Every history -/

theorem run_access {e : Setup} {cfg : Cfg} (hok : ∀ c a, cfg.hashOf c = .ok a → a.Ok) {h s} (hr : Run cfg h s) :
    (∃ k, visitAll e {} (actions h) = .ok k ∧ k.state = s ∧ Rest e cfg (actions h) k) ∧
    ∀ seen, seen <+: actions h → ∃ k, visitAll e {} seen = .ok k ∧ Good e cfg seen k := by
  induction h generalizing s with
  | nil =>
    cases hr
    have good : Good e cfg [] {} := ⟨rfl, nofun, fun _ => ⟨rfl, rfl⟩, fun _ => rfl, fun ⟨_, h⟩ => (by cases h), nofun⟩
    refine ⟨⟨{}, rfl, rfl, good, fun ⟨_, h⟩ => (by cases h), fun _ => ⟨fun ⟨_, h⟩ => (by cases h),
      fun ⟨_, h⟩ => (by cases h)⟩⟩, fun seen hp => ?_⟩
    obtain rfl : seen = [] := List.prefix_nil.1 (by simpa using hp)
    exact ⟨{}, rfl, good⟩
  | cons y older ih =>
    obtain ⟨h1, h2, hsh, -⟩ := hr.split (newer := [])
    obtain ⟨⟨k, hk, hks, hrest⟩, hpre⟩ := ih h1
    have hpost : s = applyAll y.acts k.state := by
      rw [hks]; exact Run.det hr h2
    have hact : actions (y :: older) = actions older ++ y.acts := by simp
    have hstep : StepGood e cfg (actions older) k y.acts := by
      have hkind := kind_of hsh
      rw [← hks] at hkind hsh
      cases hkind with
      | quiet hq hp hd => exact step_quiet hrest hq hp hd fun hu => (uninit_back hsh hu).1
      | connect c hu hc he => rw [he]; exact step_connect hrest hu hc
      | success d b hs he =>
        have hinv := run_inv hok h1
        rw [← hks] at hinv
        obtain ⟨g0, hm⟩ := hinv.mid (by unfold midState; rw [hs]; simp)
        have hns : ¬ Spec.Succeeded (actions older) := fun ⟨b, hb⟩ => hm.quiet.success b hb
        have hinv' := run_inv hok h2
        have hpe : Spec.post y = applyAll (doneActions cfg d b) k.state := by
          rw [hks, ← he]; rfl
        rw [hpe] at hinv'
        obtain ⟨g, th, early, hl⟩ := hinv'.live rfl
        have hb : b = decide (early = .accepted) := (hl.success b).1 (by rw [hact, he]; simp [doneActions])
        rw [he]
        exact step_success hrest hs hns hl hb
    obtain ⟨⟨k', w1, w2⟩, w3⟩ := hstep
    rw [hact]
    refine ⟨⟨k', by rw [visitAll_append, hk]; exact w1, ?_, w2⟩, fun seen hp => ?_⟩
    · rw [w2.state, hpost, applyAll_append, ← hrest.state]
    · rcases prefix_append hp with hp | ⟨q, hq, rfl⟩
      · exact hpre seen hp
      · obtain ⟨k'', v1, v2⟩ := w3 q hq
        exact ⟨k'', by rw [visitAll_append, hk]; exact v1, v2⟩

/-! ## C103 -/

theorem says_early {cfg k} (he : k.early = true) (hf : From cfg k.state.earlyDataParams) :
    ∃ psk, cfg.cachedPsk = some psk ∧ Spec.Says k psk.serverCert psk.clientCert psk.alpn := by
  obtain ⟨psk, p, h1, h2, -, -, h3, h4, h5⟩ := hf
  refine ⟨psk, h1, ?_, ?_, ?_⟩
  · simp [getPeerCertificate, he, h2, deref, h3, Res.pure_eq]
  · simp [getSelfCertificate, he, h2, deref, h4, Res.pure_eq]
  · simp [getApplicationProtocol, he, h2, deref, h5, Res.pure_eq]

theorem says_plain {k : Sock} (he : k.early = false) :
    Spec.Says k k.state.serverCert k.state.clientCert k.state.alpn := by
  refine ⟨?_, ?_, ?_⟩ <;> simp [getPeerCertificate, getSelfCertificate, getApplicationProtocol, he, Res.pure_eq]

section
variable {e : Setup} {cfg : Cfg} (hok : ∀ c a, cfg.hashOf c = .ok a → a.Ok) {h : List Step} {s : St}
  (hr : Run cfg h s) {seen : List Action} (hp : seen <+: actions h)
include hok hr hp

/-- C103, definedness: whatever has been visited, visiting it has thrown nothing and dereferenced nothing missing, and
neither do the accessors.  The state is the one the actions make. -/
theorem C103_defined : ∃ k, visitAll e {} seen = .ok k ∧ k.state = applyAll seen {} ∧
    ∃ server client alpn, Spec.Says k server client alpn := by
  obtain ⟨k, h1, h2⟩ := (run_access (e := e) hok hr).2 seen hp
  refine ⟨k, h1, h2.state, ?_⟩
  cases he : k.early with
  | false => exact ⟨_, _, _, says_plain he⟩
  | true =>
    obtain ⟨psk, -, h3⟩ := says_early he (h2.params he)
    exact ⟨_, _, _, h3⟩

/-- C103, while early data may be sent: from the moment the application has been told so until the handshake succeeds, the
connection calls itself not replay safe, and the accessors give the values of the session being resumed. -/
theorem C103_early {k} (hv : visitAll e {} seen = .ok k) (ht : Spec.EarlyTold seen) (hn : ¬ Spec.Succeeded seen) :
    isReplaySafe k = false ∧ k.rejected = false ∧
    ∃ psk, cfg.cachedPsk = some psk ∧ Spec.Says k psk.serverCert psk.clientCert psk.alpn := by
  obtain ⟨k', h1, h2⟩ := (run_access (e := e) hok hr).2 seen hp
  rw [hv] at h1; cases h1
  rcases h2.told ht with ⟨he, -⟩ | ⟨-, -, h, -⟩
  · exact ⟨by simp [isReplaySafe, he], h2.fresh hn, says_early he (h2.params he)⟩
  · exact absurd h hn

/-- C103, afterwards: once the handshake has succeeded, the connection is either failed (and then the server turned the early
data down, and the application wants to hear of it or the connection is not like the session), or it is replay safe, the
accessors give what was negotiated, and that is like the session. -/
theorem C103_kept {k} (hv : visitAll e {} seen = .ok k) (ht : Spec.EarlyTold seen) (hs : Spec.Succeeded seen) :
    (k.rejected = true ∧ isReplaySafe k = false ∧ .reportHandshakeSuccess false ∈ seen ∧
      (e.policy = .fatalConnectionError ∨ ∃ psk, cfg.cachedPsk = some psk ∧ ¬ Spec.Like e psk k.state) ∧
      ∃ psk, cfg.cachedPsk = some psk ∧ Spec.Says k psk.serverCert psk.clientCert psk.alpn) ∨
    (k.rejected = false ∧ isReplaySafe k = true ∧ Spec.Says k k.state.serverCert k.state.clientCert k.state.alpn ∧
      ((∀ psk, cfg.cachedPsk = some psk → ClientSM.Spec.PskAuth psk) →
        ∃ psk, cfg.cachedPsk = some psk ∧ Spec.Like e psk k.state)) := by
  obtain ⟨k', h1, h2⟩ := (run_access (e := e) hok hr).2 seen hp
  rw [hv] at h1; cases h1
  rcases h2.told ht with ⟨he, h⟩ | ⟨he, h3, -, h4⟩
  · exact .inl ⟨h hs, by simp [isReplaySafe, he], (h2.turned (h hs)).1, (h2.turned (h hs)).2, says_early he (h2.params he)⟩
  · exact .inr ⟨h3, by simp [isReplaySafe, he], says_plain he, h4⟩

/-- C103, without early data: the connection is replay safe, is never failed for its early data, and the accessors give
what has been negotiated. -/
theorem C103_plain {k} (hv : visitAll e {} seen = .ok k) (ht : ¬ Spec.EarlyTold seen) :
    isReplaySafe k = true ∧ k.rejected = false ∧ Spec.Says k k.state.serverCert k.state.clientCert k.state.alpn := by
  obtain ⟨k', h1, h2⟩ := (run_access (e := e) hok hr).2 seen hp
  rw [hv] at h1; cases h1
  obtain ⟨he, h3⟩ := h2.untold ht
  exact ⟨by simp [isReplaySafe, he], h3, says_plain he⟩

end

/-- The accessors of the driver's client: what has been visited of any connection is the beginning of such a history. -/
theorem C103_connection {e : Setup} {cfg : Cfg} (hok : ∀ c a, cfg.hashOf c = .ok a → a.Ok) {E : Env machine}
    (hE : Runs cfg E) {c : Conn.C machine} (hr : Conn.Reachable E ({} : St) c) :
    ∃ k, visitAll e {} (Conn.Spec.visited c.log) = .ok k ∧ (isReplaySafe k = false → Spec.EarlyTold (Conn.Spec.visited c.log)) ∧
      ∃ server client alpn, Spec.Says k server client alpn := by
  obtain ⟨h, s, hrun, hp, -⟩ := Reachable.run hE hr
  obtain ⟨k, h1, -, h2⟩ := C103_defined (e := e) hok hrun hp
  refine ⟨k, h1, fun hs => Classical.byContradiction fun hn => ?_, h2⟩
  rw [(C103_plain hok hrun hp h1 hn).1] at hs; cases hs

end Fizz.Access

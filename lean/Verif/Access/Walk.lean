import Verif.Access.Spec
import Verif.KeyLog.Props

/-! # What the steps of a client do to what its socket says -/

namespace Fizz.Access
open Fizz Fizz.ClientSM Fizz.Conn
open Fizz.Server (deref)

/-! ## Walking over actions -/

/-- Reports nothing about success. -/
def Quiet (a : Action) : Prop := (∀ n, a ≠ .reportEarlyHandshakeSuccess n) ∧ ∀ b, a ≠ .reportHandshakeSuccess b

/-- A change of the state that keeps something. -/
def Keeps {α} (view : St → α) (a : Action) : Prop := ∀ f, a = .mutate f → ∀ s, view (f s) = view s

theorem visitAll_append {e k} : ∀ {as bs : List Action},
    visitAll e k (as ++ bs) = (visitAll e k as >>= fun k => visitAll e k bs)
  | [], bs => rfl
  | a :: as, bs => by
    simp only [List.cons_append, visitAll]
    cases h : visit e k a with
    | ok k' => exact visitAll_append
    | error f => rfl

theorem quiet_visit {e k a} (h : Quiet a) : visit e k a = .ok { k with state := a.apply k.state } := by
  cases a with
  | reportEarlyHandshakeSuccess n => exact absurd rfl (h.1 n)
  | reportHandshakeSuccess b => exact absurd rfl (h.2 b)
  | _ => rfl

theorem quiet_walk {e} : ∀ {as : List Action} {k}, (∀ a ∈ as, Quiet a) →
    visitAll e k as = .ok { k with state := applyAll as k.state }
  | [], k, _ => rfl
  | a :: as, k, h => by
    rw [visitAll, quiet_visit (h a (by simp))]
    exact quiet_walk fun b hb => h b (by simp [hb])

theorem keeps_all {α} {view : St → α} : ∀ {as : List Action} {s}, (∀ a ∈ as, Keeps view a) →
    view (applyAll as s) = view s
  | [], _, _ => rfl
  | a :: as, s, h => by
    show view (applyAll as (a.apply s)) = _
    rw [keeps_all fun b hb => h b (by simp [hb])]
    cases a with
    | mutate f => exact h _ (by simp) f rfl s
    | _ => rfl

/-- The handshake is over. -/
def Done (s : St) : Prop :=
  s.state = .established ∨ s.state = .writeSideClosed ∨ s.state = .closed ∨ s.state = .error

/-- What is compared. -/
def compared (s : St) := (s.version, s.cipher, s.alpn, s.serverCert, s.clientCert)

/-- The kinds of steps. -/
inductive Kind (cfg : Cfg) (x : StepIn) (s : St) (acts : List Action) : Prop
  | quiet (hq : ∀ a ∈ acts, Quiet a) (hp : ∀ a ∈ acts, Keeps (·.earlyDataParams) a)
      (hd : Done s → Done (applyAll acts s) ∧ ∀ a ∈ acts, Keeps compared a)
  | connect (c) (h : s.state = .uninitialized) (hc : prepareConnect cfg x.inp = .ok c) (he : acts = connectActions cfg c)
  | success (d b) (h : s.state = .expectingFinished) (he : acts = doneActions cfg d b)

theorem alert_quiet {s a b w} (h : w ∈ alertWrites s a b) : Quiet w ∧ (∀ f, w ≠ .mutate f) := by
  obtain ⟨_, _, -, rfl⟩ := alertWrites_mem h
  exact ⟨⟨nofun, nofun⟩, nofun⟩

set_option maxHeartbeats 2000000 in
theorem kind_of {cfg i s t acts} (h : Shape cfg i s t acts) : Kind cfg i s acts := by
  cases h with
  | @fail _ a b _ =>
    have key : ∀ x ∈ (.mutate toError :: (alertWrites s a b ++ [.reportError a]) : List Action),
        Quiet x ∧ Keeps (·.earlyDataParams) x ∧ Keeps compared x := by
      intro x hx
      simp only [List.mem_cons, List.mem_append, List.not_mem_nil, or_false] at hx
      rcases hx with rfl | hx | rfl
      · exact ⟨⟨nofun, nofun⟩, by rintro f h s; cases h; rfl, by rintro f h s; cases h; rfl⟩
      · obtain ⟨h1, h2⟩ := alert_quiet hx
        exact ⟨h1, fun f h => absurd h (h2 f), fun f h => absurd h (h2 f)⟩
      · exact ⟨⟨nofun, nofun⟩, nofun, nofun⟩
    obtain ⟨-, -, h3⟩ := fail_view (t := t) (i := i) (s := s) (s' := s) (a := a) (b := b)
    exact .quiet (fun a h => (key a h).1) (fun a h => (key a h).2.1)
      fun _ => ⟨.inr (.inr (.inr (by rw [h3]; rfl))), fun a h => (key a h).2.2⟩
  | connect hs hc => exact .connect _ hs hc rfl
  | @encryptedExtensions _ _ _ _ _ _ _ retry t hs =>
    refine .quiet ?_ ?_ (fun hd => ?_)
    · intro x hx
      simp only [List.mem_cons, List.mem_append, List.not_mem_nil, or_false, transition] at hx
      rcases hx with rfl | hx | rfl
      · exact ⟨nofun, nofun⟩
      · obtain ⟨_, _, rfl⟩ := retryActions_mem hx; exact ⟨nofun, nofun⟩
      · exact ⟨nofun, nofun⟩
    · intro x hx
      simp only [List.mem_cons, List.mem_append, List.not_mem_nil, or_false, transition] at hx
      rcases hx with rfl | hx | rfl
      · rintro f h s; cases h; rfl
      · obtain ⟨_, _, rfl⟩ := retryActions_mem hx; exact nofun
      · rintro f h s; cases h; rfl
    · unfold Done at hd; rw [hs] at hd; simp at hd
  | @finished m orig u d hs hso hd =>
    unfold finalReport
    split_ifs with he
    · have hne : s.state ≠ .error := by rw [hs]; simp
      rw [handleError, if_neg hne]
      refine .quiet ?_ ?_ (fun hd => ?_)
      · intro x hx
        simp only [List.mem_cons, List.mem_append, List.not_mem_nil, or_false, transition] at hx
        rcases hx with (rfl | rfl | rfl | rfl | rfl | rfl | rfl) | rfl | hx | rfl
        iterate 8 exact ⟨nofun, nofun⟩
        · exact (alert_quiet hx).1
        · exact ⟨nofun, nofun⟩
      · intro x hx
        simp only [List.mem_cons, List.mem_append, List.not_mem_nil, or_false, transition] at hx
        rcases hx with (rfl | rfl | rfl | rfl | rfl | rfl | rfl) | rfl | hx | rfl
        iterate 2 (rintro f h s; cases h; rfl)
        iterate 5 exact nofun
        · rintro f h s; cases h; rfl
        · exact fun f h => absurd h ((alert_quiet hx).2 f)
        · exact nofun
      · unfold Done at hd; rw [hs] at hd; simp at hd
    · exact .success d _ hs rfl
  | ticket hs _ ha =>
    obtain ⟨psk, rfl⟩ := ticket_shape ha
    exact .quiet (by simp [Quiet]) (by simp [Keeps]) fun h => ⟨h, by simp [Keeps]⟩
  | nothing => exact .quiet nofun nofun fun h => ⟨h, nofun⟩
  | report _ | wait _ | earlyFailed _ _ | earlyWrite _ _ _ _ | earlyLate _ _ _ | data _ _ | appWrite _ _ =>
    exact .quiet (by simp [Quiet]) (by simp [Keeps]) fun h => ⟨h, by simp [Keeps]⟩
  | closeNow _ | close _ | closed _ =>
    refine .quiet (by simp [Quiet]) ?_ fun _ => ⟨by unfold Done; simp [applyAll, Action.apply, toClosed, toWriteSideClosed], ?_⟩ <;>
    · intro x hx f h s
      subst h
      simp only [List.mem_cons, List.not_mem_nil, or_false, Action.mutate.injEq, reduceCtorEq] at hx
      subst hx; rfl
  | retry hs _ _ _ | serverHello hs _ _ | certificateRequest hs _ _ _ _ _ _ | certificate hs _ _ _
    | compressedCertificate hs _ _ _ _ _ | certificateVerify hs _ _ _ _ _ _ _ =>
    refine .quiet (by simp [Quiet, transition]) ?_ fun hd => ?_
    · intro x hx f h s
      subst h
      simp only [List.mem_cons, List.not_mem_nil, or_false, Action.mutate.injEq, reduceCtorEq, transition, false_or] at hx
      rcases hx with rfl | rfl <;> first | rfl | (unfold saveShlo shloEch; repeat' split) <;> rfl
    · unfold Done at hd; rw [hs] at hd; simp at hd
  | earlyFirst hs _ _ _ _ _ =>
    refine .quiet (by simp [Quiet]) ?_ fun hd => ?_
    · intro x hx f h s
      subst h
      simp only [List.mem_cons, List.not_mem_nil, or_false, Action.mutate.injEq, reduceCtorEq] at hx
      subst hx; rfl
    · unfold Done at hd; rcases hs with hs | hs | hs <;> (rw [hs] at hd; simp at hd)
  | keyUpdateInitiation _ _ _ _ _ _ | keyUpdate _ _ _ _ _ | keyUpdateAnswered _ _ _ _ _ _ _ _ =>
    refine .quiet (by simp [Quiet]) ?_ fun hd => ⟨hd, ?_⟩ <;>
    · intro x hx f h s
      subst h
      simp only [List.mem_cons, List.not_mem_nil, or_false, Action.mutate.injEq, reduceCtorEq] at hx
      subst hx; rfl
  | closeNotify _ _ _ | expectedCloseNotify _ _ =>
    refine .quiet (by simp [Quiet, transition]) ?_ fun _ =>
      ⟨by unfold Done; simp [applyAll, Action.apply, transition], ?_⟩ <;>
    · intro x hx f h s
      subst h
      simp only [List.mem_cons, List.not_mem_nil, or_false, Action.mutate.injEq, reduceCtorEq, transition, false_or] at hx
      rcases hx with rfl | rfl <;> rfl

/-! ## The session -/

/-- The parameters of early data are those of the session. -/
def From (cfg : Cfg) (o : Option EarlyDataParams) : Prop := ∃ psk p, cfg.cachedPsk = some psk ∧ o = some p ∧
  p.version = psk.version ∧ p.cipher = psk.cipher ∧ p.serverCert = psk.serverCert ∧ p.clientCert = psk.clientCert ∧
  p.alpn = psk.alpn

theorem validatePsk_cached {cfg now psk} (h : validatePsk cfg now = .ok (some psk)) : cfg.cachedPsk = some psk := by
  unfold validatePsk at h
  split at h
  · cases h
  · rename_i c hc
    by_cases h1 : c.version ∉ cfg.supportedVersions
    · rw [if_pos h1] at h; cases h
    rw [if_neg h1] at h
    by_cases h2 : c.cipher ∉ cfg.supportedCiphers
    · rw [if_pos h2] at h; cases h
    rw [if_neg h2, Res.bind_eq_ok] at h
    obtain ⟨ok, -, h⟩ := h
    have h := Server.pure_eq_ok.1 h
    cases ok with
    | false => cases h
    | true => cases h; exact hc

theorem params_from {cfg inp c p} (h : prepareConnect cfg inp = .ok c) (hp : c.params = some p) :
    ∃ psk, cfg.cachedPsk = some psk ∧
      p.version = psk.version ∧ p.cipher = psk.cipher ∧ p.serverCert = psk.serverCert ∧ p.clientCert = psk.clientCert ∧
      p.alpn = psk.alpn := by
  unfold prepareConnect at h
  simp only [Res.bind_eq_ok] at h
  obtain ⟨psk, h1, _, _, _, _, _, _, _, _, _, _, _, _, h⟩ := h
  have h := Server.pure_eq_ok.1 h
  subst h
  dsimp only at hp
  cases psk with
  | none => cases hp
  | some psk =>
    refine ⟨psk, validatePsk_cached h1, ?_⟩
    unfold getEarlyDataParams at hp
    dsimp only at hp
    by_cases k1 : cfg.sendEarlyData = false
    · rw [if_pos k1] at hp; cases hp
    rw [if_neg k1] at hp
    by_cases k2 : psk.maxEarlyDataSize = 0
    · rw [if_pos k2] at hp; cases hp
    rw [if_neg k2] at hp
    split at hp
    · split at hp
      · cases hp; exact ⟨rfl, rfl, rfl, rfl, rfl⟩
      · cases hp
    · cases hp; exact ⟨rfl, rfl, rfl, rfl, rfl⟩

theorem offered_cached {cfg h o1 o p} (ho : ClientSM.Spec.Offered cfg h o1 o p) {psk} (hp : o.pskOf = some psk) :
    cfg.cachedPsk = some psk := by
  induction ho generalizing psk with
  | first hf => exact ((hf.psk psk).1 hp).1
  | second _ h2 ih => exact ih ((h2.psk psk).1 hp).1
  | later _ _ _ ih => exact ih hp

/-! ## Success -/

theorem certIdentityMatch_iff {e a b} : certIdentityMatch e a b = true ↔ a.map e.identity = b.map e.identity := by
  unfold certIdentityMatch
  cases a <;> cases b <;> simp

theorem match_like {e cfg} {s : St} (hf : From cfg s.earlyDataParams) {v c} (hv : s.version = some v)
    (hc : s.cipher = some c) : ∃ b psk, earlyParametersMatch e s = .ok b ∧ cfg.cachedPsk = some psk ∧
      (b = true ↔ Spec.Like e psk s) := by
  obtain ⟨psk, p, h1, h2, h3, h4, h5, h6, h7⟩ := hf
  unfold earlyParametersMatch
  rw [hv, h2, hc]
  simp only [deref, Res.ok_bind]
  by_cases k1 : v ≠ p.version ∧ (v ≠ 0x0304 ∨ p.version ≠ 0xfb1a)
  · rw [if_pos k1]
    refine ⟨false, psk, rfl, h1, nofun, fun hl => ?_⟩
    rcases hl.version with hh | ⟨hh, hg⟩
    · rw [hv, ← h3] at hh; exact absurd (Option.some.inj hh) k1.1
    · rw [hv] at hh; rw [← h3] at hg
      rcases k1.2 with k | k
      · exact absurd (Option.some.inj hh) k
      · exact absurd hg k
  rw [if_neg k1]
  by_cases k2 : c ≠ p.cipher
  · rw [if_pos k2]
    refine ⟨false, psk, rfl, h1, nofun, fun hl => ?_⟩
    have := hl.cipher; rw [hc, ← h4] at this; exact absurd (Option.some.inj this) k2
  rw [if_neg k2]
  by_cases k3 : s.alpn ≠ p.alpn
  · rw [if_pos k3]
    refine ⟨false, psk, rfl, h1, nofun, fun hl => ?_⟩
    have := hl.alpn; rw [← h7] at this; exact absurd this k3
  rw [if_neg k3]
  by_cases k4 : certIdentityMatch e s.serverCert p.serverCert = true
  swap
  · rw [if_pos (by simpa using k4)]
    refine ⟨false, psk, rfl, h1, nofun, fun hl => ?_⟩
    have := hl.server; rw [← h5] at this; exact absurd (certIdentityMatch_iff.2 this) k4
  rw [if_neg (by simpa using k4)]
  by_cases k5 : certIdentityMatch e s.clientCert p.clientCert = true
  swap
  · rw [if_pos (by simpa using k5)]
    refine ⟨false, psk, rfl, h1, nofun, fun hl => ?_⟩
    have := hl.client; rw [← h6] at this; exact absurd (certIdentityMatch_iff.2 this) k5
  rw [if_neg (by simpa using k5)]
  refine ⟨true, psk, rfl, h1, fun _ => ?_, fun _ => rfl⟩
  simp only [ne_eq, Decidable.not_not] at k2 k3
  refine ⟨?_, by rw [hc, k2, h4], by rw [k3, h7], by rw [← h5]; exact certIdentityMatch_iff.1 k4,
    by rw [← h6]; exact certIdentityMatch_iff.1 k5⟩
  by_cases hq : v = p.version
  · exact .inl (by rw [hv, hq, h3])
  · refine .inr ?_
    have : v = 0x0304 ∧ p.version = 0xfb1a := by
      refine ⟨Classical.byContradiction fun hn => k1 ⟨hq, .inl hn⟩, Classical.byContradiction fun hn => k1 ⟨hq, .inr hn⟩⟩
    exact ⟨by rw [hv, this.1], by rw [← h3]; exact this.2⟩

/-- After accepted early data the connection is like the session. -/
theorem accepted_like {e : Setup} {cfg h g th} {s : St} (hl : Live cfg h g th .accepted s)
    (hp : ∀ psk, cfg.cachedPsk = some psk → ClientSM.Spec.PskAuth psk) :
    ∃ psk, cfg.cachedPsk = some psk ∧ s.version = some psk.version ∧ s.cipher = some psk.cipher ∧ s.alpn = psk.alpn ∧
      s.serverCert = psk.serverCert ∧ s.clientCert = psk.clientCert := by
  obtain ⟨_, _, _, _, _, _, _, _, _, _, _, _, hans, _⟩ := hl.encrypted
  rcases hans with ⟨-, -, ho, psk, hg, hw, hc, ha⟩ | ⟨h, _⟩ | ⟨h, _⟩
  · obtain ⟨newer, x, older, hh, hn⟩ := hl.fixed
    obtain ⟨m, -, -, -, -, -, -, -, -, -, hsel, -⟩ := hn.message
    have hch := hsel psk hg
    obtain ⟨p, hof⟩ := hn.offered
    have hcached := offered_cached hof hch.offered
    have hauth := hp psk hcached
    refine ⟨psk, hcached, by rw [hl.info.version, hch.version], by rw [hl.info.cipher, hc], ha.symm, ?_, ?_⟩
    · rcases hl.server with ⟨psk', h1, -, h2⟩ | ⟨h1, -⟩
      · rw [hg] at h1; cases h1; exact h2
      · exact absurd hauth (h1 psk hg)
    · obtain ⟨_, y, _, m', orig, -, -, -, hfl, -⟩ := hl.completed
      obtain ⟨_, _, auth, hau, -⟩ := hfl
      generalize s.clientCert = c at hau
      cases hau with
      | resumed h1 _ => rw [hg] at h1; cases h1; rfl
      | none h1 _ => exact absurd hauth (h1 psk hg)
      | empty h1 _ => exact absurd hauth (h1 psk hg)
      | cert h1 _ _ _ => exact absurd hauth (h1 psk hg)
  · cases h
  · cases h

end Fizz.Access

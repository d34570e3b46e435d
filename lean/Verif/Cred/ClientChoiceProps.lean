import Verif.Cred.ClientChoice
import Verif.Cred.Props2
import Mathlib.Data.List.Induction

/-! # C88: the client's choice of a certificate -/

namespace Fizz.ClientCert
open Fizz.Codec Fizz.CertManager Fizz.Cred

/-! ## Specification -/

/-- The certificates offered for scheme `s` by a history of calls, in order, with the override flag. -/
def offers (s : UInt16) (ops : List Add) : List (Cert × Bool) :=
  ops.filterMap fun a =>
    match a.cert with
    | none => none
    | some c => if s ∈ c.sigSchemes then some (c, a.override) else none

/-- Who owns a scheme after the history: the last overriding offer, or else the first offer. -/
def owner (os : List (Cert × Bool)) : Option Cert :=
  match (os.filter fun o => o.2).getLast? with
  | some o => some o.1
  | none => os.head?.map fun o => o.1

/-- Scheme `s` can be used towards this peer. -/
def Usable (m : Mgr) (peer : List UInt16) (s : UInt16) : Prop := m s ≠ none ∧ s ∈ peer

/-! ## Theorems -/

theorem addSchemes_get (c : Cert) (over : Bool) (s : UInt16) : ∀ (l : List UInt16) (m : Mgr),
    addSchemes c over l m s =
      if s ∈ l ∧ (m s = none ∨ over = true) then some c else m s := by
  intro l
  induction l with
  | nil => intro m; simp [addSchemes]
  | cons x xs ih =>
    intro m
    rw [addSchemes, ih]
    by_cases hx : s = x
    · subst hx
      by_cases hc : m s = none ∨ over = true
      · rw [if_pos hc]; simp [upd, hc]
      · rw [if_neg hc]; simp [hc]
    · have e : (if m x = none ∨ over = true then upd m x (some c) else m) s = m s := by
        split
        · simp [upd, hx]
        · rfl
      rw [e]
      simp [hx]

theorem addCert_get (m : Mgr) (c : Option Cert) (over : Bool) (s : UInt16) :
    addCert m c over s =
      match c with
      | none => m s
      | some c => if s ∈ c.sigSchemes ∧ (m s = none ∨ over = true) then some c else m s := by
  cases c with
  | none => rfl
  | some c => exact addSchemes_get c over s _ m

theorem run_snoc (m : Mgr) (ops : List Add) (a : Add) :
    run m (ops ++ [a]) = addCert (run m ops) a.cert a.override := by
  simp [run]

theorem owner_snoc (os : List (Cert × Bool)) (c : Cert) (b : Bool) :
    owner (os ++ [(c, b)]) = if owner os = none ∨ b = true then some c else owner os := by
  unfold owner
  cases b with
  | true => simp
  | false =>
    have e : (os ++ [(c, false)]).filter (fun o => o.2) = os.filter fun o => o.2 := by simp
    rw [e]
    cases h : (os.filter fun o => o.2).getLast? with
    | some o => simp
    | none =>
      cases os with
      | nil => simp
      | cons x xs => simp

/-- C88: after any history of additions (null pointers are ignored) the certificate used for a scheme
is the one of the last overriding addition that has this scheme, and if there is none, of the first
addition that has it. -/
theorem C88_store (ops : List Add) (s : UInt16) :
    run (fun _ => none) ops s = owner (offers s ops) := by
  induction ops using List.reverseRecOn with
  | nil => rfl
  | append_singleton ops a ih =>
    rw [run_snoc, addCert_get, ih]
    cases hc : a.cert with
    | none => simp [offers, hc]
    | some c =>
      by_cases hs : s ∈ c.sigSchemes
      · have e : offers s (ops ++ [a]) = offers s ops ++ [(c, a.override)] := by
          simp [offers, hc, hs]
        rw [e, owner_snoc]
        simp [hs]
      · have e : offers s (ops ++ [a]) = offers s ops := by simp [offers, hc, hs]
        rw [e]
        simp [hs]

/-- C88: the manager has certificates exactly if one with at least one scheme was added. -/
theorem C88_hasCerts (ops : List Add) :
    hasCerts (run (fun _ => none) ops) ↔
      ∃ a ∈ ops, ∃ c, a.cert = some c ∧ c.sigSchemes ≠ [] := by
  have key : ∀ s, run (fun _ => none) ops s ≠ none ↔ offers s ops ≠ [] := by
    intro s
    rw [C88_store]
    generalize offers s ops = os
    cases os with
    | nil => simp [owner]
    | cons o os =>
      unfold owner
      cases h : ((o :: os).filter fun o => o.2).getLast? <;> simp
  constructor
  · rintro ⟨s, hs⟩
    rw [key] at hs
    obtain ⟨⟨c, b⟩, hm⟩ := List.exists_mem_of_ne_nil _ hs
    simp only [offers, List.mem_filterMap] at hm
    obtain ⟨a, ha, h⟩ := hm
    cases hc : a.cert with
    | none => simp [hc] at h
    | some c' =>
      simp only [hc] at h
      split at h
      · rename_i hin
        exact ⟨a, ha, c', hc, fun hn => by rw [hn] at hin; cases hin⟩
      · cases h
  · rintro ⟨a, ha, c, hc, hn⟩
    obtain ⟨s, hs⟩ := List.exists_mem_of_ne_nil _ hn
    refine ⟨s, (key s).2 fun h => ?_⟩
    have hm : (c, a.override) ∈ offers s ops := by
      simp only [offers, List.mem_filterMap]
      exact ⟨a, ha, by simp [hc, hs]⟩
    rw [h] at hm; cases hm

/-- C88: the choice is the first of our schemes, in our order of preference, that we hold a
certificate for and the peer accepts, with the certificate of that scheme. -/
theorem C88_choice (m : Mgr) (supported peer : List UInt16) (c : Cert) (s : UInt16) :
    getCert m supported peer = some (c, s) ↔
      ∃ pre post, supported = pre ++ s :: post ∧ (∀ x ∈ pre, ¬ Usable m peer x) ∧
        m s = some c ∧ s ∈ peer := by
  induction supported with
  | nil => simp [getCert]
  | cons x xs ih =>
    have skip : ¬ Usable m peer x → (getCert m xs peer = some (c, s) ↔
        ∃ pre post, x :: xs = pre ++ s :: post ∧ (∀ x ∈ pre, ¬ Usable m peer x) ∧
        m s = some c ∧ s ∈ peer) := by
      intro hx
      rw [ih]
      constructor
      · rintro ⟨pre, post, rfl, h1, h2, h3⟩
        refine ⟨x :: pre, post, rfl, ?_, h2, h3⟩
        intro y hy
        rcases List.mem_cons.1 hy with rfl | hy
        · exact hx
        · exact h1 y hy
      · rintro ⟨pre, post, e, h1, h2, h3⟩
        cases pre with
        | nil =>
          cases e
          exact absurd ⟨by rw [h2]; simp, h3⟩ hx
        | cons y ys =>
          cases e
          exact ⟨ys, post, rfl, fun z hz => h1 z (List.mem_cons_of_mem _ hz), h2, h3⟩
    unfold getCert
    cases hm : m x with
    | none => exact skip fun h => h.1 hm
    | some d =>
      simp only
      by_cases hp : x ∈ peer
      · rw [if_pos hp]
        constructor
        · intro e
          cases Option.some.inj e
          exact ⟨[], xs, rfl, by simp, hm, hp⟩
        · rintro ⟨pre, post, e, h1, h2, h3⟩
          cases pre with
          | nil => cases e; rw [hm] at h2; cases h2; rfl
          | cons y ys =>
            cases e
            exact absurd ⟨by rw [hm]; simp, hp⟩ (h1 x (List.mem_cons_self ..))
      · rw [if_neg hp]
        exact skip fun h => hp h.2

/-- C88: no certificate is chosen exactly if there is no such scheme. -/
theorem C88_none (m : Mgr) (supported peer : List UInt16) :
    getCert m supported peer = none ↔ ∀ s ∈ supported, ¬ Usable m peer s := by
  induction supported with
  | nil => simp [getCert]
  | cons x xs ih =>
    unfold getCert
    cases hm : m x with
    | none => simp [ih, Usable, hm]
    | some d =>
      by_cases hp : x ∈ peer
      · simp [hp, Usable, hm]
      · simp [hp, ih, Usable]

/-- C88: whatever was added before, a chosen certificate is one that was added, it announces the
chosen scheme itself, and the scheme is supported by both sides. -/
theorem C88_sound (ops : List Add) (supported peer : List UInt16) (c : Cert) (s : UInt16)
    (h : getCert (run (fun _ => none) ops) supported peer = some (c, s)) :
    (∃ a ∈ ops, a.cert = some c) ∧ s ∈ c.sigSchemes ∧ s ∈ supported ∧ s ∈ peer := by
  obtain ⟨pre, post, rfl, -, hm, hp⟩ := (C88_choice _ _ _ _ _).1 h
  rw [C88_store] at hm
  have hmem : ∃ b, (c, b) ∈ offers s ops := by
    unfold owner at hm
    cases hl : ((offers s ops).filter fun o => o.2).getLast? with
    | some o =>
      rw [hl] at hm
      cases Option.some.inj hm
      have := List.mem_of_getLast? hl
      exact ⟨o.2, (List.mem_filter.1 this).1⟩
    | none =>
      rw [hl] at hm
      cases hh : (offers s ops).head? with
      | none => simp [hh] at hm
      | some o =>
        simp only [hh, Option.map_some, Option.some.injEq] at hm
        subst hm
        exact ⟨o.2, List.mem_of_head? hh⟩
  obtain ⟨b, hb⟩ := hmem
  simp only [offers, List.mem_filterMap] at hb
  obtain ⟨a, ha, e⟩ := hb
  cases hc : a.cert with
  | none => simp [hc] at e
  | some c' =>
    simp only [hc] at e
    split at e
    · rename_i hin
      cases e
      exact ⟨⟨a, ha, hc⟩, hin, by simp, hp⟩
    · cases e

/-! ## With delegated credentials -/

theorem dc_run (ops : List DcAdd) : ∀ m : DcMgr,
    (m.run ops).base = run m.base (ops.filterMap fun | .plain a => some a | _ => none) ∧
    (m.run ops).dc = run m.dc (ops.filterMap fun | .delegated a => some a | _ => none) := by
  induction ops with
  | nil => intro m; exact ⟨rfl, rfl⟩
  | cons o os ih =>
    intro m
    have := ih (m.add o)
    cases o <;> exact this

/-- C88: the two maps do not mix: the credentials are those added as credentials, the certificates
those added as certificates, whatever the order of the calls. -/
theorem C88_separate (ops : List DcAdd) (s : UInt16) :
    ((({} : DcMgr).run ops).base s =
      owner (offers s (ops.filterMap fun | .plain a => some a | _ => none))) ∧
    ((({} : DcMgr).run ops).dc s =
      owner (offers s (ops.filterMap fun | .delegated a => some a | _ => none))) := by
  obtain ⟨h1, h2⟩ := dc_run ops {}
  rw [h1, h2]
  exact ⟨C88_store _ s, C88_store _ s⟩

/-- C88: a client with delegated credentials uses one only if the server's request announces support,
and then the schemes of that announcement count and not those of signature_algorithms; otherwise and
when no credential matches, the choice is that of the plain certificates.  An announcement that cannot
be decoded is an error. -/
theorem C88_delegated (m : DcMgr) (supported peer : List UInt16) (exts : List Extension) :
    ((∀ e ∈ exts, e.extension_type ≠ 34) →
      m.getCert supported peer exts = .ok (getCert m.base supported peer)) ∧
    (∀ algs trailing pre post, exts = pre ++ ⟨34, Fizz.Cred.Spec.supportWire algs ++ trailing⟩ :: post →
      (∀ e ∈ pre, e.extension_type ≠ 34) → 2 * algs.length < 2 ^ 16 →
      m.getCert supported peer exts = .ok
        (match getCert m.dc supported algs with
         | some r => some r
         | none => getCert m.base supported peer)) ∧
    (∀ data pre post, exts = pre ++ ⟨34, data⟩ :: post → (∀ e ∈ pre, e.extension_type ≠ 34) →
      (∀ algs trailing, 2 * algs.length < 2 ^ 16 →
        data ≠ Fizz.Cred.Spec.supportWire algs ++ trailing) →
      ∃ f, m.getCert supported peer exts = .error f) := by
  refine ⟨fun h => ?_, ?_, ?_⟩
  · have hn : getDelegatedCredentialSupport exts = .ok none := by
      rw [getDelegatedCredentialSupport, getExtensionLoose_none, findExtension_none]; exact h
    unfold DcMgr.getCert
    rw [hn]
  · rintro algs trailing pre post rfl hp hl
    have hs : getDelegatedCredentialSupport
        (pre ++ ⟨34, Fizz.Cred.Spec.supportWire algs ++ trailing⟩ :: post) = .ok (some algs) := by
      rw [getDelegatedCredentialSupport, getExtensionLoose_some, find34 hp]
      exact ⟨_, trailing, rfl, readSupport_eq_ok.mpr ⟨hl, rfl⟩⟩
    unfold DcMgr.getCert
    rw [hs]
    simp only
    cases getCert m.dc supported algs <;> rfl
  · rintro data pre post rfl hp hbad
    have hs : ∃ f, getDelegatedCredentialSupport (pre ++ ⟨34, data⟩ :: post) = .error f := by
      rw [getDelegatedCredentialSupport, getExtensionLoose, find34 hp]
      simp only
      cases hr : readSupport data with
      | error f => exact ⟨f, rfl⟩
      | ok p =>
        obtain ⟨l, rest⟩ := p
        obtain ⟨h1, h2⟩ := readSupport_eq_ok.1 hr
        exact absurd h2 (hbad l rest h1)
    obtain ⟨f, hf⟩ := hs
    exact ⟨f, by unfold DcMgr.getCert; rw [hf]⟩

/-! ## A concrete case -/

/-- An ECDSA certificate, an RSA one, and an ECDSA replacement. -/
def ops : List Add :=
  [⟨some ⟨1, [97], [], [0x0403]⟩, false⟩, ⟨some ⟨2, [98], [], [0x0804, 0x0403]⟩, false⟩,
   ⟨none, true⟩, ⟨some ⟨3, [99], [], [0x0503]⟩, true⟩]

/-- The first ECDSA certificate stays; the peer takes only RSA, which is our second choice. -/
example : getCert (run (fun _ => none) ops) [0x0403, 0x0804] [0x0804] =
    some (⟨2, [98], [], [0x0804, 0x0403]⟩, 0x0804) ∧
    getCert (run (fun _ => none) ops) [0x0403, 0x0804] [0x0804, 0x0403] =
      some (⟨1, [97], [], [0x0403]⟩, 0x0403) ∧
    getCert (run (fun _ => none) ops) [0x0403] [0x0804] = none := by decide

/-- With a credential and an announcement of its scheme, the credential is chosen; without the
announcement the certificate. -/
example :
    let m := ({} : DcMgr).run [.plain ⟨some ⟨1, [97], [], [0x0403]⟩, false⟩,
      .delegated ⟨some ⟨9, [97], [], [0x0403]⟩, false⟩]
    m.getCert [0x0403] [0x0403] [⟨34, [0, 2, 4, 3]⟩] =
      .ok (some (⟨9, [97], [], [0x0403]⟩, 0x0403)) ∧
    m.getCert [0x0403] [0x0403] [] = .ok (some (⟨1, [97], [], [0x0403]⟩, 0x0403)) := by
  refine ⟨?_, rfl⟩
  exact (C88_delegated _ [0x0403] [0x0403] [⟨34, [0, 2, 4, 3]⟩]).2.1 [0x0403] [] [] [] rfl
    (by simp) (by decide)

end Fizz.ClientCert

import Verif.Server.CertManager
import Mathlib.Tactic.SplitIfs

/-!
# C15: certificate selection
-/

namespace Fizz.CertManager

/-! ## Specification -/

/-- An identity without its leading `*`, in lower case. -/
def canon : Bytes → Bytes
  | [] => []
  | c :: rest => if c = star then rest.map lower else (c :: rest).map lower

/-- Identities the manager takes: not empty, and what is left without a leading `*` is neither
empty nor a single dot and has no further `*`. -/
def Acceptable (ident : Bytes) : Prop :=
  ident ≠ [] ∧ canon ident ≠ [] ∧ canon ident ≠ [dot] ∧ star ∉ canon ident

instance (i : Bytes) : Decidable (Acceptable i) := inferInstanceAs (Decidable (_ ∧ _))

/-- The identities of a certificate: the primary, then the alternatives other than it. -/
def Cert.idents (c : Cert) : List Bytes := c.identity :: c.altIdentities.filter (· ≠ c.identity)

/-- The (identity, certificate) pairs taken, in order: each call registers the identities up to the
first unacceptable one. -/
def registered (calls : List (Cert × Bool)) : List (Bytes × Cert) :=
  calls.flatMap fun c => (c.1.idents.takeWhile (fun i => decide (Acceptable i))).map (·, c.1)

/-- The identity of the last certificate successfully added as the default. -/
def defaultIdentity : List (Cert × Bool) → Option Bytes :=
  fun calls => ((calls.filter fun c => c.2 && c.1.idents.all (fun i => decide (Acceptable i))).getLast?).map
    (·.1.identity)

/-- A certificate can be used with a scheme under a canonical name. -/
def Usable (calls : List (Cert × Bool)) (supported peer : List UInt16) (key : Bytes) (c : Cert)
    (s : UInt16) : Prop :=
  ∃ ident, (ident, c) ∈ registered calls ∧ canon ident = key ∧ s ∈ c.sigSchemes ∧ s ∈ supported ∧ s ∈ peer

/-- The name without its first label: from the first dot on. -/
def parent (name : Bytes) : Bytes := name.dropWhile (· ≠ dot)

/-! ## The state is the history -/

theorem getKeyFromIdent_eq (i : Bytes) :
    getKeyFromIdent i = if i = [] then .error (Failure.rt "empty identity") else .ok (canon i) := by
  cases i <;> simp [getKeyFromIdent, canon]

/-- The table with one more identity. -/
def register (m : Manager) (c : Cert) (i : Bytes) : Manager :=
  { m with certs := upd m.certs (canon i) (some (addSchemes c ((m.certs (canon i)).getD (fun _ => none)) c.sigSchemes)) }

theorem addCertIdentity_eq (m : Manager) (c : Cert) (i : Bytes) :
    (Acceptable i → addCertIdentity m c i = .ok (register m c i)) ∧
    (¬ Acceptable i → ∃ f, addCertIdentity m c i = .error f) := by
  unfold addCertIdentity
  rw [getKeyFromIdent_eq]
  by_cases h0 : i = []
  · simp [h0, Acceptable]
  · simp only [h0, if_false]
    constructor
    · rintro ⟨-, h1, h2, h3⟩
      rw [if_neg (by rintro (h | h | h) <;> contradiction)]
      rfl
    · intro h
      by_cases hc : canon i = [] ∨ canon i = [dot] ∨ star ∈ canon i
      · rw [if_pos hc]; exact ⟨_, rfl⟩
      · exact absurd ⟨h0, fun e => hc (.inl e), fun e => hc (.inr (.inl e)), fun e => hc (.inr (.inr e))⟩ h

theorem addSchemes_get (c : Cert) (ss : List UInt16) : ∀ (m : UInt16 → Option Cert) (s : UInt16),
    addSchemes c m ss s = (m s).or (if s ∈ ss then some c else none) := by
  induction ss with
  | nil => intro m s; simp [addSchemes]
  | cons t ss ih =>
    intro m s
    rw [addSchemes, ih]
    cases ht : m t with
    | some x =>
      simp only
      cases hs : m s with
      | some y => simp
      | none =>
        have : s ≠ t := by rintro rfl; rw [ht] at hs; cases hs
        simp [this]
    | none =>
      simp only [upd]
      by_cases h : s = t
      · subst h; simp [ht]
      · simp [h]

/-- What the table holds for a name and a scheme. -/
def lookup (m : Manager) (key : Bytes) (s : UInt16) : Option Cert := (m.certs key).bind (· s)

/-- The first registered pair for a name and scheme. -/
def firstFor (reg : List (Bytes × Cert)) (key : Bytes) (s : UInt16) : Option Cert :=
  (reg.find? fun p => decide (canon p.1 = key ∧ s ∈ p.2.sigSchemes)).map Prod.snd

theorem lookup_add (m : Manager) (c : Cert) (i : Bytes) (key : Bytes) (s : UInt16) :
    lookup (register m c i) key s =
    (lookup m key s).or (if canon i = key ∧ s ∈ c.sigSchemes then some c else none) := by
  simp only [lookup, upd, register]
  by_cases h : key = canon i
  · subst h
    simp only [if_true, Option.bind_some, addSchemes_get, true_and]
    cases m.certs (canon i) <;> simp
  · rw [if_neg h]
    have : ¬ canon i = key := fun e => h e.symm
    simp [this]

theorem firstFor_append (a b : List (Bytes × Cert)) (key : Bytes) (s : UInt16) :
    firstFor (a ++ b) key s = (firstFor a key s).or (firstFor b key s) := by
  simp only [firstFor, List.find?_append]
  cases List.find? (fun p => decide (canon p.1 = key ∧ s ∈ p.2.sigSchemes)) a <;> simp

theorem addIdents_spec (c : Cert) (is : List Bytes) : ∀ (m : Manager) (reg : List (Bytes × Cert)),
    (∀ k s, lookup m k s = firstFor reg k s) →
    (∀ k s, lookup (addIdents m c is).1 k s =
      firstFor (reg ++ (is.takeWhile (fun i => decide (Acceptable i))).map (·, c)) k s) ∧
    (addIdents m c is).1.default_ = m.default_ ∧
    (addIdents m c is).1.identMap = m.identMap ∧
    ((∃ f, (addIdents m c is).2 = .error f) ↔ ∃ i ∈ is, ¬ Acceptable i) := by
  induction is with
  | nil => intro m reg h; simp [addIdents, h]
  | cons i is ih =>
    intro m reg h
    rw [addIdents]
    by_cases ha : Acceptable i
    · rw [(addCertIdentity_eq m c i).1 ha]
      simp only
      obtain ⟨g1, g2, g3, g4⟩ := ih (register m c i) (reg ++ [(i, c)]) (by
        intro k s
        rw [lookup_add, h, firstFor_append]
        congr 1
        simp only [firstFor, List.find?_cons, List.find?_nil]
        by_cases hh : canon i = k ∧ s ∈ c.sigSchemes <;> simp [hh])
      refine ⟨?_, g2, g3, ?_⟩
      · intro k s
        rw [g1]
        simp [ha]
      · rw [g4]; simp [ha]
    · obtain ⟨f, hf⟩ := (addCertIdentity_eq m c i).2 ha
      rw [hf]
      simp [ha, h]

theorem build_lookup (rcalls : List (Cert × Bool)) :
    (∀ k s, lookup (build rcalls.reverse) k s = firstFor (registered rcalls.reverse) k s) ∧
    (build rcalls.reverse).default_ = ((defaultIdentity rcalls.reverse).map canon).getD [] := by
  induction rcalls with
  | nil => exact ⟨fun _ _ => rfl, rfl⟩
  | cons cd rcalls ih =>
    obtain ⟨c, d⟩ := cd
    rw [List.reverse_cons]
    have hb : build (rcalls.reverse ++ [(c, d)]) = (addCert (build rcalls.reverse) c d).1 := by
      simp [build]
    have hr : registered (rcalls.reverse ++ [(c, d)]) = registered rcalls.reverse ++
        (c.idents.takeWhile (fun i => decide (Acceptable i))).map (·, c) := by
      simp [registered]
    rw [hb, hr]
    generalize build rcalls.reverse = m at ih
    generalize hcs : rcalls.reverse = calls at ih
    obtain ⟨ih1, ih2⟩ := ih
    obtain ⟨g1, g2, g3, g4⟩ := addIdents_spec c c.idents m _ ih1
    have hd : defaultIdentity (calls ++ [(c, d)]) =
        if (d && c.idents.all (fun i => decide (Acceptable i))) = true then some c.identity
        else defaultIdentity calls := by
      simp only [defaultIdentity, List.filter_append]
      by_cases hh : (d && c.idents.all (fun i => decide (Acceptable i))) = true
      · simp [hh]
      · simp [hh]
    rw [hd]
    unfold addCert
    change (∀ k s, lookup (match addIdents m c c.idents with
      | (mgr', .error f) => (mgr', .error f)
      | (mgr', .ok ()) => _ : Manager × Res Unit).1 k s = _) ∧ (match addIdents m c c.idents with
      | (mgr', .error f) => (mgr', .error f)
      | (mgr', .ok ()) => _ : Manager × Res Unit).1.default_ = _
    rcases hai : addIdents m c c.idents with ⟨m', res⟩
    rw [hai] at g1 g2 g3 g4
    simp only at g1 g2 g3 g4
    cases res with
    | error f =>
      have : ∃ i ∈ c.idents, ¬ Acceptable i := g4.mp ⟨f, rfl⟩
      have hall : c.idents.all (fun i => decide (Acceptable i)) = false := by
        rw [List.all_eq_false]
        obtain ⟨i, h1, h2⟩ := this
        exact ⟨i, h1, by simpa using h2⟩
      simp only [hall, Bool.and_false, Bool.false_eq_true, if_false]
      exact ⟨g1, by rw [g2, ih2]⟩
    | ok u =>
      have hall : ∀ i ∈ c.idents, Acceptable i := by
        intro i hi
        apply Classical.byContradiction
        intro hn
        obtain ⟨f, hf⟩ := g4.mpr ⟨i, hi, hn⟩
        cases hf
      have hall' : c.idents.all (fun i => decide (Acceptable i)) = true := by
        rw [List.all_eq_true]; intro i hi; simpa using hall i hi
      have hid := hall c.identity (by simp [Cert.idents])
      simp only [hall', Bool.and_true]
      cases d with
      | true =>
        simp only [if_true, getKeyFromIdent_eq, if_neg hid.1]
        exact ⟨g1, by simp⟩
      | false =>
        simp only [Bool.false_eq_true, if_false]
        exact ⟨g1, by rw [g2, ih2]⟩

/-- The table after any sequence of calls: the first registered certificate wins. -/
theorem lookup_build (calls : List (Cert × Bool)) (k : Bytes) (s : UInt16) :
    lookup (build calls) k s = firstFor (registered calls) k s := by
  have := (build_lookup calls.reverse).1 k s
  rwa [List.reverse_reverse] at this

theorem default_build (calls : List (Cert × Bool)) :
    (build calls).default_ = ((defaultIdentity calls).map canon).getD [] := by
  have := (build_lookup calls.reverse).2
  rwa [List.reverse_reverse] at this

theorem findCert_eq (m : Manager) (key : Bytes) (supported peer : List UInt16) :
    findCert m key supported peer =
      (supported.find? (fun s => (lookup m key s).isSome && decide (s ∈ peer))).bind
        (fun s => (lookup m key s).map (·, s)) := by
  unfold findCert lookup
  cases m.certs key with
  | none => simp
  | some mm =>
    simp only [Option.bind_some]
    cases List.find? (fun s => (mm s).isSome && decide (s ∈ peer)) supported <;> rfl

theorem firstFor_some {reg : List (Bytes × Cert)} {key : Bytes} {s : UInt16} {c : Cert}
    (h : firstFor reg key s = some c) :
    ∃ ident before after, reg = before ++ (ident, c) :: after ∧ canon ident = key ∧ s ∈ c.sigSchemes ∧
      ∀ p ∈ before, ¬ (canon p.1 = key ∧ s ∈ p.2.sigSchemes) := by
  unfold firstFor at h
  rw [Option.map_eq_some_iff] at h
  obtain ⟨⟨i, c'⟩, h1, rfl⟩ := h
  rw [List.find?_eq_some_iff_append] at h1
  obtain ⟨h2, a, b, h3, h4⟩ := h1
  simp only [decide_eq_true_eq] at h2
  exact ⟨i, a, b, h3, h2.1, h2.2, fun p hp hc => by have := h4 p hp; simp [hc] at this⟩

theorem firstFor_isSome {reg : List (Bytes × Cert)} {key : Bytes} {s : UInt16} :
    (firstFor reg key s).isSome = true ↔ ∃ p ∈ reg, canon p.1 = key ∧ s ∈ p.2.sigSchemes := by
  simp [firstFor]

/-- What `findCert` finds: the server's most preferred scheme for which a certificate is registered
under the name and which the peer takes, and the first certificate registered for both. -/
theorem findCert_some (calls : List (Cert × Bool)) (key : Bytes) (supported peer : List UInt16)
    (c : Cert) (s : UInt16) (h : findCert (build calls) key supported peer = some (c, s)) :
    Usable calls supported peer key c s ∧
    (∃ better worse, supported = better ++ s :: worse ∧
      ∀ s' ∈ better, ∀ c', ¬ Usable calls supported peer key c' s') ∧
    (∃ ident before after, registered calls = before ++ (ident, c) :: after ∧ canon ident = key ∧
      ∀ p ∈ before, ¬ (canon p.1 = key ∧ s ∈ p.2.sigSchemes)) := by
  rw [findCert_eq] at h
  rw [Option.bind_eq_some_iff] at h
  obtain ⟨s', h1, h2⟩ := h
  rw [Option.map_eq_some_iff] at h2
  obtain ⟨c', h2, h3⟩ := h2
  simp only [Prod.mk.injEq] at h3
  obtain ⟨rfl, rfl⟩ := h3
  rw [lookup_build] at h2
  obtain ⟨ident, before, after, k1, k2, k3, k4⟩ := firstFor_some h2
  rw [List.find?_eq_some_iff_append] at h1
  obtain ⟨g1, better, worse, g2, g3⟩ := h1
  simp only [Bool.and_eq_true, decide_eq_true_eq] at g1
  refine ⟨⟨ident, by rw [k1]; simp, k2, k3, by rw [g2]; simp, g1.2⟩,
    ⟨better, worse, g2, ?_⟩, ⟨ident, before, after, k1, k2, k4⟩⟩
  rintro s'' hs c'' ⟨i, u1, u2, u3, u4, u5⟩
  have := g3 s'' hs
  simp only [Bool.not_eq_true', Bool.and_eq_false_iff, decide_eq_false_iff_not] at this
  rcases this with h | h
  · have hh : (firstFor (registered calls) key s'').isSome = true :=
      firstFor_isSome.mpr ⟨(i, c''), u1, u2, u3⟩
    rw [lookup_build] at h
    rw [h] at hh; cases hh
  · exact h u5

theorem findCert_none (calls : List (Cert × Bool)) (key : Bytes) (supported peer : List UInt16) :
    findCert (build calls) key supported peer = none ↔
      ∀ c s, ¬ Usable calls supported peer key c s := by
  rw [findCert_eq]
  constructor
  · rintro h c s ⟨i, u1, u2, u3, u4, u5⟩
    have hh : (lookup (build calls) key s).isSome = true := by
      rw [lookup_build]; exact firstFor_isSome.mpr ⟨(i, c), u1, u2, u3⟩
    cases hf : supported.find? (fun s => (lookup (build calls) key s).isSome && decide (s ∈ peer)) with
    | none =>
      rw [List.find?_eq_none] at hf
      exact hf s u4 (by simp [hh, u5])
    | some s' =>
      have := List.find?_some hf
      simp only [Bool.and_eq_true] at this
      obtain ⟨c', hc'⟩ := Option.isSome_iff_exists.mp this.1
      simp [hf, hc'] at h
  · intro h
    rw [Option.bind_eq_none_iff]
    intro s hs
    exfalso
    have h1 := List.find?_some hs
    simp only [Bool.and_eq_true, decide_eq_true_eq] at h1
    rw [lookup_build] at h1
    obtain ⟨p, hp, k1, k2⟩ := firstFor_isSome.mp h1.1
    exact h p.2 s ⟨p.1, hp, k1, k2, List.mem_of_find?_eq_some hs, h1.2⟩

/-! ## C15 -/

/-- C15: exact selection order.  For a name `sni`, a certificate usable under the exact name is
returned if there is one; otherwise, if the name has a dot, one usable under its parent domain;
otherwise one usable under the default identity; otherwise none.  Names are compared in lower
case. -/
theorem C15_selection (calls : List (Cert × Bool)) (sni : Option Bytes) (supported peer : List UInt16) :
    (∀ name, sni = some name → (∃ c s, Usable calls supported peer (name.map lower) c s) →
      ∃ c s, getCert (build calls) sni supported peer = some (c, s, .direct) ∧
        Usable calls supported peer (name.map lower) c s) ∧
    (∀ name, sni = some name → (∀ c s, ¬ Usable calls supported peer (name.map lower) c s) →
      dot ∈ name.map lower → (∃ c s, Usable calls supported peer (parent (name.map lower)) c s) →
      ∃ c s, getCert (build calls) sni supported peer = some (c, s, .direct) ∧
        Usable calls supported peer (parent (name.map lower)) c s) ∧
    ((∀ name, sni = some name → (∀ c s, ¬ Usable calls supported peer (name.map lower) c s) ∧
        (dot ∈ name.map lower → ∀ c s, ¬ Usable calls supported peer (parent (name.map lower)) c s)) →
      (∀ c s t, getCert (build calls) sni supported peer = some (c, s, t) → t = .default ∧
        Usable calls supported peer (((defaultIdentity calls).map canon).getD []) c s) ∧
      (getCert (build calls) sni supported peer = none ↔
        ∀ c s, ¬ Usable calls supported peer (((defaultIdentity calls).map canon).getD []) c s)) := by
  refine ⟨?_, ?_, ?_⟩
  · rintro name rfl hex
    cases hf : findCert (build calls) (name.map lower) supported peer with
    | none => obtain ⟨c, s, h⟩ := hex; exact absurd h ((findCert_none _ _ _ _).mp hf c s)
    | some cs =>
      refine ⟨cs.1, cs.2, ?_, (findCert_some _ _ _ _ _ _ hf).1⟩
      simp only [getCert, hf]
  · rintro name rfl hno hd hex
    have h1 := (findCert_none calls _ supported peer).mpr hno
    cases hf : findCert (build calls) (parent (name.map lower)) supported peer with
    | none => obtain ⟨c, s, h⟩ := hex; exact absurd h ((findCert_none _ _ _ _).mp hf c s)
    | some cs =>
      refine ⟨cs.1, cs.2, ?_, (findCert_some _ _ _ _ _ _ hf).1⟩
      unfold parent at hf
      simp only [getCert, h1, hf, if_pos hd]
  · intro hno
    have hdirect : getCert (build calls) sni supported peer =
        match findCert (build calls) (build calls).default_ supported peer with
        | some (c, s) => some (c, s, .default)
        | none => none := by
      cases sni with
      | none => rfl
      | some name =>
        obtain ⟨h1, h2⟩ := hno name rfl
        have e1 := (findCert_none calls _ supported peer).mpr h1
        by_cases hd : dot ∈ name.map lower
        · have e2 := (findCert_none calls _ supported peer).mpr (h2 hd)
          unfold parent at e2
          simp only [getCert, e1, if_pos hd, e2]
          cases findCert (build calls) (build calls).default_ supported peer <;> rfl
        · simp only [getCert, e1, if_neg hd]
          cases findCert (build calls) (build calls).default_ supported peer <;> rfl
    rw [hdirect, default_build]
    cases hf : findCert (build calls) (((defaultIdentity calls).map canon).getD []) supported peer with
    | none =>
      exact ⟨by simp, by simp only [true_iff]; exact (findCert_none _ _ _ _).mp hf⟩
    | some cs =>
      obtain ⟨c, s⟩ := cs
      have hu := (findCert_some _ _ _ _ _ _ hf).1
      refine ⟨?_, ?_⟩
      · intro c' s' t h
        simp only [Option.some.injEq, Prod.mk.injEq] at h
        obtain ⟨rfl, rfl, rfl⟩ := h
        exact ⟨rfl, hu⟩
      · simp only [reduceCtorEq, false_iff]
        intro h; exact h c s hu

/-- How an identity may match a name: the same name, or a wildcard `*.domain` and one label in
front of `.domain`.  Names in lower case. -/
def Covers (ident name : Bytes) : Prop :=
  (ident.map lower = name.map lower) ∨
  ∃ domain label, ident = star :: dot :: domain ∧ dot ∉ label ∧
    name.map lower = label ++ dot :: domain.map lower

/-- A proper identity: `*.domain`, or a name that begins with neither `*` nor a dot. -/
def Proper (ident : Bytes) : Prop :=
  (∃ domain, ident = star :: dot :: domain) ∨ (∃ c rest, ident = c :: rest ∧ c ≠ star ∧ c ≠ dot)

theorem lower_dot (b : UInt8) : lower b = dot ↔ b = dot := by
  unfold lower dot
  constructor
  · intro h
    split at h
    · rename_i hb
      have h1 : 65 ≤ b.toNat := UInt8.le_iff_toNat_le.mp hb.1
      have h2 : b.toNat ≤ 90 := UInt8.le_iff_toNat_le.mp hb.2
      have h3 := congrArg UInt8.toNat h
      rw [UInt8.toNat_add] at h3
      have : (32 : UInt8).toNat = 32 := rfl
      have : (46 : UInt8).toNat = 46 := rfl
      omega
    · exact h
  · rintro rfl; decide

/-- C15: a certificate returned as a direct match was added under an identity that covers the name
the client asked for: the same name up to case or a single-label wildcard.  (For proper identities;
the manager also takes names with a leading dot and treats them as wildcards.) -/
theorem C15_direct_covers (calls : List (Cert × Bool)) (sni : Option Bytes)
    (supported peer : List UInt16) (c : Cert) (s : UInt16)
    (h : getCert (build calls) sni supported peer = some (c, s, .direct)) :
    ∃ name ident, sni = some name ∧ (ident, c) ∈ registered calls ∧
      (Proper ident → Covers ident name) := by
  have key : ∃ name, sni = some name ∧
      (findCert (build calls) (name.map lower) supported peer = some (c, s) ∨
       (dot ∈ name.map lower ∧
        findCert (build calls) ((name.map lower).dropWhile (· ≠ dot)) supported peer = some (c, s))) := by
    cases sni with
    | none =>
      simp only [getCert] at h
      split at h <;> simp at h
    | some name =>
      refine ⟨name, rfl, ?_⟩
      simp only [getCert] at h
      cases hf : findCert (build calls) (name.map lower) supported peer with
      | some r =>
        rw [hf] at h
        simp only [Option.some.injEq, Prod.mk.injEq, and_true] at h
        left; rw [← h.1, ← h.2]
      | none =>
        rw [hf] at h
        simp only at h
        by_cases hd : dot ∈ name.map lower
        · rw [if_pos hd] at h
          cases hf2 : findCert (build calls) ((name.map lower).dropWhile (· ≠ dot)) supported peer with
          | some r =>
            rw [hf2] at h
            simp only [Option.some.injEq, Prod.mk.injEq, and_true] at h
            right; exact ⟨hd, by rw [← h.1, ← h.2]⟩
          | none =>
            rw [hf2] at h
            simp only at h
            split at h <;> simp at h
        · rw [if_neg hd] at h
          simp only at h
          split at h <;> simp at h
  obtain ⟨name, rfl, hk⟩ := key
  rcases hk with hk | ⟨hd, hk⟩
  · obtain ⟨⟨ident, u1, u2, -⟩, -⟩ := findCert_some _ _ _ _ _ _ hk
    refine ⟨name, ident, rfl, u1, ?_⟩
    rintro (⟨domain, rfl⟩ | ⟨b, rest, rfl, hs, hdt⟩)
    · right
      refine ⟨domain, [], rfl, by simp, ?_⟩
      rw [← u2]
      simp [canon, show lower dot = dot from by decide]
    · left
      rw [← u2]; simp [canon, hs]
  · obtain ⟨⟨ident, u1, u2, -⟩, -⟩ := findCert_some _ _ _ _ _ _ hk
    refine ⟨name, ident, rfl, u1, ?_⟩
    have hsplit := List.takeWhile_append_dropWhile (p := fun b => decide (b ≠ dot)) (l := name.map lower)
    have hlab : dot ∉ (name.map lower).takeWhile (fun b => decide (b ≠ dot)) := by
      intro hm
      have := List.all_eq_true.mp List.all_takeWhile dot hm
      simp at this
    rintro (⟨domain, rfl⟩ | ⟨b, rest, rfl, hs, hdt⟩)
    · right
      refine ⟨domain, _, rfl, hlab, ?_⟩
      have e : canon (star :: dot :: domain) = dot :: domain.map lower := by
        simp [canon, show lower dot = dot from by decide]
      rw [e] at u2
      rw [u2]
      exact hsplit.symm
    · exfalso
      have e : canon (b :: rest) = lower b :: rest.map lower := by simp [canon, hs]
      rw [e] at u2
      have hne : (name.map lower).dropWhile (fun b => decide (b ≠ dot)) ≠ [] := by rw [← u2]; simp
      have := List.head_dropWhile_not (fun b => decide (b ≠ dot)) hne
      simp only [← u2, List.head_cons, decide_eq_false_iff_not, ne_eq] at this
      exact hdt ((lower_dot b).mp (Classical.not_not.mp this))

/-- C15: the scheme returned is supported by the server, by the peer and by the certificate, whatever
the kind of match. -/
theorem C15_scheme (calls : List (Cert × Bool)) (sni : Option Bytes) (supported peer : List UInt16)
    (c : Cert) (s : UInt16) (t : MatchType)
    (h : getCert (build calls) sni supported peer = some (c, s, t)) :
    s ∈ supported ∧ s ∈ peer ∧ s ∈ c.sigSchemes ∧
    ∃ key, findCert (build calls) key supported peer = some (c, s) := by
  have key : ∃ key, findCert (build calls) key supported peer = some (c, s) := by
    simp only [getCert] at h
    split at h
    · rename_i c' s' hd
      simp only [Option.some.injEq, Prod.mk.injEq] at h
      obtain ⟨rfl, rfl, -⟩ := h
      split at hd
      · cases hd
      · rename_i name
        split at hd
        · rename_i r hr
          cases hd; exact ⟨_, hr⟩
        · split at hd
          · exact ⟨_, hd⟩
          · cases hd
    · split at h
      · rename_i c' s' hd
        simp only [Option.some.injEq, Prod.mk.injEq] at h
        obtain ⟨rfl, rfl, -⟩ := h
        exact ⟨_, hd⟩
      · cases h
  obtain ⟨k, hk⟩ := key
  obtain ⟨⟨i, -, -, u3, u4, u5⟩, -⟩ := findCert_some _ _ _ _ _ _ hk
  exact ⟨u4, u5, u3, k, hk⟩

/-- C15: under one name the server's scheme preference decides, and for the scheme chosen the
certificate added first. -/
theorem C15_first_added (calls : List (Cert × Bool)) (key : Bytes) (supported peer : List UInt16)
    (c : Cert) (s : UInt16) (h : findCert (build calls) key supported peer = some (c, s)) :
    (∃ better worse, supported = better ++ s :: worse ∧
      ∀ s' ∈ better, ∀ c', ¬ Usable calls supported peer key c' s') ∧
    (∃ ident before after, registered calls = before ++ (ident, c) :: after ∧ canon ident = key ∧
      ∀ p ∈ before, ¬ (canon p.1 = key ∧ s ∈ p.2.sigSchemes)) :=
  ⟨(findCert_some _ _ _ _ _ _ h).2.1, (findCert_some _ _ _ _ _ _ h).2.2⟩

/-- A call that did not throw. -/
def Clean (c : Cert) : Prop := ∀ i ∈ c.idents, Acceptable i

theorem addCert_identMap (m : Manager) (c : Cert) (d : Bool) :
    (Clean c → (addCert m c d).1.identMap = match m.identMap c.identity with
      | some _ => m.identMap
      | none => upd m.identMap c.identity (some c)) ∧
    (¬ Clean c → (addCert m c d).1.identMap = m.identMap) := by
  have g3 : ∀ (is : List Bytes) (m : Manager), (addIdents m c is).1.identMap = m.identMap := by
    intro is
    induction is with
    | nil => intro m; rfl
    | cons i is ih =>
      intro m
      rw [addIdents]
      by_cases ha : Acceptable i
      · rw [(addCertIdentity_eq m c i).1 ha]; exact ih (register m c i)
      · obtain ⟨f, hf⟩ := (addCertIdentity_eq m c i).2 ha
        rw [hf]
  have g4 : ∀ (is : List Bytes) (m : Manager), (∃ f, (addIdents m c is).2 = .error f) ↔
      ∃ i ∈ is, ¬ Acceptable i := by
    intro is
    induction is with
    | nil => intro m; simp [addIdents]
    | cons i is ih =>
      intro m
      rw [addIdents]
      by_cases ha : Acceptable i
      · rw [(addCertIdentity_eq m c i).1 ha]; simp only; rw [ih]; simp [ha]
      · obtain ⟨f, hf⟩ := (addCertIdentity_eq m c i).2 ha
        rw [hf]; simp [ha]
  have hid := g3 c.idents m
  have herr := g4 c.idents m
  unfold addCert
  change (_ → (match addIdents m c c.idents with
      | (mgr', .error f) => (mgr', .error f)
      | (mgr', .ok ()) => _ : Manager × Res Unit).1.identMap = _) ∧
    (_ → (match addIdents m c c.idents with
      | (mgr', .error f) => (mgr', .error f)
      | (mgr', .ok ()) => _ : Manager × Res Unit).1.identMap = _)
  rcases hai : addIdents m c c.idents with ⟨m', res⟩
  rw [hai] at hid herr
  simp only at hid herr
  cases res with
  | error f =>
    obtain ⟨i, h1, h2⟩ := herr.mp ⟨f, rfl⟩
    exact ⟨fun hc => absurd (hc i h1) h2, fun _ => hid⟩
  | ok u =>
    have hclean : Clean c := by
      intro i hi
      apply Classical.byContradiction
      intro hn
      obtain ⟨f, hf⟩ := herr.mpr ⟨i, hi, hn⟩
      cases hf
    refine ⟨fun _ => ?_, fun h => absurd hclean h⟩
    have hne := (hclean c.identity (by simp [Cert.idents])).1
    cases d with
    | true =>
      simp only [if_true, getKeyFromIdent_eq, if_neg hne]
      rw [hid]
      cases m.identMap c.identity <;> rfl
    | false =>
      simp only [Bool.false_eq_true, if_false]
      rw [hid]
      cases m.identMap c.identity <;> rfl

/-- C15: looking a certificate up by identity (as ticket decoding does) returns the first one added
without an error whose primary identity is exactly the string asked for. -/
theorem C15_by_identity (calls : List (Cert × Bool)) (ident : Bytes) (c : Cert) :
    getCertByIdentity (build calls) ident = some c ↔
      ∃ before d after, calls = before ++ (c, d) :: after ∧ Clean c ∧ c.identity = ident ∧
        ∀ p ∈ before, ¬ (Clean p.1 ∧ p.1.identity = ident) := by
  have key : ∀ (calls : List (Cert × Bool)) (m : Manager),
      (calls.foldl (fun m c => (addCert m c.1 c.2).1) m).identMap ident = some c ↔
        m.identMap ident = some c ∨ (m.identMap ident = none ∧
          ∃ before d after, calls = before ++ (c, d) :: after ∧ Clean c ∧ c.identity = ident ∧
            ∀ p ∈ before, ¬ (Clean p.1 ∧ p.1.identity = ident)) := by
    intro calls
    induction calls with
    | nil => intro m; simp
    | cons p calls ih =>
      intro m
      obtain ⟨x, d⟩ := p
      rw [List.foldl_cons, ih]
      simp only
      by_cases hx : Clean x ∧ x.identity = ident
      · rw [(addCert_identMap m x d).1 hx.1, hx.2]
        cases hm : m.identMap ident with
        | some y => simp [hm]
        | none =>
          simp only [upd, if_true, Option.some.injEq, reduceCtorEq, false_and, or_false, false_or,
            true_and]
          constructor
          · rintro rfl
            exact ⟨[], d, calls, rfl, hx.1, hx.2, by simp⟩
          · rintro ⟨before, d', after, h1, h2, h3, h4⟩
            cases before with
            | nil => cases h1; rfl
            | cons y before =>
              cases h1
              exact absurd hx (h4 (x, d) List.mem_cons_self)
      · have e : (addCert m x d).1.identMap ident = m.identMap ident := by
          by_cases hc : Clean x
          · rw [(addCert_identMap m x d).1 hc]
            have hne : ¬ ident = x.identity := fun e => hx ⟨hc, e.symm⟩
            cases m.identMap x.identity with
            | some _ => rfl
            | none => simp [upd, hne]
          · rw [(addCert_identMap m x d).2 hc]
        rw [e]
        apply or_congr_right
        apply and_congr_right
        intro _
        constructor
        · rintro ⟨before, d', after, rfl, h2, h3, h4⟩
          refine ⟨(x, d) :: before, d', after, rfl, h2, h3, ?_⟩
          intro p hp
          rcases List.mem_cons.mp hp with rfl | hp
          · exact hx
          · exact h4 p hp
        · rintro ⟨before, d', after, h1, h2, h3, h4⟩
          cases before with
          | nil => cases h1; exact absurd ⟨h2, h3⟩ hx
          | cons y before =>
            cases h1
            exact ⟨before, d', after, rfl, h2, h3, fun p hp => h4 p (List.mem_cons_of_mem _ hp)⟩
  have := key calls {}
  simpa [getCertByIdentity, build] using this

/-- C15, limitation found while proving: an identity with a leading dot acts as a wildcard, so
`Proper` is needed in `C15_direct_covers`. -/
theorem C15_leading_dot_is_wildcard :
    ∃ (c : Cert) (name : Bytes), ¬ Covers c.identity name ∧ c.altIdentities = [] ∧
      getCert (build [(c, false)]) (some name) [0x0403] [0x0403] = some (c, 0x0403, .direct) := by
  refine ⟨⟨0, [46, 97], [], [0x0403]⟩, [98, 46, 97], ?_, rfl, by decide⟩
  rintro (h | ⟨d, l, h, -⟩)
  · revert h; decide
  · cases h

section
private def c1 : Cert := ⟨1, [42, 46, 97, 46, 98], [], [0x0403, 0x0804]⟩  -- *.a.b
private def c2 : Cert := ⟨2, [119, 46, 97, 46, 98], [[120]], [0x0804]⟩      -- w.a.b, x
private def c3 : Cert := ⟨3, [100], [], [0x0403]⟩                           -- d

-- "W.A.b": exact match preferred; "v.a.b": wildcard; "zz": default
example : getCert (build [(c1, false), (c2, false), (c3, true)]) (some [87, 46, 65, 46, 98])
    [0x0403, 0x0804] [0x0804, 0x0403] = some (c2, 0x0804, .direct) := by decide
example : getCert (build [(c1, false), (c2, false), (c3, true)]) (some [118, 46, 97, 46, 98])
    [0x0403, 0x0804] [0x0804, 0x0403] = some (c1, 0x0403, .direct) := by decide
example : getCert (build [(c1, false), (c2, false), (c3, true)]) (some [122, 122])
    [0x0403, 0x0804] [0x0804, 0x0403] = some (c3, 0x0403, .default) := by decide
end

end Fizz.CertManager

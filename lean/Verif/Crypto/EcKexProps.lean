import Verif.Crypto.EcKex

/-! # C87: every group of the default factory: agreement, sizes, unsupported groups -/

namespace Fizz.Kex

/-! ## Specification: what the libraries are assumed to do -/

/-- Diffie-Hellman on a curve: encoding a public key and decoding it gives it back, encodings have the
fixed length, and deriving commutes. -/
structure Ec.Correct (e : Ec) (len : Nat) : Prop where
  roundtrip : ∀ k, e.valid k = true → e.oct2point (e.point2oct (e.pub k)) = some (e.pub k)
  onCurve : ∀ k, e.valid k = true → e.onCurve (e.pub k) = true
  length : ∀ k, e.valid k = true → (e.point2oct (e.pub k)).length = len
  comm : ∀ a b, e.valid a = true → e.valid b = true → e.derive a (e.pub b) = e.derive b (e.pub a)

/-- Key generation and derivation never fail. -/
structure Ec.Total (e : Ec) : Prop where
  keygen : ∀ r, ∃ k, e.keygen r = some k ∧ e.valid k = true
  derive : ∀ a b, e.valid a = true → e.valid b = true → (e.derive a (e.pub b)).isSome = true

/-- X25519 with 32-byte keys and commuting multiplication. -/
structure Curve.Correct (cv : Curve) : Prop where
  length : ∀ r, (cv.base (cv.privOf r)).length = 32
  comm : ∀ a b, cv.mult (cv.privOf a) (cv.base (cv.privOf b)) =
    cv.mult (cv.privOf b) (cv.base (cv.privOf a))

/-- A KEM with the given sizes that decapsulates what was encapsulated. -/
structure Kem.Correct (k : Kem) (a b : Nat) : Prop where
  pkLen : k.lengthPublicKey = a
  ctLen : k.lengthCiphertext = b
  keypair : ∀ r pk sk, k.keypair r = some (pk, sk) → pk.length = a
  encaps : ∀ r pk sk, k.keypair r = some (pk, sk) → ∀ r' ct ss, k.encaps r' pk = some (ct, ss) →
    ct.length = b ∧ k.decaps sk ct = some ss

/-- The sizes of FIPS 203 and the coordinate sizes of the curves. -/
structure Lib.Correct (l : Lib) : Prop where
  p256 : l.p256.Correct 65
  p384 : l.p384.Correct 97
  p521 : l.p521.Correct 133
  x25519 : l.x25519.Correct
  kem768 : ∀ k, l.kem768 = some k → k.Correct 1184 1088
  kem512 : ∀ k, l.kem512 = some k → k.Correct 800 768

/-- None of the primitives fails on honest input. -/
structure Lib.Total (l : Lib) : Prop where
  p256 : l.p256.Total
  p384 : l.p384.Total
  p521 : l.p521.Total
  x25519 : ∀ a b, (l.x25519.mult (l.x25519.privOf a)
    (l.x25519.base (l.x25519.privOf b))).isSome = true
  kem : ∀ k, l.kem768 = some k ∨ l.kem512 = some k →
    (∀ r, (k.keypair r).isSome = true) ∧ ∀ r pk, pk.length = k.lengthPublicKey →
      (k.encaps r pk).isSome = true

/-- The size of the share a client and a server send for a group. -/
def shareSize : Nat → Role → Option Nat
  | 23, _ => some 65
  | 24, _ => some 97
  | 25, _ => some 133
  | 29, _ => some 32
  | 4588, .client => some 1216
  | 4588, .server => some 1120
  | 65026, .client => some 832
  | 65026, .server => some 800
  | _, _ => none

/-- Two fresh objects that belong together: the shares have the fixed sizes `lc`, `ls`, and whenever
the exchange comes to an end on both sides, the secrets are equal. -/
structure Matched (C S : Kex) (c : C.State) (s : S.State) (lc ls : Nat) : Prop where
  clientShare : ∀ g c1 p, C.generateKeyPair c g = .ok c1 → C.getKeyShare c1 = .ok p →
    p.length = lc
  clientExpected : ∀ g c1, C.generateKeyPair c g = .ok c1 → C.expected c1 = ls
  serverExpected : ∀ g s1, S.generateKeyPair s g = .ok s1 → S.expected s1 = lc
  serverShare : ∀ g s1 u p k s2 q, S.generateKeyPair s g = .ok s1 →
    S.generateSharedSecret s1 u p = .ok (k, s2) → S.getKeyShare s2 = .ok q →
    ∀ g' c1, C.generateKeyPair c g' = .ok c1 → C.getKeyShare c1 = .ok p → q.length = ls
  agree : ∀ g g' u u' c1 s1 s2 c2 p q kc ks, C.generateKeyPair c g = .ok c1 →
    C.getKeyShare c1 = .ok p → S.generateKeyPair s g' = .ok s1 →
    S.generateSharedSecret s1 u p = .ok (ks, s2) → S.getKeyShare s2 = .ok q →
    C.generateSharedSecret c1 u' q = .ok (kc, c2) → kc = ks

/-! ## Components -/

theorem x25519_gen (cv : Curve) (s s1) (r : Bytes)
    (h : (x25519 cv).generateKeyPair s r = .ok s1) :
    s1 = some (cv.privOf r, cv.base (cv.privOf r)) := by
  cases h; rfl

theorem x25519_secret (cv : Curve) (priv pub r share k : Bytes) (s)
    (h : (x25519 cv).generateSharedSecret (some (priv, pub)) r share = .ok (k, s)) :
    share.length = 32 ∧ cv.mult priv share = some k ∧ s = some (priv, pub) := by
  simp only [x25519] at h
  split at h
  · cases h
  · rename_i hl
    split at h
    · cases h
    · rename_i k' hk
      cases h; exact ⟨by simpa using hl, hk, rfl⟩

theorem x25519_matched (cv : Curve) (hc : cv.Correct) :
    Matched (x25519 cv) (x25519 cv) none none 32 32 where
  clientShare := by
    intro g c1 p h hp
    cases x25519_gen cv _ _ _ h; cases hp; exact hc.length g
  clientExpected := by intro g c1 _; rfl
  serverExpected := by intro g s1 _; rfl
  serverShare := by
    intro g s1 u p k s2 q h h2 hq g' c1 _ _
    cases x25519_gen cv _ _ _ h
    obtain ⟨-, -, rfl⟩ := x25519_secret cv _ _ _ _ _ _ h2
    cases hq; exact hc.length g
  agree := by
    intro g g' u u' c1 s1 s2 c2 p q kc ks h1 hp h2 h3 hq h4
    cases x25519_gen cv _ _ _ h1; cases x25519_gen cv _ _ _ h2
    cases hp
    obtain ⟨-, e1, rfl⟩ := x25519_secret cv _ _ _ _ _ _ h3
    cases hq
    obtain ⟨-, e2, -⟩ := x25519_secret cv _ _ _ _ _ _ h4
    exact Option.some.inj (e2.symm.trans ((hc.comm g g').trans e1))

theorem ec_gen (e : Ec) (n : Nat) (s s1) (r : Bytes)
    (h : (ecKex e n).generateKeyPair s r = .ok s1) :
    ∃ k, e.keygen r = some k ∧ e.valid k = true ∧ s1 = some k := by
  simp only [ecKex] at h
  split at h
  · cases h
  · rename_i k hk
    simp only [Ec.validateECKey] at h
    split at h
    · rename_i hv
      cases h; exact ⟨k, hk, hv, rfl⟩
    · cases h

theorem ec_share (e : Ec) (n : Nat) (k : e.Priv) (p : Bytes)
    (h : (ecKex e n).getKeyShare (some k) = .ok p) : p = e.point2oct (e.pub k) := by
  simp only [ecKex, Ec.encodeECPublicKey] at h
  split at h
  · cases h
  · cases h; rfl

theorem ec_secret (e : Ec) (n : Nat) (k : e.Priv) (r share z : Bytes) (s)
    (h : (ecKex e n).generateSharedSecret (some k) r share = .ok (z, s)) :
    ∃ p, e.oct2point share = some p ∧ e.onCurve p = true ∧ e.derive k p = some z ∧ s = some k := by
  simp only [ecKex, Ec.decodeECPublicKey, Res.bind_eq_ok] at h
  obtain ⟨p, hp, h⟩ := h
  split at hp
  · cases hp
  · rename_i p' hp'
    split at hp
    · rename_i hon
      cases hp
      split at h
      · cases h
      · rename_i z' hz
        cases h; exact ⟨_, hp', hon, hz, rfl⟩
    · cases hp

theorem ec_matched (e : Ec) (n : Nat) (hc : e.Correct n) :
    Matched (ecKex e n) (ecKex e n) none none n n where
  clientShare := by
    intro g c1 p h hp
    obtain ⟨k, -, hv, rfl⟩ := ec_gen e n _ _ _ h
    rw [ec_share e n k p hp]; exact hc.length k hv
  clientExpected := by intro g c1 _; rfl
  serverExpected := by intro g s1 _; rfl
  serverShare := by
    intro g s1 u p k s2 q h h2 hq g' c1 _ _
    obtain ⟨k, -, hv, rfl⟩ := ec_gen e n _ _ _ h
    obtain ⟨-, -, -, -, rfl⟩ := ec_secret e n _ _ _ _ _ h2
    rw [ec_share e n k q hq]; exact hc.length k hv
  agree := by
    intro g g' u u' c1 s1 s2 c2 p q kc ks h1 hp h2 h3 hq h4
    obtain ⟨k, -, hv, rfl⟩ := ec_gen e n _ _ _ h1
    obtain ⟨k', -, hv', rfl⟩ := ec_gen e n _ _ _ h2
    have ep := ec_share e n k p hp
    obtain ⟨x, hx, -, dx, rfl⟩ := ec_secret e n _ _ _ _ _ h3
    have eq := ec_share e n k' q hq
    obtain ⟨y, hy, -, dy, -⟩ := ec_secret e n _ _ _ _ _ h4
    rw [ep, hc.roundtrip k hv] at hx
    rw [eq, hc.roundtrip k' hv'] at hy
    cases Option.some.inj hx
    cases Option.some.inj hy
    rw [hc.comm k k' hv hv'] at dy
    exact Option.some.inj (dy.symm.trans dx)

theorem oqsClient_gen (km : Kem) (s s1) (r : Bytes)
    (h : (oqsClient km).generateKeyPair s r = .ok s1) :
    ∃ pk sk, km.keypair r = some (pk, sk) ∧ s1 = some (sk, pk) := by
  simp only [oqsClient] at h
  split at h
  · cases h
  · rename_i pk sk hk
    cases h; exact ⟨pk, sk, hk, rfl⟩

theorem oqs_matched (km : Kem) (a b : Nat) (hc : km.Correct a b) :
    Matched (oqsClient km) (oqsServer km) none none a b where
  clientShare := by
    intro g c1 p h hp
    obtain ⟨pk, sk, hk, rfl⟩ := oqsClient_gen km _ _ _ h
    cases hp; exact hc.keypair _ _ _ hk
  clientExpected := by intro g c1 _; exact hc.ctLen
  serverExpected := by intro g s1 _; exact hc.pkLen
  serverShare := by
    intro g s1 u p k s2 q h h2 hq g' c1 h3 hp
    obtain ⟨pk, sk, hk, rfl⟩ := oqsClient_gen km _ _ _ h3
    cases hp
    obtain ⟨-, c, hc', hs⟩ := (C36_component ⟨id, id, fun _ _ => none⟩ km [] [] [] [] p u k s1).2.2 s2 h2
    rw [hq] at hs
    cases hs
    exact (hc.encaps _ _ _ hk _ _ _ hc').1
  agree := by
    intro g g' u u' c1 s1 s2 c2 p q kc ks h1 hp h2 h3 hq h4
    obtain ⟨pk, sk, hk, rfl⟩ := oqsClient_gen km _ _ _ h1
    cases hp
    obtain ⟨-, c, hc', hs⟩ :=
      (C36_component ⟨id, id, fun _ _ => none⟩ km [] [] [] [] p u ks s1).2.2 s2 h3
    rw [hq] at hs
    cases hs
    obtain ⟨-, hd⟩ :=
      (C36_component ⟨id, id, fun _ _ => none⟩ km [] [] sk p q u' kc none).2.1 c2 h4
    rw [(hc.encaps _ _ _ hk _ _ _ hc').2] at hd
    exact (Option.some.inj hd).symm

theorem hybrid_gen (A B : Kex) (s s1 : A.State × B.State) (r : A.Rand × B.Rand)
    (h : (hybrid A B).generateKeyPair s r = .ok s1) :
    A.generateKeyPair s.1 r.1 = .ok s1.1 ∧ B.generateKeyPair s.2 r.2 = .ok s1.2 := by
  simp only [hybrid, Res.bind_eq_ok] at h
  obtain ⟨a, ha, b, hb, h⟩ := h
  split at h
  · cases h
  · cases h; exact ⟨ha, hb⟩

theorem hybrid_matched {CA SA CB SB : Kex} {ca sa cb sb} {a b a' b' : Nat}
    (hA : Matched CA SA ca sa a b) (hB : Matched CB SB cb sb a' b') :
    Matched (hybrid CA CB) (hybrid SA SB) (ca, cb) (sa, sb) (a + a') (b + b') where
  clientShare := by
    intro g c1 p h hp
    obtain ⟨h1, h2⟩ := hybrid_gen _ _ _ _ _ h
    obtain ⟨x, y, hx, hy, rfl⟩ := (C36_share CA CB c1.1 c1.2 p).1 hp
    rw [List.length_append, hA.clientShare _ _ _ h1 hx, hB.clientShare _ _ _ h2 hy]
  clientExpected := by
    intro g c1 h
    obtain ⟨h1, h2⟩ := hybrid_gen _ _ _ _ _ h
    show CA.expected c1.1 + CB.expected c1.2 = _
    rw [hA.clientExpected _ _ h1, hB.clientExpected _ _ h2]
  serverExpected := by
    intro g c1 h
    obtain ⟨h1, h2⟩ := hybrid_gen _ _ _ _ _ h
    show SA.expected c1.1 + SB.expected c1.2 = _
    rw [hA.serverExpected _ _ h1, hB.serverExpected _ _ h2]
  serverShare := by
    intro g s1 u p k s2 q h h2 hq g' c1 h3 hp
    obtain ⟨g1, g2⟩ := hybrid_gen _ _ _ _ _ h
    obtain ⟨c1', c2'⟩ := hybrid_gen _ _ _ _ _ h3
    obtain ⟨x, y, hx, hy, rfl⟩ := (C36_share CA CB c1.1 c1.2 p).1 hp
    obtain ⟨x', y', k1, k2, e, lx, ly, k1h, k2h, -⟩ :=
      (C36_split SA SB s1.1 s2.1 s1.2 s2.2 u.1 u.2 (x ++ y) k).1 h2
    obtain ⟨rfl, rfl⟩ := List.append_inj e (by
      rw [lx, hA.serverExpected _ _ g1, hA.clientShare _ _ _ c1' hx])
    obtain ⟨v, w, hv, hw, rfl⟩ := (C36_share SA SB s2.1 s2.2 q).1 hq
    rw [List.length_append, hA.serverShare _ _ _ _ _ _ _ g1 k1h hv _ _ c1' hx,
      hB.serverShare _ _ _ _ _ _ _ g2 k2h hw _ _ c2' hy]
  agree := by
    intro g g' u u' c1 s1 s2 c2 p q kc ks h1 hp h2 h3 hq h4
    obtain ⟨c1', c2'⟩ := hybrid_gen _ _ _ _ _ h1
    obtain ⟨g1, g2⟩ := hybrid_gen _ _ _ _ _ h2
    obtain ⟨x, y, hx, hy, rfl⟩ := (C36_share CA CB c1.1 c1.2 p).1 hp
    obtain ⟨x', y', k1, k2, e, lx, ly, k1h, k2h, rfl⟩ :=
      (C36_split SA SB s1.1 s2.1 s1.2 s2.2 u.1 u.2 (x ++ y) ks).1 h3
    obtain ⟨rfl, rfl⟩ := List.append_inj e (by
      rw [lx, hA.serverExpected _ _ g1, hA.clientShare _ _ _ c1' hx])
    obtain ⟨v, w, hv, hw, rfl⟩ := (C36_share SA SB s2.1 s2.2 q).1 hq
    obtain ⟨v', w', j1, j2, e, lv, lw, j1h, j2h, rfl⟩ :=
      (C36_split CA CB c1.1 c2.1 c1.2 c2.2 u'.1 u'.2 (v ++ w) kc).1 h4
    obtain ⟨rfl, rfl⟩ := List.append_inj e (by
      rw [lv, hA.clientExpected _ _ c1', hA.serverShare _ _ _ _ _ _ _ g1 k1h hv _ _ c1' hx])
    rw [hA.agree _ _ _ _ _ _ _ _ _ _ _ _ c1' hx g1 k1h hv j1h,
      hB.agree _ _ _ _ _ _ _ _ _ _ _ _ c2' hy g2 k2h hw j2h]

/-! ## The factory -/

/-- The cases of the factory. -/
inductive Case (l : Lib) : Nat → Obj → Obj → Prop
  | p256 : Case l 23 ⟨ecKex l.p256 65, none⟩ ⟨ecKex l.p256 65, none⟩
  | p384 : Case l 24 ⟨ecKex l.p384 97, none⟩ ⟨ecKex l.p384 97, none⟩
  | p521 : Case l 25 ⟨ecKex l.p521 133, none⟩ ⟨ecKex l.p521 133, none⟩
  | x25519 : Case l 29 (x25519Obj l) (x25519Obj l)
  | kem768 (k : Kem) (h : l.kem768 = some k) (ho : l.haveOqs = true) :
      Case l 4588 (hybridObj ⟨oqsClient k, none⟩ (x25519Obj l))
        (hybridObj ⟨oqsServer k, none⟩ (x25519Obj l))
  | kem512 (k : Kem) (h : l.kem512 = some k) (ho : l.haveOqs = true) :
      Case l 65026 (hybridObj ⟨oqsClient k, none⟩ (x25519Obj l))
        (hybridObj ⟨oqsServer k, none⟩ (x25519Obj l))

theorem make_cases (l : Lib) (g : Nat) (C S : Obj) (hC : makeKeyExchange l g .client = .ok C)
    (hS : makeKeyExchange l g .server = .ok S) : Case l g C S := by
  unfold makeKeyExchange at hC hS
  by_cases h1 : g = 23
  · subst h1; cases hC; cases hS; exact .p256
  rw [if_neg h1] at hC hS
  by_cases h2 : g = 24
  · subst h2; cases hC; cases hS; exact .p384
  rw [if_neg h2] at hC hS
  by_cases h3 : g = 25
  · subst h3; cases hC; cases hS; exact .p521
  rw [if_neg h3] at hC hS
  by_cases h4 : g = 29
  · subst h4; cases hC; cases hS; exact .x25519
  rw [if_neg h4] at hC hS
  by_cases h5 : g = 4588 ∧ l.haveOqs = true
  · rw [if_pos h5] at hC hS
    obtain ⟨rfl, ho⟩ := h5
    cases hk : l.kem768 with
    | none => simp [pqMake, oqsMake, hk] at hC
    | some k =>
      simp only [pqMake, oqsMake, hk, Except.ok.injEq] at hC hS
      subst hC hS
      exact .kem768 k hk ho
  rw [if_neg h5] at hC hS
  by_cases h6 : g = 65026 ∧ l.haveOqs = true
  · rw [if_pos h6] at hC hS
    obtain ⟨rfl, ho⟩ := h6
    cases hk : l.kem512 with
    | none => simp [pqMake, oqsMake, hk] at hC
    | some k =>
      simp only [pqMake, oqsMake, hk, Except.ok.injEq] at hC hS
      subst hC hS
      exact .kem512 k hk ho
  rw [if_neg h6] at hC
  cases hC

theorem make_matched (l : Lib) (hl : l.Correct) (g : Nat) (C S : Obj)
    (hC : makeKeyExchange l g .client = .ok C) (hS : makeKeyExchange l g .server = .ok S) :
    ∃ lc ls, shareSize g .client = some lc ∧ shareSize g .server = some ls ∧
      Matched C.kex S.kex C.init S.init lc ls := by
  cases make_cases l g C S hC hS with
  | p256 => exact ⟨65, 65, rfl, rfl, ec_matched _ _ hl.p256⟩
  | p384 => exact ⟨97, 97, rfl, rfl, ec_matched _ _ hl.p384⟩
  | p521 => exact ⟨133, 133, rfl, rfl, ec_matched _ _ hl.p521⟩
  | x25519 => exact ⟨32, 32, rfl, rfl, x25519_matched _ hl.x25519⟩
  | kem768 k hk ho =>
    exact ⟨1216, 1120, rfl, rfl,
      hybrid_matched (oqs_matched k _ _ (hl.kem768 k hk)) (x25519_matched _ hl.x25519)⟩
  | kem512 k hk ho =>
    exact ⟨832, 800, rfl, rfl,
      hybrid_matched (oqs_matched k _ _ (hl.kem512 k hk)) (x25519_matched _ hl.x25519)⟩

/-- C87: for every group, with libraries that compute Diffie-Hellman and KEMs correctly: whatever
randomness the two sides draw, if the exchange between a client object and a server object of the
default factory comes to an end, both sides hold the same secret. -/
theorem C87_agree (l : Lib) (hl : l.Correct) (g : Nat) (C S : Obj)
    (hC : makeKeyExchange l g .client = .ok C) (hS : makeKeyExchange l g .server = .ok S)
    (genC useC : C.kex.Rand) (genS useS : S.kex.Rand) (kc ks : Bytes)
    (h : exchange C.kex S.kex C.init S.init genC useC genS useS = .ok (kc, ks)) : kc = ks := by
  obtain ⟨lc, ls, -, -, hm⟩ := make_matched l hl g C S hC hS
  simp only [exchange, doKex, Res.bind_eq_ok, Res.pure_eq, Except.ok.injEq] at h
  obtain ⟨c1, h1, p, hp, ⟨q, k⟩, ⟨s1, h2, ⟨k', s2⟩, h3, q', hq, e⟩, ⟨k2, c2⟩, h4, e'⟩ := h
  cases e
  cases e'
  exact hm.agree _ _ _ _ _ _ _ _ _ _ _ _ h1 hp h2 h3 hq h4

/-- C87: the sizes on the wire: the client's share of a group has the size of the group's client share,
and the server's answer to it the size of the server share. -/
theorem C87_sizes (l : Lib) (hl : l.Correct) (g : Nat) (C S : Obj)
    (hC : makeKeyExchange l g .client = .ok C) (hS : makeKeyExchange l g .server = .ok S)
    (genC : C.kex.Rand) (genS useS : S.kex.Rand) (c1) (p q k : Bytes)
    (h1 : C.kex.generateKeyPair C.init genC = .ok c1) (h2 : C.kex.getKeyShare c1 = .ok p) :
    shareSize g .client = some p.length ∧
    (doKex S.kex S.init genS useS p = .ok (q, k) → shareSize g .server = some q.length) := by
  obtain ⟨lc, ls, e1, e2, hm⟩ := make_matched l hl g C S hC hS
  refine ⟨by rw [hm.clientShare _ _ _ h1 h2, e1], fun h => ?_⟩
  simp only [doKex, Res.bind_eq_ok, Res.pure_eq, Except.ok.injEq] at h
  obtain ⟨s1, h3, ⟨k', s2⟩, h4, q', hq, e⟩ := h
  cases e
  rw [hm.serverShare _ _ _ _ _ _ _ h3 h4 hq _ _ h1 h2, e2]

theorem ec_succeeds (e : Ec) (n : Nat) (hn : 0 < n) (hc : e.Correct n) (ht : e.Total)
    (rc rs u u' : Bytes) :
    ∃ k, Succeeds (ecKex e n) (ecKex e n) none none rc u rs u' k k := by
  obtain ⟨a, ha, va⟩ := ht.keygen rc
  obtain ⟨b, hb, vb⟩ := ht.keygen rs
  obtain ⟨k, hk⟩ := Option.isSome_iff_exists.1 (ht.derive a b va vb)
  have hk' : e.derive b (e.pub a) = some k := by rw [← hc.comm a b va vb]; exact hk
  refine ⟨k, some a, e.point2oct (e.pub a), some b, some b, e.point2oct (e.pub b), some a,
    ?_, ?_, ?_, ?_, ?_, ?_, hc.length a va, hc.length b vb, hn, hn⟩
  · simp [ecKex, ha, Ec.validateECKey, va]
  · simp only [ecKex, Ec.encodeECPublicKey]
    rw [if_neg (by rw [hc.length a va]; omega)]
  · simp [ecKex, hb, Ec.validateECKey, vb]
  · simp [ecKex, Ec.decodeECPublicKey, hc.roundtrip a va, hc.onCurve a va, hk']
  · simp only [ecKex, Ec.encodeECPublicKey]
    rw [if_neg (by rw [hc.length b vb]; omega)]
  · simp [ecKex, Ec.decodeECPublicKey, hc.roundtrip b vb, hc.onCurve b vb, hk]

theorem x25519_succeeds' (cv : Curve) (hc : cv.Correct)
    (ht : ∀ a b, (cv.mult (cv.privOf a) (cv.base (cv.privOf b))).isSome = true)
    (rc rs u u' : Bytes) :
    ∃ k, Succeeds (x25519 cv) (x25519 cv) none none rc u rs u' k k := by
  obtain ⟨k, hk⟩ := Option.isSome_iff_exists.1 (ht rc rs)
  exact ⟨k, x25519_succeeds cv hc.length rc rs u u' k hk ((hc.comm rs rc).trans hk) none none⟩

theorem oqs_succeeds' (km : Kem) (a b : Nat) (ha : 0 < a) (hb : 0 < b) (hc : km.Correct a b)
    (hk : ∀ r, (km.keypair r).isSome = true)
    (he : ∀ r pk, pk.length = km.lengthPublicKey → (km.encaps r pk).isSome = true)
    (rc rs u u' : Bytes) :
    ∃ k, Succeeds (oqsClient km) (oqsServer km) none none rc u u' rs k k := by
  obtain ⟨⟨pk, sk⟩, h1⟩ := Option.isSome_iff_exists.1 (hk rc)
  have hl : pk.length = km.lengthPublicKey := by rw [hc.pkLen]; exact hc.keypair _ _ _ h1
  obtain ⟨⟨ct, ss⟩, h2⟩ := Option.isSome_iff_exists.1 (he rs pk hl)
  obtain ⟨h3, h4⟩ := hc.encaps _ _ _ h1 _ _ _ h2
  exact ⟨ss, oqs_succeeds km rc rs u u' pk sk ct ss h1 hl h2 (by rw [hc.ctLen]; exact h3) h4
    (by rw [hc.pkLen]; exact ha) (by rw [hc.ctLen]; exact hb) none none⟩

theorem pq_succeeds (l : Lib) (km : Kem) (a b : Nat) (ha : 0 < a) (hb : 0 < b) (hl : l.Correct)
    (ht : l.Total) (hc : km.Correct a b) (hm : l.kem768 = some km ∨ l.kem512 = some km)
    (genC useC : Bytes × Bytes) (genS useS : Bytes × Bytes) :
    ∃ k, exchange (hybridObj ⟨oqsClient km, none⟩ (x25519Obj l)).kex
      (hybridObj ⟨oqsServer km, none⟩ (x25519Obj l)).kex (none, none) (none, none) genC useC genS
      useS = .ok (k, k) := by
  obtain ⟨rc, rc'⟩ := genC
  obtain ⟨uc, uc'⟩ := useC
  obtain ⟨rs, rs'⟩ := genS
  obtain ⟨us, us'⟩ := useS
  obtain ⟨k1, h1⟩ := oqs_succeeds' km a b ha hb hc (ht.kem km hm).1 (ht.kem km hm).2 rc us uc rs
  obtain ⟨k2, h2⟩ := x25519_succeeds' l.x25519 hl.x25519 ht.x25519 rc' rs' uc' us'
  exact ⟨k1 ++ k2, (C36_agree _ _ _ _ h1 h2).2⟩

/-- C87: and with primitives that do not fail the exchange always comes to an end: for every group the
factory makes, and all randomness, the two sides get one common secret. -/
theorem C87_succeeds (l : Lib) (hl : l.Correct) (ht : l.Total) (g : Nat) (C S : Obj)
    (hC : makeKeyExchange l g .client = .ok C) (hS : makeKeyExchange l g .server = .ok S)
    (genC useC : C.kex.Rand) (genS useS : S.kex.Rand) :
    ∃ k, exchange C.kex S.kex C.init S.init genC useC genS useS = .ok (k, k) := by
  cases make_cases l g C S hC hS with
  | p256 =>
    obtain ⟨k, h⟩ := ec_succeeds _ 65 (by decide) hl.p256 ht.p256 genC genS useC useS
    exact ⟨k, h.exchange⟩
  | p384 =>
    obtain ⟨k, h⟩ := ec_succeeds _ 97 (by decide) hl.p384 ht.p384 genC genS useC useS
    exact ⟨k, h.exchange⟩
  | p521 =>
    obtain ⟨k, h⟩ := ec_succeeds _ 133 (by decide) hl.p521 ht.p521 genC genS useC useS
    exact ⟨k, h.exchange⟩
  | x25519 =>
    obtain ⟨k, h⟩ := x25519_succeeds' _ hl.x25519 ht.x25519 genC genS useC useS
    exact ⟨k, h.exchange⟩
  | kem768 km hk ho =>
    exact pq_succeeds l km 1184 1088 (by decide) (by decide) hl ht (hl.kem768 km hk) (.inl hk)
      genC useC genS useS
  | kem512 km hk ho =>
    exact pq_succeeds l km 800 768 (by decide) (by decide) hl ht (hl.kem512 km hk) (.inr hk)
      genC useC genS useS

/-- C87: exactly the four classical groups, and with liboqs (whose algorithms exist) the two hybrids,
can be made; every other group is an error, for both roles. -/
theorem C87_groups (l : Lib) (g : Nat) (role : Role) :
    (∃ o, makeKeyExchange l g role = .ok o) ↔
      g ∈ [23, 24, 25, 29] ∨ (l.haveOqs = true ∧
        ((g = 4588 ∧ l.kem768.isSome = true) ∨ (g = 65026 ∧ l.kem512.isSome = true))) := by
  unfold makeKeyExchange
  by_cases h1 : g = 23
  · subst h1; simp
  by_cases h2 : g = 24
  · subst h2; simp
  by_cases h3 : g = 25
  · subst h3; simp
  by_cases h4 : g = 29
  · subst h4; simp
  simp only [h1, h2, h3, h4, if_false, List.mem_cons, List.not_mem_nil, or_self, false_or]
  have pq : ∀ k : Option Kem, (∃ o, pqMake l k role = .ok o) ↔ k.isSome = true := by
    intro k
    cases k with
    | none => simp [pqMake, oqsMake]
    | some k => cases role <;> simp [pqMake, oqsMake]
  by_cases ho : l.haveOqs = true
  · by_cases h5 : g = 4588
    · subst h5; simp [ho, pq]
    · by_cases h6 : g = 65026
      · subst h6; simp [ho, pq]
      · simp [h5, h6]
  · simp [ho]

/-- C87, what a peer's share must be: on the NIST curves a share is accepted exactly if OpenSSL decodes
it to a point on the curve and the derivation succeeds.  Neither its length nor its form is compared to
the group's share size. -/
theorem C87_ec_accept (e : Ec) (n : Nat) (k : e.Priv) (r share z : Bytes) :
    (ecKex e n).generateSharedSecret (some k) r share = .ok (z, some k) ↔
      ∃ p, e.oct2point share = some p ∧ e.onCurve p = true ∧ e.derive k p = some z := by
  constructor
  · intro h
    obtain ⟨p, h1, h2, h3, -⟩ := ec_secret e n k r share z _ h
    exact ⟨p, h1, h2, h3⟩
  · rintro ⟨p, h1, h2, h3⟩
    simp [ecKex, Ec.decodeECPublicKey, h1, h2, h3]

/-- C87: a share that is off the curve or does not decode is refused, in every state. -/
theorem C87_ec_reject (e : Ec) (n : Nat) (s : Option e.Priv) (r share : Bytes)
    (h : ∀ p, e.oct2point share = some p → e.onCurve p = false) :
    ∃ msg, (ecKex e n).generateSharedSecret s r share = .error (Failure.rt msg) := by
  simp only [ecKex, Ec.decodeECPublicKey]
  cases hp : e.oct2point share with
  | none => exact ⟨_, rfl⟩
  | some p => exact ⟨_, by simp only [h p hp]; rfl⟩

/-- C87: before a key pair is generated (or one of another curve set) there is no share and no
secret. -/
theorem C87_ec_no_key (e : Ec) (n : Nat) (r share : Bytes) (k : e.Priv) :
    (ecKex e n).getKeyShare none = .error (Failure.rt "Key not initialized") ∧
    (∃ msg, (ecKex e n).generateSharedSecret none r share = .error (Failure.rt msg)) ∧
    ((∃ s, e.setPrivateKey k = .ok s) ↔ e.valid k = true) := by
  refine ⟨rfl, ?_, ?_⟩
  · simp only [ecKex, Ec.decodeECPublicKey]
    cases hp : e.oct2point share with
    | none => exact ⟨_, rfl⟩
    | some p =>
      by_cases ho : e.onCurve p = true
      · exact ⟨_, by simp only [ho, if_true, Res.ok_bind]; rfl⟩
      · exact ⟨_, by simp only [if_neg ho, Res.error_bind]; rfl⟩
  · simp only [Ec.setPrivateKey, Ec.validateECKey]
    by_cases h : e.valid k = true <;> simp [h]

/-- C87: so if OpenSSL decodes two strings to one point (the compressed, hybrid and uncompressed forms
of SEC 1), both are accepted as shares and give the same secret, although TLS 1.3 has only the
uncompressed form. -/
theorem C87_forms (e : Ec) (n : Nat) (s : Option e.Priv) (r share share' : Bytes)
    (h : e.oct2point share = e.oct2point share') :
    (ecKex e n).generateSharedSecret s r share = (ecKex e n).generateSharedSecret s r share' := by
  simp only [ecKex, Ec.decodeECPublicKey, h]

/-! ## A concrete library -/

/-- A toy curve: points and keys are bytes, the group is multiplication of bytes; the encoding is `4`
and `n` copies of the point, and the decoder also takes the short form `2` and one copy. -/
def toyEc (n : Nat) : Ec where
  Priv := UInt8
  Point := UInt8
  keygen r := some (r.headD 1)
  valid _ := true
  pub k := k
  oct2point b := if b.length = n + 1 ∨ b.length = 2 then b[1]? else none
  onCurve _ := true
  point2oct p := 4 :: List.replicate n p
  derive k p := some [k * p]

def toyKemOf (a b : Nat) : Kem where
  lengthPublicKey := a
  lengthCiphertext := b
  keypair r := some (List.replicate a (r.headD 0), [r.headD 0])
  encaps r pk := some (List.replicate b (r.headD 0 + pk.headD 0), [r.headD 0])
  decaps sk ct := some [ct.headD 0 - sk.headD 0]

def toyLib : Lib where
  p256 := toyEc 64
  p384 := toyEc 96
  p521 := toyEc 132
  x25519 := toyCurve
  haveOqs := true
  kem768 := some (toyKemOf 1184 1088)
  kem512 := some (toyKemOf 800 768)

theorem toyEc_correct (n : Nat) (hn : 0 < n) : (toyEc n).Correct (n + 1) where
  roundtrip := by
    intro (k : UInt8) _
    obtain ⟨m, rfl⟩ : ∃ m, n = m + 1 := ⟨n - 1, by omega⟩
    exact (if_pos (.inl (show (4 :: List.replicate (m + 1) k).length = m + 1 + 1 by simp))).trans rfl
  onCurve := fun _ _ => rfl
  length := by
    intro (k : UInt8) _
    show (4 :: List.replicate n k).length = n + 1
    simp
  comm := by
    intro (a : UInt8) (b : UInt8) _ _
    exact congrArg (fun x => some [x]) (UInt8.mul_comm a b)

theorem toyKemOf_correct (a b : Nat) (ha : 0 < a) (hb : 0 < b) : (toyKemOf a b).Correct a b where
  pkLen := rfl
  ctLen := rfl
  keypair := by intro r pk sk h; cases h; simp
  encaps := by
    intro r pk sk h r' ct ss h'
    cases h; cases h'
    obtain ⟨m, rfl⟩ : ∃ m, a = m + 1 := ⟨a - 1, by omega⟩
    obtain ⟨j, rfl⟩ : ∃ j, b = j + 1 := ⟨b - 1, by omega⟩
    refine ⟨by simp, ?_⟩
    simp [toyKemOf, List.replicate_succ]

theorem toyLib_correct : toyLib.Correct where
  p256 := toyEc_correct 64 (by decide)
  p384 := toyEc_correct 96 (by decide)
  p521 := toyEc_correct 132 (by decide)
  x25519 := ⟨by simp [toyLib, toyCurve], by
    intro a b
    simp [toyLib, toyCurve, List.replicate_succ, UInt8.mul_comm]⟩
  kem768 := by intro k h; cases h; exact toyKemOf_correct _ _ (by decide) (by decide)
  kem512 := by intro k h; cases h; exact toyKemOf_correct _ _ (by decide) (by decide)

theorem toyLib_total : toyLib.Total where
  p256 := ⟨fun r => ⟨r.headD 1, rfl, rfl⟩, fun _ _ _ _ => rfl⟩
  p384 := ⟨fun r => ⟨r.headD 1, rfl, rfl⟩, fun _ _ _ _ => rfl⟩
  p521 := ⟨fun r => ⟨r.headD 1, rfl, rfl⟩, fun _ _ _ _ => rfl⟩
  x25519 := fun _ _ => rfl
  kem := by rintro k (h | h) <;> cases h <;> exact ⟨fun _ => rfl, fun _ _ _ => rfl⟩

/-- All six groups can be made of it. -/
example : ∀ g ∈ [23, 24, 25, 29, 4588, 65026], ∃ C S, makeKeyExchange toyLib g .client = .ok C ∧
    makeKeyExchange toyLib g .server = .ok S := by
  intro g hg
  have h : ∀ role, ∃ o, makeKeyExchange toyLib g role = .ok o := fun role =>
    (C87_groups toyLib g role).2 (by
      simp only [List.mem_cons, List.not_mem_nil, or_false] at hg
      rcases hg with rfl | rfl | rfl | rfl | rfl | rfl <;> simp [toyLib])
  obtain ⟨C, hC⟩ := h .client
  obtain ⟨S, hS⟩ := h .server
  exact ⟨C, S, hC, hS⟩

/-- The short form of a point is taken like the long one, though it has 2 bytes and not 65. -/
example : (ecKex (toyEc 64) 65).generateSharedSecret (some (3 : UInt8)) [] [2, 5] =
    .ok ([15], some (3 : UInt8)) := rfl

/-- A run: the client draws 3 and the server 5. -/
example : exchange (ecKex (toyEc 64) 65) (ecKex (toyEc 64) 65) none none [3] [] [5] [] =
    .ok ([15], [15]) := rfl

end Fizz.Kex

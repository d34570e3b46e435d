import Verif.Crypto.Kex

/-! # C36: hybrid key exchange -/

namespace Fizz.Kex

/-! ## Specification -/

/-- A successful exchange between a client and a server object: each side's share has the length the
other side expects, the client ends with secret `kc`, the server with `ks`. -/
def Succeeds (C S : Kex) (c : C.State) (s : S.State) (genC useC : C.Rand) (genS useS : S.Rand)
    (kc ks : Bytes) : Prop :=
  ∃ c1 clientShare s1 s2 serverShare c2,
    C.generateKeyPair c genC = .ok c1 ∧ C.getKeyShare c1 = .ok clientShare ∧
    S.generateKeyPair s genS = .ok s1 ∧
    S.generateSharedSecret s1 useS clientShare = .ok (ks, s2) ∧
    S.getKeyShare s2 = .ok serverShare ∧
    C.generateSharedSecret c1 useC serverShare = .ok (kc, c2) ∧
    clientShare.length = S.expected s1 ∧ serverShare.length = C.expected c1 ∧
    0 < C.expected c1 ∧ 0 < S.expected s1

theorem Succeeds.exchange {C S : Kex} {c s genC useC genS useS kc ks}
    (h : Succeeds C S c s genC useC genS useS kc ks) :
    exchange C S c s genC useC genS useS = .ok (kc, ks) := by
  obtain ⟨c1, pc, s1, s2, ps, c2, h1, h2, h3, h4, h5, h6, -⟩ := h
  simp [Kex.exchange, doKex, h1, h2, h3, h4, h5, h6]

/-! ## Theorems -/

/-- C36: a share of any other length than the sum of the component lengths is rejected, before any
component sees a byte of it. -/
theorem C36_reject (A B : Kex) (a : A.State) (b : B.State) (r : A.Rand × B.Rand) (share : Bytes)
    (h : share.length ≠ A.expected a + B.expected b) :
    (hybrid A B).generateSharedSecret (a, b) r share =
      .error (Failure.rt "Invalid external public key combination ") := by
  simp [hybrid, h]

/-- C36: the components of the hybrids fizz ships reject a share of a wrong length, too: X25519 takes
32 bytes, a KEM client the ciphertext, a KEM server the public key. -/
theorem C36_component_reject (cv : Curve) (km : Kem) (priv pub sk pk share r : Bytes)
    (ct : Option Bytes) :
    (share.length ≠ 32 → (x25519 cv).generateSharedSecret (some (priv, pub)) r share =
      .error (Failure.rt "Invalid external public key")) ∧
    (share.length ≠ km.lengthCiphertext →
      ∃ msg, (oqsClient km).generateSharedSecret (some (sk, pk)) r share = .error (Failure.rt msg)) ∧
    (share.length ≠ km.lengthPublicKey →
      ∃ msg, (oqsServer km).generateSharedSecret ct r share = .error (Failure.rt msg)) := by
  refine ⟨fun h => ?_, fun h => ?_, fun h => ?_⟩
  · simp [x25519, h]
  · exact ⟨_, by simp only [oqsClient, if_pos h]; rfl⟩
  · exact ⟨_, by simp only [oqsServer, if_pos h]; rfl⟩

/-- C36: what the components compute: X25519 is the multiplication of our private key with the peer's
point, a KEM client decapsulates the peer's ciphertext, a KEM server encapsulates to the peer's key and
its share is the ciphertext. -/
theorem C36_component (cv : Curve) (km : Kem) (priv pub sk pk share r secret : Bytes)
    (ct : Option Bytes) :
    (∀ s, (x25519 cv).generateSharedSecret (some (priv, pub)) r share = .ok (secret, s) →
      share.length = 32 ∧ cv.mult priv share = some secret) ∧
    (∀ s, (oqsClient km).generateSharedSecret (some (sk, pk)) r share = .ok (secret, s) →
      share.length = km.lengthCiphertext ∧ km.decaps sk share = some secret) ∧
    (∀ s, (oqsServer km).generateSharedSecret ct r share = .ok (secret, s) →
      share.length = km.lengthPublicKey ∧
      ∃ c, km.encaps r share = some (c, secret) ∧ (oqsServer km).getKeyShare s = .ok c) := by
  refine ⟨fun s h => ?_, fun s h => ?_, fun s h => ?_⟩
  · simp only [x25519] at h
    split at h
    · cases h
    · rename_i hl
      refine ⟨by simpa using hl, ?_⟩
      split at h
      · cases h
      · rename_i k hk
        cases h; exact hk
  · simp only [oqsClient] at h
    split at h
    · cases h
    · rename_i hl
      refine ⟨by simpa using hl, ?_⟩
      split at h
      · cases h
      · rename_i k hk
        cases h; exact hk
  · simp only [oqsServer] at h
    split at h
    · cases h
    · rename_i hl
      refine ⟨by simpa using hl, ?_⟩
      split at h
      · cases h
      · rename_i c ss hk
        cases h; exact ⟨c, hk, rfl⟩

/-- C36: generating a hybrid secret splits the share into exactly the two component shares, in the
configured order, and concatenates the component secrets in the same order. -/
theorem C36_split (A B : Kex) (a a' : A.State) (b b' : B.State) (ra : A.Rand) (rb : B.Rand)
    (share secret : Bytes) :
    (hybrid A B).generateSharedSecret (a, b) (ra, rb) share = .ok (secret, (a', b')) ↔
      ∃ p q k1 k2, share = p ++ q ∧ p.length = A.expected a ∧ q.length = B.expected b ∧
        A.generateSharedSecret a ra p = .ok (k1, a') ∧
        B.generateSharedSecret b rb q = .ok (k2, b') ∧ secret = k1 ++ k2 := by
  simp only [hybrid]
  constructor
  · intro h
    by_cases hl : share.length = A.expected a + B.expected b
    · rw [if_neg (by simpa using hl)] at h
      simp only [Res.bind_eq_ok] at h
      obtain ⟨⟨k1, x⟩, h1, ⟨k2, y⟩, h2, h⟩ := h
      cases h
      refine ⟨_, _, k1, k2, ?_, ?_, ?_, h1, h2, rfl⟩
      · rw [show share.length - B.expected b = A.expected a by omega, List.take_append_drop]
      · rw [List.length_take]; omega
      · rw [List.length_drop]; omega
    · rw [if_pos hl] at h; cases h
  · rintro ⟨p, q, k1, k2, rfl, hp, hq, h1, h2, rfl⟩
    rw [if_neg (by simp [hp, hq])]
    have e1 : (p ++ q).take (A.expected a) = p := by rw [← hp, List.take_left' rfl]
    have e2 : (p ++ q).drop ((p ++ q).length - B.expected b) = q := by
      rw [List.length_append, hq, Nat.add_sub_cancel, List.drop_left' rfl]
    rw [e1, e2, h1]
    simp [h2]

/-- C36: the hybrid share is the concatenation of the component shares. -/
theorem C36_share (A B : Kex) (a : A.State) (b : B.State) (share : Bytes) :
    (hybrid A B).getKeyShare (a, b) = .ok share ↔
      ∃ p q, A.getKeyShare a = .ok p ∧ B.getKeyShare b = .ok q ∧ share = p ++ q := by
  simp only [hybrid, Res.bind_eq_ok, Res.pure_eq, Except.ok.injEq]
  constructor
  · rintro ⟨p, h1, q, h2, rfl⟩; exact ⟨p, q, h1, h2, rfl⟩
  · rintro ⟨p, q, h1, h2, rfl⟩; exact ⟨p, h1, q, h2, rfl⟩

/-- C36: if both component exchanges succeed, so does the hybrid of them, and each side's secret is
the concatenation of its component secrets in the configured order (so the sides agree if the
components do).  Since a hybrid is again a key exchange, this covers nested hybrids. -/
theorem C36_agree (CA SA CB SB : Kex) {ca sa cb sb} {gca uca gcb ucb} {gsa usa gsb usb}
    {kca ksa kcb ksb : Bytes}
    (hA : Succeeds CA SA ca sa gca uca gsa usa kca ksa)
    (hB : Succeeds CB SB cb sb gcb ucb gsb usb kcb ksb) :
    Succeeds (hybrid CA CB) (hybrid SA SB) (ca, cb) (sa, sb) (gca, gcb) (uca, ucb) (gsa, gsb)
        (usa, usb) (kca ++ kcb) (ksa ++ ksb) ∧
      exchange (hybrid CA CB) (hybrid SA SB) (ca, cb) (sa, sb) (gca, gcb) (uca, ucb) (gsa, gsb)
        (usa, usb) = .ok (kca ++ kcb, ksa ++ ksb) := by
  have key : Succeeds (hybrid CA CB) (hybrid SA SB) (ca, cb) (sa, sb) (gca, gcb) (uca, ucb)
      (gsa, gsb) (usa, usb) (kca ++ kcb) (ksa ++ ksb) := by
    obtain ⟨c1, pc, s1, s2, ps, c2, h1, h2, h3, h4, h5, h6, l1, l2, z1, z2⟩ := hA
    obtain ⟨c1', pc', s1', s2', ps', c2', h1', h2', h3', h4', h5', h6', l1', l2', z1', z2'⟩ := hB
    refine ⟨(c1, c1'), pc ++ pc', (s1, s1'), (s2, s2'), ps ++ ps', (c2, c2'), ?_, ?_, ?_, ?_, ?_, ?_,
      ?_, ?_, ?_, ?_⟩
    · simp only [hybrid, h1, h1', Res.ok_bind]
      rw [if_neg (by omega)]; rfl
    · exact (C36_share _ _ _ _ _).2 ⟨_, _, h2, h2', rfl⟩
    · simp only [hybrid, h3, h3', Res.ok_bind]
      rw [if_neg (by omega)]; rfl
    · exact (C36_split _ _ _ _ _ _ _ _ _ _).2 ⟨_, _, _, _, rfl, l1, l1', h4, h4', rfl⟩
    · exact (C36_share _ _ _ _ _).2 ⟨_, _, h5, h5', rfl⟩
    · exact (C36_split _ _ _ _ _ _ _ _ _ _).2 ⟨_, _, _, _, rfl, l2, l2', h6, h6', rfl⟩
    · simp [hybrid, l1, l1']
    · simp [hybrid, l2, l2']
    · show 0 < CA.expected c1 + CB.expected c1'; omega
    · show 0 < SA.expected s1 + SB.expected s1'; omega
  exact ⟨key, key.exchange⟩

/-- X25519 with 32-byte public keys whose multiplication commutes: both sides derive the same
secret whenever the point is valid. -/
theorem x25519_succeeds (cv : Curve) (hlen : ∀ r, (cv.base (cv.privOf r)).length = 32)
    (rc rs u u' : Bytes) (k : Bytes)
    (hcomm : cv.mult (cv.privOf rc) (cv.base (cv.privOf rs)) = some k)
    (hcomm' : cv.mult (cv.privOf rs) (cv.base (cv.privOf rc)) = some k) (c s) :
    Succeeds (x25519 cv) (x25519 cv) c s rc u rs u' k k := by
  refine ⟨some (cv.privOf rc, cv.base (cv.privOf rc)), cv.base (cv.privOf rc),
    some (cv.privOf rs, cv.base (cv.privOf rs)), some (cv.privOf rs, cv.base (cv.privOf rs)),
    cv.base (cv.privOf rs), some (cv.privOf rc, cv.base (cv.privOf rc)), rfl, rfl, rfl, ?_, rfl, ?_,
    hlen _, hlen _, by simp [x25519], by simp [x25519]⟩
  · simp [x25519, hlen, hcomm']
  · simp [x25519, hlen, hcomm]

/-- A correct KEM: both sides derive the encapsulated secret. -/
theorem oqs_succeeds (km : Kem) (rc rs u u' pk sk ct ss : Bytes)
    (hkey : km.keypair rc = some (pk, sk)) (hpk : pk.length = km.lengthPublicKey)
    (henc : km.encaps rs pk = some (ct, ss)) (hct : ct.length = km.lengthCiphertext)
    (hdec : km.decaps sk ct = some ss) (hz : 0 < km.lengthPublicKey) (hz' : 0 < km.lengthCiphertext)
    (c s) : Succeeds (oqsClient km) (oqsServer km) c s rc u u' rs ss ss := by
  refine ⟨some (sk, pk), pk, s, some ct, ct, some (sk, pk), ?_, rfl, rfl, ?_, rfl, ?_, hpk, hct, hz',
    hz⟩
  · simp [oqsClient, hkey]
  · simp [oqsServer, hpk, henc]
  · simp [oqsClient, hct, hdec]

/-- C36: X25519 combined with a KEM, in this order: for every curve whose multiplication commutes on
the keys used and every KEM that decapsulates what was encapsulated, client and server end with the
same secret, the X25519 secret followed by the KEM secret. -/
theorem C36_x25519_kem (cv : Curve) (hlen : ∀ r, (cv.base (cv.privOf r)).length = 32)
    (km : Kem) (rc rs rc' rs' u1 u2 u3 u4 k pk sk ct ss : Bytes)
    (hcomm : cv.mult (cv.privOf rc) (cv.base (cv.privOf rs)) = some k)
    (hcomm' : cv.mult (cv.privOf rs) (cv.base (cv.privOf rc)) = some k)
    (hkey : km.keypair rc' = some (pk, sk)) (hpk : pk.length = km.lengthPublicKey)
    (henc : km.encaps rs' pk = some (ct, ss)) (hct : ct.length = km.lengthCiphertext)
    (hdec : km.decaps sk ct = some ss) (hz : 0 < km.lengthPublicKey)
    (hz' : 0 < km.lengthCiphertext) :
    exchange (hybrid (x25519 cv) (oqsClient km)) (hybrid (x25519 cv) (oqsServer km))
      (none, none) (none, none) (rc, rc') (u1, u2) (rs, u3) (u4, rs') = .ok (k ++ ss, k ++ ss) :=
  (C36_agree (x25519 cv) (x25519 cv) (oqsClient km) (oqsServer km)
    (x25519_succeeds cv hlen rc rs u1 u4 k hcomm hcomm' none none)
    (oqs_succeeds km rc' rs' u2 u3 pk sk ct ss hkey hpk henc hct hdec hz hz' none none)).2

/-! ## A concrete instance -/

/-- Toy curve: keys are 32 equal bytes, multiplication multiplies the bytes. -/
def toyCurve : Curve where
  privOf r := [r.headD 1]
  base p := List.replicate 32 (p.headD 1)
  mult p q := some [p.headD 1 * q.headD 1]

/-- Toy KEM: public key `[s, s]`, ciphertext `[r + s]`, secret `[r]`. -/
def toyKem : Kem where
  lengthPublicKey := 2
  lengthCiphertext := 1
  keypair r := some ([r.headD 0, r.headD 0], [r.headD 0])
  encaps r pk := some ([r.headD 0 + pk.headD 0], [r.headD 0])
  decaps sk ct := some [ct.headD 0 - sk.headD 0]

example : exchange (hybrid (x25519 toyCurve) (oqsClient toyKem))
    (hybrid (x25519 toyCurve) (oqsServer toyKem)) (none, none) (none, none)
    ([3], [5]) ([], []) ([7], []) ([], [9]) = .ok ([21, 9], [21, 9]) := by
  exact C36_x25519_kem toyCurve (by simp [toyCurve]) toyKem [3] [7] [5] [9] [] [] [] [] [21]
    [5, 5] [5] [14] [9] (by decide) (by decide) rfl rfl (by decide) rfl (by decide) (by decide)
    (by decide)

end Fizz.Kex

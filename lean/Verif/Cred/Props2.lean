import Verif.Cred.Props

/-!
# C39 — issuing, loading and choosing delegated credentials
-/

namespace Fizz.Cred
open Fizz.Codec

/-! ## Issuing -/

theorem issue_eq_ok {K} {o : Ossl K} {now : Int} {cert : SelfCert K} {credKey : K} {ss vs : UInt16}
    {ctx : Ctx} {valid : Int} {c : DelegatedCredential}
    (h : issue o now cert credKey ss vs ctx valid = .ok c) :
    c.valid_time = toValidTime ((now + valid * 1000000000 - cert.x509.notBefore * 1000000000).tdiv
      1000000000) ∧
    c.expected_verify_scheme = vs ∧ c.credential_scheme = ss ∧
    o.i2dPubkey credKey = some c.public_key ∧ c.public_key.length < 2 ^ 24 ∧
    ss = Spec.scheme cert.type ∧
    o.sign ss cert.key (Spec.signed ctx (cert.x509.der ++ Spec.credentialFields c)) =
      some c.signature := by
  simp only [issue, Res.bind_eq_ok, timepoint_eq_ok, ns_eq_ok] at h
  obtain ⟨_, ⟨_, rfl⟩, _, ⟨_, rfl⟩, _, ⟨_, rfl⟩, _, ⟨_, rfl⟩, h⟩ := h
  cases hk : o.i2dPubkey credKey with
  | none => rw [hk] at h; cases h
  | some pk =>
    rw [hk] at h
    simp only [Res.bind_eq_ok, prepareSignatureBuffer_eq_ok, certSign_eq_ok, Res.pure_eq,
      Except.ok.injEq] at h
    obtain ⟨_, ⟨hl, rfl⟩, sig, ⟨hs, hsig⟩, rfl⟩ := h
    exact ⟨rfl, rfl, rfl, rfl, hl, hs, hsig⟩

theorem generate_eq_ok {K} {o : Ossl K} {now : Int} {cert : SelfCert K} {certKey credKey : K}
    {ss vs : UInt16} {ctx : Ctx} {valid : Int} {c : DelegatedCredential}
    (h : generateCredential o now cert certKey credKey ss vs ctx valid = .ok c) :
    (ctx = .serverDC ∨ ctx = .clientDC) ∧ valid ≤ 7 * 24 * 3600 ∧ Spec.Permits cert.x509 ∧
    o.checkPrivateKey cert.x509 certKey = true ∧ (∃ t, getKeyType o credKey = .ok t ∧
      vs = Spec.scheme t) ∧ issue o now cert credKey ss vs ctx valid = .ok c := by
  unfold generateCredential at h
  by_cases h1 : ctx ≠ .serverDC ∧ ctx ≠ .clientDC
  · rw [if_pos h1] at h; cases h
  rw [if_neg h1] at h
  by_cases h2 : valid > 7 * 24 * 3600
  · rw [if_pos h2] at h; cases h
  rw [if_neg h2] at h
  simp only [Res.bind_eq_ok, checkExtensions_eq_ok] at h
  obtain ⟨_, hp, h⟩ := h
  by_cases h3 : o.checkPrivateKey cert.x509 certKey = false
  · rw [if_pos h3] at h; cases h
  rw [if_neg h3] at h
  simp only [Res.bind_eq_ok] at h
  obtain ⟨t, ht, h⟩ := h
  by_cases h4 : ¬ vs ∈ sigSchemes t
  · rw [if_pos h4] at h; cases h
  rw [if_neg h4] at h
  split_ifs at h with h5
  refine ⟨?_, by omega, hp, by simpa using h3, ⟨t, ht, ?_⟩, h⟩
  · by_cases hc : ctx = .serverDC
    · exact Or.inl hc
    · exact Or.inr (Classical.byContradiction fun hn => h1 ⟨hc, hn⟩)
  · have := Classical.not_not.mp h4
    simpa [sigSchemes, schemeOf_eq] using this

/-- The requested expiry lies at or after the start of the certificate, and within the 2^32 seconds
the credential can express. -/
def Spec.Expressible {K} (now valid : Int) (x : X509 K) : Prop :=
  x.notBefore * 1000000000 ≤ now + valid * 1000000000 ∧
    now + valid * 1000000000 < (x.notBefore + 2 ^ 32) * 1000000000

theorem toValidTime_toNat {n : Int} (h0 : 0 ≤ n) (h : n < 2 ^ 32) : ((toValidTime n).toNat : Int) = n := by
  unfold toValidTime
  rw [UInt32.toNat_ofNat', Int.emod_eq_of_lt h0 h]
  have : n.toNat < 2 ^ 32 := by omega
  rw [Nat.mod_eq_of_lt this]
  omega

/-- C39: a credential is only issued for a delegation context, for at most seven days, under a
certificate that permits it and whose private key is supplied, and with schemes the two keys can
make; it carries the schemes asked for and the key, is signed over all of that, and its expiry is
the requested one rounded down to a second. -/
theorem C39_issued {K} (o : Ossl K) (now : Int) (cert : SelfCert K) (certKey credKey : K)
    (ss vs : UInt16) (ctx : Ctx) (valid : Int) (c : DelegatedCredential)
    (h : generateCredential o now cert certKey credKey ss vs ctx valid = .ok c) :
    (ctx = .serverDC ∨ ctx = .clientDC) ∧ valid ≤ 7 * 86400 ∧ Spec.Permits cert.x509 ∧
    o.checkPrivateKey cert.x509 certKey = true ∧
    (∃ t, getKeyType o credKey = .ok t ∧ vs = Spec.scheme t) ∧ ss = Spec.scheme cert.type ∧
    c.expected_verify_scheme = vs ∧ c.credential_scheme = ss ∧
    o.i2dPubkey credKey = some c.public_key ∧
    o.sign ss cert.key (Spec.signed ctx (cert.x509.der ++ Spec.credentialFields c)) =
      some c.signature ∧
    (Spec.Expressible now valid cert.x509 →
      Spec.expiry cert.x509 c ≤ now + valid * 1000000000 ∧
      now + valid * 1000000000 < Spec.expiry cert.x509 c + 1000000000) := by
  obtain ⟨h1, h2, h3, h4, h5, h6⟩ := generate_eq_ok h
  obtain ⟨i1, i2, i3, i4, i5, i6, i7⟩ := issue_eq_ok h6
  refine ⟨h1, by omega, h3, h4, h5, i6, i2, i3, i4, i7, ?_⟩
  rintro ⟨e1, e2⟩
  have hd : (now + valid * 1000000000 - cert.x509.notBefore * 1000000000).tdiv 1000000000 =
      (now + valid * 1000000000 - cert.x509.notBefore * 1000000000) / 1000000000 :=
    Int.tdiv_eq_ediv_of_nonneg (by omega)
  have hv := toValidTime_toNat (n := (now + valid * 1000000000 -
    cert.x509.notBefore * 1000000000).tdiv 1000000000) (by rw [hd]; omega) (by rw [hd]; omega)
  rw [← i1, hd] at hv
  unfold Spec.expiry
  rw [hv]
  omega

/-! ## Loading -/

/-- C39: a credential is loaded by its owner exactly when the private key is of the right type, the
certificate permits delegation, the announced scheme is the one of that key, and the certificate's
own key verifies its signature under the delegation context of the mode.  The time is not looked
at. -/
theorem C39_loaded {K} (o : Ossl K) (t : KeyType) (mode : Mode) (certs : List (X509 K)) (key : K)
    (c : DelegatedCredential) (s : SelfDelegated K) :
    SelfDelegated.create o t mode certs key c = .ok s ↔
      ∃ x rest pt k, certs = x :: rest ∧ s = ⟨t, key, x, rest, c⟩ ∧ Spec.Usable o t key ∧
        Spec.Permits x ∧ c.expected_verify_scheme = Spec.scheme t ∧ c.public_key.length < 2 ^ 24 ∧
        x.pubkey = some k ∧ Spec.Usable o pt k ∧ c.credential_scheme = Spec.scheme pt ∧
        Spec.ParentSigned o x k (match mode with | .server => .serverDC | .client => .clientDC) c := by
  have hm : (if mode = .server then Ctx.serverDC else Ctx.clientDC) =
      (match mode with | .server => .serverDC | .client => .clientDC) := by cases mode <;> rfl
  unfold SelfDelegated.create
  rw [hm]
  cases certs with
  | nil => simp
  | cons x rest =>
    simp only [Res.bind_eq_ok]
    constructor
    · rintro ⟨t', ht, h⟩
      by_cases h1 : t' ≠ t
      · rw [if_pos h1] at h; cases h
      rw [if_neg h1] at h
      simp only [Res.bind_eq_ok, checkExtensions_eq_ok, setKey_eq_ok] at h
      obtain ⟨_, hp, _, hu, h⟩ := h
      split_ifs at h with h2
      simp only [Res.bind_eq_ok, prepareSignatureBuffer_eq_ok, makePeerCertX509_eq_ok,
        PlainCert.verify, certVerify_eq_ok, Res.pure_eq, Except.ok.injEq] at h
      obtain ⟨_, ⟨hl, rfl⟩, _, ⟨pt, k, hk, huk, rfl⟩, _, ⟨hs, hv⟩, rfl⟩ := h
      exact ⟨x, rest, pt, k, rfl, rfl, hu, hp, by simpa [sigSchemes, schemeOf_eq] using h2, hl, hk,
        huk, hs, hv⟩
    · rintro ⟨x', rest', pt, k, e, rfl, hu, hp, he, hl, hk, huk, hs, hv⟩
      cases e
      refine ⟨t, hu.keyType, ?_⟩
      rw [if_neg (by simp)]
      simp only [Res.bind_eq_ok, checkExtensions_eq_ok, setKey_eq_ok]
      refine ⟨(), hp, (), hu, ?_⟩
      rw [if_neg (by simp [sigSchemes, schemeOf_eq, he])]
      simp only [Res.bind_eq_ok, prepareSignatureBuffer_eq_ok, makePeerCertX509_eq_ok,
        PlainCert.verify, certVerify_eq_ok, Res.pure_eq, Except.ok.injEq]
      exact ⟨_, ⟨hl, rfl⟩, _, ⟨pt, k, hk, huk, rfl⟩, (), ⟨hs, hv⟩, trivial⟩

/-! ## End to end -/

/-- The handshake context of a mode. -/
def Spec.handshake : Mode → Ctx
  | .server => .server
  | .client => .client

/-- The delegation context of a mode. -/
def Spec.delegationOf : Mode → Ctx
  | .server => .serverDC
  | .client => .clientDC

/-- C39: a credential issued with fizz, loaded with fizz and sent with fizz is accepted by a fizz
peer at any moment before its expiry, provided the signature algorithms work (`Pair`), OpenSSL reads
back the encodings it writes, both keys are of the same usable type, the dates can be represented
and the credential expires before its certificate. -/
theorem C39_end_to_end {K} (o : Ossl K) (now later : Int) (mode : Mode) (t : KeyType)
    (cert : SelfCert K) (certKey credKey parentPub credPub : K) (ss vs : UInt16) (valid : Int)
    (c : DelegatedCredential) (requestContext content sig : Bytes)
    (s : SelfDelegated K) (msg : CertificateMsg)
    (hgen : generateCredential o now cert certKey credKey ss vs (Spec.delegationOf mode) valid = .ok c)
    (hload : SelfDelegated.create o t mode (cert.x509 :: cert.rest) credKey c = .ok s)
    (hmsg : s.getCertMessage requestContext = .ok msg)
    (hsign : s.sign o vs (Spec.handshake mode) content = .ok sig)
    (htype : cert.type = t)
    (hpub : cert.x509.pubkey = some parentPub) (hupub : Spec.Usable o t parentPub)
    (hcp : ∀ b, o.i2dPubkey credKey = some b → o.d2iPubkey b = some credPub)
    (hucp : Spec.Usable o t credPub)
    (hder : o.d2iX509 cert.x509.der = some cert.x509) (hne : cert.x509.der ≠ [])
    (hp1 : Spec.Pair o parentPub cert.key) (hp2 : Spec.Pair o credPub credKey)
    (hexp : Spec.Expressible now valid cert.x509)
    (hrep : Spec.Representable later cert.x509 c)
    (hlate : now ≤ later) (hin : later < Spec.expiry cert.x509 c)
    (hafter : Spec.expiry cert.x509 c < cert.x509.notAfter * 1000000000) :
    ∃ leaf others, msg = ⟨requestContext, leaf :: others⟩ ∧ leaf.cert_data = cert.x509.der ∧
      (makePeerCert o leaf true >>= fun p =>
        p.verify o later vs (Spec.handshake mode) content sig) = .ok () := by
  obtain ⟨_, g2, g3, _, _, g6, g7, g8, g9, g10, g11⟩ :=
    C39_issued o now cert certKey credKey ss vs _ valid c hgen
  obtain ⟨x, rest, pt, k, e, rfl, _, _, l3, _⟩ := (C39_loaded o t mode _ credKey c s).mp hload
  cases e
  simp only [SelfDelegated.getCertMessage, Res.bind_eq_ok, encodeDelegatedCredential_eq_ok,
    Res.pure_eq, Except.ok.injEq] at hmsg
  obtain ⟨_, ⟨hfit, rfl⟩, rfl⟩ := hmsg
  obtain ⟨s1, s2⟩ := certSign_eq_ok.mp hsign
  have hwk := (g11 hexp).1
  refine ⟨_, _, rfl, rfl, ?_⟩
  rw [← List.nil_append [_], C39_accept o later _ _ [] [] (by simp)]
  refine ⟨cert.x509, t, parentPub, credPub, c, ?_⟩
  exact {
    nonempty := hne, parses := hder, hasKey := hpub, fits := hfit
    received := ⟨[], by simp⟩
    keyParses := hcp _ g9, parentType := hupub, credType := hucp
    schemeUsed := g7.symm, schemeOfKey := l3
    schemeOfParent := by rw [g8, g6, htype]
    permits := g3, representable := hrep
    inTime := ⟨hin, by unfold Spec.sevenDays; omega, hafter⟩
    parentSigned := by
      have : Spec.delegation (Spec.handshake mode) = Spec.delegationOf mode := by
        cases mode <;> rfl
      rw [this]
      unfold Spec.ParentSigned
      rw [g8]
      exact hp1 _ _ _ g10
    signedByCredential := hp2 _ _ _ s2 }

/-! ## Choosing -/

/-- C39: the server considers credentials only for a client that announced support for them, under
the schemes of that announcement; otherwise, and when no credential matches, its choice is exactly
the one it makes without credentials. -/
theorem C39_choice (m : DcManager) (sni : Option Bytes) (supported peer : List UInt16)
    (chlo : List Extension) :
    ((∀ e ∈ chlo, e.extension_type ≠ 34) →
      m.getCert sni supported peer chlo = .ok (CertManager.getCert m.base sni supported peer)) ∧
    (∀ algs trailing pre post, chlo = pre ++ ⟨34, Spec.supportWire algs ++ trailing⟩ :: post →
      (∀ e ∈ pre, e.extension_type ≠ 34) → 2 * algs.length < 2 ^ 16 →
      (∀ r, CertManager.getCert m.dc sni supported algs = some r →
        m.getCert sni supported peer chlo = .ok (some r)) ∧
      (CertManager.getCert m.dc sni supported algs = none →
        m.getCert sni supported peer chlo = .ok (CertManager.getCert m.base sni supported peer))) := by
  constructor
  · intro h
    have hn : getDelegatedCredentialSupport chlo = .ok none := by
      rw [getDelegatedCredentialSupport, getExtensionLoose_none, findExtension_none]; exact h
    unfold DcManager.getCert
    rw [hn]; rfl
  · rintro algs trailing pre post rfl hp hl
    have hs : getDelegatedCredentialSupport
        (pre ++ ⟨34, Spec.supportWire algs ++ trailing⟩ :: post) = .ok (some algs) := by
      rw [getDelegatedCredentialSupport, getExtensionLoose_some, find34 hp]
      exact ⟨_, trailing, rfl, readSupport_eq_ok.mpr ⟨hl, rfl⟩⟩
    unfold DcManager.getCert
    rw [hs]
    constructor
    · intro r hr
      simp only [Res.ok_bind, hr, DcManager.orBase]
    · intro hr
      simp only [Res.ok_bind, hr, DcManager.orBase]

/-- C39: a certificate returned by a server configured by any sequence of additions is either one of
its ordinary certificates, used with a scheme of the client's signature_algorithms, or one of its
credentials, and then the client announced delegated credentials with a list that contains the
scheme, which is also the one the credential announces. -/
theorem C39_only_if_offered (base dcs : List (CertManager.Cert × Bool))
    (hdc : ∀ d ∈ dcs, ∃ expected, d.1.sigSchemes = [expected])
    (sni : Option Bytes) (supported peer : List UInt16) (chlo : List Extension)
    (c : CertManager.Cert) (s : UInt16) (mt : CertManager.MatchType)
    (h : DcManager.getCert ⟨CertManager.build base, CertManager.build dcs⟩ sni supported peer chlo =
      .ok (some (c, s, mt))) :
    s ∈ supported ∧
    (((∃ d, (c, d) ∈ base) ∧ s ∈ peer ∧ s ∈ c.sigSchemes) ∨
     ((∃ d, (c, d) ∈ dcs) ∧ c.sigSchemes = [s] ∧
       ∃ algs trailing pre post, chlo = pre ++ ⟨34, Spec.supportWire algs ++ trailing⟩ :: post ∧
         (∀ e ∈ pre, e.extension_type ≠ 34) ∧ s ∈ algs)) := by
  have mem : ∀ (calls : List (CertManager.Cert × Bool)) (p : List UInt16),
      CertManager.getCert (CertManager.build calls) sni supported p = some (c, s, mt) →
      s ∈ supported ∧ s ∈ p ∧ s ∈ c.sigSchemes ∧ ∃ d, (c, d) ∈ calls := by
    intro calls p hh
    obtain ⟨a, b, d, key, hk⟩ := CertManager.C15_scheme calls sni supported p c s mt hh
    obtain ⟨⟨i, hi, _⟩, _⟩ := CertManager.findCert_some calls key supported p c s hk
    simp only [CertManager.registered, List.mem_flatMap, List.mem_map, Prod.mk.injEq] at hi
    obtain ⟨⟨c', d'⟩, hc, _, _, _, rfl⟩ := hi
    exact ⟨a, b, d, d', hc⟩
  unfold DcManager.getCert at h
  simp only [Res.bind_eq_ok] at h
  obtain ⟨oa, hoa, h⟩ := h
  cases oa with
  | none =>
    simp only [Except.ok.injEq] at h
    obtain ⟨a, b, d, e⟩ := mem base peer h
    exact ⟨a, Or.inl ⟨e, b, d⟩⟩
  | some algs =>
    simp only [Except.ok.injEq] at h
    cases hd : CertManager.getCert (CertManager.build dcs) sni supported algs with
    | none =>
      rw [hd] at h
      obtain ⟨a, b, d, e⟩ := mem base peer h
      exact ⟨a, Or.inl ⟨e, b, d⟩⟩
    | some r =>
      rw [hd] at h
      cases Option.some.inj h
      obtain ⟨a, b, d, d', e⟩ := mem dcs algs hd
      refine ⟨a, Or.inr ⟨⟨d', e⟩, ?_, ?_⟩⟩
      · obtain ⟨x, hx⟩ := hdc _ e
        simp only at hx
        rw [hx] at d ⊢
        simp only [List.mem_singleton] at d
        rw [d]
      · rw [getDelegatedCredentialSupport, getExtensionLoose_some] at hoa
        obtain ⟨x, rest, hx, hr⟩ := hoa
        obtain ⟨ht, pre, post, rfl, hp⟩ := findExtension_some.mp hx
        obtain ⟨_, hw⟩ := readSupport_eq_ok.mp hr
        obtain ⟨ty, da⟩ := x
        cases ht; simp only at hw; subst hw
        exact ⟨algs, rest, pre, post, rfl, hp, b⟩

end Fizz.Cred

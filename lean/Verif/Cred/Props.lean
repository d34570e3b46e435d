import Verif.Cred.Lemmas
import Verif.Server.CertManagerProps

/-!
# C39 — delegated credentials
-/

namespace Fizz.Cred
open Fizz.Codec

/-! ## Helpers -/

theorem find34 {pre post : List Extension} {data : Bytes}
    (hpre : ∀ e ∈ pre, e.extension_type ≠ 34) :
    findExtension (pre ++ ⟨34, data⟩ :: post) delegated_credential = some ⟨34, data⟩ :=
  findExtension_some.mpr ⟨rfl, pre, post, rfl, hpre⟩

theorem wrapFailure_eq_ok {α} {w : Failure → Failure} {r : Res α} {a : α} :
    wrapFailure w r = .ok a ↔ r = .ok a := by
  cases r <;> simp [wrapFailure]

theorem delegation_eq (ctx : Ctx) :
    (if ctx = .server then Ctx.serverDC else Ctx.clientDC) = Spec.delegation ctx := by
  cases ctx <;> rfl

theorem verifyDelegated_eq_ok {K} {o : Ossl K} {now : Int} {parent : PlainCert K} {credKey : K}
    {c : DelegatedCredential} {sch ctx content sig} {u : Unit} :
    verifyDelegated o now parent credKey c sch ctx content sig = .ok u ↔
      sch = c.expected_verify_scheme ∧ Spec.Permits parent.x509 ∧
      (Spec.Representable now parent.x509 c ∧ Spec.InTime now parent.x509 c) ∧
      c.public_key.length < 2 ^ 24 ∧
      (c.credential_scheme = Spec.scheme parent.type ∧
        Spec.ParentSigned o parent.x509 parent.key (Spec.delegation ctx) c) ∧
      sch = Spec.scheme parent.type ∧ o.verify sch credKey (Spec.signed ctx content) sig = true := by
  unfold verifyDelegated
  rw [delegation_eq]
  split_ifs with h
  · simp [h]
  · simp only [Res.bind_eq_ok, checkExtensions_eq_ok, checkTime_eq_ok, prepareSignatureBuffer_eq_ok,
      wrapFailure_eq_ok, PlainCert.verify, certVerify_eq_ok, Spec.ParentSigned]
    have h : sch = c.expected_verify_scheme := Classical.not_not.mp h
    constructor
    · rintro ⟨_, a, _, b, _, ⟨d, rfl⟩, _, e, f⟩
      exact ⟨h, a, b, d, e, f⟩
    · rintro ⟨-, a, b, d, e, f⟩
      exact ⟨(), a, (), b, _, ⟨d, rfl⟩, (), e, f⟩

theorem createPeer_eq_ok {K} {o : Ossl K} {t x pk c p} :
    createPeer o t x pk c = .ok p ↔ ∃ k, x.pubkey = some k ∧ Spec.Usable o t k ∧
      Spec.Usable o t pk ∧ p = .delegated ⟨t, k, x⟩ pk c := by
  simp only [createPeer, Res.bind_eq_ok, create_eq_ok]
  constructor
  · rintro ⟨_, ⟨k, hk, hu, rfl⟩, t', ht, h⟩
    split_ifs at h
    simp only [Res.bind_eq_ok, setKey_eq_ok, Res.pure_eq, Except.ok.injEq] at h
    obtain ⟨_, hu', rfl⟩ := h
    exact ⟨k, hk, hu, hu', rfl⟩
  · rintro ⟨k, hk, hu, hu', rfl⟩
    refine ⟨_, ⟨k, hk, hu, rfl⟩, t, hu'.keyType, ?_⟩
    simp only [ne_eq, not_true, if_false, Res.bind_eq_ok, setKey_eq_ok, Res.pure_eq]
    exact ⟨(), hu', trivial⟩

theorem makeCredential_eq_ok {K} {o : Ossl K} {c x p} :
    makeCredential o c x = .ok p ↔ ∃ pk t k, o.d2iPubkey c.public_key = some pk ∧
      x.pubkey = some k ∧ Spec.Usable o t k ∧ Spec.Usable o t pk ∧
      p = .delegated ⟨t, k, x⟩ pk c := by
  unfold makeCredential
  cases h : o.d2iPubkey c.public_key with
  | none => simp
  | some pk =>
    simp only [Res.bind_eq_ok, createPeer_eq_ok]
    constructor
    · rintro ⟨t, ht, k, a, b, d, rfl⟩; exact ⟨pk, t, k, rfl, a, b, d, rfl⟩
    · rintro ⟨_, t, k, e, a, b, d, rfl⟩
      cases Option.some.inj e
      exact ⟨t, d.keyType, k, a, b, d, rfl⟩

/-! ## Acceptance -/

/-- C39: when the leaf certificate entry carries a delegated credential extension, a signature made
in the handshake is accepted exactly when the certificate permits delegation, the credential is
neither expired nor valid for more than seven days nor outliving its certificate, the schemes are
the ones of the (common) key type and equal the one the credential announces, the parent's signature
over its certificate and all fields of the credential verifies under the delegation context, and the
signature verifies with the credential's key. -/
theorem C39_accept {K} (o : Ossl K) (now : Int) (cert data : Bytes) (pre post : List Extension)
    (hpre : ∀ e ∈ pre, e.extension_type ≠ 34) (sch : UInt16) (ctx : Ctx) (content sig : Bytes) :
    (makePeerCert o ⟨cert, pre ++ ⟨34, data⟩ :: post⟩ true >>= fun p =>
        p.verify o now sch ctx content sig) = .ok () ↔
      ∃ x t k pk c, Spec.Accepts o now cert data sch ctx content sig x t k pk c := by
  have hf := find34 (post := post) (data := data) hpre
  unfold makePeerCert
  rw [if_neg (by simp)]
  simp only [Res.bind_eq_ok, makePeerCertDer_eq_ok]
  constructor
  · rintro ⟨p, ⟨parent, ⟨x, t, k, hne, hx, hk, hu, rfl⟩, oc, hc, hp⟩, hv⟩
    cases oc with
    | none =>
      rw [getDelegatedCredential, getExtensionLoose_none, hf] at hc
      cases hc
    | some c =>
      rw [getDelegatedCredential, getExtensionLoose_some, hf] at hc
      obtain ⟨e, rest, he, hr⟩ := hc
      cases Option.some.inj he
      obtain ⟨hfit, hw⟩ := readDelegatedCredential_eq_ok.mp hr
      simp only [finishPeerCert, makeCredential_eq_ok] at hp
      obtain ⟨pk, t', k', hpk, hk', hu', hupk, rfl⟩ := hp
      simp only [PeerCert.verify, verifyDelegated_eq_ok] at hv
      obtain ⟨v1, v2, ⟨v3, v4⟩, v5, ⟨v6, v7⟩, v8, v9⟩ := hv
      exact ⟨x, t', k', pk, c, ⟨hne, hx, hk', hfit, ⟨rest, hw⟩, hpk, hu', hupk, v1, v1.symm.trans v8,
        v6, v2, v3, v4, v7, v9⟩⟩
  · rintro ⟨x, t, k, pk, c, ⟨hne, hx, hk, hfit, ⟨rest, hw⟩, hpk, hu, hupk, v1, v8, v6, v2, v3, v4, v7,
      v9⟩⟩
    refine ⟨.delegated ⟨t, k, x⟩ pk c, ⟨_, ⟨x, t, k, hne, hx, hk, hu, rfl⟩, some c, ?_, ?_⟩, ?_⟩
    · rw [getDelegatedCredential, getExtensionLoose_some, hf]
      exact ⟨_, rest, rfl, readDelegatedCredential_eq_ok.mpr ⟨hfit, hw⟩⟩
    · exact makeCredential_eq_ok.mpr ⟨pk, t, k, hpk, hk, hu, hupk, rfl⟩
    · exact verifyDelegated_eq_ok.mpr ⟨v1, v2, ⟨v3, v4⟩, hfit.1, ⟨v6, v7⟩, v1.trans v8, v9⟩

/-- C39: without a delegated credential extension, or for a certificate that is not the leaf, the
signature is checked with the certificate's own key, whatever the time. -/
theorem C39_plain {K} (o : Ossl K) (now : Int) (entry : CertificateEntry) (leaf : Bool)
    (h : leaf = false ∨ ∀ e ∈ entry.extensions, e.extension_type ≠ 34) (sch : UInt16) (ctx : Ctx)
    (content sig : Bytes) :
    (makePeerCert o entry leaf >>= fun p => p.verify o now sch ctx content sig) = .ok () ↔
      ∃ x t k, entry.cert_data ≠ [] ∧ o.d2iX509 entry.cert_data = some x ∧ x.pubkey = some k ∧
        Spec.Usable o t k ∧ sch = Spec.scheme t ∧
        o.verify sch k (Spec.signed ctx content) sig = true := by
  have key : makePeerCert o entry leaf =
      (makePeerCertDer o entry.cert_data >>= fun c => .ok (.plain c)) := by
    unfold makePeerCert
    split_ifs with hl
    · rfl
    · have hn : getDelegatedCredential entry.extensions = .ok none := by
        rw [getDelegatedCredential, getExtensionLoose_none, findExtension_none]
        rcases h with h | h
        · exact absurd (Or.inl h) hl
        · exact h
      rw [hn]
      rfl
  rw [key]
  simp only [Res.bind_eq_ok, makePeerCertDer_eq_ok]
  constructor
  · rintro ⟨_, ⟨_, ⟨x, t, k, a, b, c, d, rfl⟩, e⟩, v⟩
    cases e
    obtain ⟨v1, v2⟩ := certVerify_eq_ok.mp v
    exact ⟨x, t, k, a, b, c, d, v1, v2⟩
  · rintro ⟨x, t, k, a, b, c, d, v1, v2⟩
    exact ⟨_, ⟨_, ⟨x, t, k, a, b, c, d, rfl⟩, rfl⟩, certVerify_eq_ok.mpr ⟨v1, v2⟩⟩

/-- C39: the alerts.  A credential used with another scheme than it announces, under a certificate
that does not permit it, expired, valid for too long, outliving its certificate, or with a parent
signature that does not verify, is refused with `illegal_parameter` (47), the expired one with
`certificate_expired` (45). -/
theorem C39_alerts {K} (o : Ossl K) (now : Int) (parent : PlainCert K) (pk : K)
    (c : DelegatedCredential) (sch : UInt16) (ctx : Ctx) (content sig : Bytes)
    (hfit : Spec.Fits c) (hr : Spec.Representable now parent.x509 c) :
    (sch ≠ c.expected_verify_scheme ∨ ¬ Spec.Permits parent.x509 →
      ∃ m, (PeerCert.delegated parent pk c).verify o now sch ctx content sig =
        .error (.err m (some 47) .fizz)) ∧
    (sch = c.expected_verify_scheme → Spec.Permits parent.x509 →
      Spec.expiry parent.x509 c ≤ now →
      ∃ m, (PeerCert.delegated parent pk c).verify o now sch ctx content sig =
        .error (.err m (some 45) .fizz)) ∧
    (sch = c.expected_verify_scheme → Spec.Permits parent.x509 →
      now < Spec.expiry parent.x509 c →
      ¬ (Spec.InTime now parent.x509 c ∧ c.credential_scheme = Spec.scheme parent.type ∧
        Spec.ParentSigned o parent.x509 parent.key (Spec.delegation ctx) c) →
      ∃ m, (PeerCert.delegated parent pk c).verify o now sch ctx content sig =
        .error (.err m (some 47) .fizz)) := by
  have hexp : getCredentialExpiresTime parent.x509 c = .ok (Spec.expiry parent.x509 c) :=
    getCredentialExpiresTime_eq_ok.mpr ⟨hr.1, hr.2.1, rfl⟩
  have hleft : ns (Spec.expiry parent.x509 c - now) = .ok (Spec.expiry parent.x509 c - now) :=
    ns_eq_ok.mpr ⟨hr.2.2.1, rfl⟩
  have hna : timepoint parent.x509.notAfter = .ok (parent.x509.notAfter * 1000000000) :=
    timepoint_eq_ok.mpr ⟨hr.2.2.2, rfl⟩
  have hperm : ¬ Spec.Permits parent.x509 →
      ∃ m, checkExtensions parent.x509 = .error (.err m (some 47) .fizz) := by
    intro hp
    rw [← checkExtensions_eq_ok (u := ())] at hp
    revert hp
    unfold checkExtensions Failure.fizz illegal_parameter
    split_ifs <;> simp
  refine ⟨?_, ?_, ?_⟩
  · intro h
    unfold PeerCert.verify verifyDelegated
    rw [delegation_eq]
    dsimp only
    split_ifs with hs
    · exact ⟨_, rfl⟩
    · rcases h with h | h
      · exact absurd h hs
      · obtain ⟨m, hm⟩ := hperm h
        rw [hm]; exact ⟨m, rfl⟩
  · intro hs hp ht
    unfold PeerCert.verify verifyDelegated
    rw [delegation_eq]
    dsimp only
    rw [if_neg (by simpa using hs), (checkExtensions_eq_ok (u := ())).mpr hp]
    simp only [Res.ok_bind, checkCredentialTimeValidity, hexp]
    rw [if_pos ht]
    exact ⟨_, rfl⟩
  · intro hs hp ht hbad
    unfold PeerCert.verify verifyDelegated
    rw [delegation_eq]
    dsimp only
    rw [if_neg (by simpa using hs), (checkExtensions_eq_ok (u := ())).mpr hp]
    simp only [Res.ok_bind, checkCredentialTimeValidity, hexp]
    rw [if_neg (by omega), hleft]
    simp only [Res.ok_bind]
    have hw : week = Spec.sevenDays := rfl
    split_ifs with h1
    · exact ⟨_, rfl⟩
    · rw [hna]
      simp only [Res.ok_bind]
      split_ifs with h2
      · exact ⟨_, rfl⟩
      · rw [prepareSignatureBuffer_eq_ok.mpr ⟨hfit.1, rfl⟩]
        simp only [Res.ok_bind]
        cases hv : parent.verify o c.credential_scheme (Spec.delegation ctx)
            (parent.x509.der ++ Spec.credentialFields c) c.signature with
        | ok u =>
          obtain ⟨a, b⟩ := certVerify_eq_ok.mp hv
          exact absurd ⟨⟨ht, by omega, by omega⟩, a, b⟩ hbad
        | error f =>
          obtain ⟨m, rfl⟩ := certVerify_error hv
          exact ⟨_, rfl⟩

/-! ## What the signature covers -/

theorem signed_inj {c c' : Ctx} {m m' : Bytes} (h : Spec.signed c m = Spec.signed c' m') :
    c = c' ∧ m = m' := by
  simp only [Spec.signed, List.append_assoc] at h
  have h := List.append_cancel_left h
  cases c <;> cases c' <;>
    first
    | exact ⟨rfl, by simpa [Spec.contextString, Spec.ascii] using h⟩
    | (exfalso; simp [Spec.contextString, Spec.ascii] at h)

/-- C39: signatures made for one purpose are never signatures for another: the bytes handed to the
signature algorithm determine the context and the content. -/
theorem C39_contexts (c c' : Ctx) (m m' : Bytes) :
    prepareSignData c m = prepareSignData c' m' ↔ c = c' ∧ m = m' := by
  rw [prepareSignData_eq, prepareSignData_eq]
  exact ⟨signed_inj, by rintro ⟨rfl, rfl⟩; rfl⟩

theorem credentialFields_inj {c c' : DelegatedCredential} (h : c.public_key.length < 2 ^ 24)
    (h' : c'.public_key.length < 2 ^ 24)
    {r r' : Bytes} (e : Spec.credentialFields c ++ r = Spec.credentialFields c' ++ r') :
    (c.valid_time = c'.valid_time ∧ c.expected_verify_scheme = c'.expected_verify_scheme ∧
      c.public_key = c'.public_key ∧ c.credential_scheme = c'.credential_scheme) ∧ r = r' := by
  simp only [Spec.credentialFields, List.append_assoc] at e
  obtain ⟨e1, e⟩ := List.append_inj e (by simp)
  obtain ⟨e2, e⟩ := List.append_inj e (by simp)
  obtain ⟨e3, e⟩ := List.append_inj e (by simp)
  have l : c.public_key.length = c'.public_key.length := by
    have := congrArg beDec e3
    rwa [beDec_beEnc (by omega), beDec_beEnc (by omega)] at this
  obtain ⟨e4, e⟩ := List.append_inj e l
  obtain ⟨e5, e⟩ := List.append_inj e (by simp)
  have n : ∀ {w a b : Nat}, a < 256 ^ w → b < 256 ^ w → beEnc w a = beEnc w b → a = b := by
    intro w a b ha hb hh
    have := congrArg beDec hh
    rwa [beDec_beEnc ha, beDec_beEnc hb] at this
  refine ⟨⟨UInt32.toNat_inj.mp (n ?_ ?_ e1), UInt16.toNat_inj.mp (n ?_ ?_ e2), e4,
    UInt16.toNat_inj.mp (n ?_ ?_ e5)⟩, e⟩
  · have := c.valid_time.toNat_lt; omega
  · have := c'.valid_time.toNat_lt; omega
  · have := c.expected_verify_scheme.toNat_lt; omega
  · have := c'.expected_verify_scheme.toNat_lt; omega
  · have := c.credential_scheme.toNat_lt; omega
  · have := c'.credential_scheme.toNat_lt; omega

/-- C39: the parent's signature covers everything: the bytes signed for a credential determine the
certificate (when neither encoding is a proper prefix of the other, as DER guarantees) and every
field of the credential but the signature itself. -/
theorem C39_covers (c c' : DelegatedCredential) (der der' b : Bytes)
    (hder : der <+: der' ∨ der' <+: der → der = der')
    (h : prepareSignatureBuffer c der = .ok b) (h' : prepareSignatureBuffer c' der' = .ok b) :
    der = der' ∧ { c with signature := [] } = { c' with signature := [] } := by
  rw [prepareSignatureBuffer_eq_ok] at h h'
  obtain ⟨hk, hb⟩ := h
  obtain ⟨hk', hb'⟩ := h'
  have p1 : der <+: b := ⟨_, hb.symm⟩
  have p2 : der' <+: b := ⟨_, hb'.symm⟩
  have hd : der = der' := hder (List.prefix_or_prefix_of_prefix p1 p2)
  subst hd
  rw [hb] at hb'
  have e := List.append_cancel_left hb'
  have e2 : Spec.credentialFields c ++ [] = Spec.credentialFields c' ++ [] := by rw [e]
  obtain ⟨⟨a, b, d, f⟩, -⟩ := credentialFields_inj hk hk' e2
  refine ⟨rfl, ?_⟩
  cases c; cases c'
  simp only at a b d f
  simp [a, b, d, f]

/-! ## Encoding -/

/-- C39: the credential encoding is exactly the wire format and decoding it gives back the same
credential, whatever surrounds it; an extension list without one gives none. -/
theorem C39_lossless (c : DelegatedCredential) :
    (∀ e, encodeDelegatedCredential c = .ok e ↔ Spec.Fits c ∧ e = ⟨34, Spec.wire c⟩) ∧
    (∀ exts, getDelegatedCredential exts = .ok (some c) ↔
      ∃ e pre trailing post, encodeDelegatedCredential c = .ok e ∧
        exts = pre ++ ⟨34, e.extension_data ++ trailing⟩ :: post ∧
        ∀ x ∈ pre, x.extension_type ≠ 34) ∧
    (∀ exts, getDelegatedCredential exts = .ok none ↔ ∀ x ∈ exts, x.extension_type ≠ 34) := by
  refine ⟨fun e => encodeDelegatedCredential_eq_ok, fun exts => ?_, fun exts => ?_⟩
  · rw [getDelegatedCredential, getExtensionLoose_some]
    simp only [findExtension_some, readDelegatedCredential_eq_ok, encodeDelegatedCredential_eq_ok]
    constructor
    · rintro ⟨⟨ty, d⟩, rest, ⟨ht, pre, post, rfl, hp⟩, hf, hd⟩
      cases ht; simp only at hd; subst hd
      exact ⟨_, pre, rest, post, ⟨hf, rfl⟩, rfl, hp⟩
    · rintro ⟨_, pre, rest, post, ⟨hf, rfl⟩, rfl, hp⟩
      exact ⟨_, rest, ⟨rfl, pre, post, rfl, hp⟩, hf, rfl⟩
  · rw [getDelegatedCredential, getExtensionLoose_none, findExtension_none]; rfl

/-- C39: the list of schemes a peer accepts credentials for is encoded and decoded without loss. -/
theorem C39_support_lossless (l : List UInt16) :
    (∀ e, encodeDelegatedCredentialSupport l = .ok e ↔
      2 * l.length < 2 ^ 16 ∧ e = ⟨34, Spec.supportWire l⟩) ∧
    (∀ exts, getDelegatedCredentialSupport exts = .ok (some l) ↔
      ∃ e pre trailing post, encodeDelegatedCredentialSupport l = .ok e ∧
        exts = pre ++ ⟨34, e.extension_data ++ trailing⟩ :: post ∧
        ∀ x ∈ pre, x.extension_type ≠ 34) := by
  refine ⟨fun e => encodeSupport_eq_ok, fun exts => ?_⟩
  rw [getDelegatedCredentialSupport, getExtensionLoose_some]
  simp only [findExtension_some, readSupport_eq_ok, encodeSupport_eq_ok]
  constructor
  · rintro ⟨⟨ty, d⟩, rest, ⟨ht, pre, post, rfl, hp⟩, hf, hd⟩
    cases ht; simp only at hd; subst hd
    exact ⟨_, pre, rest, post, ⟨hf, rfl⟩, rfl, hp⟩
  · rintro ⟨_, pre, rest, post, ⟨hf, rfl⟩, rfl, hp⟩
    exact ⟨_, rest, ⟨rfl, pre, post, rfl, hp⟩, hf, rfl⟩

end Fizz.Cred

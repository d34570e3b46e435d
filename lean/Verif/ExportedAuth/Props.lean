import Verif.ExportedAuth.Lemmas

/-!
# C40: exported authenticators
-/

namespace Fizz.ExportedAuth
open Fizz.Codec Fizz.Cred Fizz.Crypto
open Fizz.Codec.Spec (handshake)
open Fizz.Record (HsOut decodeHandshakeMessage)

/-- C40: a request is made exactly for a non-empty context that fits, it is the body of a
CertificateRequest with that context and those extensions, and it asks for exactly that. -/
theorem C40_request (ctx : Bytes) (exts : List Extension) (request : Bytes) :
    getAuthenticatorRequest ctx exts = .ok request ↔
      ctx ≠ [] ∧ Codec.Spec.CertificateRequestFits ⟨ctx, exts⟩ ∧
        request = Codec.Spec.certificateRequest ⟨ctx, exts⟩ ∧ Spec.Asks request ctx exts := by
  unfold getAuthenticatorRequest
  cases ctx with
  | nil => simp
  | cons b ctx =>
    simp only [List.isEmpty_cons, Bool.false_eq_true, if_false, encodeCertificateRequest_eq_ok, ne_eq,
      reduceCtorEq, not_false_eq_true, true_and]
    constructor
    · rintro ⟨h, rfl⟩
      refine ⟨h, rfl, .inr ⟨?_, h, [], by simp⟩⟩
      simp [Codec.Spec.certificateRequest, vec]
    · rintro ⟨h, h2, -⟩; exact ⟨h, h2⟩

theorem C40_request_refused (exts : List Extension) :
    getAuthenticatorRequest [] exts =
      .error (Failure.fizz "certificate request context must not be empty" (some 47)) := rfl

/-! ## Validation -/

theorem validateMessages_some {K} {o : Ossl K} {h : HashAlg} (ok : h.Ok) {c v f request hctx key sctx chain}
    (hc : Codec.Spec.Fits (.certificate c)) (hcl : (Codec.Spec.body (.certificate c)).length ≤ Spec.maxBody)
    (hv : Codec.Spec.Fits (.certificateVerify v))
    (hvl : (Codec.Spec.body (.certificateVerify v)).length ≤ Spec.maxBody) :
    validateMessages o h c v f request hctx (some key) sctx = .ok (some chain) ↔
      ∃ leaf others x t k, c.certificate_list = leaf :: others ∧ chain = leaf :: others ∧
        leaf.cert_data ≠ [] ∧ o.d2iX509 leaf.cert_data = some x ∧ x.pubkey = some k ∧
        Cred.Spec.Usable o t k ∧ v.algorithm = Cred.Spec.scheme t ∧
        o.verify v.algorithm k (Cred.Spec.signed sctx (Spec.certHash h.spec hctx request c)) v.signature = true ∧
        f = Spec.mac h.spec hctx key request c v := by
  unfold validateMessages
  cases hl : c.certificate_list with
  | nil => simp
  | cons leaf others =>
    have ec : encodeHandshake (.certificate c) = .ok (handshake (.certificate c)) :=
      encodeHandshake_eq_ok.mpr ⟨hc, body_le hcl, rfl⟩
    have ev : encodeHandshake (.certificateVerify v) = .ok (handshake (.certificateVerify v)) :=
      encodeHandshake_eq_ok.mpr ⟨hv, body_le hvl, rfl⟩
    simp only [Res.bind_eq_ok, makePeerCertDer_eq_ok, ec, ev, Res.ok_bind, getFinishedData_eq ok,
      computeTranscript, computeFinishedTranscript, PlainCert.verify]
    constructor
    · rintro ⟨p, ⟨x, t, k, h1, h2, h3, h4, rfl⟩, h5⟩
      dsimp only at h5
      cases hs : certVerify o t k v.algorithm sctx (h.digest (hctx ++ request ++ handshake (.certificate c)))
          v.signature with
      | error e => rw [hs] at h5; simp at h5
      | ok u =>
        rw [hs] at h5
        dsimp only at h5
        rw [certVerify_eq_ok] at hs
        split at h5
        · rename_i hf
          cases h5
          refine ⟨leaf, others, x, t, k, rfl, rfl, h1, h2, h3, h4, hs.1, hs.2, ?_⟩
          cases f; simp only at hf; rw [hf]; rfl
        · simp [Res.pure_eq] at h5
    · rintro ⟨_, _, x, t, k, e1, e2, h1, h2, h3, h4, h5, h6, rfl⟩
      cases e1
      refine ⟨⟨t, k, x⟩, ⟨x, t, k, h1, h2, h3, h4, rfl⟩, ?_⟩
      dsimp only
      have hs : certVerify o t k v.algorithm sctx (h.digest (hctx ++ request ++ handshake (.certificate c)))
          v.signature = .ok () := certVerify_eq_ok.mpr ⟨h5, h6⟩
      rw [hs]
      dsimp only
      have hf : (Spec.mac h.spec hctx key request c v).verify_data = Crypto.Spec.HMAC h.spec key (h.digest
          (hctx ++ request ++ handshake (.certificate c) ++ handshake (.certificateVerify v))) := rfl
      rw [if_pos hf, e2]; rfl

/-- C40: validation accepts an authenticator and returns `chain` exactly when the authenticator is good
for the request, the handshake context and the key: it is either the one empty authenticator that
answers the request, and `chain` is empty; or Certificate, CertificateVerify and Finished, where the
signature by the leaf's key covers the handshake context, the request and the Certificate, the Finished
is the MAC of all of these under the key, and `chain` is the certificate list sent. -/
theorem C40_valid {K} (o : Ossl K) {h : HashAlg} (ok : h.Ok) (request auth hctx key : Bytes) (sctx : Ctx)
    (chain : List CertificateEntry) :
    validate o h request auth hctx (some key) sctx = .ok (some chain) ↔
      Spec.Good o h.spec hctx key request sctx auth chain := by
  constructor
  · intro hv
    simp only [validate, Res.bind_eq_ok] at hv
    obtain ⟨first, h1, hv⟩ := hv
    split at hv
    · simp at hv
    · rename_i f orig rest
      simp only [Res.bind_eq_ok, getEmptyAuthenticator_eq_ok ok] at hv
      obtain ⟨_, ⟨ctx, exts, ha, rfl⟩, hv⟩ := hv
      split at hv
      · rename_i e
        cases hv
        rw [← e]
        exact .refusal ctx exts ha
      · simp [Res.pure_eq] at hv
    · rename_i m1 orig rest _
      simp only [validateChain, Res.bind_eq_ok] at hv
      obtain ⟨second, h2, hv⟩ := hv
      cases second with
      | none => simp at hv
      | msg m2 orig2 rest2 =>
        simp only [Res.bind_eq_ok] at hv
        obtain ⟨third, h3, hv⟩ := hv
        cases third with
        | none => simp at hv
        | msg m3 orig3 rest3 =>
          simp only [validateTypes] at hv
          split at hv
          · rename_i c v f _
            obtain ⟨rfl, f1, l1⟩ := decode_inv h1 (by simp)
            obtain ⟨rfl, f2, l2⟩ := decode_inv h2 (by simp)
            obtain ⟨rfl, f3, l3⟩ := decode_inv h3 (by simp)
            obtain ⟨leaf, others, x, t, k, e1, rfl, a1, a2, a3, a4, a5, a6, rfl⟩ :=
              (validateMessages_some ok f1 l1 f2 l2).mp hv
            obtain ⟨ctx, l⟩ := c
            have e1' : l = leaf :: others := e1
            subst e1'
            have := Spec.Good.certified (h := h.spec) (hctx := hctx) (key := key) (request := request)
              (sigCtx := sctx) ctx leaf others v rest3 x t k f1 l1 f2 a1 a2 a3 a4 a5 a6
            simpa only [List.append_assoc] using this
          · simp at hv
  · intro hg
    cases hg with
    | refusal ctx exts ha =>
      have hm : (Codec.Spec.body (.finished (Spec.emptyMac h.spec hctx key request ctx))).length ≤ 131072 := by
        have := mac_fits ok key (h.digest (hctx ++ request ++ handshake (.certificate ⟨ctx, []⟩)))
        exact Nat.le_trans this (by decide)
      have hd := decode_spec (m := .finished (Spec.emptyMac h.spec hctx key request ctx)) [] trivial trivial hm
      rw [List.append_nil] at hd
      simp only [validate, hd, Res.ok_bind]
      rw [(getEmptyAuthenticator_eq_ok ok).mpr ⟨ctx, exts, ha, rfl⟩]
      simp [Res.ok_bind, Res.pure_eq]
    | certified ctx leaf others v more x t k f1 l1 f2 a1 a2 a3 a4 a5 a6 =>
      have l2 : (Codec.Spec.body (.certificateVerify v)).length ≤ Spec.maxBody := by
        have : v.signature.length < 65536 := f2
        simp [Codec.Spec.body, Codec.Spec.certificateVerify, Codec.Spec.u16, vec, Width.bytes, Spec.maxBody]
        omega
      have l3 : (Codec.Spec.body (.finished (Spec.mac h.spec hctx key request ⟨ctx, leaf :: others⟩ v))).length ≤
          131072 := Nat.le_trans (mac_fits ok key _) (by decide)
      simp only [List.append_assoc]
      simp only [validate, decode_spec (m := .certificate ⟨ctx, leaf :: others⟩) _ f1 trivial l1, Res.ok_bind,
        validateChain, decode_spec (m := .certificateVerify v) _ f2 trivial l2,
        decode_spec (m := .finished (Spec.mac h.spec hctx key request ⟨ctx, leaf :: others⟩ v)) _ trivial trivial l3,
        validateTypes]
      exact (validateMessages_some ok f1 l1 f2 l2).mpr
        ⟨leaf, others, x, t, k, rfl, rfl, a1, a2, a3, a4, a5, a6, rfl⟩

/-- C40: an authenticator is accepted as a refusal (an empty chain) only if it is, to the byte, the empty
authenticator for the request; no authenticator with a Certificate message is. -/
theorem C40_refusal {K} (o : Ossl K) {h : HashAlg} (ok : h.Ok) (request auth hctx key : Bytes) (sctx : Ctx) :
    validate o h request auth hctx (some key) sctx = .ok (some []) ↔
      ∃ ctx exts, Spec.Asks request ctx exts ∧
        auth = handshake (.finished (Spec.emptyMac h.spec hctx key request ctx)) := by
  rw [C40_valid o ok]
  constructor
  · intro hg
    cases hg with
    | refusal ctx exts ha => exact ⟨ctx, exts, ha, rfl⟩
  · rintro ⟨ctx, exts, ha, rfl⟩
    exact .refusal ctx exts ha

/-! ## Making -/

theorem find_filter {α} (p : α → Bool) (l : List α) : l.find? p = (l.filter p).head? := by
  rw [List.head?_filter]

theorem getRequestedSchemes_eq_ok {exts asked} :
    getRequestedSchemes exts = .ok asked ↔ Spec.AskedSchemes exts asked := by
  unfold getRequestedSchemes
  cases exts with
  | nil =>
    cases asked with
    | none => simp [Spec.AskedSchemes]
    | some l => simp [Spec.AskedSchemes]
  | cons e es =>
    simp only [List.isEmpty_cons, Bool.false_eq_true, if_false, Res.bind_eq_ok, Res.pure_eq,
      Except.ok.injEq]
    cases asked with
    | none =>
      simp only [Option.map_eq_none_iff, exists_eq_right, Spec.AskedSchemes]
      exact (C03_signatureAlgorithms ⟨[]⟩).2.2 _
    | some l =>
      have key := (C03_signatureAlgorithms ⟨l⟩).2.1 (e :: es)
      have hl : (l.flatMap fun v => beEnc 2 v.toNat).length = 2 * l.length := by
        clear key
        induction l with
        | nil => rfl
        | cons a l ih => rw [List.flatMap_cons, List.length_append, beEnc_length, ih, List.length_cons]; omega
      have hw : Codec.Spec.signatureAlgorithmsWire ⟨l⟩ =
          ⟨13, beEnc 2 (2 * l.length) ++ l.flatMap fun v => beEnc 2 v.toNat⟩ := by
        show Extension.mk 13 (beEnc 2 ((l.flatMap fun v => beEnc 2 v.toNat).length) ++ _) = _
        rw [hl]
        rfl
      simp only [Spec.AskedSchemes]
      constructor
      · rintro ⟨a, ha, he⟩
        cases a with
        | none => simp at he
        | some a =>
          cases a
          simp only [Option.map_some, Option.some.injEq] at he
          subst he
          obtain ⟨x, pre, post, h1, h2, h3⟩ := key.mp ha
          obtain ⟨hf, rfl⟩ := ((C03_signatureAlgorithms ⟨_⟩).1 x).mp h1
          rw [hw] at h2
          exact ⟨pre, post, h2, h3, hf⟩
      · rintro ⟨pre, post, h2, h3, h4⟩
        refine ⟨some ⟨l⟩, key.mpr ⟨_, pre, post, ((C03_signatureAlgorithms ⟨l⟩).1 _).mpr ⟨h4, rfl⟩, ?_, h3⟩, rfl⟩
        rw [hw]; exact h2

theorem pick_eq (supported own : List UInt16) (asked : Option (List UInt16)) :
    pickRequested supported own asked =
      (supported.filter fun s => decide (s ∈ own ∧ ∃ l, asked = some l ∧ s ∈ l)).head? := by
  cases asked with
  | none =>
    have : (supported.filter fun s => decide (s ∈ own ∧ ∃ l, (none : Option (List UInt16)) = some l ∧ s ∈ l)) = [] := by
      rw [List.filter_eq_nil_iff]; simp
    rw [this]; rfl
  | some l =>
    simp only [pickRequested, find_filter]
    congr 1
    apply List.filter_congr
    intro s _
    simp

theorem getSignatureScheme_eq_ok {supported own exts r} :
    getSignatureScheme supported own exts = .ok r ↔
      ∃ asked, Spec.AskedSchemes exts asked ∧ Spec.Picks supported own asked r := by
  simp only [getSignatureScheme, Res.bind_eq_ok, getRequestedSchemes_eq_ok, pick_eq, Spec.Picks, find_filter]
  have e : ∀ l : List UInt16, (l.filter fun s => own.contains s) = l.filter fun s => decide (s ∈ own) := by
    intro l; apply List.filter_congr; intro s _; simp
  constructor
  · rintro ⟨asked, h1, h2⟩
    refine ⟨asked, h1, ?_⟩
    generalize supported.filter (fun s => decide (s ∈ own ∧ ∃ l, asked = some l ∧ s ∈ l)) = both at h2
    cases both with
    | nil =>
      simp only [List.head?_nil, Res.pure_eq, Except.ok.injEq, e] at h2
      exact ⟨by simp, fun _ => h2.symm⟩
    | cons a l =>
      simp only [List.head?_cons, Res.pure_eq, Except.ok.injEq] at h2
      exact ⟨fun _ => h2.symm, by simp⟩
  · rintro ⟨asked, h1, h2, h3⟩
    refine ⟨asked, h1, ?_⟩
    generalize supported.filter (fun s => decide (s ∈ own ∧ ∃ l, asked = some l ∧ s ∈ l)) = both at h2 h3
    cases both with
    | nil =>
      simp only [List.head?_nil, Res.pure_eq, Except.ok.injEq, e]
      exact (h3 rfl).symm
    | cons a l =>
      simp only [List.head?_cons, Res.pure_eq, Except.ok.injEq]
      exact (h2 (by simp)).symm

theorem makeWith_eq_ok {h : HashAlg} (ok : h.Ok) {cert : Own} {s rctx request hctx key sctx auth} :
    makeWith h cert s rctx request hctx (some key) sctx = .ok auth ↔
      ∃ c sig, cert.certMessage rctx = .ok c ∧ Codec.Spec.Encodable (.certificate c) ∧
        cert.sign s sctx (Spec.certHash h.spec hctx request c) = .ok sig ∧ sig.length < 65536 ∧
        auth = handshake (.certificate c) ++ handshake (.certificateVerify ⟨s, sig⟩) ++
          handshake (.finished (Spec.mac h.spec hctx key request c ⟨s, sig⟩)) := by
  simp only [makeWith, Res.bind_eq_ok, encodeHandshake_eq_ok, getFinishedData_eq ok, Except.ok.injEq,
    computeTranscript, computeFinishedTranscript, Res.pure_eq]
  constructor
  · rintro ⟨c, h1, _, ⟨h2, h3, rfl⟩, sig, h4, _, ⟨h5, -, rfl⟩, _, rfl, _, ⟨-, -, rfl⟩, rfl⟩
    exact ⟨c, sig, h1, ⟨h2, h3⟩, h4, h5, rfl⟩
  · rintro ⟨c, sig, h1, ⟨h2, h3⟩, h4, h5, rfl⟩
    refine ⟨c, h1, _, ⟨h2, h3, rfl⟩, sig, h4, _, ⟨h5, ?_, rfl⟩, _, rfl, _, ⟨trivial, ?_, rfl⟩, rfl⟩
    · simp [Codec.Spec.body, Codec.Spec.certificateVerify, Codec.Spec.u16, vec, Width.bytes]
      omega
    · have := mac_fits ok key
        (h.digest (hctx ++ request ++ handshake (.certificate c) ++ handshake (.certificateVerify ⟨s, sig⟩)))
      omega

/-- C40: what is made.  The request says which context and schemes are asked for; the scheme is picked by
the rule of `Spec.Picks` (which signs with the certificate's scheme even if it was not asked for); without
a scheme the empty authenticator is made, otherwise Certificate, CertificateVerify and Finished over the
handshake context and the request, with the context asked for. -/
theorem C40_made {h : HashAlg} (ok : h.Ok) (supported : List UInt16) (cert : Own)
    (request hctx key : Bytes) (sctx : Ctx) (auth : Bytes) :
    makeAuthenticator h supported cert request hctx (some key) sctx = .ok auth ↔
      ∃ ctx exts asked r, Spec.Asks request ctx exts ∧ Spec.AskedSchemes exts asked ∧
        Spec.Picks supported cert.schemes asked r ∧
        ((r = none ∧ auth = handshake (.finished (Spec.emptyMac h.spec hctx key request ctx))) ∨
         (∃ s c sig, r = some s ∧ cert.certMessage ctx = .ok c ∧ Codec.Spec.Encodable (.certificate c) ∧
            cert.sign s sctx (Spec.certHash h.spec hctx request c) = .ok sig ∧ sig.length < 65536 ∧
            auth = handshake (.certificate c) ++ handshake (.certificateVerify ⟨s, sig⟩) ++
              handshake (.finished (Spec.mac h.spec hctx key request c ⟨s, sig⟩)))) := by
  simp only [makeAuthenticator, Res.bind_eq_ok, Prod.exists, decodeAuthRequest_eq_ok,
    getSignatureScheme_eq_ok]
  constructor
  · rintro ⟨ctx, exts, ha, r, ⟨asked, h1, h2⟩, hm⟩
    refine ⟨ctx, exts, asked, r, ha, h1, h2, ?_⟩
    cases r with
    | none =>
      obtain ⟨ctx', exts', ha', rfl⟩ := (getEmptyAuthenticator_eq_ok ok).mp hm
      cases (asks_unique ha ha').1
      exact .inl ⟨rfl, rfl⟩
    | some s =>
      obtain ⟨c, sig, h⟩ := (makeWith_eq_ok ok).mp hm
      exact .inr ⟨s, c, sig, rfl, h⟩
  · rintro ⟨ctx, exts, asked, r, ha, h1, h2, ⟨rfl, rfl⟩ | ⟨s, c, sig, rfl, h⟩⟩
    · exact ⟨ctx, exts, ha, none, ⟨asked, h1, h2⟩, (getEmptyAuthenticator_eq_ok ok).mpr ⟨ctx, exts, ha, rfl⟩⟩
    · exact ⟨ctx, exts, ha, some s, ⟨asked, h1, h2⟩, (makeWith_eq_ok ok).mpr ⟨c, sig, h⟩⟩

theorem picks_one {supported asked r} {s : UInt16} (h : Spec.Picks supported [s] asked r) :
    r = if s ∈ supported then some s else none := by
  obtain ⟨h1, h2⟩ := h
  have key : ∀ l : List UInt16, (∀ a ∈ l, a = s) → l ≠ [] → l.head? = some s := by
    intro l hl hn
    cases l with
    | nil => exact absurd rfl hn
    | cons a l => rw [hl a (by simp)]; rfl
  split
  · rename_i hs
    by_cases hb : (supported.filter fun x => decide (x ∈ [s] ∧ ∃ l, asked = some l ∧ x ∈ l)) = []
    · rw [h2 hb]
      apply key
      · intro a ha; simpa using (List.mem_filter.mp ha).2
      · intro e
        have : s ∈ supported.filter fun x => decide (x ∈ [s]) := List.mem_filter.mpr ⟨hs, by simp⟩
        rw [e] at this; simp at this
    · rw [h1 hb]
      apply key _ _ hb
      intro a ha
      have := (List.mem_filter.mp ha).2
      simp at this
      exact this.1
  · rename_i hs
    have e : ∀ p : UInt16 → Bool, (∀ x, p x = true → x = s) → supported.filter p = [] := by
      intro p hp
      rw [List.filter_eq_nil_iff]
      intro x hx hpx
      rw [hp x hpx] at hx
      exact hs hx
    rw [h2 (e _ (by intro x hx; simp at hx; exact hx.1)), e _ (by intro x hx; simpa using hx)]
    rfl

/-- C40 (round trip): the authenticator made with a certificate and its key validates, for the same
request, handshake context and key, and gives the certificate chain sent; it is a refusal exactly when
the certificate's scheme is not supported. -/
theorem C40_roundtrip {K} (o : Ossl K) {h : HashAlg} (ok : h.Ok) (supported : List UInt16)
    (cert : SelfCert K) (request hctx key : Bytes) (sctx : Ctx) (auth : Bytes) (x : X509 K) (k : K)
    (hparse : o.d2iX509 cert.x509.der = some x) (hder : cert.x509.der ≠ []) (hkey : x.pubkey = some k)
    (husable : Cred.Spec.Usable o cert.type k) (hpair : Cred.Spec.Pair o k cert.key)
    (hsize : ∀ ctx : Bytes, ctx.length < 256 → (Codec.Spec.body (.certificate
      ⟨ctx, Spec.entries (cert.x509 :: cert.rest)⟩)).length ≤ 131072)
    (hmade : makeAuthenticator h supported (ofSelfCert o cert) request hctx (some key) sctx = .ok auth) :
    validate o h request auth hctx (some key) sctx =
      .ok (some (if Cred.Spec.scheme cert.type ∈ supported then
        Spec.entries (cert.x509 :: cert.rest) else [])) := by
  rw [C40_valid o ok]
  obtain ⟨ctx, exts, asked, r, ha, -, hp, hr⟩ := (C40_made ok ..).mp hmade
  have hp' := picks_one (s := Cred.Spec.scheme cert.type) (by
    have : (ofSelfCert o cert).schemes = [Cred.Spec.scheme cert.type] := by
      simp [ofSelfCert, sigSchemes, schemeOf_eq]
    rw [← this]; exact hp)
  rcases hr with ⟨rfl, rfl⟩ | ⟨s, c, sig, rfl, hc, he, hs, hl, rfl⟩
  · rw [if_neg]
    · exact .refusal ctx exts ha
    · intro hmem; rw [if_pos hmem] at hp'; simp at hp'
  · have hmem : Cred.Spec.scheme cert.type ∈ supported := by
      by_cases hmem : Cred.Spec.scheme cert.type ∈ supported
      · exact hmem
      · rw [if_neg hmem] at hp'; simp at hp'
    rw [if_pos hmem] at hp' ⊢
    cases Option.some.inj hp'
    cases hc
    obtain ⟨h1, h2⟩ := certSign_eq_ok.mp hs
    have := Spec.Good.certified (o := o) (h := h.spec) (hctx := hctx) (key := key) (request := request)
      (sigCtx := sctx) ctx ⟨cert.x509.der, []⟩ (Spec.entries cert.rest)
      ⟨Cred.Spec.scheme cert.type, sig⟩ [] x cert.type k he.1
      (hsize ctx (asks_len ha)) hl hder hparse hkey husable rfl (hpair _ _ _ h2)
    rw [List.append_nil] at this
    exact this

/-! ## The context of an authenticator -/

/-- C40: the context reported is that of the Certificate message the authenticator begins with. -/
theorem C40_context (auth ctx : Bytes) :
    getAuthenticatorContext auth = .ok ctx ↔
      ∃ chain more, Codec.Spec.Fits (.certificate ⟨ctx, chain⟩) ∧
        (Codec.Spec.body (.certificate ⟨ctx, chain⟩)).length ≤ 131072 ∧
        auth = handshake (.certificate ⟨ctx, chain⟩) ++ more := by
  simp only [getAuthenticatorContext, Res.bind_eq_ok]
  constructor
  · rintro ⟨first, h1, h2⟩
    split at h2
    · simp at h2
    · rename_i c orig rest
      simp only [Res.pure_eq, Except.ok.injEq] at h2
      subst h2
      obtain ⟨rfl, hf, hl⟩ := decode_inv h1 (by simp)
      exact ⟨c.certificate_list, rest, hf, hl, rfl⟩
    · simp at h2
  · rintro ⟨chain, more, hf, hl, rfl⟩
    exact ⟨_, decode_spec (m := .certificate ⟨ctx, chain⟩) more hf trivial hl, rfl⟩

/-- C40: a validated chain came with a Certificate message, whose context is what
`getAuthenticatorContext` reports. -/
theorem C40_context_of_valid {K} (o : Ossl K) {h : HashAlg} (ok : h.Ok) (request auth hctx key : Bytes)
    (sctx : Ctx) (chain : List CertificateEntry) (hne : chain ≠ [])
    (hv : validate o h request auth hctx (some key) sctx = .ok (some chain)) :
    ∃ ctx, getAuthenticatorContext auth = .ok ctx ∧
      ∃ more, auth = handshake (.certificate ⟨ctx, chain⟩) ++ more := by
  rw [C40_valid o ok] at hv
  cases hv with
  | refusal => exact absurd rfl hne
  | certified ctx leaf others v more x t k f1 l1 =>
    refine ⟨ctx, (C40_context _ _).mpr ⟨leaf :: others, ?_, f1, l1, ?_⟩, ?_⟩
    rotate_left
    · rw [List.append_assoc, List.append_assoc]
    · exact ⟨_, by rw [List.append_assoc, List.append_assoc]⟩

end Fizz.ExportedAuth

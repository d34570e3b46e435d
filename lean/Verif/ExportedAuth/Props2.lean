import Verif.ExportedAuth.Props
import Verif.Exporter.Props
import Verif.Agree.Props

/-!
# C40: an authenticator is good for one connection, direction and request only
-/

namespace Fizz.ExportedAuth
open Fizz.Codec Fizz.Cred Fizz.Crypto
open Fizz.Codec.Spec (handshake)
open Fizz.Record (HsOut decodeHandshakeMessage)
open Fizz.Agree.Spec (NoClash)
open Fizz.Agree (framed_inj framed_handshake)

theorem finished_encodable {h : HashAlg} (ok : h.Ok) (key t : Bytes) :
    Codec.Spec.Encodable (.finished ⟨Crypto.Spec.HMAC h.spec key t⟩) :=
  ⟨trivial, by have := mac_fits ok key t; omega⟩

/-- Every good authenticator covers something. -/
theorem C40_covers {K} (o : Ossl K) (h : Crypto.Spec.Hash) (hctx key request : Bytes) (sctx : Ctx) (auth chain)
    (hg : Spec.Good o h hctx key request sctx auth chain) : ∃ covered, Spec.Covers hctx request auth covered := by
  cases hg with
  | refusal ctx exts ha => exact ⟨_, .refusal ctx exts _ ha⟩
  | certified ctx leaf others v more x t k f1 l1 f2 =>
    have hv : v.signature.length < 65536 := f2
    refine ⟨_, .certified _ v _ more ⟨f1, body_le l1⟩ ⟨f2, ?_⟩⟩
    simp [Codec.Spec.body, Codec.Spec.certificateVerify, Codec.Spec.u16, vec, Width.bytes]
    omega

theorem handshake_type_ne {m m' : HsMsg} {x y : Bytes} (h : Codec.Spec.typeByte m ≠ Codec.Spec.typeByte m') :
    handshake m ++ x ≠ handshake m' ++ y := by
  intro e
  simp only [handshake, List.cons_append, List.cons.injEq] at e
  exact h e.1

theorem fin_ne_cert {f c} {x y : Bytes} : handshake (.finished f) ++ x ≠ handshake (.certificate c) ++ y :=
  handshake_type_ne (by show (20 : UInt8) ≠ 11; decide)

theorem cert_ne_fin {f c} {x y : Bytes} : handshake (.certificate c) ++ y ≠ handshake (.finished f) ++ x :=
  fun h => fin_ne_cert h.symm

/-- An authenticator covers one string only. -/
theorem covers_parts {hctx request auth covered} (hc : Spec.Covers hctx request auth covered) :
    (∃ ctx exts f, Spec.Asks request ctx exts ∧ auth = handshake (.finished f) ∧
      covered = hctx ++ request ++ handshake (.certificate ⟨ctx, []⟩)) ∨
    (∃ c v f more, Codec.Spec.Encodable (.certificate c) ∧ Codec.Spec.Encodable (.certificateVerify v) ∧
      auth = handshake (.certificate c) ++ handshake (.certificateVerify v) ++ handshake (.finished f) ++ more ∧
      covered = hctx ++ request ++ handshake (.certificate c) ++ handshake (.certificateVerify v)) := by
  cases hc with
  | refusal ctx exts f ha => exact .inl ⟨ctx, exts, f, ha, rfl, rfl⟩
  | certified c v f more h1 h2 => exact .inr ⟨c, v, f, more, h1, h2, rfl, rfl⟩

theorem handshake_inj {m m' : HsMsg} (h : Codec.Spec.Encodable m) (h' : Codec.Spec.Encodable m')
    (hm : Codec.Spec.Modern m) (hm' : Codec.Spec.Modern m') (e : handshake m = handshake m') : m = m' := by
  have := Agree.frame_parts h.2 h'.2 e
  have p := parseHandshake_of_fits m h.1 hm
  have p' := parseHandshake_of_fits m' h'.1 hm'
  rw [this.1, this.2, p'] at p
  exact (Except.ok.inj p).symm

/-- The MAC a good authenticator carries. -/
theorem good_mac {K} {o : Ossl K} {h : HashAlg} (ok : h.Ok) {hctx key request sctx auth chain covered}
    (hg : Spec.Good o h.spec hctx key request sctx auth chain) (hc : Spec.Covers hctx request auth covered) :
    ∃ pre more, auth = pre ++ handshake (.finished ⟨Crypto.Spec.HMAC h.spec key (h.digest covered)⟩) ++ more ∧
      ((pre = [] ∧ more = [] ∧ ∃ ctx exts, Spec.Asks request ctx exts ∧
          covered = hctx ++ request ++ handshake (.certificate ⟨ctx, []⟩)) ∨
       (∃ c v, Codec.Spec.Encodable (.certificate c) ∧ Codec.Spec.Encodable (.certificateVerify v) ∧
          pre = handshake (.certificate c) ++ handshake (.certificateVerify v) ∧
          covered = hctx ++ request ++ pre)) := by
  cases hg with
  | refusal ctx exts ha =>
    rcases covers_parts hc with ⟨ctx', exts', f, ha', he, rfl⟩ | ⟨c, v, f, more, h1, h2, he, rfl⟩
    · cases (asks_unique ha ha').1
      exact ⟨[], [], by rw [List.nil_append, List.append_nil]; rfl, .inl ⟨rfl, rfl, ctx, exts, ha, rfl⟩⟩
    · rw [← List.append_nil (handshake (.finished _)), List.append_assoc, List.append_assoc] at he
      exact absurd he (fin_ne_cert)
  | certified ctx leaf others v more x t k f1 l1 f2 =>
    have hv : v.signature.length < 65536 := f2
    have hv2 : Codec.Spec.Encodable (.certificateVerify v) := ⟨f2, by
      simp [Codec.Spec.body, Codec.Spec.certificateVerify, Codec.Spec.u16, vec, Width.bytes]
      omega⟩
    have hc2 : Codec.Spec.Encodable (.certificate ⟨ctx, leaf :: others⟩) := ⟨f1, body_le l1⟩
    rcases covers_parts hc with ⟨ctx', exts', f, ha', he, rfl⟩ | ⟨c, v', f, more', h1, h2, he, rfl⟩
    · rw [← List.append_nil (handshake (.finished f)), List.append_assoc, List.append_assoc] at he
      exact absurd he (cert_ne_fin)
    · simp only [List.append_assoc] at he
      obtain ⟨e1, he⟩ := framed_inj (framed_handshake hc2) (framed_handshake h1) he
      obtain ⟨e2, he⟩ := framed_inj (framed_handshake hv2) (framed_handshake h2) he
      refine ⟨handshake (.certificate ⟨ctx, leaf :: others⟩) ++ handshake (.certificateVerify v), more, ?_,
        .inr ⟨_, v, hc2, hv2, rfl, ?_⟩⟩
      · rw [← e1, ← e2]; rfl
      · rw [← e1, ← e2]; simp only [List.append_assoc]

/-- Where the request ends in what a refusal covers. -/
theorem refusal_inj {request request' ctx ctx' : Bytes} {exts exts'} (ha : Spec.Asks request ctx exts)
    (ha' : Spec.Asks request' ctx' exts')
    (he : request ++ handshake (.certificate ⟨ctx, []⟩) = request' ++ handshake (.certificate ⟨ctx', []⟩)) :
    request = request' := by
  have hl : ∀ c : Bytes, (handshake (.certificate ⟨c, []⟩)).length = 8 + c.length := by
    intro c
    simp [handshake, Codec.Spec.body, Codec.Spec.certificateMsg, vec, Width.bytes]; omega
  have hlen := congrArg List.length he
  simp only [List.length_append, hl] at hlen
  rcases ha with ⟨rfl, rfl, rfl⟩ | ⟨-, hf, more, rfl⟩
  · rcases ha' with ⟨rfl, -, -⟩ | ⟨hne, -, -⟩
    · rfl
    · have := List.length_pos_iff.mpr hne
      simp at hlen
      omega
  · rcases ha' with ⟨rfl, rfl, rfl⟩ | ⟨-, hf', more', rfl⟩
    · simp [Codec.Spec.certificateRequest, vec, Width.bytes] at hlen
      omega
    · have hc : ctx = ctx' := by
        simp only [Codec.Spec.certificateRequest, vec, List.append_assoc] at he
        obtain ⟨h1, h2⟩ := List.append_inj he (by simp)
        have h3 := beEnc_inj (by simpa [Width.bytes] using hf.1) (by simpa [Width.bytes] using hf'.1) h1
        exact (List.append_inj h2 h3).1
      subst hc
      exact (List.append_inj' he rfl).1

/-- C40 (binding): if one authenticator is good for two requests, handshake contexts and keys (of the
lengths the exporter gives), then these are the same, unless the two MAC computations contain a collision
of the hash function. -/
theorem C40_bound {K} (o : Ossl K) {h : HashAlg} (ok : h.Ok) {hctx key request sctx auth chain covered}
    {hctx' key' request' sctx' chain' covered'}
    (hg : Spec.Good o h.spec hctx key request sctx auth chain)
    (hg' : Spec.Good o h.spec hctx' key' request' sctx' auth chain')
    (hc : Spec.Covers hctx request auth covered) (hc' : Spec.Covers hctx' request' auth covered')
    (hl : hctx.length = hctx'.length) (hk : key.length = h.hashLen) (hk' : key'.length = h.hashLen)
    (hn : NoClash h.spec (Spec.macInputs h.spec key covered) (Spec.macInputs h.spec key' covered')) :
    hctx = hctx' ∧ key = key' ∧ request = request' ∧ chain = chain' := by
  have hfin : handshake (.finished ⟨Crypto.Spec.HMAC h.spec key (h.digest covered)⟩) =
      handshake (.finished ⟨Crypto.Spec.HMAC h.spec key' (h.digest covered')⟩) →
      key = key' ∧ covered = covered' := by
    intro e
    have e1 := handshake_inj (finished_encodable ok _ _) (finished_encodable ok _ _) trivial trivial e
    simp only [HsMsg.finished.injEq, Finished.mk.injEq] at e1
    obtain ⟨e2, e3⟩ := Agree.hmac_inj ok hk hk' (Agree.NoClash.mono hn
      (fun a ha => List.mem_cons_of_mem _ ha) (fun a ha => List.mem_cons_of_mem _ ha)) e1
    exact ⟨e2, hn _ (by simp [Spec.macInputs]) _ (by simp [Spec.macInputs]) e3⟩
  obtain ⟨pre, more, he, hp⟩ := good_mac ok hg hc
  obtain ⟨pre', more', he', hp'⟩ := good_mac ok hg' hc'
  have hboth : hctx = hctx' ∧ key = key' ∧ request = request' := by
    rcases hp with ⟨rfl, rfl, ctx, exts, ha, hcov⟩ | ⟨c, v, h1, h2, rfl, hcov⟩
    · rcases hp' with ⟨rfl, rfl, ctx', exts', ha', hcov'⟩ | ⟨c', v', h1', h2', rfl, hcov'⟩
      · rw [he] at he'
        simp only [List.nil_append, List.append_nil] at he'
        obtain ⟨rfl, e⟩ := hfin he'
        rw [hcov, hcov', List.append_assoc, List.append_assoc] at e
        obtain ⟨e0, e⟩ := List.append_inj e hl
        exact ⟨e0, rfl, refusal_inj ha ha' e⟩
      · rw [he] at he'
        simp only [List.nil_append, List.append_assoc] at he'
        exact absurd he' (fin_ne_cert)
    · rcases hp' with ⟨rfl, rfl, ctx', exts', ha', hcov'⟩ | ⟨c', v', h1', h2', rfl, hcov'⟩
      · rw [he] at he'
        simp only [List.nil_append, List.append_assoc] at he'
        exact absurd he' (cert_ne_fin)
      · rw [he] at he'
        simp only [List.append_assoc] at he'
        obtain ⟨e1, he'⟩ := framed_inj (framed_handshake h1) (framed_handshake h1') he'
        obtain ⟨e2, he'⟩ := framed_inj (framed_handshake h2) (framed_handshake h2') he'
        obtain ⟨e3, -⟩ := framed_inj (framed_handshake (finished_encodable ok _ _))
          (framed_handshake (finished_encodable ok _ _)) he'
        obtain ⟨rfl, e⟩ := hfin e3
        rw [hcov, hcov', e1, e2] at e
        obtain ⟨e, -⟩ := List.append_inj' e rfl
        obtain ⟨rfl, rfl⟩ := List.append_inj e hl
        exact ⟨rfl, rfl, rfl⟩
  refine ⟨hboth.1, hboth.2.1, hboth.2.2, ?_⟩
  clear hfin hn hp hp' he he' hc hc'
  cases hg with
  | refusal ctx exts ha =>
    generalize hauth : handshake (.finished (Spec.emptyMac h.spec hctx key request ctx)) = auth at hg'
    cases hg' with
    | refusal => rfl
    | certified ctx' leaf' others' v' more' x' t' k' f1' l1' f2' =>
      rw [← List.append_nil (handshake (.finished _)), List.append_assoc, List.append_assoc] at hauth
      exact absurd hauth (fin_ne_cert)
  | certified ctx leaf others v more x t k f1 l1 f2 =>
    generalize hauth : handshake (.certificate ⟨ctx, leaf :: others⟩) ++ _ ++ _ ++ _ = auth at hg'
    cases hg' with
    | refusal ctx' =>
      rw [← List.append_nil (handshake (.finished (Spec.emptyMac _ _ _ _ _))), List.append_assoc,
        List.append_assoc] at hauth
      exact absurd hauth (cert_ne_fin)
    | certified ctx' leaf' others' v' more' x' t' k' f1' l1' f2' =>
      simp only [List.append_assoc] at hauth
      obtain ⟨e1, -⟩ := framed_inj (framed_handshake (m := .certificate _) ⟨f1, body_le l1⟩)
        (framed_handshake (m := .certificate _) ⟨f1', body_le l1'⟩) hauth
      have := handshake_inj (m := .certificate _) (m' := .certificate _) ⟨f1, body_le l1⟩ ⟨f1', body_le l1'⟩
        trivial trivial e1
      simp only [HsMsg.certificate.injEq, CertificateMsg.mk.injEq] at this
      exact this.2

/-! ## No undefined behaviour -/

theorem decode_noUB (u : Bytes) (why : String) : decodeHandshakeMessage u ≠ .error (.ub why) := by
  intro h
  unfold decodeHandshakeMessage at h
  split at h
  · split at h
    · simp [Failure.rt] at h
    · split at h
      · simp at h
      · split at h
        · rename_i e hp
          simp only [Except.error.injEq] at h
          subst h
          exact C02_total _ _ _ hp
        · simp at h
  · simp at h

theorem readRequest_noUB : NoUB readCertificateRequest :=
  NoUB.bind (NoUB.readBuf _) fun _ => NoUB.bind noUB_readExts fun _ => NoUB.pure _

theorem empty_noUB {h : HashAlg} (ok : h.Ok) (request hctx key : Bytes) (why : String) :
    getEmptyAuthenticator h request hctx (some key) ≠ .error (.ub why) := by
  cases hd : decodeAuthRequest request with
  | ok p =>
    rw [(getEmptyAuthenticator_eq_ok ok).mpr ⟨p.1, p.2, decodeAuthRequest_eq_ok.mp hd, rfl⟩]
    simp
  | error f =>
    simp only [getEmptyAuthenticator, hd, Res.error_bind]
    intro h
    cases h
    unfold decodeAuthRequest at hd
    split at hd
    · simp at hd
    · cases hr : readCertificateRequest request with
      | ok p => rw [hr, Res.ok_bind] at hd; simp [Res.pure_eq] at hd
      | error f =>
        rw [hr, Res.error_bind] at hd
        cases hd
        exact readRequest_noUB _ _ hr

theorem makePeerCertDer_error {K} {o : Ossl K} {d f} (h : makePeerCertDer o d = .error f) :
    ∃ m, f = Failure.rt m := by
  have hset : ∀ t k f, setKey o t k = .error f → ∃ m, f = Failure.rt m := by
    intro t k f h
    cases t <;> simp only [setKey, validateECKey, validateEdKey] at h <;>
      (repeat' split at h) <;> simp at h <;> exact ⟨_, h.symm⟩
  have hcr : ∀ t x f, PlainCert.create o t x = .error f → ∃ m, f = Failure.rt m := by
    intro t x f h
    unfold PlainCert.create at h
    split at h
    · simp at h; exact ⟨_, h.symm⟩
    · rename_i k _
      cases hs : setKey o t k with
      | error e => rw [hs, Res.error_bind] at h; cases h; exact hset _ _ _ hs
      | ok u => rw [hs, Res.ok_bind] at h; simp [Res.pure_eq] at h
  unfold makePeerCertDer at h
  split at h
  · simp at h; exact ⟨_, h.symm⟩
  · split at h
    · simp at h; exact ⟨_, h.symm⟩
    · unfold makePeerCertX509 at h
      split at h
      · simp at h; exact ⟨_, h.symm⟩
      · split at h
        all_goals first
          | exact hcr _ _ _ h
          | (simp at h; exact ⟨_, h.symm⟩)

/-- C40: whatever bytes arrive as authenticator, with a key from the exporter validation has no undefined
behaviour. -/
theorem C40_no_ub {K} (o : Ossl K) {h : HashAlg} (ok : h.Ok) (request auth hctx key : Bytes) (sctx : Ctx)
    (why : String) : validate o h request auth hctx (some key) sctx ≠ .error (.ub why) := by
  intro hv
  unfold validate at hv
  cases h1 : decodeHandshakeMessage auth with
  | error f => rw [h1, Res.error_bind] at hv; cases hv; exact decode_noUB _ _ h1
  | ok first =>
    rw [h1, Res.ok_bind] at hv
    split at hv
    · simp at hv
    · cases he : getEmptyAuthenticator h request hctx (some key) with
      | error f => rw [he, Res.error_bind] at hv; cases hv; exact empty_noUB ok _ _ _ _ he
      | ok e => rw [he, Res.ok_bind] at hv; split at hv <;> simp [Res.pure_eq] at hv
    · rename_i m1 orig rest _
      unfold validateChain at hv
      cases h2 : decodeHandshakeMessage rest with
      | error f => rw [h2, Res.error_bind] at hv; cases hv; exact decode_noUB _ _ h2
      | ok second =>
        rw [h2, Res.ok_bind] at hv
        cases second with
        | none => simp at hv
        | msg m2 orig2 rest2 =>
          dsimp only at hv
          cases h3 : decodeHandshakeMessage rest2 with
          | error f => rw [h3, Res.error_bind] at hv; cases hv; exact decode_noUB _ _ h3
          | ok third =>
            rw [h3, Res.ok_bind] at hv
            cases third with
            | none => simp at hv
            | msg m3 orig3 rest3 =>
              dsimp only at hv
              unfold validateTypes at hv
              split at hv
              · rename_i c v f _
                obtain ⟨-, f1, l1⟩ := decode_inv h1 (by simp)
                obtain ⟨-, f2, l2⟩ := decode_inv h2 (by simp)
                unfold validateMessages at hv
                split at hv
                · simp at hv
                · rename_i leaf others hl
                  cases hp : makePeerCertDer o leaf.cert_data with
                  | error e =>
                    rw [hp, Res.error_bind] at hv
                    cases hv
                    obtain ⟨m, hm⟩ := makePeerCertDer_error hp
                    simp [Failure.rt] at hm
                  | ok p =>
                    have ec : encodeHandshake (.certificate c) = .ok (handshake (.certificate c)) :=
                      encodeHandshake_eq_ok.mpr ⟨f1, body_le l1, rfl⟩
                    have ev : encodeHandshake (.certificateVerify v) = .ok (handshake (.certificateVerify v)) :=
                      encodeHandshake_eq_ok.mpr ⟨f2, body_le l2, rfl⟩
                    simp only [hp, ec, ev, Res.ok_bind, getFinishedData_eq ok] at hv
                    split at hv
                    · simp at hv
                    · split at hv <;> simp [Res.pure_eq] at hv
              · simp at hv

end Fizz.ExportedAuth

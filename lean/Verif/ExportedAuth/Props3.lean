import Verif.ExportedAuth.Props2
import Verif.Cred.Example

/-!
# C40: authenticators over a connection
-/

namespace Fizz.ExportedAuth
open Fizz.Codec Fizz.Cred Fizz.Crypto
open Fizz.Codec.Spec (handshake)
open Fizz.Agree.Spec (NoClash)

theorem labels_make (dir : Direction) : makeLabels dir = (Spec.contextLabel dir, Spec.keyLabel dir) := by
  cases dir <;> rfl

theorem labels_validate (dir : Direction) :
    validateLabels dir = (Spec.contextLabel (Spec.opposite dir), Spec.keyLabel (Spec.opposite dir)) := by
  cases dir <;> rfl

theorem exportKey_eq {t : Transport} {h : HashAlg} {s : Bytes} (ok : h.Ok) (hc : t.cipher = some h)
    (hs : t.exporterMaster = some s) (hl : s.length = h.hashLen) (label : Bytes) (hlab : label.length ≤ 249) :
    t.exportKey h label = .ok (some (Exporter.Spec.exporter h.spec s label [] (UInt16.ofNat h.spec.L))) := by
  have h2 := ok.pos
  exact (Exporter.C71_connection _ _ _ _ _).2 h s hc hs ok hl hlab (by rw [Exporter.hl16 ok]; omega)

theorem label_len (dir : Direction) : (Spec.contextLabel dir).length ≤ 249 ∧ (Spec.keyLabel dir).length ≤ 249 := by
  cases dir <;> decide

/-- C40: on a connection whose exporter secret is there, an authenticator is made with the exporter values
of RFC 9261 for the sender's direction. -/
theorem C40_get {t : Transport} {h : HashAlg} {s : Bytes} (ok : h.Ok) (hc : t.cipher = some h)
    (hs : t.exporterMaster = some s) (hl : s.length = h.hashLen) (dir : Direction) (cert : Own)
    (request : Bytes) :
    getAuthenticator t dir cert request =
      makeAuthenticator h t.sigSchemes cert request (Spec.handshakeContext h.spec s dir)
        (some (Spec.finishedKey h.spec s dir)) .authenticator := by
  have hl1 := label_len dir
  simp only [getAuthenticator, Transport.hasher, hc, Res.ok_bind, labels_make,
    exportKey_eq ok hc hs hl _ hl1.1, exportKey_eq ok hc hs hl _ hl1.2]
  rfl

/-- C40: and validated with those for the direction of the other end. -/
theorem C40_validate {K} (o : Ossl K) {t : Transport} {h : HashAlg} {s : Bytes} (ok : h.Ok)
    (hc : t.cipher = some h) (hs : t.exporterMaster = some s) (hl : s.length = h.hashLen) (dir : Direction)
    (request auth : Bytes) :
    validateAuthenticator o t dir request auth =
      validate o h request auth (Spec.handshakeContext h.spec s (Spec.opposite dir))
        (some (Spec.finishedKey h.spec s (Spec.opposite dir))) .authenticator := by
  have hl1 := label_len (Spec.opposite dir)
  simp only [validateAuthenticator, Transport.hasher, hc, Res.ok_bind, labels_validate,
    exportKey_eq ok hc hs hl _ hl1.1, exportKey_eq ok hc hs hl _ hl1.2]
  rfl

/-- C40 (end to end): what one end of a connection makes with a certificate and its key validates at the
other end, for the same request, and gives the chain sent. -/
theorem C40_end_to_end {K} (o : Ossl K) {t t' : Transport} {h : HashAlg} {s : Bytes} (ok : h.Ok)
    (hc : t.cipher = some h) (hs : t.exporterMaster = some s) (hc' : t'.cipher = some h)
    (hs' : t'.exporterMaster = some s) (hl : s.length = h.hashLen) (dir : Direction)
    (cert : SelfCert K) (request auth : Bytes) (x : X509 K) (k : K)
    (hparse : o.d2iX509 cert.x509.der = some x) (hder : cert.x509.der ≠ []) (hkey : x.pubkey = some k)
    (husable : Cred.Spec.Usable o cert.type k) (hpair : Cred.Spec.Pair o k cert.key)
    (hsize : ∀ ctx : Bytes, ctx.length < 256 → (Codec.Spec.body (.certificate
      ⟨ctx, Spec.entries (cert.x509 :: cert.rest)⟩)).length ≤ 131072)
    (hmade : getAuthenticator t dir (ofSelfCert o cert) request = .ok auth) :
    validateAuthenticator o t' (Spec.opposite dir) request auth =
      .ok (some (if Cred.Spec.scheme cert.type ∈ t.sigSchemes then
        Spec.entries (cert.x509 :: cert.rest) else [])) := by
  rw [C40_get ok hc hs hl] at hmade
  rw [C40_validate o ok hc' hs' hl]
  have e : Spec.opposite (Spec.opposite dir) = dir := by cases dir <;> rfl
  rw [e]
  exact C40_roundtrip o ok t.sigSchemes cert request _ _ .authenticator auth x k hparse hder hkey husable
    hpair hsize hmade

/-- The length of the exporter values. -/
theorem exported_len {h : HashAlg} (ok : h.Ok) (s : Bytes) (dir : Direction) :
    (Spec.handshakeContext h.spec s dir).length = h.hashLen ∧ (Spec.finishedKey h.spec s dir).length = h.hashLen := by
  constructor
  · show (Crypto.Spec.Expand h.spec _ _ (UInt16.ofNat h.hashLen).toNat).length = _
    rw [Exporter.hl16 ok, Expand_length ok]
  · show (Crypto.Spec.Expand h.spec _ _ (UInt16.ofNat h.hashLen).toNat).length = _
    rw [Exporter.hl16 ok, Expand_length ok]

theorem keyLabel_inj {d d' : Direction} (h : Spec.keyLabel d = Spec.keyLabel d') : d = d' := by
  cases d <;> cases d' <;> first | rfl | (exact absurd h (by decide))

/-- C40: one authenticator accepted twice was accepted on connections with the same exporter secret, in the
same direction, for the same request, and gave the same chain, unless the computations contain a collision
of the hash function.  So it cannot be reflected to its sender, replayed on another connection or used to
answer another request. -/
theorem C40_one_use {K} (o : Ossl K) {t t' : Transport} {h : HashAlg} {s s' : Bytes} (ok : h.Ok)
    (hc : t.cipher = some h) (hs : t.exporterMaster = some s) (hl : s.length = h.hashLen)
    (hc' : t'.cipher = some h) (hs' : t'.exporterMaster = some s') (hl' : s'.length = h.hashLen)
    {dir dir' : Direction} {request request' auth : Bytes} {chain chain' : List CertificateEntry}
    (hv : validateAuthenticator o t dir request auth = .ok (some chain))
    (hv' : validateAuthenticator o t' dir' request' auth = .ok (some chain'))
    (hmac : ∀ covered covered',
      Spec.Covers (Spec.handshakeContext h.spec s (Spec.opposite dir)) request auth covered →
      Spec.Covers (Spec.handshakeContext h.spec s' (Spec.opposite dir')) request' auth covered' →
      NoClash h.spec (Spec.macInputs h.spec (Spec.finishedKey h.spec s (Spec.opposite dir)) covered)
        (Spec.macInputs h.spec (Spec.finishedKey h.spec s' (Spec.opposite dir')) covered'))
    (hexp : NoClash h.spec
      (Exporter.Spec.inputs h.spec s (Spec.keyLabel (Spec.opposite dir)) [] (UInt16.ofNat h.hashLen))
      (Exporter.Spec.inputs h.spec s' (Spec.keyLabel (Spec.opposite dir')) [] (UInt16.ofNat h.hashLen))) :
    s = s' ∧ dir = dir' ∧ request = request' ∧ chain = chain' := by
  rw [C40_validate o ok hc hs hl, C40_valid o ok] at hv
  rw [C40_validate o ok hc' hs' hl', C40_valid o ok] at hv'
  obtain ⟨covered, hcov⟩ := C40_covers o h.spec _ _ _ _ _ _ hv
  obtain ⟨covered', hcov'⟩ := C40_covers o h.spec _ _ _ _ _ _ hv'
  have e1 := exported_len ok s (Spec.opposite dir)
  have e2 := exported_len ok s' (Spec.opposite dir')
  obtain ⟨-, h2, h3, h4⟩ := C40_bound o ok hv hv' hcov hcov' (by rw [e1.1, e2.1]) e1.2 e2.2
    (hmac _ _ hcov hcov')
  have hle : h.hashLen ≤ (UInt16.ofNat h.hashLen).toNat := by rw [Exporter.hl16 ok]; exact Nat.le_refl _
  obtain ⟨h5, h6, -, -⟩ := Exporter.C71_separate ok hl hl' (label_len _).2 (label_len _).2 hle hle hexp
    (congrArg (List.take h.hashLen) h2)
  refine ⟨h5, ?_, h3, h4⟩
  have := keyLabel_inj h6
  cases dir <;> cases dir' <;> first | rfl | (exact absurd this (by decide))

/-! ## Concrete cases -/

namespace Example
open Fizz.Cred.Example

/-- A connection. -/
def t : Transport := ⟨some toyHash, some [1, 2], [0x0804, 0x0403]⟩

/-- The certificate of `Verif/Cred/Example.lean` with its P-256 key. -/
def cert : SelfCert Nat := { type := .p256, key := 1, x509 := x }

/-- A request: context `[5]`, and ECDSA with P-256 or RSA asked for. -/
def request : Bytes := [1, 5, 0, 10, 0, 13, 0, 6, 0, 4, 4, 3, 8, 4]

set_option maxRecDepth 20000 in
theorem request_ok : getAuthenticatorRequest [5] [⟨13, [0, 4, 4, 3, 8, 4]⟩] = .ok request := rfl

set_option maxRecDepth 40000 in
/-- The client answers it. -/
theorem made : ∃ auth, getAuthenticator t .upstream (ofSelfCert o cert) request = .ok auth ∧
    auth.take 4 = [11, 0, 0, 13] := by
  cases e : getAuthenticator t .upstream (ofSelfCert o cert) request with
  | ok auth =>
    refine ⟨auth, rfl, ?_⟩
    have : (match getAuthenticator t .upstream (ofSelfCert o cert) request with
      | .ok a => decide (a.take 4 = [11, 0, 0, 13]) | .error _ => false) = true := by decide +kernel
    rw [e] at this
    simpa using this
  | error f =>
    exfalso
    have : (match getAuthenticator t .upstream (ofSelfCert o cert) request with
      | .ok a => true | .error _ => false) = true := by decide +kernel
    rw [e] at this
    simp at this

/-- Every hypothesis of `C40_end_to_end` holds: the server accepts it and gets the certificate. -/
example : ∃ auth, getAuthenticator t .upstream (ofSelfCert o cert) request = .ok auth ∧
    validateAuthenticator o t .downstream request auth = .ok (some [⟨[0x30, 1, 9], []⟩]) ∧
    getAuthenticatorContext auth = .ok [5] := by
  obtain ⟨auth, h1, h2⟩ := made
  have hv := C40_end_to_end o (t := t) (t' := t) (s := [1, 2]) toyHash_ok rfl rfl rfl rfl rfl .upstream cert request auth x 1 rfl (by decide) rfl
    usable1 (pair 1) (by
      intro ctx hctx
      simp [Codec.Spec.body, Codec.Spec.certificateMsg, Spec.entries, Codec.Spec.certificateEntry, vec,
        Width.bytes, cert, x, Codec.Spec.extensions]
      omega) h1
  refine ⟨auth, h1, hv, ?_⟩
  have : (match getAuthenticator t .upstream (ofSelfCert o cert) request with
      | .ok a => decide (getAuthenticatorContext a = .ok [5]) | .error _ => false) = true := by decide +kernel
  rw [h1] at this
  simpa using this

/-- An altered byte is not accepted: here the last byte of the Finished. -/
example : ∃ auth, getAuthenticator t .upstream (ofSelfCert o cert) request = .ok auth ∧
    validateAuthenticator o t .downstream request (auth.dropLast ++ [200]) = .ok none := by
  obtain ⟨auth, h1, -⟩ := made
  refine ⟨auth, h1, ?_⟩
  have : (match getAuthenticator t .upstream (ofSelfCert o cert) request with
      | .ok a => decide (validateAuthenticator o t .downstream request (a.dropLast ++ [200]) = .ok none)
      | .error _ => false) = true := by decide +kernel
  rw [h1] at this
  simpa using this

/-- A certificate whose scheme is not supported: the refusal is made, and accepted as such. -/
example : ∃ auth, getAuthenticator ⟨some toyHash, some [1, 2], [0x0804]⟩ .downstream (ofSelfCert o cert) request =
      .ok auth ∧ validateAuthenticator o t .upstream request auth = .ok (some []) := by
  refine ⟨handshake (.finished (Spec.emptyMac toyHash.spec (Spec.handshakeContext toyHash.spec [1, 2] .downstream)
    (Spec.finishedKey toyHash.spec [1, 2] .downstream) request [5])), ?_, ?_⟩ <;> decide +kernel

/-- The hypotheses of `C40_bound` can be met: a refusal for the request above, and one for no request at all
(whose MAC covers something else) do not clash. -/
example : NoClash toyHash.spec
      (Spec.macInputs toyHash.spec [7, 8] ([3, 4] ++ request ++ handshake (.certificate ⟨[5], []⟩)))
      (Spec.macInputs toyHash.spec [7, 8] ([3, 4] ++ [] ++ handshake (.certificate ⟨[], []⟩))) ∧
    Spec.Covers [3, 4] request (handshake (.finished ⟨[1]⟩)) ([3, 4] ++ request ++ handshake (.certificate ⟨[5], []⟩)) ∧
    Spec.Covers [3, 4] [] (handshake (.finished ⟨[1]⟩)) ([3, 4] ++ [] ++ handshake (.certificate ⟨[], []⟩)) := by
  refine ⟨?_, .refusal _ [⟨13, [0, 4, 4, 3, 8, 4]⟩] _ (decodeAuthRequest_eq_ok.mp (by decide)), .refusal _ [] _ (.inl ⟨rfl, rfl, rfl⟩)⟩
  intro a ha b hb
  revert a b
  decide +kernel

/-- The certificate's scheme is used although only RSA (0x0804) is asked for: the fallback of
`Spec.Picks`. -/
example : getSignatureScheme [0x0804, 0x0403] [0x0403] [⟨13, [0, 2, 8, 4]⟩] = .ok (some 0x0403) := by decide

/-- Before the exporter secret is there, an authenticator that begins with a Finished message makes
validation dereference a null pointer: the theorems above ask for the secret. -/
example : validateAuthenticator o ⟨some toyHash, none, []⟩ .upstream [] [20, 0, 0, 0] =
    .error (.ub "finishedMacKey is null") := by decide +kernel

end Example

end Fizz.ExportedAuth

import Verif.Cred.Spec
import Verif.Codec.ExtLemmas
import Mathlib.Tactic.SplitIfs

/-! # Lemmas about delegated credentials (helpers, not claims) -/

namespace Fizz.Cred
open Fizz.Codec

theorem prepareSignData_eq (c : Ctx) (m : Bytes) : prepareSignData c m = Spec.signed c m := by
  cases c <;> rfl

theorem schemeOf_eq (t : KeyType) : schemeOf t = Spec.scheme t := by cases t <;> rfl

theorem Spec.scheme_inj {t t' : KeyType} (h : Spec.scheme t = Spec.scheme t') : t = t' := by
  cases t <;> cases t' <;> first | rfl | (exact absurd h (by decide))

theorem setKey_eq_ok {K} {o : Ossl K} {t : KeyType} {k : K} {u : Unit} :
    setKey o t k = .ok u ↔ Spec.Usable o t k := by
  cases t <;> simp only [setKey, validateECKey, validateEdKey, Spec.Usable] <;>
    cases h : o.kind k <;> simp <;> cases o.ecCheck k <;> simp

theorem getKeyType_eq_ok {K} {o : Ossl K} {t : KeyType} {k : K} :
    getKeyType o k = .ok t ↔ (match t with
      | .rsa => o.kind k = .rsa
      | .ed25519 => o.kind k = .ed25519
      | .p256 => o.kind k = .p256
      | .p384 => o.kind k = .p384
      | .p521 => o.kind k = .p521) := by
  unfold getKeyType
  cases h : o.kind k <;> cases t <;> simp

theorem Spec.Usable.keyType {K} {o : Ossl K} {t : KeyType} {k : K} (h : Spec.Usable o t k) :
    getKeyType o k = .ok t := by
  rw [getKeyType_eq_ok]
  cases t <;> simp only [Spec.Usable] at h <;> first | exact h | exact h.1

theorem Spec.Usable.unique {K} {o : Ossl K} {t t' : KeyType} {k : K} (h : Spec.Usable o t k)
    (h' : Spec.Usable o t' k) : t = t' := by
  have a := h.keyType
  rw [h'.keyType] at a
  exact (Except.ok.inj a).symm

theorem certVerify_eq_ok {K} {o : Ossl K} {t k scheme ctx m s} {u : Unit} :
    certVerify o t k scheme ctx m s = .ok u ↔
      scheme = Spec.scheme t ∧ o.verify scheme k (Spec.signed ctx m) s = true := by
  simp only [certVerify, prepareSignData_eq, schemeOf_eq]
  split_ifs with h h2 <;> simp [h] <;> simp_all

theorem certVerify_error {K} {o : Ossl K} {t k scheme ctx m s f}
    (h : certVerify o t k scheme ctx m s = .error f) : ∃ msg, f = Failure.rt msg := by
  simp only [certVerify] at h
  split_ifs at h <;> simp at h <;> exact ⟨_, h.symm⟩

theorem certSign_eq_ok {K} {o : Ossl K} {t k scheme ctx m s} :
    certSign o t k scheme ctx m = .ok s ↔
      scheme = Spec.scheme t ∧ o.sign scheme k (Spec.signed ctx m) = some s := by
  simp only [certSign, prepareSignData_eq, schemeOf_eq]
  split_ifs with h
  · cases h2 : o.sign scheme k (Spec.signed ctx m) <;> simp [h]
  · simp [h]

theorem create_eq_ok {K} {o : Ossl K} {t x p} :
    PlainCert.create o t x = .ok p ↔ ∃ k, x.pubkey = some k ∧ Spec.Usable o t k ∧ p = ⟨t, k, x⟩ := by
  unfold PlainCert.create
  cases h : x.pubkey with
  | none => simp
  | some k =>
    simp only [Res.bind_eq_ok, setKey_eq_ok, Res.pure_eq, Except.ok.injEq, Option.some.injEq]
    constructor
    · rintro ⟨_, hu, rfl⟩; exact ⟨k, rfl, hu, rfl⟩
    · rintro ⟨_, rfl, hu, rfl⟩; exact ⟨(), hu, rfl⟩

theorem makePeerCertX509_eq_ok {K} {o : Ossl K} {x p} :
    makePeerCertX509 o x = .ok p ↔
      ∃ t k, x.pubkey = some k ∧ Spec.Usable o t k ∧ p = ⟨t, k, x⟩ := by
  unfold makePeerCertX509
  cases h : x.pubkey with
  | none => simp
  | some k =>
    have key : ∀ t, (∀ t', Spec.Usable o t' k → t' = t) →
        (PlainCert.create o t x = .ok p ↔ ∃ t k', some k = some k' ∧ Spec.Usable o t k' ∧
          p = ⟨t, k', x⟩) := by
      intro t ht
      rw [create_eq_ok, h]
      constructor
      · rintro ⟨k', e, hu, rfl⟩; exact ⟨t, k', e, hu, rfl⟩
      · rintro ⟨t', k', e, hu, rfl⟩
        cases Option.some.inj e
        cases ht _ hu
        exact ⟨k, rfl, hu, rfl⟩
    have no : (∀ t', ¬ Spec.Usable o t' k) → ∀ f : Failure, ((.error f : Res (PlainCert K)) = .ok p ↔
        ∃ t k', some k = some k' ∧ Spec.Usable o t k' ∧ p = ⟨t, k', x⟩) := by
      intro hn f
      simp only [reduceCtorEq, Option.some.injEq, false_iff]
      rintro ⟨t, _, rfl, hu, _⟩
      exact hn t hu
    dsimp only
    cases hk : o.kind k <;> dsimp only <;> first
      | (refine key _ ?_; intro t' hu; cases t' <;> simp [Spec.Usable, hk] at hu ⊢)
      | (refine no ?_ _; intro t' hu; cases t' <;> simp [Spec.Usable, hk] at hu)

theorem makePeerCertDer_eq_ok {K} {o : Ossl K} {d p} :
    makePeerCertDer o d = .ok p ↔
      ∃ x t k, d ≠ [] ∧ o.d2iX509 d = some x ∧ x.pubkey = some k ∧ Spec.Usable o t k ∧
        p = ⟨t, k, x⟩ := by
  unfold makePeerCertDer
  cases d with
  | nil => simp
  | cons b d =>
    simp only [List.length_cons, Nat.add_eq_zero_iff, Nat.one_ne_zero, and_false, if_false]
    cases h : o.d2iX509 (b :: d) with
    | none => simp
    | some x =>
      simp only [makePeerCertX509_eq_ok]
      constructor
      · rintro ⟨t, k, a, b, c⟩; exact ⟨x, t, k, by simp, rfl, a, b, c⟩
      · rintro ⟨_, t, k, _, e, a, b, c⟩; cases Option.some.inj e; exact ⟨t, k, a, b, c⟩

theorem mask_bit {a : UInt32} {n : Nat} (hn : n < 32) :
    (a &&& UInt32.ofNat (2 ^ n) = UInt32.ofNat (2 ^ n)) ↔ a.toNat.testBit n = true := by
  have hp : 2 ^ n < 2 ^ 32 := Nat.pow_lt_pow_right (by decide) hn
  rw [← UInt32.toNat_inj, UInt32.toNat_and, UInt32.toNat_ofNat', Nat.mod_eq_of_lt hp]
  constructor
  · intro h
    have := congrArg (fun v => Nat.testBit v n) h
    simpa [Nat.testBit_and, Nat.testBit_two_pow_self] using this
  · intro h
    apply Nat.eq_of_testBit_eq
    intro i
    rw [Nat.testBit_and]
    by_cases e : n = i
    · subst e; simp [h]
    · simp [Nat.testBit_two_pow_of_ne e]

theorem checkExtensions_eq_ok {K} {x : X509 K} {u : Unit} :
    checkExtensions x = .ok u ↔ Spec.Permits x := by
  have h1 := mask_bit (a := x.exFlags) (n := 1) (by decide)
  have h7 := mask_bit (a := x.keyUsage) (n := 7) (by decide)
  have e1 : UInt32.ofNat (2 ^ 1) = EXFLAG_KUSAGE := rfl
  have e7 : UInt32.ofNat (2 ^ 7) = KU_DIGITAL_SIGNATURE := rfl
  rw [e1] at h1; rw [e7] at h7
  unfold checkExtensions Spec.Permits
  rw [← h1, ← h7]
  have ko : kDelegatedOid = "1.3.6.1.4.1.44363.44" := rfl
  rw [ko]
  split_ifs with a b c <;> simp_all

theorem ns_eq_ok {t r : Int} : ns t = .ok r ↔ Spec.Holds t ∧ r = t := by
  unfold ns Spec.Holds
  split_ifs with h
  · rw [Except.ok.injEq]
    exact ⟨fun e => ⟨h, e.symm⟩, fun e => e.2.symm⟩
  · exact ⟨fun e => (nomatch e), fun e => absurd e.1 h⟩

theorem timepoint_eq_ok {t r : Int} : timepoint t = .ok r ↔ Spec.Holds (t * 1000000000) ∧ r = t * 1000000000 :=
  ns_eq_ok

theorem getCredentialExpiresTime_eq_ok {K} {x : X509 K} {c : DelegatedCredential} {e : Int} :
    getCredentialExpiresTime x c = .ok e ↔
      Spec.Holds (x.notBefore * 1000000000) ∧ Spec.Holds (Spec.expiry x c) ∧ e = Spec.expiry x c := by
  have hx : Spec.expiry x c = x.notBefore * 1000000000 + c.valid_time.toNat * 1000000000 := by
    unfold Spec.expiry; omega
  simp only [getCredentialExpiresTime, Res.bind_eq_ok, timepoint_eq_ok, ns_eq_ok, hx]
  constructor
  · rintro ⟨_, ⟨a, rfl⟩, b, c⟩; exact ⟨a, b, c⟩
  · rintro ⟨a, b, c⟩; exact ⟨_, ⟨a, rfl⟩, b, c⟩

theorem checkTime_eq_ok {K} {now : Int} {x : X509 K} {c : DelegatedCredential} {u : Unit} :
    checkCredentialTimeValidity now x c = .ok u ↔ Spec.Representable now x c ∧ Spec.InTime now x c := by
  have hw : week = Spec.sevenDays := rfl
  simp only [checkCredentialTimeValidity, Res.bind_eq_ok, getCredentialExpiresTime_eq_ok]
  constructor
  · rintro ⟨e, ⟨a, b, rfl⟩, h⟩
    split_ifs at h with h1
    simp only [Res.bind_eq_ok, ns_eq_ok] at h
    obtain ⟨_, ⟨h2, rfl⟩, h⟩ := h
    split_ifs at h with h3
    simp only [Res.bind_eq_ok, timepoint_eq_ok] at h
    obtain ⟨_, ⟨h4, rfl⟩, h⟩ := h
    split_ifs at h with h5
    exact ⟨⟨a, b, h2, h4⟩, by omega, by omega, by omega⟩
  · rintro ⟨⟨a, b, h2, h4⟩, h1, h3, h5⟩
    refine ⟨_, ⟨a, b, rfl⟩, ?_⟩
    rw [if_neg (by omega)]
    simp only [Res.bind_eq_ok, ns_eq_ok]
    refine ⟨_, ⟨h2, rfl⟩, ?_⟩
    rw [if_neg (by omega)]
    simp only [Res.bind_eq_ok, timepoint_eq_ok]
    exact ⟨_, ⟨h4, rfl⟩, by rw [if_neg (by omega)]⟩

theorem prepareSignatureBuffer_eq_ok {c : DelegatedCredential} {der b : Bytes} :
    prepareSignatureBuffer c der = .ok b ↔
      c.public_key.length < 2 ^ 24 ∧ b = der ++ Spec.credentialFields c := by
  simp only [prepareSignatureBuffer, Res.bind_eq_ok, writeBuf_eq_ok, writeU32, writeU16, Res.pure_eq,
    Except.ok.injEq, Width.bytes]
  constructor
  · rintro ⟨_, rfl, _, rfl, _, ⟨h, rfl⟩, _, rfl, rfl⟩
    exact ⟨by simpa using h, by simp [Spec.credentialFields, vec, Width.bytes]⟩
  · rintro ⟨h, rfl⟩
    exact ⟨_, rfl, _, rfl, _, ⟨by simpa using h, rfl⟩, _, rfl, by
      simp [Spec.credentialFields, vec, Width.bytes]⟩

theorem readDelegatedCredential_eq_ok {d : Bytes} {c rest} :
    readDelegatedCredential d = .ok (c, rest) ↔ Spec.Fits c ∧ d = Spec.wire c ++ rest := by
  simp only [readDelegatedCredential, Rd.bind_eq_ok, readU32_eq_ok, readU16_eq_ok, readBuf_eq_ok,
    Rd.pure_eq_ok, Prod.exists, Width.bytes]
  constructor
  · rintro ⟨v, _, _, ⟨rfl, rfl⟩, e, _, _, ⟨rfl, rfl⟩, k, _, _, ⟨hk, rfl, rfl⟩, s, _, _, ⟨rfl, rfl⟩,
      g, _, _, ⟨hg, rfl, rfl⟩, rfl, rfl⟩
    exact ⟨⟨by simpa using hk, by simpa using hg⟩, by
      simp [Spec.wire, Spec.credentialFields, vec, Width.bytes]⟩
  · rintro ⟨⟨hk, hg⟩, rfl⟩
    refine ⟨c.valid_time, _, beEnc 2 c.expected_verify_scheme.toNat ++ (vec .u24 c.public_key ++
      (beEnc 2 c.credential_scheme.toNat ++ (vec .u16 c.signature ++ rest))), ⟨?_, rfl⟩,
      _, _, _, ⟨rfl, rfl⟩, _, _, _, ⟨by simpa using hk, rfl, rfl⟩, _, _, _, ⟨rfl, rfl⟩, _, _, _,
      ⟨by simpa using hg, rfl, rfl⟩, rfl, rfl⟩
    simp only [Spec.wire, Spec.credentialFields, vec, Width.bytes, List.append_assoc]

theorem encodeDelegatedCredential_eq_ok {c : DelegatedCredential} {e : Extension} :
    encodeDelegatedCredential c = .ok e ↔ Spec.Fits c ∧ e = ⟨34, Spec.wire c⟩ := by
  simp only [encodeDelegatedCredential, Res.bind_eq_ok, writeBuf_eq_ok, writeU32, writeU16,
    Res.pure_eq, Except.ok.injEq, Width.bytes]
  constructor
  · rintro ⟨_, rfl, _, rfl, _, ⟨h, rfl⟩, _, rfl, _, ⟨g, rfl⟩, rfl⟩
    exact ⟨⟨by simpa using h, by simpa using g⟩, by
      simp [Spec.wire, Spec.credentialFields, vec, Width.bytes, delegated_credential]⟩
  · rintro ⟨⟨h, g⟩, rfl⟩
    exact ⟨_, rfl, _, rfl, _, ⟨by simpa using h, rfl⟩, _, rfl, _, ⟨by simpa using g, rfl⟩, by
      simp [Spec.wire, Spec.credentialFields, vec, Width.bytes, delegated_credential]⟩

theorem getExtensionLoose_some {α} {type : UInt16} {rd : Rd α} {exts a} :
    getExtensionLoose type rd exts = .ok (some a) ↔
      ∃ e rest, findExtension exts type = some e ∧ rd e.extension_data = .ok (a, rest) := by
  unfold getExtensionLoose
  cases h : findExtension exts type with
  | none => simp
  | some e =>
    cases h2 : rd e.extension_data with
    | error f => simp [h2]
    | ok p => obtain ⟨b, r⟩ := p; simp [h2]

theorem getExtensionLoose_none {α} {type : UInt16} {rd : Rd α} {exts} :
    getExtensionLoose type rd exts = .ok none ↔ findExtension exts type = none := by
  unfold getExtensionLoose
  cases h : findExtension exts type with
  | none => simp
  | some e =>
    cases h2 : rd e.extension_data with
    | error f => simp [h2]
    | ok p => obtain ⟨b, r⟩ := p; simp [h2]

theorem readSupport_eq_ok {d : Bytes} {l rest} :
    readSupport d = .ok (l, rest) ↔ 2 * l.length < 2 ^ 16 ∧ d = Spec.supportWire l ++ rest := by
  have e : ∀ l, Spec.supportWire l = vec .u16 (l.flatMap Codec.Spec.u16) := by
    intro l
    simp only [vec, u16s_length]; rfl
  simp only [readSupport, Rd.bind_eq_ok, readU16s_eq_ok, Rd.pure_eq_ok, Prod.exists, e]
  constructor
  · rintro ⟨_, _, _, ⟨h, rfl, rfl⟩, rfl, rfl⟩; exact ⟨h, rfl⟩
  · rintro ⟨h, rfl⟩; exact ⟨_, _, _, ⟨h, rfl, rfl⟩, rfl, rfl⟩

theorem encodeSupport_eq_ok {l : List UInt16} {e : Extension} :
    encodeDelegatedCredentialSupport l = .ok e ↔
      2 * l.length < 2 ^ 16 ∧ e = ⟨34, Spec.supportWire l⟩ := by
  have w : Spec.supportWire l = vec .u16 (l.flatMap Codec.Spec.u16) := by
    simp only [vec, u16s_length]; rfl
  simp only [encodeDelegatedCredentialSupport, Res.bind_eq_ok, writeU16s_eq_ok, Res.pure_eq,
    Except.ok.injEq, w]
  constructor
  · rintro ⟨_, ⟨h, rfl⟩, rfl⟩; exact ⟨h, rfl⟩
  · rintro ⟨h, rfl⟩; exact ⟨_, ⟨h, rfl⟩, rfl⟩

end Fizz.Cred

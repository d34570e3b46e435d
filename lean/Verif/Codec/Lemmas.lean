import Verif.Codec.PrimLemmas
import Verif.Codec.Spec

/-! # Lemmas about the message codecs (helpers, not claims) -/

namespace Fizz.Codec

@[simp] theorem pow_u8 : 256 ^ Width.bytes .u8 = 256 := rfl
@[simp] theorem pow_u16 : 256 ^ Width.bytes .u16 = 65536 := rfl
@[simp] theorem pow_u24 : 256 ^ Width.bytes .u24 = 16777216 := rfl
@[simp] theorem pow_u32 : 256 ^ Width.bytes .u32 = 4294967296 := rfl

theorem readRandom_eq_ok {inp r n rest} :
    readRandom inp = .ok ((r, n), rest) ↔ inp = r.val ++ rest ∧ n = 32 := by
  unfold readRandom
  split
  · next h =>
    simp only [Except.ok.injEq, Prod.mk.injEq]
    constructor
    · rintro ⟨⟨rfl, rfl⟩, rfl⟩; simp
    · obtain ⟨v, hv⟩ := r
      rintro ⟨rfl, rfl⟩
      refine ⟨⟨?_, rfl⟩, ?_⟩
      · simp only [Random.mk.injEq]
        show List.take 32 (v ++ rest) = v
        rw [List.take_append_of_le_length (by omega), List.take_of_length_le (by omega)]
      · show List.drop 32 (v ++ rest) = rest
        rw [List.drop_append_of_le_length (by omega), List.drop_of_length_le (by omega),
          List.nil_append]
  · next h =>
    simp only [reduceCtorEq, false_iff, not_and]
    obtain ⟨v, hv⟩ := r
    rintro rfl
    simp at h; omega

/-! ## Extensions -/

theorem ext_wire_length (e : Extension) :
    (Spec.extension e).length = 4 + e.extension_data.length := by
  simp [Spec.extension, Spec.u16, Width.bytes]; omega

theorem exts_length (l : List Extension) :
    (l.flatMap Spec.extension).length = (l.map fun e => 4 + e.extension_data.length).sum := by
  rw [List.length_flatMap]
  congr 1
  apply List.map_congr_left
  intro e _; exact ext_wire_length e

theorem u16s_length (l : List UInt16) : (l.flatMap Spec.u16).length = 2 * l.length := by
  induction l with
  | nil => rfl
  | cons a l ih => simp [ih, Spec.u16] at *; omega

theorem u8s_length (l : List UInt8) : (l.flatMap Spec.u8).length = l.length := by
  induction l with
  | nil => rfl
  | cons a l ih => simp [ih, Spec.u8] at *; omega

theorem elem_extension :
    ElemSpec readExtension (fun e => e.extension_data.length < 65536) Spec.extension := by
  intro inp a n rest
  simp only [readExtension, Rd.bind_eq_ok, readU16_eq_ok, readBuf_eq_ok, Rd.pure_eq_ok,
    Prod.exists, Prod.mk.injEq, pow_u16]
  constructor
  · rintro ⟨t, _, _, ⟨rfl, rfl⟩, d, _, _, ⟨h, rfl, rfl⟩, ⟨rfl, rfl⟩, rfl⟩
    exact ⟨h, by simp [Spec.extension, Spec.u16], by rw [ext_wire_length]; simp [Width.bytes]; omega⟩
  · rintro ⟨h, rfl, rfl⟩
    exact ⟨_, _, _, ⟨by simp only [Spec.extension, List.append_assoc]; rfl, rfl⟩, _, _, _, ⟨h, rfl, rfl⟩,
      ⟨rfl, by rw [ext_wire_length]; simp [Width.bytes]; omega⟩, rfl⟩

theorem ext_pos (e : Extension) : 0 < (Spec.extension e).length := by
  rw [ext_wire_length]; omega

theorem wspec_extension :
    WriteSpec sizeExtension writeExtension (fun e => e.extension_data.length < 65536)
      Spec.extension := by
  constructor
  · intro a; rw [ext_wire_length]; simp [sizeExtension, getBufSize, Width.bytes]; omega
  · intro a bs
    simp only [writeExtension, Res.bind_eq_ok, writeBuf_eq_ok, writeU16, Res.pure_eq,
      Except.ok.injEq, pow_u16]
    constructor
    · rintro ⟨_, rfl, _, ⟨h, rfl⟩, rfl⟩; exact ⟨h, rfl⟩
    · rintro ⟨h, rfl⟩; exact ⟨_, rfl, _, ⟨h, rfl⟩, rfl⟩

theorem writeExts_eq_ok {l bs} :
    writeVector .u16 sizeExtension writeExtension l = .ok bs ↔
      Spec.ExtensionsFit l ∧ bs = Spec.extensions l := by
  rw [writeVector_eq_ok wspec_extension, exts_length]; rfl

theorem exts_wire_length (l : List Extension) : (Spec.extensions l).length =
    2 + (l.map fun e => 4 + e.extension_data.length).sum := by
  rw [Spec.extensions, vec_length, exts_length]; rfl

theorem readExts_eq_ok {inp l n rest} :
    readVector .u16 readExtension inp = .ok ((l, n), rest) ↔
      Spec.ExtensionsFit l ∧ inp = Spec.extensions l ++ rest ∧
        n = (Spec.extensions l).length := by
  rw [readVector_eq_ok elem_extension ext_pos, exts_length]; rfl

/-! ## Certificate entries -/

theorem entry_wire_length (e : CertificateEntry) : (Spec.certificateEntry e).length =
    3 + e.cert_data.length + 2 + (e.extensions.map fun x => 4 + x.extension_data.length).sum := by
  rw [Spec.certificateEntry, List.length_append, exts_wire_length, vec_length]
  simp only [Width.bytes]; omega

theorem elem_certificateEntry : ElemSpec readCertificateEntry
    (fun e => e.cert_data.length < 16777216 ∧ Spec.ExtensionsFit e.extensions)
    Spec.certificateEntry := by
  intro inp a n rest
  simp only [readCertificateEntry, Rd.bind_eq_ok, readBuf_eq_ok, readExts_eq_ok, Rd.pure_eq_ok,
    Prod.exists, Prod.mk.injEq, pow_u24]
  constructor
  · rintro ⟨_, _, _, ⟨h1, rfl, rfl⟩, _, _, _, ⟨h2, rfl, rfl⟩, ⟨rfl, rfl⟩, rfl⟩
    exact ⟨⟨h1, h2⟩, by simp [Spec.certificateEntry], by simp [Spec.certificateEntry]⟩
  · rintro ⟨⟨h1, h2⟩, rfl, rfl⟩
    exact ⟨_, _, _, ⟨h1, by simp only [Spec.certificateEntry, List.append_assoc], rfl⟩, _, _, _, ⟨h2, rfl, rfl⟩,
      ⟨rfl, by simp [Spec.certificateEntry]⟩, rfl⟩

theorem wspec_certificateEntry : WriteSpec sizeCertificateEntry writeCertificateEntry
    (fun e => e.cert_data.length < 16777216 ∧ Spec.ExtensionsFit e.extensions)
    Spec.certificateEntry := by
  constructor
  · intro a
    rw [entry_wire_length]
    have : (a.extensions.map sizeExtension).sum =
        (a.extensions.map fun x => 4 + x.extension_data.length).sum := by
      congr 1; apply List.map_congr_left; intro x _
      simp [sizeExtension, getBufSize, Width.bytes]; omega
    simp [sizeCertificateEntry, getBufSize, this, Width.bytes]
  · intro a bs
    simp only [writeCertificateEntry, Res.bind_eq_ok, writeBuf_eq_ok, writeExts_eq_ok,
      Res.pure_eq, Except.ok.injEq, pow_u24]
    constructor
    · rintro ⟨_, ⟨h1, rfl⟩, _, ⟨h2, rfl⟩, rfl⟩; exact ⟨⟨h1, h2⟩, rfl⟩
    · rintro ⟨⟨h1, h2⟩, rfl⟩; exact ⟨_, ⟨h1, rfl⟩, _, ⟨h2, rfl⟩, rfl⟩

theorem entries_length (l : List CertificateEntry) :
    (l.flatMap Spec.certificateEntry).length = (l.map fun e => 3 + e.cert_data.length + 2 +
      (e.extensions.map fun x => 4 + x.extension_data.length).sum).sum := by
  rw [List.length_flatMap]; congr 1; apply List.map_congr_left
  intro e _; exact entry_wire_length e

theorem entry_pos (e : CertificateEntry) : 0 < (Spec.certificateEntry e).length := by
  rw [entry_wire_length]; omega

/-! ## Encoders: success exactly on `Fits`, producing `wire` -/

theorem writeU16s_eq_ok {w l bs} :
    writeVector w sizeU16 writeU16 l = .ok bs ↔
      2 * l.length < 256 ^ w.bytes ∧ bs = vec w (l.flatMap Spec.u16) := by
  rw [writeVector_eq_ok wspec_u16]
  have h : (fun v : UInt16 => beEnc 2 v.toNat) = Spec.u16 := rfl
  rw [h, u16s_length]; simp

theorem readU16s_eq_ok {w inp l n rest} :
    readVector w readU16 inp = .ok ((l, n), rest) ↔
      2 * l.length < 256 ^ w.bytes ∧ inp = vec w (l.flatMap Spec.u16) ++ rest ∧
        n = (vec w (l.flatMap Spec.u16)).length := by
  rw [readVector_eq_ok elem_u16 (by simp)]
  have h : (fun v : UInt16 => beEnc 2 v.toNat) = Spec.u16 := rfl
  rw [h, u16s_length]; simp

theorem writeU8s_eq_ok {w l bs} :
    writeVector w sizeU8 writeU8 l = .ok bs ↔
      l.length < 256 ^ w.bytes ∧ bs = vec w (l.flatMap Spec.u8) := by
  rw [writeVector_eq_ok wspec_u8]
  have h : (fun v : UInt8 => beEnc 1 v.toNat) = Spec.u8 := rfl
  rw [h, u8s_length]; simp

theorem readU8s_eq_ok {w inp l n rest} :
    readVector w readU8 inp = .ok ((l, n), rest) ↔
      l.length < 256 ^ w.bytes ∧ inp = vec w (l.flatMap Spec.u8) ++ rest ∧
        n = (vec w (l.flatMap Spec.u8)).length := by
  rw [readVector_eq_ok elem_u8 (by simp)]
  have h : (fun v : UInt8 => beEnc 1 v.toNat) = Spec.u8 := rfl
  rw [h, u8s_length]; simp

theorem encodeClientHello_eq_ok {m bs} :
    encodeClientHello m = .ok bs ↔ Spec.ClientHelloFits m ∧ bs = Spec.clientHello m := by
  simp only [encodeClientHello, Res.bind_eq_ok, writeU16, writeRandom, writeBuf_eq_ok,
    writeU16s_eq_ok, writeU8s_eq_ok, writeExts_eq_ok, Res.pure_eq, Except.ok.injEq, pow_u8, pow_u16]
  constructor
  · rintro ⟨_, rfl, _, rfl, _, ⟨h1, rfl⟩, _, ⟨h2, rfl⟩, _, ⟨h3, rfl⟩, _, ⟨h4, rfl⟩, rfl⟩
    exact ⟨⟨h1, h2, h3, h4⟩, rfl⟩
  · rintro ⟨⟨h1, h2, h3, h4⟩, rfl⟩
    exact ⟨_, rfl, _, rfl, _, ⟨h1, rfl⟩, _, ⟨h2, rfl⟩, _, ⟨h3, rfl⟩, _, ⟨h4, rfl⟩, rfl⟩

theorem readClientHello_eq_ok {inp m rest} :
    readClientHello inp = .ok (m, rest) ↔
      Spec.ClientHelloFits m ∧ (inp = Spec.clientHello m ++ rest ∨
        (m.extensions = [] ∧ rest = [] ∧ inp = Spec.clientHelloNoExtensions m)) := by
  simp only [readClientHello, Rd.bind_eq_ok, readU16_eq_ok, readRandom_eq_ok, readBuf_eq_ok,
    readU16s_eq_ok, readU8s_eq_ok, remaining_eq_ok, Prod.exists, pow_u8, pow_u16]
  constructor
  · rintro ⟨v, _, _, ⟨rfl, rfl⟩, r, _, _, ⟨rfl, rfl⟩, s, _, _, ⟨h1, rfl, rfl⟩, c, _, _,
      ⟨h2, rfl, rfl⟩, z, _, _, ⟨h3, rfl, rfl⟩, left, _, ⟨rfl, rfl⟩, h⟩
    split at h
    · simp only [Rd.bind_eq_ok, readExts_eq_ok, Prod.exists, Rd.pure_eq_ok] at h
      obtain ⟨x, _, _, ⟨h4, rfl, rfl⟩, rfl, rfl⟩ := h
      exact ⟨⟨h1, h2, h3, h4⟩, .inl (by simp [Spec.clientHello, Spec.u16])⟩
    · next hl =>
      simp only [Rd.pure_eq_ok] at h
      obtain ⟨rfl, rfl⟩ := h
      rename_i r
      have hl' : r = [] := by simpa using hl
      subst hl'
      exact ⟨⟨h1, h2, h3, by simp [Spec.ExtensionsFit]⟩,
        .inr ⟨rfl, rfl, by simp [Spec.clientHelloNoExtensions, Spec.u16]⟩⟩
  · rintro ⟨⟨h1, h2, h3, h4⟩, h⟩
    obtain ⟨v, r, s, c, z, x⟩ := m
    rcases h with rfl | ⟨hx, rfl, rfl⟩
    · refine ⟨v, _, _, ⟨by simp only [Spec.clientHello, List.append_assoc]; rfl, rfl⟩,
        r, _, _, ⟨rfl, rfl⟩, s, _, _, ⟨h1, rfl, rfl⟩, c, _, _, ⟨h2, rfl, rfl⟩, z, _, _,
        ⟨h3, rfl, rfl⟩, _, _, ⟨rfl, rfl⟩, ?_⟩
      rw [if_pos (by rw [List.length_append, exts_wire_length]; omega)]
      simp only [Rd.bind_eq_ok, readExts_eq_ok, Prod.exists, Rd.pure_eq_ok]
      exact ⟨_, _, _, ⟨h4, rfl, rfl⟩, rfl, rfl⟩
    · simp only at hx; subst hx
      refine ⟨v, _, _, ⟨by simp only [Spec.clientHelloNoExtensions, List.append_assoc]; rfl, rfl⟩,
        r, _, _, ⟨rfl, rfl⟩, s, _, _, ⟨h1, rfl, rfl⟩, c, _, _, ⟨h2, rfl, rfl⟩, z, _, [],
        ⟨h3, by simp, rfl⟩, _, _, ⟨rfl, rfl⟩, ?_⟩
      simp

theorem encodeServerHello_eq_ok {m bs} :
    encodeServerHello m = .ok bs ↔ Spec.ServerHelloFits m ∧ bs = Spec.serverHello m := by
  obtain ⟨v, r, s, c, z, x⟩ := m
  cases s with
  | some s =>
    simp only [encodeServerHello, Res.bind_eq_ok, writeU16, writeU8, writeRandom, writeBuf_eq_ok,
      writeExts_eq_ok, Res.pure_eq, Except.ok.injEq, pow_u8, Spec.ServerHelloFits,
      Spec.serverHello, Option.some.injEq, forall_eq']
    constructor
    · rintro ⟨_, rfl, _, rfl, _, ⟨h1, rfl⟩, _, rfl, _, rfl, _, ⟨h4, rfl⟩, rfl⟩
      exact ⟨⟨h1, h4⟩, rfl⟩
    · rintro ⟨⟨h1, h4⟩, rfl⟩
      exact ⟨_, rfl, _, rfl, _, ⟨h1, rfl⟩, _, rfl, _, rfl, _, ⟨h4, rfl⟩, rfl⟩
  | none =>
    simp only [encodeServerHello, Res.bind_eq_ok, writeU16, writeRandom,
      writeExts_eq_ok, Res.pure_eq, Except.ok.injEq, Spec.ServerHelloFits,
      Spec.serverHello]
    constructor
    · rintro ⟨_, rfl, _, rfl, _, rfl, _, rfl, _, rfl, _, ⟨h4, rfl⟩, rfl⟩
      exact ⟨⟨by simp, h4⟩, by simp [Spec.u16]⟩
    · rintro ⟨⟨_, h4⟩, rfl⟩
      exact ⟨_, rfl, _, rfl, _, rfl, _, rfl, _, rfl, _, ⟨h4, rfl⟩, by simp [Spec.u16]⟩

theorem readServerHello_eq_ok {inp m rest} :
    readServerHello inp = .ok (m, rest) ↔
      m.legacy_session_id_echo.isSome ∧ Spec.ServerHelloFits m ∧
        inp = Spec.serverHello m ++ rest := by
  simp only [readServerHello, Rd.bind_eq_ok, readU16_eq_ok, readU8_eq_ok, readRandom_eq_ok,
    readBuf_eq_ok, readExts_eq_ok, Prod.exists, pow_u8, Rd.pure_eq_ok]
  constructor
  · rintro ⟨v, _, _, ⟨rfl, rfl⟩, r, _, _, ⟨rfl, rfl⟩, s, _, _, ⟨h1, rfl, rfl⟩, c, _, _,
      ⟨rfl, rfl⟩, z, _, _, ⟨rfl, rfl⟩, x, _, _, ⟨h4, rfl, rfl⟩, rfl, rfl⟩
    exact ⟨rfl, ⟨by simpa using h1, h4⟩, by simp [Spec.serverHello, Spec.u16, Spec.u8]⟩
  · obtain ⟨v, r, s, c, z, x⟩ := m
    cases s with
    | none => simp
    | some s =>
      rintro ⟨_, ⟨h1, h4⟩, rfl⟩
      exact ⟨v, _, _, ⟨by simp only [Spec.serverHello, List.append_assoc]; rfl, rfl⟩,
        r, _, _, ⟨rfl, rfl⟩, s, _, _, ⟨h1 s rfl, rfl, rfl⟩, c, _, _, ⟨rfl, rfl⟩, z, _, _,
        ⟨rfl, rfl⟩, x, _, _, ⟨h4, rfl, rfl⟩, rfl, rfl⟩

theorem encodeHelloRetryRequest_eq_ok {m bs} :
    encodeHelloRetryRequest m = .ok bs ↔
      Spec.HelloRetryRequestFits m ∧ bs = Spec.helloRetryRequest m := by
  simp only [encodeHelloRetryRequest, Res.bind_eq_ok, writeU16, writeU8, writeRandom,
    writeBuf_eq_ok, writeExts_eq_ok, Res.pure_eq, Except.ok.injEq, pow_u8]
  constructor
  · rintro ⟨_, rfl, _, rfl, _, ⟨h1, rfl⟩, _, rfl, _, rfl, _, ⟨h4, rfl⟩, rfl⟩
    exact ⟨⟨h1, h4⟩, rfl⟩
  · rintro ⟨⟨h1, h4⟩, rfl⟩
    exact ⟨_, rfl, _, rfl, _, ⟨h1, rfl⟩, _, rfl, _, rfl, _, ⟨h4, rfl⟩, rfl⟩

theorem encodeEncryptedExtensions_eq_ok {m bs} :
    encodeEncryptedExtensions m = .ok bs ↔
      Spec.EncryptedExtensionsFits m ∧ bs = Spec.encryptedExtensions m := writeExts_eq_ok

theorem readEncryptedExtensions_eq_ok {inp m rest} :
    readEncryptedExtensions inp = .ok (m, rest) ↔
      Spec.EncryptedExtensionsFits m ∧ inp = Spec.encryptedExtensions m ++ rest := by
  simp only [readEncryptedExtensions, Rd.bind_eq_ok, readExts_eq_ok, Prod.exists, Rd.pure_eq_ok]
  constructor
  · rintro ⟨x, _, _, ⟨h, rfl, rfl⟩, rfl, rfl⟩; exact ⟨h, rfl⟩
  · rintro ⟨h, rfl⟩; exact ⟨_, _, _, ⟨h, rfl, rfl⟩, rfl, rfl⟩

theorem encodeCertificateRequest_eq_ok {m bs} :
    encodeCertificateRequest m = .ok bs ↔
      Spec.CertificateRequestFits m ∧ bs = Spec.certificateRequest m := by
  simp only [encodeCertificateRequest, Res.bind_eq_ok, writeBuf_eq_ok, writeExts_eq_ok,
    Res.pure_eq, Except.ok.injEq, pow_u8]
  constructor
  · rintro ⟨_, ⟨h1, rfl⟩, _, ⟨h2, rfl⟩, rfl⟩; exact ⟨⟨h1, h2⟩, rfl⟩
  · rintro ⟨⟨h1, h2⟩, rfl⟩; exact ⟨_, ⟨h1, rfl⟩, _, ⟨h2, rfl⟩, rfl⟩

theorem readCertificateRequest_eq_ok {inp m rest} :
    readCertificateRequest inp = .ok (m, rest) ↔
      Spec.CertificateRequestFits m ∧ inp = Spec.certificateRequest m ++ rest := by
  simp only [readCertificateRequest, Rd.bind_eq_ok, readBuf_eq_ok, readExts_eq_ok, Prod.exists,
    Rd.pure_eq_ok, pow_u8]
  constructor
  · rintro ⟨x, _, _, ⟨h, rfl, rfl⟩, _, _, _, ⟨h2, rfl, rfl⟩, rfl, rfl⟩
    exact ⟨⟨h, h2⟩, by simp [Spec.certificateRequest]⟩
  · rintro ⟨⟨h, h2⟩, rfl⟩
    exact ⟨_, _, _, ⟨h, by simp only [Spec.certificateRequest, List.append_assoc], rfl⟩,
      _, _, _, ⟨h2, rfl, rfl⟩, rfl, rfl⟩

theorem encodeCertificateMsg_eq_ok {m bs} :
    encodeCertificateMsg m = .ok bs ↔
      Spec.CertificateMsgFits m ∧ bs = Spec.certificateMsg m := by
  simp only [encodeCertificateMsg, Res.bind_eq_ok, writeBuf_eq_ok,
    writeVector_eq_ok wspec_certificateEntry, entries_length,
    Res.pure_eq, Except.ok.injEq, pow_u8, pow_u24]
  constructor
  · rintro ⟨_, ⟨h1, rfl⟩, _, ⟨⟨h2, h3⟩, rfl⟩, rfl⟩; exact ⟨⟨h1, h2, h3⟩, rfl⟩
  · rintro ⟨⟨h1, h2, h3⟩, rfl⟩; exact ⟨_, ⟨h1, rfl⟩, _, ⟨⟨h2, h3⟩, rfl⟩, rfl⟩

theorem readCertificateMsg_eq_ok {inp m rest} :
    readCertificateMsg inp = .ok (m, rest) ↔
      Spec.CertificateMsgFits m ∧ inp = Spec.certificateMsg m ++ rest := by
  simp only [readCertificateMsg, Rd.bind_eq_ok, readBuf_eq_ok,
    readVector_eq_ok elem_certificateEntry entry_pos, entries_length, Prod.exists,
    Rd.pure_eq_ok, pow_u8, pow_u24]
  constructor
  · rintro ⟨x, _, _, ⟨h, rfl, rfl⟩, _, _, _, ⟨⟨h2, h3⟩, rfl, rfl⟩, rfl, rfl⟩
    exact ⟨⟨h, h2, h3⟩, by simp [Spec.certificateMsg]⟩
  · rintro ⟨⟨h, h2, h3⟩, rfl⟩
    exact ⟨_, _, _, ⟨h, by simp only [Spec.certificateMsg, List.append_assoc], rfl⟩,
      _, _, _, ⟨⟨h2, h3⟩, rfl, rfl⟩, rfl, rfl⟩

theorem encodeCompressedCertificate_eq_ok {m bs} :
    encodeCompressedCertificate m = .ok bs ↔
      Spec.CompressedCertificateFits m ∧ bs = Spec.compressedCertificate m := by
  simp only [encodeCompressedCertificate, Res.bind_eq_ok, writeBuf_eq_ok, writeLen_eq_ok, writeU16,
    Res.pure_eq, Except.ok.injEq, pow_u24]
  constructor
  · rintro ⟨_, rfl, _, ⟨h1, rfl⟩, _, ⟨h2, rfl⟩, rfl⟩; exact ⟨⟨h1, h2⟩, rfl⟩
  · rintro ⟨⟨h1, h2⟩, rfl⟩; exact ⟨_, rfl, _, ⟨h1, rfl⟩, _, ⟨h2, rfl⟩, rfl⟩

theorem readCompressedCertificate_eq_ok {inp m rest} :
    readCompressedCertificate inp = .ok (m, rest) ↔
      Spec.CompressedCertificateFits m ∧ inp = Spec.compressedCertificate m ++ rest := by
  simp only [readCompressedCertificate, Rd.bind_eq_ok, readU16_eq_ok, readBuf_eq_ok, readBE_eq_ok,
    Prod.exists, Rd.pure_eq_ok, pow_u24]
  constructor
  · rintro ⟨a, _, _, ⟨rfl, rfl⟩, u, _, ⟨hu, rfl⟩, c, _, _, ⟨h2, rfl, rfl⟩, rfl, rfl⟩
    have : (UInt32.ofNat u).toNat = u := by
      rw [UInt32.toNat_ofNat']; exact Nat.mod_eq_of_lt (by omega)
    exact ⟨⟨by simpa [this] using hu, h2⟩,
      by simp only [Spec.compressedCertificate, this, Spec.u16, List.append_assoc]⟩
  · rintro ⟨⟨hu, h2⟩, rfl⟩
    exact ⟨_, _, _, ⟨by simp only [Spec.compressedCertificate, List.append_assoc]; rfl, rfl⟩,
      _, _, ⟨hu, rfl⟩, _, _, _, ⟨h2, rfl, rfl⟩, by simp, rfl⟩

theorem encodeCertificateVerify_eq_ok {m bs} :
    encodeCertificateVerify m = .ok bs ↔
      Spec.CertificateVerifyFits m ∧ bs = Spec.certificateVerify m := by
  simp only [encodeCertificateVerify, Res.bind_eq_ok, writeBuf_eq_ok, writeU16,
    Res.pure_eq, Except.ok.injEq, pow_u16]
  constructor
  · rintro ⟨_, rfl, _, ⟨h1, rfl⟩, rfl⟩; exact ⟨h1, rfl⟩
  · rintro ⟨h1, rfl⟩; exact ⟨_, rfl, _, ⟨h1, rfl⟩, rfl⟩

theorem readCertificateVerify_eq_ok {inp m rest} :
    readCertificateVerify inp = .ok (m, rest) ↔
      Spec.CertificateVerifyFits m ∧ inp = Spec.certificateVerify m ++ rest := by
  simp only [readCertificateVerify, Rd.bind_eq_ok, readU16_eq_ok, readBuf_eq_ok,
    Prod.exists, Rd.pure_eq_ok, pow_u16]
  constructor
  · rintro ⟨a, _, _, ⟨rfl, rfl⟩, c, _, _, ⟨h2, rfl, rfl⟩, rfl, rfl⟩
    exact ⟨h2, by simp [Spec.certificateVerify, Spec.u16]⟩
  · rintro ⟨h2, rfl⟩
    exact ⟨_, _, _, ⟨by simp only [Spec.certificateVerify, List.append_assoc]; rfl, rfl⟩,
      _, _, _, ⟨h2, rfl, rfl⟩, rfl, rfl⟩

theorem encodeNewSessionTicket_eq_ok {m bs} :
    encodeNewSessionTicket m = .ok bs ↔
      Spec.NewSessionTicketFits m ∧ bs = Spec.newSessionTicket m := by
  obtain ⟨l, a, n, t, x⟩ := m
  cases n with
  | some n =>
    simp only [encodeNewSessionTicket, Res.bind_eq_ok, writeU32, writeBuf_eq_ok,
      writeExts_eq_ok, Res.pure_eq, Except.ok.injEq, pow_u8, pow_u16, Spec.NewSessionTicketFits,
      Spec.newSessionTicket, Option.some.injEq, forall_eq']
    constructor
    · rintro ⟨_, rfl, _, rfl, _, ⟨h1, rfl⟩, _, ⟨h2, rfl⟩, _, ⟨h4, rfl⟩, rfl⟩
      exact ⟨⟨h1, h2, h4⟩, rfl⟩
    · rintro ⟨⟨h1, h2, h4⟩, rfl⟩
      exact ⟨_, rfl, _, rfl, _, ⟨h1, rfl⟩, _, ⟨h2, rfl⟩, _, ⟨h4, rfl⟩, rfl⟩
  | none =>
    simp only [encodeNewSessionTicket, Res.bind_eq_ok, writeU32, writeBuf_eq_ok,
      writeExts_eq_ok, Res.pure_eq, Except.ok.injEq, pow_u16, Spec.NewSessionTicketFits,
      Spec.newSessionTicket]
    constructor
    · rintro ⟨_, rfl, _, rfl, _, rfl, _, ⟨h2, rfl⟩, _, ⟨h4, rfl⟩, rfl⟩
      exact ⟨⟨by simp, h2, h4⟩, by simp [Spec.u32]⟩
    · rintro ⟨⟨_, h2, h4⟩, rfl⟩
      exact ⟨_, rfl, _, rfl, _, rfl, _, ⟨h2, rfl⟩, _, ⟨h4, rfl⟩, by simp [Spec.u32]⟩

theorem readNewSessionTicket_eq_ok {inp m rest} :
    readNewSessionTicket inp = .ok (m, rest) ↔
      m.ticket_nonce.isSome ∧ Spec.NewSessionTicketFits m ∧
        inp = Spec.newSessionTicket m ++ rest := by
  simp only [readNewSessionTicket, Rd.bind_eq_ok, readU32_eq_ok, 
    readBuf_eq_ok, readExts_eq_ok, Prod.exists, pow_u8, pow_u16, Rd.pure_eq_ok]
  constructor
  · rintro ⟨v, _, _, ⟨rfl, rfl⟩, r, _, _, ⟨rfl, rfl⟩, s, _, _, ⟨h1, rfl, rfl⟩, c, _, _,
      ⟨h2, rfl, rfl⟩, x, _, _, ⟨h4, rfl, rfl⟩, rfl, rfl⟩
    exact ⟨rfl, ⟨by simpa using h1, h2, h4⟩, by simp [Spec.newSessionTicket, Spec.u32]⟩
  · obtain ⟨v, r, s, c, x⟩ := m
    cases s with
    | none => simp
    | some s =>
      rintro ⟨_, ⟨h1, h2, h4⟩, rfl⟩
      exact ⟨v, _, _, ⟨by simp only [Spec.newSessionTicket, List.append_assoc]; rfl, rfl⟩,
        r, _, _, ⟨rfl, rfl⟩, s, _, _, ⟨h1 s rfl, rfl, rfl⟩, c, _, _, ⟨h2, rfl, rfl⟩,
        x, _, _, ⟨h4, rfl, rfl⟩, rfl, rfl⟩

theorem beEnc_one (v : UInt8) : beEnc 1 v.toNat = [v] := by simp [beEnc]

theorem encodeAlert_eq_ok {m bs} : encodeAlert m = .ok bs ↔ bs = Spec.alert m := by
  simp [encodeAlert, writeU8, beEnc_one, Spec.alert, eq_comm]

theorem readAlert_eq_ok {inp m rest} :
    readAlert inp = .ok (m, rest) ↔ inp = Spec.alert m ++ rest := by
  simp only [readAlert, Rd.bind_eq_ok, readU8_eq_ok, Prod.exists, Rd.pure_eq_ok]
  constructor
  · rintro ⟨a, _, _, ⟨rfl, rfl⟩, c, _, _, ⟨rfl, rfl⟩, rfl, rfl⟩
    simp [Spec.alert, beEnc_one]
  · rintro rfl
    exact ⟨_, _, _, ⟨by rw [beEnc_one]; rfl, rfl⟩,
      _, _, _, ⟨by rw [beEnc_one]; rfl, rfl⟩, rfl, rfl⟩

theorem encodeKeyUpdate_eq_ok {m bs} : encodeKeyUpdate m = .ok bs ↔ bs = Spec.keyUpdate m := by
  simp [encodeKeyUpdate, writeU8, beEnc_one, Spec.keyUpdate, eq_comm]

theorem readKeyUpdate_eq_ok {inp m rest} :
    readKeyUpdate inp = .ok (m, rest) ↔ inp = Spec.keyUpdate m ++ rest := by
  simp only [readKeyUpdate, Rd.bind_eq_ok, readU8_eq_ok, Prod.exists, Rd.pure_eq_ok]
  constructor
  · rintro ⟨a, _, _, ⟨rfl, rfl⟩, rfl, rfl⟩
    simp [Spec.keyUpdate, beEnc_one]
  · rintro rfl
    exact ⟨_, _, _, ⟨by rw [beEnc_one]; rfl, rfl⟩, rfl, rfl⟩

theorem typeByte_eq (m : HsMsg) : m.type = Spec.typeByte m := by cases m <;> rfl

theorem encodeBody_eq_ok {m : HsMsg} {bs} :
    m.encodeBody = .ok bs ↔ Spec.Fits m ∧ bs = Spec.body m := by
  cases m <;> simp only [HsMsg.encodeBody, Spec.Fits, Spec.body, true_and]
  · exact encodeClientHello_eq_ok
  · exact encodeServerHello_eq_ok
  · exact encodeHelloRetryRequest_eq_ok
  · simp [encodeEndOfEarlyData, eq_comm]
  · exact encodeNewSessionTicket_eq_ok
  · exact encodeEncryptedExtensions_eq_ok
  · exact encodeCertificateMsg_eq_ok
  · exact encodeCompressedCertificate_eq_ok
  · exact encodeCertificateRequest_eq_ok
  · exact encodeCertificateVerify_eq_ok
  · simp [encodeFinished, Spec.finished, eq_comm]
  · exact encodeKeyUpdate_eq_ok

theorem encodeHandshake_eq_ok {m : HsMsg} {bs} :
    encodeHandshake m = .ok bs ↔
      Spec.Fits m ∧ (Spec.body m).length < 16777216 ∧ bs = Spec.handshake m := by
  simp only [encodeHandshake, frameHandshake, Res.bind_eq_ok, encodeBody_eq_ok, writeU8,
    writeLen_eq_ok, pow_u24, Res.pure_eq, Except.ok.injEq, typeByte_eq, beEnc_one]
  constructor
  · rintro ⟨_, ⟨h, rfl⟩, _, rfl, _, ⟨h2, rfl⟩, rfl⟩
    exact ⟨h, h2, rfl⟩
  · rintro ⟨h, h2, rfl⟩
    exact ⟨_, ⟨h, rfl⟩, _, rfl, _, ⟨h2, rfl⟩, rfl⟩

end Fizz.Codec

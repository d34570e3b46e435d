import Verif.Ech.TypesSpec
import Verif.Codec.ExtLemmas

/-!
# ECH wire formats are lossless (C64)
-/

namespace Fizz.Ech
open Fizz Fizz.Codec

theorem wspec_suite : WriteSpec sizeSuite writeSuite (fun _ => True) Spec.suite := by
  refine ⟨fun s => ?_, fun s bs => ?_⟩
  · simp [sizeSuite, Spec.suite, Codec.Spec.u16]
  · simp [writeSuite, writeU16, Spec.suite, Codec.Spec.u16, eq_comm]

theorem elem_suite : ElemSpec readSuite (fun _ => True) Spec.suite := by
  intro inp a n rest
  simp only [readSuite, Rd.bind_eq_ok, readU16_eq_ok, Prod.exists, Rd.pure_eq_ok]
  constructor
  · rintro ⟨k, _, _, ⟨rfl, rfl⟩, b, _, _, ⟨rfl, rfl⟩, h, rfl⟩
    simp only [Prod.mk.injEq] at h
    obtain ⟨rfl, rfl⟩ := h
    simp [Spec.suite, Codec.Spec.u16]
  · rintro ⟨_, rfl, rfl⟩
    exact ⟨a.kdf, _, _, ⟨by simp only [Spec.suite, Codec.Spec.u16, List.append_assoc], rfl⟩, a.aead, _, _, ⟨rfl, rfl⟩,
      by simp [Spec.suite, Codec.Spec.u16], rfl⟩

theorem pos_suite (s : Suite) : 0 < (Spec.suite s).length := by simp [Spec.suite, Codec.Spec.u16]

theorem suites_length (l : List Suite) : (l.flatMap Spec.suite).length = 4 * l.length := by
  induction l with
  | nil => rfl
  | cons a l ih =>
    simp only [List.flatMap_cons, List.length_append, ih, List.length_cons]
    simp [Spec.suite, Codec.Spec.u16]; omega

theorem writeSuites_eq_ok {l bs} : writeVector .u16 sizeSuite writeSuite l = .ok bs ↔
    4 * l.length < 65536 ∧ bs = vec .u16 (l.flatMap Spec.suite) := by
  rw [writeVector_eq_ok wspec_suite, suites_length]; simp

theorem readSuites_eq_ok {inp l n rest} : readVector .u16 readSuite inp = .ok ((l, n), rest) ↔
    4 * l.length < 65536 ∧ inp = vec .u16 (l.flatMap Spec.suite) ++ rest ∧
      n = (vec .u16 (l.flatMap Spec.suite)).length := by
  rw [readVector_eq_ok elem_suite pos_suite, suites_length]; simp

theorem writeKeyConfig_eq_ok {k bs} : writeKeyConfig k = .ok bs ↔ Spec.KeyConfigFits k ∧ bs = Spec.keyConfig k := by
  simp only [writeKeyConfig, Res.bind_eq_ok, writeU8, writeU16, writeBuf_eq_ok, writeSuites_eq_ok, Res.pure_eq,
    Except.ok.injEq, pow_u16]
  constructor
  · rintro ⟨_, rfl, _, rfl, _, ⟨h1, rfl⟩, _, ⟨h2, rfl⟩, rfl⟩; exact ⟨⟨h1, h2⟩, rfl⟩
  · rintro ⟨⟨h1, h2⟩, rfl⟩; exact ⟨_, rfl, _, rfl, _, ⟨h1, rfl⟩, _, ⟨h2, rfl⟩, rfl⟩

theorem readKeyConfig_eq_ok {inp k n rest} : readKeyConfig inp = .ok ((k, n), rest) ↔
    Spec.KeyConfigFits k ∧ inp = Spec.keyConfig k ++ rest ∧ n = (Spec.keyConfig k).length := by
  simp only [readKeyConfig, Rd.bind_eq_ok, readU8_eq_ok, readU16_eq_ok, readBuf_eq_ok, readSuites_eq_ok,
    Prod.exists, Rd.pure_eq_ok, pow_u16]
  constructor
  · rintro ⟨i, _, _, ⟨rfl, rfl⟩, kk, _, _, ⟨rfl, rfl⟩, p, _, _, ⟨h1, rfl, rfl⟩, s, _, _, ⟨h2, rfl, rfl⟩, h, rfl⟩
    simp only [Prod.mk.injEq] at h
    obtain ⟨rfl, rfl⟩ := h
    refine ⟨⟨h1, h2⟩, ?_, ?_⟩
    · simp only [Spec.keyConfig, Codec.Spec.u8, Codec.Spec.u16, List.append_assoc]
    · simp only [Spec.keyConfig, Codec.Spec.u8, Codec.Spec.u16, List.length_append, beEnc_length, vec_length]
  · rintro ⟨⟨h1, h2⟩, rfl, rfl⟩
    refine ⟨k.configId, _, _, ⟨?_, rfl⟩, k.kemId, _, _, ⟨rfl, rfl⟩, k.publicKey, _, _, ⟨h1, rfl, rfl⟩, k.suites, _, _,
      ⟨h2, rfl, rfl⟩, ?_, rfl⟩
    · simp only [Spec.keyConfig, Codec.Spec.u8, Codec.Spec.u16, List.append_assoc]
    · simp only [Prod.mk.injEq, true_and, Spec.keyConfig, Codec.Spec.u8, Codec.Spec.u16, List.length_append, beEnc_length, vec_length]

theorem encodeConfigContent_eq_ok {c bs} : encodeConfigContent c = .ok bs ↔
    Spec.ConfigContentFits c ∧ bs = Spec.configContent c := by
  simp only [encodeConfigContent, Res.bind_eq_ok, writeKeyConfig_eq_ok, writeU8, writeBuf_eq_ok, writeExts_eq_ok,
    Res.pure_eq, Except.ok.injEq, pow_u8]
  constructor
  · rintro ⟨_, ⟨h1, rfl⟩, _, rfl, _, ⟨h2, rfl⟩, _, ⟨h3, rfl⟩, rfl⟩; exact ⟨⟨h1, h2, h3⟩, rfl⟩
  · rintro ⟨⟨h1, h2, h3⟩, rfl⟩; exact ⟨_, ⟨h1, rfl⟩, _, rfl, _, ⟨h2, rfl⟩, _, ⟨h3, rfl⟩, rfl⟩

theorem readConfigContent_eq_ok {inp c rest} : readConfigContent inp = .ok (c, rest) ↔
    Spec.ConfigContentFits c ∧ c.publicName ≠ [] ∧ inp = Spec.configContent c ++ rest := by
  simp only [readConfigContent, Rd.bind_eq_ok, readKeyConfig_eq_ok, readU8_eq_ok, readBuf_eq_ok, Prod.exists, pow_u8]
  constructor
  · rintro ⟨k, _, _, ⟨h1, rfl, rfl⟩, m, _, _, ⟨rfl, rfl⟩, n, _, _, ⟨h2, rfl, rfl⟩, h⟩
    split at h
    · simp at h
    · next hn =>
      simp only [Rd.bind_eq_ok, readExts_eq_ok, Prod.exists, Rd.pure_eq_ok] at h
      obtain ⟨e, _, _, ⟨h3, rfl, rfl⟩, rfl, rfl⟩ := h
      refine ⟨⟨h1, h2, h3⟩, by simpa using hn, ?_⟩
      simp only [Spec.configContent, Codec.Spec.u8, List.append_assoc]
  · rintro ⟨⟨h1, h2, h3⟩, hn, rfl⟩
    refine ⟨c.key, _, _, ⟨h1, ?_, rfl⟩, c.maxNameLen, _, _, ⟨rfl, rfl⟩, c.publicName, _,
      Spec.extensions c.extensions ++ rest, ⟨h2, rfl, rfl⟩, ?_⟩
    · simp only [Spec.configContent, Codec.Spec.u8, List.append_assoc]
    · rw [if_neg (by simpa using hn)]
      simp only [Rd.bind_eq_ok, readExts_eq_ok, Prod.exists, Rd.pure_eq_ok]
      exact ⟨_, _, _, ⟨h3, rfl, rfl⟩, rfl, rfl⟩

theorem wspec_config : WriteSpec sizeConfig writeConfig Spec.ConfigFits Spec.config := by
  refine ⟨fun c => ?_, fun c bs => ?_⟩
  · simp [sizeConfig, getBufSize, Spec.config, Codec.Spec.u16, Width.bytes]
  · simp only [writeConfig, writeU16, Res.bind_eq_ok, writeBuf_eq_ok, Res.pure_eq, Except.ok.injEq, pow_u16]
    constructor
    · rintro ⟨_, rfl, _, ⟨h, rfl⟩, rfl⟩; exact ⟨h, rfl⟩
    · rintro ⟨h, rfl⟩; exact ⟨_, rfl, _, ⟨h, rfl⟩, rfl⟩

theorem elem_config : ElemSpec readConfig Spec.ConfigFits Spec.config := by
  intro inp a n rest
  simp only [readConfig, Rd.bind_eq_ok, readU16_eq_ok, readBuf_eq_ok, Prod.exists, Rd.pure_eq_ok, pow_u16]
  constructor
  · rintro ⟨k, _, _, ⟨rfl, rfl⟩, b, _, _, ⟨hb, rfl, rfl⟩, h, rfl⟩
    simp only [Prod.mk.injEq] at h
    obtain ⟨rfl, rfl⟩ := h
    exact ⟨hb, by simp only [Spec.config, Codec.Spec.u16, List.append_assoc], by simp [Spec.config, Codec.Spec.u16]⟩
  · rintro ⟨h, rfl, rfl⟩
    exact ⟨a.version, _, _, ⟨by simp only [Spec.config, Codec.Spec.u16, List.append_assoc], rfl⟩, a.content, _, _,
      ⟨h, rfl, rfl⟩, by simp [Spec.config, Codec.Spec.u16], rfl⟩

theorem pos_config (c : Config) : 0 < (Spec.config c).length := by
  simp only [Spec.config, Codec.Spec.u16, List.length_append, beEnc_length]; omega

theorem readConfigList_eq_ok {inp l rest} : readConfigList inp = .ok (l, rest) ↔
    Spec.ConfigsFit l ∧ inp = vec .u16 (l.flatMap Spec.config) ++ rest := by
  simp only [readConfigList, Rd.bind_eq_ok, readVector_eq_ok elem_config pos_config, Prod.exists, Rd.pure_eq_ok, pow_u16]
  constructor
  · rintro ⟨_, _, _, ⟨h, rfl, rfl⟩, rfl, rfl⟩; exact ⟨h, rfl⟩
  · rintro ⟨h, rfl⟩; exact ⟨_, _, _, ⟨h, rfl, rfl⟩, rfl, rfl⟩

theorem codec_outerEch : ExtCodec 0xfe0d encodeOuterEch readOuterEch Spec.OuterEchFits Spec.outerEchWire := by
  refine ⟨fun _ => rfl, fun a x => ?_, fun d a rest => ?_⟩
  · simp only [encodeOuterEch, writeU8, Res.bind_eq_ok, wspec_suite.2, writeBuf_eq_ok, Res.pure_eq, Except.ok.injEq, pow_u16]
    constructor
    · rintro ⟨_, rfl, _, ⟨_, rfl⟩, _, rfl, _, ⟨h1, rfl⟩, _, ⟨h2, rfl⟩, rfl⟩
      exact ⟨⟨h1, h2⟩, rfl⟩
    · rintro ⟨⟨h1, h2⟩, rfl⟩
      exact ⟨_, rfl, _, ⟨trivial, rfl⟩, _, rfl, _, ⟨h1, rfl⟩, _, ⟨h2, rfl⟩, rfl⟩
  · simp only [readOuterEch, Rd.bind_eq_ok, readU8_eq_ok, Prod.exists]
    constructor
    · rintro ⟨t, _, _, ⟨rfl, rfl⟩, h⟩
      split at h
      · simp at h
      · next ht =>
        have ht : t = 0 := Decidable.not_not.1 ht
        subst ht
        simp only [Rd.bind_eq_ok, elem_suite _ _ _ _, readU8_eq_ok, readBuf_eq_ok, Prod.exists, Rd.pure_eq_ok, pow_u16] at h
        obtain ⟨s, _, _, ⟨_, rfl, rfl⟩, i, _, _, ⟨rfl, rfl⟩, n, _, _, ⟨h1, rfl, rfl⟩, p, _, _, ⟨h2, rfl, rfl⟩, rfl, rfl⟩ := h
        refine ⟨⟨h1, h2⟩, ?_⟩
        simp only [Spec.outerEchWire, Codec.Spec.u8, List.append_assoc]
        rfl
    · rintro ⟨⟨h1, h2⟩, rfl⟩
      refine ⟨0, 1, Spec.suite a.suite ++ (Codec.Spec.u8 a.configId ++ (vec .u16 a.enc ++ (vec .u16 a.payload ++ rest))),
        ⟨?_, rfl⟩, ?_⟩
      · simp only [Spec.outerEchWire, List.append_assoc]; rfl
      · rw [if_neg (by simp)]
        simp only [Rd.bind_eq_ok, elem_suite _ _ _ _, readU8_eq_ok, readBuf_eq_ok, Prod.exists, Rd.pure_eq_ok, pow_u16]
        exact ⟨_, _, _, ⟨trivial, rfl, rfl⟩, _, _, _, ⟨rfl, rfl⟩, _, _, _, ⟨h1, rfl, rfl⟩, _, _, _, ⟨h2, rfl, rfl⟩, rfl, rfl⟩

theorem codec_innerEch : ExtCodec 0xfe0d encodeInnerEch readInnerEch (fun _ => True) Spec.innerEchWire := by
  refine ⟨fun _ => rfl, fun a x => ?_, fun d a rest => ?_⟩
  · simp only [encodeInnerEch, writeU8, Res.ok_bind, Res.pure_eq, Except.ok.injEq, true_and]
    exact ⟨fun h => h.symm, fun h => h.symm⟩
  · simp only [readInnerEch, Rd.bind_eq_ok, readU8_eq_ok, Prod.exists, true_and]
    constructor
    · rintro ⟨t, _, _, ⟨rfl, rfl⟩, h⟩
      split at h
      · simp at h
      · next ht =>
        have ht : t = 1 := Decidable.not_not.1 ht
        subst ht
        simp only [Rd.pure_eq_ok, true_and] at h
        subst h; rfl
    · rintro rfl
      exact ⟨1, 1, rest, ⟨rfl, rfl⟩, by simp⟩

theorem codec_echEe : ExtCodec 0xfe0d encodeEchEe readEchEe Spec.ConfigsFit Spec.echEeWire := by
  refine ⟨fun _ => rfl, fun a x => ?_, fun d a rest => ?_⟩
  · simp only [encodeEchEe, Res.bind_eq_ok, writeVector_eq_ok wspec_config, Res.pure_eq, Except.ok.injEq, pow_u16]
    constructor
    · rintro ⟨_, ⟨h, rfl⟩, rfl⟩; exact ⟨h, rfl⟩
    · rintro ⟨h, rfl⟩; exact ⟨_, ⟨h, rfl⟩, rfl⟩
  · simp only [readEchEe, Rd.bind_eq_ok, readVector_eq_ok elem_config pos_config, Prod.exists, Rd.pure_eq_ok, pow_u16]
    constructor
    · rintro ⟨_, _, _, ⟨h, rfl, rfl⟩, rfl, rfl⟩; exact ⟨h, rfl⟩
    · rintro ⟨h, rfl⟩; exact ⟨_, _, _, ⟨h, rfl, rfl⟩, rfl, rfl⟩

theorem codec_outerExtensions : ExtCodec 0xfd00 encodeOuterExtensions readOuterExtensions Spec.OuterExtensionsFits
    Spec.outerExtensionsWire := by
  refine ⟨fun _ => rfl, fun a x => ?_, fun d a rest => ?_⟩
  · simp only [encodeOuterExtensions, Res.bind_eq_ok, writeU16s_eq_ok, Res.pure_eq, Except.ok.injEq, pow_u8]
    constructor
    · rintro ⟨_, ⟨h, rfl⟩, rfl⟩; exact ⟨h, rfl⟩
    · rintro ⟨h, rfl⟩; exact ⟨_, ⟨h, rfl⟩, rfl⟩
  · simp only [readOuterExtensions, Rd.bind_eq_ok, readU16s_eq_ok, Prod.exists, Rd.pure_eq_ok, pow_u8]
    constructor
    · rintro ⟨_, _, _, ⟨h, rfl, rfl⟩, rfl, rfl⟩; exact ⟨h, rfl⟩
    · rintro ⟨h, rfl⟩; exact ⟨_, _, _, ⟨h, rfl, rfl⟩, rfl, rfl⟩

/-! ## The properties -/

/-- C64: the typed ECH extensions.  Each encoder succeeds exactly on values that fit and gives the specified
bytes; reading the extension list gives the value back, exactly when the first extension of the type is its
encoding; and none exactly when there is none. -/
theorem C64_extensions :
    (∀ a x, encodeOuterEch a = .ok x ↔ Spec.OuterEchFits a ∧ x = Spec.outerEchWire a) ∧
    (∀ a exts, getExtension 0xfe0d readOuterEch exts = .ok (some a) ↔ ∃ x pre post, encodeOuterEch a = .ok x ∧
      exts = pre ++ x :: post ∧ ∀ e ∈ pre, e.extension_type ≠ 0xfe0d) ∧
    (∀ a x, encodeInnerEch a = .ok x ↔ x = Spec.innerEchWire a) ∧
    (∀ a exts, getExtension 0xfe0d readInnerEch exts = .ok (some a) ↔ ∃ x pre post, encodeInnerEch a = .ok x ∧
      exts = pre ++ x :: post ∧ ∀ e ∈ pre, e.extension_type ≠ 0xfe0d) ∧
    (∀ a x, encodeEchEe a = .ok x ↔ Spec.ConfigsFit a ∧ x = Spec.echEeWire a) ∧
    (∀ a exts, getExtension 0xfe0d readEchEe exts = .ok (some a) ↔ ∃ x pre post, encodeEchEe a = .ok x ∧
      exts = pre ++ x :: post ∧ ∀ e ∈ pre, e.extension_type ≠ 0xfe0d) ∧
    (∀ a x, encodeOuterExtensions a = .ok x ↔ Spec.OuterExtensionsFits a ∧ x = Spec.outerExtensionsWire a) ∧
    (∀ a exts, getExtension 0xfd00 readOuterExtensions exts = .ok (some a) ↔ ∃ x pre post,
      encodeOuterExtensions a = .ok x ∧ exts = pre ++ x :: post ∧ ∀ e ∈ pre, e.extension_type ≠ 0xfd00) :=
  ⟨codec_outerEch.2.1, fun _ _ => getExtension_some codec_outerEch,
   fun a x => by rw [codec_innerEch.2.1]; simp, fun _ _ => getExtension_some codec_innerEch,
   codec_echEe.2.1, fun _ _ => getExtension_some codec_echEe,
   codec_outerExtensions.2.1, fun _ _ => getExtension_some codec_outerExtensions⟩

/-- C64 (retry confirmation): exactly the extensions with eight bytes of data are read, as those bytes. -/
theorem C64_confirmation (c : Confirmation) (exts : List Extension) :
    encodeEchHrr c = .ok (Spec.echHrrWire c) ∧
    (getExtension 0xfe0d readEchHrr exts = .ok (some c) ↔ ∃ pre post, exts = pre ++ Spec.echHrrWire c :: post ∧
      ∀ e ∈ pre, e.extension_type ≠ 0xfe0d) := by
  refine ⟨rfl, ?_⟩
  unfold getExtension
  constructor
  · intro h
    cases hf : findExtension exts 0xfe0d with
    | none => simp [hf] at h
    | some e =>
      rw [hf] at h
      simp only [readEchHrr] at h
      by_cases h8 : e.extension_data.length = 8
      · rw [dif_pos h8] at h
        simp only [List.isEmpty_nil, if_true, Except.ok.injEq, Option.some.injEq] at h
        obtain ⟨h2, pre, post, h1, h3⟩ := findExtension_some.1 hf
        refine ⟨pre, post, ?_, h3⟩
        rw [h1, ← h]
        obtain ⟨t, d⟩ := e
        simp only at h2
        subst h2; rfl
      · rw [dif_neg h8] at h; simp at h
  · rintro ⟨pre, post, rfl, h⟩
    have : findExtension (pre ++ Spec.echHrrWire c :: post) 0xfe0d = some (Spec.echHrrWire c) :=
      findExtension_some.2 ⟨rfl, pre, post, rfl, h⟩
    rw [this]
    have h2 : readEchHrr (Spec.echHrrWire c).extension_data = .ok (c, []) := by
      unfold readEchHrr; exact dif_pos c.len
    simp [h2]

/-- C64 (configurations): contents, configurations and lists of them are written as specified exactly when
they fit, and read back without loss; a supported configuration is parsed to the content it was made from. -/
theorem C64_configs :
    (∀ c bs, encodeConfigContent c = .ok bs ↔ Spec.ConfigContentFits c ∧ bs = Spec.configContent c) ∧
    (∀ c bs, encodeConfigContent c = .ok bs → c.publicName ≠ [] → parseSupported ⟨0xfe0d, bs⟩ = .ok (some c)) ∧
    (∀ bs c, parseSupported ⟨0xfe0d, bs⟩ = .ok (some c) →
      ∃ enc rest, encodeConfigContent c = .ok enc ∧ bs = enc ++ rest ∧ c.publicName ≠ []) ∧
    (∀ v bs, v ≠ 0xfe0d → parseSupported ⟨v, bs⟩ = .ok none) ∧
    (∀ l bs, encodeConfigList l = .ok bs ↔ Spec.ConfigsFit l ∧ bs = vec .u16 (l.flatMap Spec.config)) ∧
    (∀ l bs, encodeConfigList l = .ok bs → readConfigList bs = .ok (l, [])) := by
  refine ⟨fun _ _ => encodeConfigContent_eq_ok, fun c bs h hn => ?_, fun bs c h => ?_, fun v bs h => ?_, fun l bs => ?_,
    fun l bs h => ?_⟩
  · rw [encodeConfigContent_eq_ok] at h
    have : readConfigContent bs = .ok (c, []) := readConfigContent_eq_ok.2 ⟨h.1, hn, by simp [h.2]⟩
    simp [parseSupported, draft15, this]
  · simp only [parseSupported, draft15, if_true] at h
    cases hr : readConfigContent bs with
    | error e => simp [hr] at h
    | ok p =>
      obtain ⟨c', rest⟩ := p
      simp only [hr, Except.ok.injEq, Option.some.injEq] at h
      subst h
      obtain ⟨h1, h2, h3⟩ := readConfigContent_eq_ok.1 hr
      exact ⟨_, rest, encodeConfigContent_eq_ok.2 ⟨h1, rfl⟩, h3, h2⟩
  · simp [parseSupported, draft15, h]
  · rw [encodeConfigList, writeVector_eq_ok wspec_config]; rfl
  · rw [encodeConfigList, writeVector_eq_ok wspec_config] at h
    exact readConfigList_eq_ok.2 ⟨h.1, by simp [h.2]⟩

/-- A configuration with two suites, a name and an extension. -/
def exampleContent : ConfigContent :=
  ⟨⟨7, 0x20, [1, 2, 3], [⟨1, 1⟩, ⟨2, 2⟩]⟩, 100, [97, 46, 98], [⟨5, [9]⟩]⟩

example : ∃ bs, encodeConfigContent exampleContent = .ok bs ∧ parseSupported ⟨0xfe0d, bs ++ [1]⟩ = .ok (some exampleContent) :=
  ⟨_, rfl, by decide⟩
example : ∃ x, encodeOuterEch ⟨⟨1, 2⟩, 3, [4, 5], [6, 7, 8]⟩ = .ok x ∧
    getExtension 0xfe0d readOuterEch [⟨0, [1]⟩, x, ⟨0xfe0d, [1]⟩] = .ok (some ⟨⟨1, 2⟩, 3, [4, 5], [6, 7, 8]⟩) :=
  ⟨_, rfl, by decide⟩
example : ∃ x, encodeOuterExtensions [51, 13] = .ok x ∧ x = ⟨0xfd00, [4, 0, 51, 0, 13]⟩ := ⟨_, rfl, by decide⟩

end Fizz.Ech

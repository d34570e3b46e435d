import Verif.Codec.Lemmas
import Verif.Codec.ExtSpec

/-! # Lemmas about the extension codecs (helpers, not claims) -/

namespace Fizz.Codec

theorem elem_keyShareEntry :
    ElemSpec readKeyShareEntry Spec.KeyShareEntryFits Spec.keyShareEntry := by
  intro inp a n rest
  simp only [readKeyShareEntry, Rd.bind_eq_ok, readU16_eq_ok, readBuf_eq_ok, Rd.pure_eq_ok,
    Prod.exists, Prod.mk.injEq, pow_u16]
  constructor
  · rintro ⟨t, _, _, ⟨rfl, rfl⟩, d, _, _, ⟨h, rfl, rfl⟩, ⟨rfl, rfl⟩, rfl⟩
    exact ⟨h, by simp [Spec.keyShareEntry, Spec.u16], by simp [Spec.keyShareEntry, Spec.u16]⟩
  · rintro ⟨h, rfl, rfl⟩
    exact ⟨_, _, _, ⟨by simp only [Spec.keyShareEntry, List.append_assoc]; rfl, rfl⟩, _, _, _,
      ⟨h, rfl, rfl⟩, ⟨rfl, by simp [Spec.keyShareEntry, Spec.u16]⟩, rfl⟩
theorem wspec_keyShareEntry : WriteSpec sizeKeyShareEntry writeKeyShareEntry
    Spec.KeyShareEntryFits Spec.keyShareEntry := by
  constructor
  · intro a; simp [sizeKeyShareEntry, getBufSize, Spec.keyShareEntry, Spec.u16]
  · intro a bs
    simp only [writeKeyShareEntry, Res.bind_eq_ok, writeBuf_eq_ok, writeU16, Res.pure_eq,
      Except.ok.injEq, pow_u16]
    constructor
    · rintro ⟨_, rfl, _, ⟨h, rfl⟩, rfl⟩; exact ⟨h, rfl⟩
    · rintro ⟨h, rfl⟩; exact ⟨_, rfl, _, ⟨h, rfl⟩, rfl⟩
theorem pos_keyShareEntry (e) : 0 < (Spec.keyShareEntry e).length := by
  simp [Spec.keyShareEntry, Spec.u16]; omega

theorem elem_serverName : ElemSpec readServerName Spec.ServerNameFits Spec.serverName := by
  intro inp a n rest
  simp only [readServerName, Rd.bind_eq_ok, readU8_eq_ok, readBuf_eq_ok, Rd.pure_eq_ok,
    Prod.exists, Prod.mk.injEq, pow_u16]
  constructor
  · rintro ⟨t, _, _, ⟨rfl, rfl⟩, d, _, _, ⟨h, rfl, rfl⟩, ⟨rfl, rfl⟩, rfl⟩
    exact ⟨h, by simp [Spec.serverName, Spec.u8], by simp [Spec.serverName, Spec.u8]⟩
  · rintro ⟨h, rfl, rfl⟩
    exact ⟨_, _, _, ⟨by simp only [Spec.serverName, List.append_assoc]; rfl, rfl⟩, _, _, _,
      ⟨h, rfl, rfl⟩, ⟨rfl, by simp [Spec.serverName, Spec.u8]⟩, rfl⟩
theorem wspec_serverName : WriteSpec sizeServerName writeServerName
    Spec.ServerNameFits Spec.serverName := by
  constructor
  · intro a; simp [sizeServerName, getBufSize, Spec.serverName, Spec.u8]
  · intro a bs
    simp only [writeServerName, Res.bind_eq_ok, writeBuf_eq_ok, writeU8, Res.pure_eq,
      Except.ok.injEq, pow_u16]
    constructor
    · rintro ⟨_, rfl, _, ⟨h, rfl⟩, rfl⟩; exact ⟨h, rfl⟩
    · rintro ⟨h, rfl⟩; exact ⟨_, rfl, _, ⟨h, rfl⟩, rfl⟩
theorem pos_serverName (e) : 0 < (Spec.serverName e).length := by
  simp [Spec.serverName, Spec.u8]; omega

theorem elem_pskIdentity : ElemSpec readPskIdentity Spec.PskIdentityFits Spec.pskIdentity := by
  intro inp a n rest
  simp only [readPskIdentity, Rd.bind_eq_ok, readU32_eq_ok, readBuf_eq_ok, Rd.pure_eq_ok,
    Prod.exists, Prod.mk.injEq, pow_u16]
  constructor
  · rintro ⟨d, _, _, ⟨h, rfl, rfl⟩, t, _, _, ⟨rfl, rfl⟩, ⟨rfl, rfl⟩, rfl⟩
    exact ⟨h, by simp [Spec.pskIdentity, Spec.u32], by simp [Spec.pskIdentity, Spec.u32]⟩
  · rintro ⟨h, rfl, rfl⟩
    exact ⟨_, _, _, ⟨h, by simp only [Spec.pskIdentity, Spec.u32, List.append_assoc], rfl⟩, _, _, _,
      ⟨rfl, rfl⟩, ⟨rfl, by simp [Spec.pskIdentity, Spec.u32]⟩, rfl⟩
theorem wspec_pskIdentity : WriteSpec sizePskIdentity writePskIdentity
    Spec.PskIdentityFits Spec.pskIdentity := by
  constructor
  · intro a; simp [sizePskIdentity, getBufSize, Spec.pskIdentity, Spec.u32]
  · intro a bs
    simp only [writePskIdentity, Res.bind_eq_ok, writeBuf_eq_ok, writeU32, Res.pure_eq,
      Except.ok.injEq, pow_u16]
    constructor
    · rintro ⟨_, ⟨h, rfl⟩, _, rfl, rfl⟩; exact ⟨h, rfl⟩
    · rintro ⟨h, rfl⟩; exact ⟨_, ⟨h, rfl⟩, _, rfl, rfl⟩
theorem pos_pskIdentity (e) : 0 < (Spec.pskIdentity e).length := by
  simp [Spec.pskIdentity, Spec.u32]

theorem elem_pskBinder : ElemSpec readPskBinder Spec.PskBinderFits Spec.pskBinder := by
  intro inp a n rest
  simp only [readPskBinder, Rd.bind_eq_ok, readBuf_eq_ok, Rd.pure_eq_ok, Prod.exists, Prod.mk.injEq, pow_u8]
  constructor
  · rintro ⟨d, _, _, ⟨h, rfl, rfl⟩, ⟨rfl, rfl⟩, rfl⟩
    exact ⟨h, rfl, by simp [Spec.pskBinder]⟩
  · rintro ⟨h, rfl, rfl⟩
    exact ⟨_, _, _, ⟨h, rfl, rfl⟩, ⟨rfl, by simp [Spec.pskBinder]⟩, rfl⟩
theorem wspec_pskBinder : WriteSpec sizePskBinder writePskBinder Spec.PskBinderFits Spec.pskBinder := by
  constructor
  · intro a; simp [sizePskBinder, getBufSize, Spec.pskBinder]
  · intro a bs; exact writeBuf_eq_ok
theorem pos_pskBinder (e) : 0 < (Spec.pskBinder e).length := by
  simp [Spec.pskBinder, Width.bytes]; omega

theorem elem_protocolName : ElemSpec readProtocolName Spec.ProtocolNameFits Spec.protocolName := by
  intro inp a n rest
  simp only [readProtocolName, Rd.bind_eq_ok, readBuf_eq_ok, Rd.pure_eq_ok, Prod.exists, Prod.mk.injEq, pow_u8]
  constructor
  · rintro ⟨d, _, _, ⟨h, rfl, rfl⟩, ⟨rfl, rfl⟩, rfl⟩
    exact ⟨h, rfl, by simp [Spec.protocolName]⟩
  · rintro ⟨h, rfl, rfl⟩
    exact ⟨_, _, _, ⟨h, rfl, rfl⟩, ⟨rfl, by simp [Spec.protocolName]⟩, rfl⟩
theorem wspec_protocolName : WriteSpec sizeProtocolName writeProtocolName Spec.ProtocolNameFits Spec.protocolName := by
  constructor
  · intro a; simp [sizeProtocolName, getBufSize, Spec.protocolName]
  · intro a bs; exact writeBuf_eq_ok
theorem pos_protocolName (e) : 0 < (Spec.protocolName e).length := by
  simp [Spec.protocolName, Width.bytes]; omega

theorem elem_distinguishedName : ElemSpec readDistinguishedName Spec.DistinguishedNameFits Spec.distinguishedName := by
  intro inp a n rest
  simp only [readDistinguishedName, Rd.bind_eq_ok, readBuf_eq_ok, Rd.pure_eq_ok, Prod.exists, Prod.mk.injEq, pow_u16]
  constructor
  · rintro ⟨d, _, _, ⟨h, rfl, rfl⟩, ⟨rfl, rfl⟩, rfl⟩
    exact ⟨h, rfl, by simp [Spec.distinguishedName]⟩
  · rintro ⟨h, rfl, rfl⟩
    exact ⟨_, _, _, ⟨h, rfl, rfl⟩, ⟨rfl, by simp [Spec.distinguishedName]⟩, rfl⟩
theorem wspec_distinguishedName : WriteSpec sizeDistinguishedName writeDistinguishedName Spec.DistinguishedNameFits Spec.distinguishedName := by
  constructor
  · intro a; simp [sizeDistinguishedName, getBufSize, Spec.distinguishedName]
  · intro a bs; exact writeBuf_eq_ok
theorem pos_distinguishedName (e) : 0 < (Spec.distinguishedName e).length := by
  simp [Spec.distinguishedName, Width.bytes]; omega

/-- Encoder and decoder of an extension body agree with the specification. -/
def ExtCodec {α} (type : UInt16) (enc : α → Res Extension) (rd : Rd α) (fits : α → Prop)
    (wire : α → Extension) : Prop :=
  (∀ a, (wire a).extension_type = type) ∧ (∀ a x, enc a = .ok x ↔ fits a ∧ x = wire a) ∧
    (∀ d a rest, rd d = .ok (a, rest) ↔ fits a ∧ d = (wire a).extension_data ++ rest)

theorem enc_signatureAlgorithms (x e) : encodeSignatureAlgorithms x = .ok e ↔ Spec.SignatureAlgorithmsFits x ∧ e = Spec.signatureAlgorithmsWire x := by
  simp only [encodeSignatureAlgorithms, Res.bind_eq_ok, writeU16s_eq_ok, Res.pure_eq, Except.ok.injEq, pow_u16]
  constructor
  · rintro ⟨_, ⟨h, rfl⟩, rfl⟩; exact ⟨h, rfl⟩
  · rintro ⟨h, rfl⟩; exact ⟨_, ⟨h, rfl⟩, rfl⟩
theorem codec_signatureAlgorithms : ExtCodec 13 encodeSignatureAlgorithms readSignatureAlgorithms Spec.SignatureAlgorithmsFits Spec.signatureAlgorithmsWire := by
  refine ⟨fun _ => rfl, enc_signatureAlgorithms, fun d a rest => ?_⟩
  simp only [readSignatureAlgorithms, Rd.bind_eq_ok, readU16s_eq_ok, Rd.pure_eq_ok, Prod.exists, pow_u16]
  constructor
  · rintro ⟨_, _, _, ⟨h, rfl, rfl⟩, rfl, rfl⟩; exact ⟨h, rfl⟩
  · rintro ⟨h, rfl⟩; exact ⟨_, _, _, ⟨h, rfl, rfl⟩, rfl, rfl⟩

theorem enc_supportedGroups (x e) : encodeSupportedGroups x = .ok e ↔ Spec.SupportedGroupsFits x ∧ e = Spec.supportedGroupsWire x := by
  simp only [encodeSupportedGroups, Res.bind_eq_ok, writeU16s_eq_ok, Res.pure_eq, Except.ok.injEq, pow_u16]
  constructor
  · rintro ⟨_, ⟨h, rfl⟩, rfl⟩; exact ⟨h, rfl⟩
  · rintro ⟨h, rfl⟩; exact ⟨_, ⟨h, rfl⟩, rfl⟩
theorem codec_supportedGroups : ExtCodec 10 encodeSupportedGroups readSupportedGroups Spec.SupportedGroupsFits Spec.supportedGroupsWire := by
  refine ⟨fun _ => rfl, enc_supportedGroups, fun d a rest => ?_⟩
  simp only [readSupportedGroups, Rd.bind_eq_ok, readU16s_eq_ok, Rd.pure_eq_ok, Prod.exists, pow_u16]
  constructor
  · rintro ⟨_, _, _, ⟨h, rfl, rfl⟩, rfl, rfl⟩; exact ⟨h, rfl⟩
  · rintro ⟨h, rfl⟩; exact ⟨_, _, _, ⟨h, rfl, rfl⟩, rfl, rfl⟩

theorem enc_clientKeyShare (x e) : encodeClientKeyShare x = .ok e ↔ Spec.ClientKeyShareFits x ∧ e = Spec.clientKeyShareWire x := by
  simp only [encodeClientKeyShare, Res.bind_eq_ok, writeVector_eq_ok wspec_keyShareEntry, Res.pure_eq, Except.ok.injEq, pow_u16]
  constructor
  · rintro ⟨_, ⟨h, rfl⟩, rfl⟩; exact ⟨h, rfl⟩
  · rintro ⟨h, rfl⟩; exact ⟨_, ⟨h, rfl⟩, rfl⟩
theorem codec_clientKeyShare : ExtCodec 51 encodeClientKeyShare readClientKeyShare Spec.ClientKeyShareFits Spec.clientKeyShareWire := by
  refine ⟨fun _ => rfl, enc_clientKeyShare, fun d a rest => ?_⟩
  simp only [readClientKeyShare, Rd.bind_eq_ok, readVector_eq_ok elem_keyShareEntry pos_keyShareEntry, Rd.pure_eq_ok, Prod.exists, pow_u16]
  constructor
  · rintro ⟨_, _, _, ⟨h, rfl, rfl⟩, rfl, rfl⟩; exact ⟨h, rfl⟩
  · rintro ⟨h, rfl⟩; exact ⟨_, _, _, ⟨h, rfl, rfl⟩, rfl, rfl⟩

theorem enc_supportedVersions (x e) : encodeSupportedVersions x = .ok e ↔ Spec.SupportedVersionsFits x ∧ e = Spec.supportedVersionsWire x := by
  simp only [encodeSupportedVersions, Res.bind_eq_ok, writeU16s_eq_ok, Res.pure_eq, Except.ok.injEq, pow_u8]
  constructor
  · rintro ⟨_, ⟨h, rfl⟩, rfl⟩; exact ⟨h, rfl⟩
  · rintro ⟨h, rfl⟩; exact ⟨_, ⟨h, rfl⟩, rfl⟩
theorem codec_supportedVersions : ExtCodec 43 encodeSupportedVersions readSupportedVersions Spec.SupportedVersionsFits Spec.supportedVersionsWire := by
  refine ⟨fun _ => rfl, enc_supportedVersions, fun d a rest => ?_⟩
  simp only [readSupportedVersions, Rd.bind_eq_ok, readU16s_eq_ok, Rd.pure_eq_ok, Prod.exists, pow_u8]
  constructor
  · rintro ⟨_, _, _, ⟨h, rfl, rfl⟩, rfl, rfl⟩; exact ⟨h, rfl⟩
  · rintro ⟨h, rfl⟩; exact ⟨_, _, _, ⟨h, rfl, rfl⟩, rfl, rfl⟩

theorem enc_pskKeyExchangeModes (x e) : encodePskKeyExchangeModes x = .ok e ↔ Spec.PskKeyExchangeModesFits x ∧ e = Spec.pskKeyExchangeModesWire x := by
  simp only [encodePskKeyExchangeModes, Res.bind_eq_ok, writeU8s_eq_ok, Res.pure_eq, Except.ok.injEq, pow_u8]
  constructor
  · rintro ⟨_, ⟨h, rfl⟩, rfl⟩; exact ⟨h, rfl⟩
  · rintro ⟨h, rfl⟩; exact ⟨_, ⟨h, rfl⟩, rfl⟩
theorem codec_pskKeyExchangeModes : ExtCodec 45 encodePskKeyExchangeModes readPskKeyExchangeModes Spec.PskKeyExchangeModesFits Spec.pskKeyExchangeModesWire := by
  refine ⟨fun _ => rfl, enc_pskKeyExchangeModes, fun d a rest => ?_⟩
  simp only [readPskKeyExchangeModes, Rd.bind_eq_ok, readU8s_eq_ok, Rd.pure_eq_ok, Prod.exists, pow_u8]
  constructor
  · rintro ⟨_, _, _, ⟨h, rfl, rfl⟩, rfl, rfl⟩; exact ⟨h, rfl⟩
  · rintro ⟨h, rfl⟩; exact ⟨_, _, _, ⟨h, rfl, rfl⟩, rfl, rfl⟩

theorem enc_protocolNameList (x e) : encodeProtocolNameList x = .ok e ↔ Spec.ProtocolNameListFits x ∧ e = Spec.protocolNameListWire x := by
  simp only [encodeProtocolNameList, Res.bind_eq_ok, writeVector_eq_ok wspec_protocolName, Res.pure_eq, Except.ok.injEq, pow_u16]
  constructor
  · rintro ⟨_, ⟨h, rfl⟩, rfl⟩; exact ⟨h, rfl⟩
  · rintro ⟨h, rfl⟩; exact ⟨_, ⟨h, rfl⟩, rfl⟩
theorem codec_protocolNameList : ExtCodec 16 encodeProtocolNameList readProtocolNameList Spec.ProtocolNameListFits Spec.protocolNameListWire := by
  refine ⟨fun _ => rfl, enc_protocolNameList, fun d a rest => ?_⟩
  simp only [readProtocolNameList, Rd.bind_eq_ok, readVector_eq_ok elem_protocolName pos_protocolName, Rd.pure_eq_ok, Prod.exists, pow_u16]
  constructor
  · rintro ⟨_, _, _, ⟨h, rfl, rfl⟩, rfl, rfl⟩; exact ⟨h, rfl⟩
  · rintro ⟨h, rfl⟩; exact ⟨_, _, _, ⟨h, rfl, rfl⟩, rfl, rfl⟩

theorem enc_serverNameList (x e) : encodeServerNameList x = .ok e ↔ Spec.ServerNameListFits x ∧ e = Spec.serverNameListWire x := by
  simp only [encodeServerNameList, Res.bind_eq_ok, writeVector_eq_ok wspec_serverName, Res.pure_eq, Except.ok.injEq, pow_u16]
  constructor
  · rintro ⟨_, ⟨h, rfl⟩, rfl⟩; exact ⟨h, rfl⟩
  · rintro ⟨h, rfl⟩; exact ⟨_, ⟨h, rfl⟩, rfl⟩
theorem codec_serverNameList : ExtCodec 0 encodeServerNameList readServerNameList Spec.ServerNameListFits Spec.serverNameListWire := by
  refine ⟨fun _ => rfl, enc_serverNameList, fun d a rest => ?_⟩
  simp only [readServerNameList, Rd.bind_eq_ok, readVector_eq_ok elem_serverName pos_serverName, Rd.pure_eq_ok, Prod.exists, pow_u16]
  constructor
  · rintro ⟨_, _, _, ⟨h, rfl, rfl⟩, rfl, rfl⟩; exact ⟨h, rfl⟩
  · rintro ⟨h, rfl⟩; exact ⟨_, _, _, ⟨h, rfl, rfl⟩, rfl, rfl⟩

theorem enc_certificateAuthorities (x e) : encodeCertificateAuthorities x = .ok e ↔ Spec.CertificateAuthoritiesFits x ∧ e = Spec.certificateAuthoritiesWire x := by
  simp only [encodeCertificateAuthorities, Res.bind_eq_ok, writeVector_eq_ok wspec_distinguishedName, Res.pure_eq, Except.ok.injEq, pow_u16]
  constructor
  · rintro ⟨_, ⟨h, rfl⟩, rfl⟩; exact ⟨h, rfl⟩
  · rintro ⟨h, rfl⟩; exact ⟨_, ⟨h, rfl⟩, rfl⟩
theorem codec_certificateAuthorities : ExtCodec 47 encodeCertificateAuthorities readCertificateAuthorities Spec.CertificateAuthoritiesFits Spec.certificateAuthoritiesWire := by
  refine ⟨fun _ => rfl, enc_certificateAuthorities, fun d a rest => ?_⟩
  simp only [readCertificateAuthorities, Rd.bind_eq_ok, readVector_eq_ok elem_distinguishedName pos_distinguishedName, Rd.pure_eq_ok, Prod.exists, pow_u16]
  constructor
  · rintro ⟨_, _, _, ⟨h, rfl, rfl⟩, rfl, rfl⟩; exact ⟨h, rfl⟩
  · rintro ⟨h, rfl⟩; exact ⟨_, _, _, ⟨h, rfl, rfl⟩, rfl, rfl⟩

theorem enc_certificateCompressionAlgorithms (x e) : encodeCertificateCompressionAlgorithms x = .ok e ↔ Spec.CertificateCompressionAlgorithmsFits x ∧ e = Spec.certificateCompressionAlgorithmsWire x := by
  simp only [encodeCertificateCompressionAlgorithms, Res.bind_eq_ok, writeU16s_eq_ok, Res.pure_eq, Except.ok.injEq, pow_u8]
  constructor
  · rintro ⟨_, ⟨h, rfl⟩, rfl⟩; exact ⟨h, rfl⟩
  · rintro ⟨h, rfl⟩; exact ⟨_, ⟨h, rfl⟩, rfl⟩
theorem codec_certificateCompressionAlgorithms : ExtCodec 27 encodeCertificateCompressionAlgorithms readCertificateCompressionAlgorithms Spec.CertificateCompressionAlgorithmsFits Spec.certificateCompressionAlgorithmsWire := by
  refine ⟨fun _ => rfl, enc_certificateCompressionAlgorithms, fun d a rest => ?_⟩
  simp only [readCertificateCompressionAlgorithms, Rd.bind_eq_ok, readU16s_eq_ok, Rd.pure_eq_ok, Prod.exists, pow_u8]
  constructor
  · rintro ⟨_, _, _, ⟨h, rfl, rfl⟩, rfl, rfl⟩; exact ⟨h, rfl⟩
  · rintro ⟨h, rfl⟩; exact ⟨_, _, _, ⟨h, rfl, rfl⟩, rfl, rfl⟩

theorem enc_echOuterExtensions (x e) : encodeEchOuterExtensions x = .ok e ↔ Spec.EchOuterExtensionsFits x ∧ e = Spec.echOuterExtensionsWire x := by
  simp only [encodeEchOuterExtensions, Res.bind_eq_ok, writeU16s_eq_ok, Res.pure_eq, Except.ok.injEq, pow_u8]
  constructor
  · rintro ⟨_, ⟨h, rfl⟩, rfl⟩; exact ⟨h, rfl⟩
  · rintro ⟨h, rfl⟩; exact ⟨_, ⟨h, rfl⟩, rfl⟩
theorem codec_helloRetryRequestKeyShare : ExtCodec 51 encodeHelloRetryRequestKeyShare readHelloRetryRequestKeyShare Spec.HelloRetryRequestKeyShareFits Spec.helloRetryRequestKeyShareWire := by
  refine ⟨fun _ => rfl, fun a x => ?_, fun d a rest => ?_⟩
  · simp only [encodeHelloRetryRequestKeyShare, Res.bind_eq_ok, writeU16, Res.pure_eq, Except.ok.injEq]
    constructor
    · rintro ⟨_, rfl, rfl⟩; exact ⟨trivial, rfl⟩
    · rintro ⟨h, rfl⟩; exact ⟨_, rfl, rfl⟩
  · simp only [readHelloRetryRequestKeyShare, Rd.bind_eq_ok, readU16_eq_ok, Rd.pure_eq_ok, Prod.exists]
    constructor
    · rintro ⟨_, _, _, ⟨rfl, rfl⟩, rfl, rfl⟩; exact ⟨trivial, rfl⟩
    · rintro ⟨h, rfl⟩; exact ⟨_, _, _, ⟨rfl, rfl⟩, rfl, rfl⟩

theorem codec_serverPresharedKey : ExtCodec 41 encodeServerPresharedKey readServerPresharedKey Spec.ServerPresharedKeyFits Spec.serverPresharedKeyWire := by
  refine ⟨fun _ => rfl, fun a x => ?_, fun d a rest => ?_⟩
  · simp only [encodeServerPresharedKey, Res.bind_eq_ok, writeU16, Res.pure_eq, Except.ok.injEq]
    constructor
    · rintro ⟨_, rfl, rfl⟩; exact ⟨trivial, rfl⟩
    · rintro ⟨h, rfl⟩; exact ⟨_, rfl, rfl⟩
  · simp only [readServerPresharedKey, Rd.bind_eq_ok, readU16_eq_ok, Rd.pure_eq_ok, Prod.exists]
    constructor
    · rintro ⟨_, _, _, ⟨rfl, rfl⟩, rfl, rfl⟩; exact ⟨trivial, rfl⟩
    · rintro ⟨h, rfl⟩; exact ⟨_, _, _, ⟨rfl, rfl⟩, rfl, rfl⟩

theorem codec_ticketEarlyData : ExtCodec 42 encodeTicketEarlyData readTicketEarlyData Spec.TicketEarlyDataFits Spec.ticketEarlyDataWire := by
  refine ⟨fun _ => rfl, fun a x => ?_, fun d a rest => ?_⟩
  · simp only [encodeTicketEarlyData, Res.bind_eq_ok, writeU32, Res.pure_eq, Except.ok.injEq]
    constructor
    · rintro ⟨_, rfl, rfl⟩; exact ⟨trivial, rfl⟩
    · rintro ⟨h, rfl⟩; exact ⟨_, rfl, rfl⟩
  · simp only [readTicketEarlyData, Rd.bind_eq_ok, readU32_eq_ok, Rd.pure_eq_ok, Prod.exists]
    constructor
    · rintro ⟨_, _, _, ⟨rfl, rfl⟩, rfl, rfl⟩; exact ⟨trivial, rfl⟩
    · rintro ⟨h, rfl⟩; exact ⟨_, _, _, ⟨rfl, rfl⟩, rfl, rfl⟩

theorem codec_serverSupportedVersions : ExtCodec 43 encodeServerSupportedVersions readServerSupportedVersions Spec.ServerSupportedVersionsFits Spec.serverSupportedVersionsWire := by
  refine ⟨fun _ => rfl, fun a x => ?_, fun d a rest => ?_⟩
  · simp only [encodeServerSupportedVersions, Res.bind_eq_ok, writeU16, Res.pure_eq, Except.ok.injEq]
    constructor
    · rintro ⟨_, rfl, rfl⟩; exact ⟨trivial, rfl⟩
    · rintro ⟨h, rfl⟩; exact ⟨_, rfl, rfl⟩
  · simp only [readServerSupportedVersions, Rd.bind_eq_ok, readU16_eq_ok, Rd.pure_eq_ok, Prod.exists]
    constructor
    · rintro ⟨_, _, _, ⟨rfl, rfl⟩, rfl, rfl⟩; exact ⟨trivial, rfl⟩
    · rintro ⟨h, rfl⟩; exact ⟨_, _, _, ⟨rfl, rfl⟩, rfl, rfl⟩

theorem codec_clientEarlyData : ExtCodec 42 encodeClientEarlyData readClientEarlyData Spec.ClientEarlyDataFits Spec.clientEarlyDataWire := by
  refine ⟨fun _ => rfl, fun a x => ?_, fun d a rest => ?_⟩
  · simp [encodeClientEarlyData, Spec.ClientEarlyDataFits, Spec.clientEarlyDataWire, eq_comm, ExtensionType.early_data]
  · simp [readClientEarlyData, Spec.ClientEarlyDataFits, Spec.clientEarlyDataWire]

theorem codec_serverEarlyData : ExtCodec 42 encodeServerEarlyData readServerEarlyData Spec.ServerEarlyDataFits Spec.serverEarlyDataWire := by
  refine ⟨fun _ => rfl, fun a x => ?_, fun d a rest => ?_⟩
  · simp [encodeServerEarlyData, Spec.ServerEarlyDataFits, Spec.serverEarlyDataWire, eq_comm, ExtensionType.early_data]
  · simp [readServerEarlyData, Spec.ServerEarlyDataFits, Spec.serverEarlyDataWire]

theorem codec_cookie : ExtCodec 44 encodeCookie readCookie Spec.CookieFits Spec.cookieWire := by
  refine ⟨fun _ => rfl, fun a x => ?_, fun d a rest => ?_⟩
  · simp only [encodeCookie, Res.bind_eq_ok, writeBuf_eq_ok, Res.pure_eq, Except.ok.injEq, pow_u16]
    constructor
    · rintro ⟨_, ⟨h, rfl⟩, rfl⟩; exact ⟨h, rfl⟩
    · rintro ⟨h, rfl⟩; exact ⟨_, ⟨h, rfl⟩, rfl⟩
  · simp only [readCookie, Rd.bind_eq_ok, readBuf_eq_ok, Rd.pure_eq_ok, Prod.exists, pow_u16]
    constructor
    · rintro ⟨_, _, _, ⟨h, rfl, rfl⟩, rfl, rfl⟩; exact ⟨h, rfl⟩
    · rintro ⟨h, rfl⟩; exact ⟨_, _, _, ⟨h, rfl, rfl⟩, rfl, rfl⟩

theorem codec_serverKeyShare : ExtCodec 51 encodeServerKeyShare readServerKeyShare
    Spec.ServerKeyShareFits Spec.serverKeyShareWire := by
  refine ⟨fun _ => rfl, fun a x => ?_, fun d a rest => ?_⟩
  · simp only [encodeServerKeyShare, Res.bind_eq_ok, wspec_keyShareEntry.2, Res.pure_eq,
      Except.ok.injEq]
    constructor
    · rintro ⟨_, ⟨h, rfl⟩, rfl⟩; exact ⟨h, rfl⟩
    · rintro ⟨h, rfl⟩; exact ⟨_, ⟨h, rfl⟩, rfl⟩
  · simp only [readServerKeyShare, Rd.bind_eq_ok, elem_keyShareEntry _ _ _ _, Rd.pure_eq_ok,
      Prod.exists]
    constructor
    · rintro ⟨_, _, _, ⟨h, rfl, rfl⟩, rfl, rfl⟩; exact ⟨h, rfl⟩
    · rintro ⟨h, rfl⟩; exact ⟨_, _, _, ⟨h, rfl, rfl⟩, rfl, rfl⟩

theorem codec_clientPresharedKey : ExtCodec 41 encodeClientPresharedKey readClientPresharedKey
    Spec.ClientPresharedKeyFits Spec.clientPresharedKeyWire := by
  refine ⟨fun _ => rfl, fun a x => ?_, fun d a rest => ?_⟩
  · simp only [encodeClientPresharedKey, Res.bind_eq_ok, writeVector_eq_ok wspec_pskIdentity,
      writeVector_eq_ok wspec_pskBinder, Res.pure_eq, Except.ok.injEq, pow_u16]
    constructor
    · rintro ⟨_, ⟨h, rfl⟩, _, ⟨h2, rfl⟩, rfl⟩; exact ⟨⟨h, h2⟩, rfl⟩
    · rintro ⟨⟨h, h2⟩, rfl⟩; exact ⟨_, ⟨h, rfl⟩, _, ⟨h2, rfl⟩, rfl⟩
  · simp only [readClientPresharedKey, Rd.bind_eq_ok,
      readVector_eq_ok elem_pskIdentity pos_pskIdentity,
      readVector_eq_ok elem_pskBinder pos_pskBinder, Rd.pure_eq_ok, Prod.exists, pow_u16]
    constructor
    · rintro ⟨_, _, _, ⟨h, rfl, rfl⟩, _, _, _, ⟨h2, rfl, rfl⟩, rfl, rfl⟩
      exact ⟨⟨h, h2⟩, by simp [Spec.clientPresharedKeyWire]⟩
    · rintro ⟨⟨h, h2⟩, rfl⟩
      exact ⟨_, _, _, ⟨h, by simp only [Spec.clientPresharedKeyWire, List.append_assoc], rfl⟩,
        _, _, _, ⟨h2, rfl, rfl⟩, rfl, rfl⟩

theorem findExtension_none {exts type} :
    findExtension exts type = none ↔ ∀ e ∈ exts, e.extension_type ≠ type := by
  induction exts with
  | nil => simp [findExtension]
  | cons e es ih =>
    simp only [findExtension]
    split <;> simp_all

theorem findExtension_some {exts type x} :
    findExtension exts type = some x ↔ x.extension_type = type ∧
      ∃ pre post, exts = pre ++ x :: post ∧ ∀ e ∈ pre, e.extension_type ≠ type := by
  induction exts with
  | nil => simp [findExtension]
  | cons e es ih =>
    simp only [findExtension]
    split
    · next h =>
      constructor
      · intro hx; cases hx; exact ⟨h, [], es, rfl, by simp⟩
      · rintro ⟨hx, pre, post, heq, hp⟩
        cases pre with
        | nil => simp at heq; rw [heq.1]
        | cons p pre => simp at heq; have := hp p (by simp); rw [← heq.1] at this; exact absurd h this
    · next h =>
      rw [ih]
      constructor
      · rintro ⟨hx, pre, post, rfl, hp⟩
        refine ⟨hx, e :: pre, post, rfl, ?_⟩
        intro y hy
        cases hy with
        | head => exact h
        | tail _ hy => exact hp _ hy
      · rintro ⟨hx, pre, post, heq, hp⟩
        cases pre with
        | nil => simp at heq; exact absurd (heq.1 ▸ hx) h
        | cons p pre =>
          simp at heq
          exact ⟨hx, pre, post, heq.2, fun y hy => hp y (by simp [hy])⟩

theorem getExtension_none {α type} {rd : Rd α} {exts} :
    getExtension type rd exts = .ok none ↔ ∀ e ∈ exts, e.extension_type ≠ type := by
  rw [← findExtension_none, getExtension]
  cases h : findExtension exts type with
  | none => simp
  | some e =>
    simp only [reduceCtorEq, iff_false]
    cases h2 : rd e.extension_data with
    | error e => simp
    | ok p => obtain ⟨v, r⟩ := p; cases r <;> simp

theorem getExtension_some {α type} {enc : α → Res Extension} {rd : Rd α} {fits wire}
    (hc : ExtCodec type enc rd fits wire) {exts a} :
    getExtension type rd exts = .ok (some a) ↔
      ∃ x pre post, enc a = .ok x ∧ exts = pre ++ x :: post ∧
        ∀ e ∈ pre, e.extension_type ≠ type := by
  obtain ⟨ht, he, hr⟩ := hc
  unfold getExtension
  constructor
  · intro h
    cases hf : findExtension exts type with
    | none => simp [hf] at h
    | some e =>
      simp only [hf] at h
      cases h2 : rd e.extension_data with
      | error e => simp [h2] at h
      | ok p =>
        obtain ⟨v, r⟩ := p
        simp only [h2] at h
        cases r with
        | cons _ _ => simp at h
        | nil =>
          simp at h; subst h
          rw [hr] at h2
          rw [findExtension_some] at hf
          obtain ⟨h3, pre, post, rfl, hp⟩ := hf
          refine ⟨e, pre, post, (he _ _).2 ⟨h2.1, ?_⟩, rfl, hp⟩
          have h4 := ht v
          obtain ⟨t, d⟩ := e
          cases hw : wire v
          simp [hw] at *
          simp [h3, h4, h2.2]
  · rintro ⟨x, pre, post, hx, rfl, hp⟩
    have h1 : findExtension (pre ++ x :: post) type = some x := by
      rw [findExtension_some]
      refine ⟨?_, pre, post, rfl, hp⟩
      rw [he] at hx; rw [hx.2]; exact ht a
    simp only [h1]
    rw [he] at hx
    have h2 : rd x.extension_data = .ok (a, []) := by
      rw [hr]; exact ⟨hx.1, by simp [hx.2]⟩
    simp [h2]

end Fizz.Codec

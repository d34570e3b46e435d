import Verif.Codec.ExtLemmas

/-!
# Properties of the extension codec (C03)

One theorem per typed extension, with the extension type number spelled out.  Part 1: the encoder
succeeds exactly when the value fits, and produces the specified type and bytes
(`Verif/Codec/ExtSpec.lean`).  Part 2: `getExtension` returns `some a` exactly when the first
extension of that type in the list is `encodeExtension a`.  Part 3: it returns none exactly when
no extension of the type is present.
-/

namespace Fizz.Codec

theorem C03_signatureAlgorithms (a : SignatureAlgorithms) :
    (∀ x, encodeSignatureAlgorithms a = .ok x ↔ Spec.SignatureAlgorithmsFits a ∧ x = Spec.signatureAlgorithmsWire a) ∧
    (∀ exts, getSignatureAlgorithms exts = .ok (some a) ↔ ∃ x pre post, encodeSignatureAlgorithms a = .ok x ∧
      exts = pre ++ x :: post ∧ ∀ e ∈ pre, e.extension_type ≠ 13) ∧
    (∀ exts, getSignatureAlgorithms exts = .ok none ↔ ∀ e ∈ exts, e.extension_type ≠ 13) :=
  ⟨codec_signatureAlgorithms.2.1 a, fun _ => getExtension_some codec_signatureAlgorithms, fun _ => getExtension_none⟩

example : ∃ x, encodeSignatureAlgorithms ⟨[0x0403, 0x0804]⟩ = .ok x ∧
    getSignatureAlgorithms [⟨65000, [1]⟩, x, ⟨13, [1, 1]⟩] = .ok (some ⟨[0x0403, 0x0804]⟩) := by
  exact ⟨_, rfl, by decide⟩

theorem C03_supportedGroups (a : SupportedGroups) :
    (∀ x, encodeSupportedGroups a = .ok x ↔ Spec.SupportedGroupsFits a ∧ x = Spec.supportedGroupsWire a) ∧
    (∀ exts, getSupportedGroups exts = .ok (some a) ↔ ∃ x pre post, encodeSupportedGroups a = .ok x ∧
      exts = pre ++ x :: post ∧ ∀ e ∈ pre, e.extension_type ≠ 10) ∧
    (∀ exts, getSupportedGroups exts = .ok none ↔ ∀ e ∈ exts, e.extension_type ≠ 10) :=
  ⟨codec_supportedGroups.2.1 a, fun _ => getExtension_some codec_supportedGroups, fun _ => getExtension_none⟩

example : ∃ x, encodeSupportedGroups ⟨[29, 23]⟩ = .ok x ∧
    getSupportedGroups [⟨65000, [1]⟩, x, ⟨10, [1, 1]⟩] = .ok (some ⟨[29, 23]⟩) := by
  exact ⟨_, rfl, by decide⟩

theorem C03_clientKeyShare (a : ClientKeyShare) :
    (∀ x, encodeClientKeyShare a = .ok x ↔ Spec.ClientKeyShareFits a ∧ x = Spec.clientKeyShareWire a) ∧
    (∀ exts, getClientKeyShare exts = .ok (some a) ↔ ∃ x pre post, encodeClientKeyShare a = .ok x ∧
      exts = pre ++ x :: post ∧ ∀ e ∈ pre, e.extension_type ≠ 51) ∧
    (∀ exts, getClientKeyShare exts = .ok none ↔ ∀ e ∈ exts, e.extension_type ≠ 51) :=
  ⟨codec_clientKeyShare.2.1 a, fun _ => getExtension_some codec_clientKeyShare, fun _ => getExtension_none⟩

example : ∃ x, encodeClientKeyShare ⟨[⟨29, [1, 2, 3]⟩, ⟨23, []⟩]⟩ = .ok x ∧
    getClientKeyShare [⟨65000, [1]⟩, x, ⟨51, [1, 1]⟩] = .ok (some ⟨[⟨29, [1, 2, 3]⟩, ⟨23, []⟩]⟩) := by
  exact ⟨_, rfl, by decide⟩

theorem C03_serverKeyShare (a : ServerKeyShare) :
    (∀ x, encodeServerKeyShare a = .ok x ↔ Spec.ServerKeyShareFits a ∧ x = Spec.serverKeyShareWire a) ∧
    (∀ exts, getServerKeyShare exts = .ok (some a) ↔ ∃ x pre post, encodeServerKeyShare a = .ok x ∧
      exts = pre ++ x :: post ∧ ∀ e ∈ pre, e.extension_type ≠ 51) ∧
    (∀ exts, getServerKeyShare exts = .ok none ↔ ∀ e ∈ exts, e.extension_type ≠ 51) :=
  ⟨codec_serverKeyShare.2.1 a, fun _ => getExtension_some codec_serverKeyShare, fun _ => getExtension_none⟩

example : ∃ x, encodeServerKeyShare ⟨⟨29, [1, 2, 3]⟩⟩ = .ok x ∧
    getServerKeyShare [⟨65000, [1]⟩, x, ⟨51, [1, 1]⟩] = .ok (some ⟨⟨29, [1, 2, 3]⟩⟩) := by
  exact ⟨_, rfl, by decide⟩

theorem C03_helloRetryRequestKeyShare (a : HelloRetryRequestKeyShare) :
    (∀ x, encodeHelloRetryRequestKeyShare a = .ok x ↔ Spec.HelloRetryRequestKeyShareFits a ∧ x = Spec.helloRetryRequestKeyShareWire a) ∧
    (∀ exts, getHelloRetryRequestKeyShare exts = .ok (some a) ↔ ∃ x pre post, encodeHelloRetryRequestKeyShare a = .ok x ∧
      exts = pre ++ x :: post ∧ ∀ e ∈ pre, e.extension_type ≠ 51) ∧
    (∀ exts, getHelloRetryRequestKeyShare exts = .ok none ↔ ∀ e ∈ exts, e.extension_type ≠ 51) :=
  ⟨codec_helloRetryRequestKeyShare.2.1 a, fun _ => getExtension_some codec_helloRetryRequestKeyShare, fun _ => getExtension_none⟩

example : ∃ x, encodeHelloRetryRequestKeyShare ⟨23⟩ = .ok x ∧
    getHelloRetryRequestKeyShare [⟨65000, [1]⟩, x, ⟨51, [1, 1]⟩] = .ok (some ⟨23⟩) := by
  exact ⟨_, rfl, by decide⟩

theorem C03_clientPresharedKey (a : ClientPresharedKey) :
    (∀ x, encodeClientPresharedKey a = .ok x ↔ Spec.ClientPresharedKeyFits a ∧ x = Spec.clientPresharedKeyWire a) ∧
    (∀ exts, getClientPresharedKey exts = .ok (some a) ↔ ∃ x pre post, encodeClientPresharedKey a = .ok x ∧
      exts = pre ++ x :: post ∧ ∀ e ∈ pre, e.extension_type ≠ 41) ∧
    (∀ exts, getClientPresharedKey exts = .ok none ↔ ∀ e ∈ exts, e.extension_type ≠ 41) :=
  ⟨codec_clientPresharedKey.2.1 a, fun _ => getExtension_some codec_clientPresharedKey, fun _ => getExtension_none⟩

example : ∃ x, encodeClientPresharedKey ⟨[⟨[1, 2], 7⟩, ⟨[3], 8⟩], [⟨[9, 9]⟩, ⟨[8]⟩]⟩ = .ok x ∧
    getClientPresharedKey [⟨65000, [1]⟩, x, ⟨41, [1, 1]⟩] = .ok (some ⟨[⟨[1, 2], 7⟩, ⟨[3], 8⟩], [⟨[9, 9]⟩, ⟨[8]⟩]⟩) := by
  exact ⟨_, rfl, by decide⟩

theorem C03_serverPresharedKey (a : ServerPresharedKey) :
    (∀ x, encodeServerPresharedKey a = .ok x ↔ Spec.ServerPresharedKeyFits a ∧ x = Spec.serverPresharedKeyWire a) ∧
    (∀ exts, getServerPresharedKey exts = .ok (some a) ↔ ∃ x pre post, encodeServerPresharedKey a = .ok x ∧
      exts = pre ++ x :: post ∧ ∀ e ∈ pre, e.extension_type ≠ 41) ∧
    (∀ exts, getServerPresharedKey exts = .ok none ↔ ∀ e ∈ exts, e.extension_type ≠ 41) :=
  ⟨codec_serverPresharedKey.2.1 a, fun _ => getExtension_some codec_serverPresharedKey, fun _ => getExtension_none⟩

example : ∃ x, encodeServerPresharedKey ⟨1⟩ = .ok x ∧
    getServerPresharedKey [⟨65000, [1]⟩, x, ⟨41, [1, 1]⟩] = .ok (some ⟨1⟩) := by
  exact ⟨_, rfl, by decide⟩

theorem C03_clientEarlyData (a : ClientEarlyData) :
    (∀ x, encodeClientEarlyData a = .ok x ↔ Spec.ClientEarlyDataFits a ∧ x = Spec.clientEarlyDataWire a) ∧
    (∀ exts, getClientEarlyData exts = .ok (some a) ↔ ∃ x pre post, encodeClientEarlyData a = .ok x ∧
      exts = pre ++ x :: post ∧ ∀ e ∈ pre, e.extension_type ≠ 42) ∧
    (∀ exts, getClientEarlyData exts = .ok none ↔ ∀ e ∈ exts, e.extension_type ≠ 42) :=
  ⟨codec_clientEarlyData.2.1 a, fun _ => getExtension_some codec_clientEarlyData, fun _ => getExtension_none⟩

example : ∃ x, encodeClientEarlyData ⟨⟩ = .ok x ∧
    getClientEarlyData [⟨65000, [1]⟩, x, ⟨42, [1, 1]⟩] = .ok (some ⟨⟩) := by
  exact ⟨_, rfl, by decide⟩

theorem C03_serverEarlyData (a : ServerEarlyData) :
    (∀ x, encodeServerEarlyData a = .ok x ↔ Spec.ServerEarlyDataFits a ∧ x = Spec.serverEarlyDataWire a) ∧
    (∀ exts, getServerEarlyData exts = .ok (some a) ↔ ∃ x pre post, encodeServerEarlyData a = .ok x ∧
      exts = pre ++ x :: post ∧ ∀ e ∈ pre, e.extension_type ≠ 42) ∧
    (∀ exts, getServerEarlyData exts = .ok none ↔ ∀ e ∈ exts, e.extension_type ≠ 42) :=
  ⟨codec_serverEarlyData.2.1 a, fun _ => getExtension_some codec_serverEarlyData, fun _ => getExtension_none⟩

example : ∃ x, encodeServerEarlyData ⟨⟩ = .ok x ∧
    getServerEarlyData [⟨65000, [1]⟩, x, ⟨42, [1, 1]⟩] = .ok (some ⟨⟩) := by
  exact ⟨_, rfl, by decide⟩

theorem C03_ticketEarlyData (a : TicketEarlyData) :
    (∀ x, encodeTicketEarlyData a = .ok x ↔ Spec.TicketEarlyDataFits a ∧ x = Spec.ticketEarlyDataWire a) ∧
    (∀ exts, getTicketEarlyData exts = .ok (some a) ↔ ∃ x pre post, encodeTicketEarlyData a = .ok x ∧
      exts = pre ++ x :: post ∧ ∀ e ∈ pre, e.extension_type ≠ 42) ∧
    (∀ exts, getTicketEarlyData exts = .ok none ↔ ∀ e ∈ exts, e.extension_type ≠ 42) :=
  ⟨codec_ticketEarlyData.2.1 a, fun _ => getExtension_some codec_ticketEarlyData, fun _ => getExtension_none⟩

example : ∃ x, encodeTicketEarlyData ⟨100000⟩ = .ok x ∧
    getTicketEarlyData [⟨65000, [1]⟩, x, ⟨42, [1, 1]⟩] = .ok (some ⟨100000⟩) := by
  exact ⟨_, rfl, by decide⟩

theorem C03_cookie (a : Cookie) :
    (∀ x, encodeCookie a = .ok x ↔ Spec.CookieFits a ∧ x = Spec.cookieWire a) ∧
    (∀ exts, getCookie exts = .ok (some a) ↔ ∃ x pre post, encodeCookie a = .ok x ∧
      exts = pre ++ x :: post ∧ ∀ e ∈ pre, e.extension_type ≠ 44) ∧
    (∀ exts, getCookie exts = .ok none ↔ ∀ e ∈ exts, e.extension_type ≠ 44) :=
  ⟨codec_cookie.2.1 a, fun _ => getExtension_some codec_cookie, fun _ => getExtension_none⟩

example : ∃ x, encodeCookie ⟨[1, 2, 3]⟩ = .ok x ∧
    getCookie [⟨65000, [1]⟩, x, ⟨44, [1, 1]⟩] = .ok (some ⟨[1, 2, 3]⟩) := by
  exact ⟨_, rfl, by decide⟩

theorem C03_supportedVersions (a : SupportedVersions) :
    (∀ x, encodeSupportedVersions a = .ok x ↔ Spec.SupportedVersionsFits a ∧ x = Spec.supportedVersionsWire a) ∧
    (∀ exts, getSupportedVersions exts = .ok (some a) ↔ ∃ x pre post, encodeSupportedVersions a = .ok x ∧
      exts = pre ++ x :: post ∧ ∀ e ∈ pre, e.extension_type ≠ 43) ∧
    (∀ exts, getSupportedVersions exts = .ok none ↔ ∀ e ∈ exts, e.extension_type ≠ 43) :=
  ⟨codec_supportedVersions.2.1 a, fun _ => getExtension_some codec_supportedVersions, fun _ => getExtension_none⟩

example : ∃ x, encodeSupportedVersions ⟨[0x0304, 0x7f1c]⟩ = .ok x ∧
    getSupportedVersions [⟨65000, [1]⟩, x, ⟨43, [1, 1]⟩] = .ok (some ⟨[0x0304, 0x7f1c]⟩) := by
  exact ⟨_, rfl, by decide⟩

theorem C03_serverSupportedVersions (a : ServerSupportedVersions) :
    (∀ x, encodeServerSupportedVersions a = .ok x ↔ Spec.ServerSupportedVersionsFits a ∧ x = Spec.serverSupportedVersionsWire a) ∧
    (∀ exts, getServerSupportedVersions exts = .ok (some a) ↔ ∃ x pre post, encodeServerSupportedVersions a = .ok x ∧
      exts = pre ++ x :: post ∧ ∀ e ∈ pre, e.extension_type ≠ 43) ∧
    (∀ exts, getServerSupportedVersions exts = .ok none ↔ ∀ e ∈ exts, e.extension_type ≠ 43) :=
  ⟨codec_serverSupportedVersions.2.1 a, fun _ => getExtension_some codec_serverSupportedVersions, fun _ => getExtension_none⟩

example : ∃ x, encodeServerSupportedVersions ⟨0x0304⟩ = .ok x ∧
    getServerSupportedVersions [⟨65000, [1]⟩, x, ⟨43, [1, 1]⟩] = .ok (some ⟨0x0304⟩) := by
  exact ⟨_, rfl, by decide⟩

theorem C03_pskKeyExchangeModes (a : PskKeyExchangeModes) :
    (∀ x, encodePskKeyExchangeModes a = .ok x ↔ Spec.PskKeyExchangeModesFits a ∧ x = Spec.pskKeyExchangeModesWire a) ∧
    (∀ exts, getPskKeyExchangeModes exts = .ok (some a) ↔ ∃ x pre post, encodePskKeyExchangeModes a = .ok x ∧
      exts = pre ++ x :: post ∧ ∀ e ∈ pre, e.extension_type ≠ 45) ∧
    (∀ exts, getPskKeyExchangeModes exts = .ok none ↔ ∀ e ∈ exts, e.extension_type ≠ 45) :=
  ⟨codec_pskKeyExchangeModes.2.1 a, fun _ => getExtension_some codec_pskKeyExchangeModes, fun _ => getExtension_none⟩

example : ∃ x, encodePskKeyExchangeModes ⟨[1, 0]⟩ = .ok x ∧
    getPskKeyExchangeModes [⟨65000, [1]⟩, x, ⟨45, [1, 1]⟩] = .ok (some ⟨[1, 0]⟩) := by
  exact ⟨_, rfl, by decide⟩

theorem C03_protocolNameList (a : ProtocolNameList) :
    (∀ x, encodeProtocolNameList a = .ok x ↔ Spec.ProtocolNameListFits a ∧ x = Spec.protocolNameListWire a) ∧
    (∀ exts, getProtocolNameList exts = .ok (some a) ↔ ∃ x pre post, encodeProtocolNameList a = .ok x ∧
      exts = pre ++ x :: post ∧ ∀ e ∈ pre, e.extension_type ≠ 16) ∧
    (∀ exts, getProtocolNameList exts = .ok none ↔ ∀ e ∈ exts, e.extension_type ≠ 16) :=
  ⟨codec_protocolNameList.2.1 a, fun _ => getExtension_some codec_protocolNameList, fun _ => getExtension_none⟩

example : ∃ x, encodeProtocolNameList ⟨[⟨[104, 50]⟩, ⟨[104]⟩]⟩ = .ok x ∧
    getProtocolNameList [⟨65000, [1]⟩, x, ⟨16, [1, 1]⟩] = .ok (some ⟨[⟨[104, 50]⟩, ⟨[104]⟩]⟩) := by
  exact ⟨_, rfl, by decide⟩

theorem C03_serverNameList (a : ServerNameList) :
    (∀ x, encodeServerNameList a = .ok x ↔ Spec.ServerNameListFits a ∧ x = Spec.serverNameListWire a) ∧
    (∀ exts, getServerNameList exts = .ok (some a) ↔ ∃ x pre post, encodeServerNameList a = .ok x ∧
      exts = pre ++ x :: post ∧ ∀ e ∈ pre, e.extension_type ≠ 0) ∧
    (∀ exts, getServerNameList exts = .ok none ↔ ∀ e ∈ exts, e.extension_type ≠ 0) :=
  ⟨codec_serverNameList.2.1 a, fun _ => getExtension_some codec_serverNameList, fun _ => getExtension_none⟩

example : ∃ x, encodeServerNameList ⟨[⟨0, [97, 46, 98]⟩]⟩ = .ok x ∧
    getServerNameList [⟨65000, [1]⟩, x, ⟨0, [1, 1]⟩] = .ok (some ⟨[⟨0, [97, 46, 98]⟩]⟩) := by
  exact ⟨_, rfl, by decide⟩

theorem C03_certificateAuthorities (a : CertificateAuthorities) :
    (∀ x, encodeCertificateAuthorities a = .ok x ↔ Spec.CertificateAuthoritiesFits a ∧ x = Spec.certificateAuthoritiesWire a) ∧
    (∀ exts, getCertificateAuthorities exts = .ok (some a) ↔ ∃ x pre post, encodeCertificateAuthorities a = .ok x ∧
      exts = pre ++ x :: post ∧ ∀ e ∈ pre, e.extension_type ≠ 47) ∧
    (∀ exts, getCertificateAuthorities exts = .ok none ↔ ∀ e ∈ exts, e.extension_type ≠ 47) :=
  ⟨codec_certificateAuthorities.2.1 a, fun _ => getExtension_some codec_certificateAuthorities, fun _ => getExtension_none⟩

example : ∃ x, encodeCertificateAuthorities ⟨[⟨[1, 2]⟩, ⟨[3]⟩]⟩ = .ok x ∧
    getCertificateAuthorities [⟨65000, [1]⟩, x, ⟨47, [1, 1]⟩] = .ok (some ⟨[⟨[1, 2]⟩, ⟨[3]⟩]⟩) := by
  exact ⟨_, rfl, by decide⟩

theorem C03_certificateCompressionAlgorithms (a : CertificateCompressionAlgorithms) :
    (∀ x, encodeCertificateCompressionAlgorithms a = .ok x ↔ Spec.CertificateCompressionAlgorithmsFits a ∧ x = Spec.certificateCompressionAlgorithmsWire a) ∧
    (∀ exts, getCertificateCompressionAlgorithms exts = .ok (some a) ↔ ∃ x pre post, encodeCertificateCompressionAlgorithms a = .ok x ∧
      exts = pre ++ x :: post ∧ ∀ e ∈ pre, e.extension_type ≠ 27) ∧
    (∀ exts, getCertificateCompressionAlgorithms exts = .ok none ↔ ∀ e ∈ exts, e.extension_type ≠ 27) :=
  ⟨codec_certificateCompressionAlgorithms.2.1 a, fun _ => getExtension_some codec_certificateCompressionAlgorithms, fun _ => getExtension_none⟩

example : ∃ x, encodeCertificateCompressionAlgorithms ⟨[1, 3]⟩ = .ok x ∧
    getCertificateCompressionAlgorithms [⟨65000, [1]⟩, x, ⟨27, [1, 1]⟩] = .ok (some ⟨[1, 3]⟩) := by
  exact ⟨_, rfl, by decide⟩

/-- The ECH outer extensions list is only encoded here (it is decoded by the ECH code). -/
theorem C03_echOuterExtensions (a : EchOuterExtensions) (x : Extension) :
    encodeEchOuterExtensions a = .ok x ↔
      Spec.EchOuterExtensionsFits a ∧ x = Spec.echOuterExtensionsWire a := enc_echOuterExtensions a x

example : ∃ x, encodeEchOuterExtensions ⟨[10, 51]⟩ = .ok x := ⟨_, rfl⟩

/-- C03 (left-over bytes): whatever the extension, if the body decodes with bytes left over,
`getExtension` fails. -/
theorem C03_leftover {α} (type : UInt16) (rd : Rd α) (pre post : List Extension) (x : Extension)
    (a : α) (b : UInt8) (rest : Bytes) (hx : x.extension_type = type)
    (hp : ∀ e ∈ pre, e.extension_type ≠ type) (hd : rd x.extension_data = .ok (a, b :: rest)) :
    ∃ e, getExtension type rd (pre ++ x :: post) = .error e := by
  have h1 : findExtension (pre ++ x :: post) type = some x :=
    findExtension_some.2 ⟨hx, pre, post, rfl, hp⟩
  simp [getExtension, h1, hd]

example : getCookie [⟨44, [0, 1, 7, 7]⟩] =
    .error (Failure.rt "didn't read entire extension") := by decide

/-! ## C41: binder truncation -/

/-- C41: when the pre_shared_key extension is last (as the protocol requires) and the ClientHello
encodes to `bs`, `getBinderLength` returns the length of the encoded binders list, and removing
that many bytes from the end of `bs` removes exactly the binders list. -/
theorem C41_binder_truncation (chlo : ClientHello) (pre : List Extension) (psk : ClientPresharedKey)
    (x : Extension) (bs : Bytes) (hx : encodeClientPresharedKey psk = .ok x)
    (he : chlo.extensions = pre ++ [x]) (hb : encodeClientHello chlo = .ok bs) :
    ∃ n, getBinderLength chlo = .ok n ∧ n ≤ bs.length ∧
      bs.drop (bs.length - n) = vec .u16 (psk.binders.flatMap Spec.pskBinder) := by
  rw [codec_clientPresharedKey.2.1] at hx
  obtain ⟨⟨⟨hi1, hi2⟩, hb1, hb2⟩, rfl⟩ := hx
  refine ⟨2 + (psk.binders.flatMap Spec.pskBinder).length, ?_, ?_⟩
  · have hlt1 : (UInt16.ofNat (psk.identities.flatMap Spec.pskIdentity).length).toNat =
        (psk.identities.flatMap Spec.pskIdentity).length := by
      rw [UInt16.toNat_ofNat']; exact Nat.mod_eq_of_lt hi2
    have hlt2 : (UInt16.ofNat (psk.binders.flatMap Spec.pskBinder).length).toNat =
        (psk.binders.flatMap Spec.pskBinder).length := by
      rw [UInt16.toNat_ofNat']; exact Nat.mod_eq_of_lt hb2
    have hr : readBinderLength (Spec.clientPresharedKeyWire psk).extension_data =
        .ok (2 + (psk.binders.flatMap Spec.pskBinder).length,
          psk.binders.flatMap Spec.pskBinder) := by
      simp only [readBinderLength, Rd.bind_eq_ok, readU16_eq_ok, remaining_eq_ok, Prod.exists,
        skip, pull_eq_ok, Rd.pure_eq_ok]
      refine ⟨UInt16.ofNat (psk.identities.flatMap Spec.pskIdentity).length, _,
        psk.identities.flatMap Spec.pskIdentity ++ vec .u16 (psk.binders.flatMap Spec.pskBinder),
        ⟨?_, rfl⟩, (), _, ⟨_, _, ⟨hlt1.symm, rfl⟩, trivial, rfl⟩,
        UInt16.ofNat (psk.binders.flatMap Spec.pskBinder).length, _,
        psk.binders.flatMap Spec.pskBinder, ⟨?_, rfl⟩, _, _,
        ⟨rfl, rfl⟩, ?_⟩
      · rw [hlt1]; simp only [Spec.clientPresharedKeyWire, vec, Width.bytes, List.append_assoc]
      · rw [hlt2]; rfl
      · rw [hlt2]; simp
    have hl : chlo.extensions.getLast? = some (Spec.clientPresharedKeyWire psk) := by
      rw [he]; simp
    have ht : (Spec.clientPresharedKeyWire psk).extension_type = ExtensionType.pre_shared_key := rfl
    simp only [getBinderLength, hl, hr, ht, ne_eq, not_true_eq_false, if_false]
  · rw [encodeClientHello_eq_ok] at hb
    obtain ⟨_, rfl⟩ := hb
    have hsuf : Spec.clientHello chlo =
        (Spec.clientHelloNoExtensions chlo ++ beEnc 2 (chlo.extensions.flatMap Spec.extension).length
          ++ pre.flatMap Spec.extension ++ Spec.u16 41 ++
          beEnc 2 ((Spec.clientPresharedKeyWire psk).extension_data).length ++
          vec .u16 (psk.identities.flatMap Spec.pskIdentity)) ++
        vec .u16 (psk.binders.flatMap Spec.pskBinder) := by
      rw [Spec.clientHello, Spec.extensions, he]
      simp [Spec.clientHelloNoExtensions, Spec.extension, Spec.clientPresharedKeyWire, vec,
        Width.bytes]
    rw [hsuf]
    have hn : 2 + (psk.binders.flatMap Spec.pskBinder).length =
        (vec .u16 (psk.binders.flatMap Spec.pskBinder)).length := by simp [Width.bytes]
    rw [hn]
    constructor
    · rw [List.length_append]; omega
    · rw [List.length_append, Nat.add_sub_cancel, List.drop_left]

/-- C41 (independence): the truncated ClientHello does not depend on the binder values, only on
their encoded length: two ClientHellos that differ only in equally long binder lists truncate to
the same bytes. -/
theorem C41_binder_independent (c₁ c₂ : ClientHello) (pre : List Extension)
    (p₁ p₂ : ClientPresharedKey) (x₁ x₂ : Extension) (b₁ b₂ : Bytes)
    (h₁ : encodeClientPresharedKey p₁ = .ok x₁) (h₂ : encodeClientPresharedKey p₂ = .ok x₂)
    (e₁ : c₁.extensions = pre ++ [x₁]) (e₂ : c₂ = { c₁ with extensions := pre ++ [x₂] })
    (hid : p₁.identities = p₂.identities)
    (hlen : (p₁.binders.flatMap Spec.pskBinder).length = (p₂.binders.flatMap Spec.pskBinder).length)
    (k₁ : encodeClientHello c₁ = .ok b₁) (k₂ : encodeClientHello c₂ = .ok b₂) :
    ∃ n, getBinderLength c₁ = .ok n ∧ getBinderLength c₂ = .ok n ∧
      b₁.take (b₁.length - n) = b₂.take (b₂.length - n) := by
  have q : ∀ (c : ClientHello) (p : ClientPresharedKey) (x : Extension) (b : Bytes),
      encodeClientPresharedKey p = .ok x → c.extensions = pre ++ [x] →
      encodeClientHello c = .ok b →
      getBinderLength c = .ok (2 + (p.binders.flatMap Spec.pskBinder).length) ∧
      b.take (b.length - (2 + (p.binders.flatMap Spec.pskBinder).length)) =
        Spec.clientHelloNoExtensions c ++ beEnc 2 (c.extensions.flatMap Spec.extension).length
          ++ pre.flatMap Spec.extension ++ Spec.u16 41 ++
          beEnc 2 ((Spec.clientPresharedKeyWire p).extension_data).length ++
          vec .u16 (p.identities.flatMap Spec.pskIdentity) := by
    intro c p x b hx he hb
    obtain ⟨n, hn, hle, hd⟩ := C41_binder_truncation c pre p x b hx he hb
    have hl := congrArg List.length hd
    simp [Width.bytes] at hl
    have hn2 : n = 2 + (p.binders.flatMap Spec.pskBinder).length := by
      rw [List.length_flatMap]; omega
    rw [← hn2]
    refine ⟨hn, ?_⟩
    rw [codec_clientPresharedKey.2.1] at hx
    obtain ⟨_, rfl⟩ := hx
    rw [encodeClientHello_eq_ok] at hb
    obtain ⟨_, rfl⟩ := hb
    have hsuf : Spec.clientHello c =
        (Spec.clientHelloNoExtensions c ++ beEnc 2 (c.extensions.flatMap Spec.extension).length
          ++ pre.flatMap Spec.extension ++ Spec.u16 41 ++
          beEnc 2 ((Spec.clientPresharedKeyWire p).extension_data).length ++
          vec .u16 (p.identities.flatMap Spec.pskIdentity)) ++
        vec .u16 (p.binders.flatMap Spec.pskBinder) := by
      rw [Spec.clientHello, Spec.extensions, he]
      simp [Spec.clientHelloNoExtensions, Spec.extension, Spec.clientPresharedKeyWire, vec,
        Width.bytes]
    have hv : n = (vec .u16 (p.binders.flatMap Spec.pskBinder)).length := by
      rw [hn2]; simp [Width.bytes]
    rw [hsuf, List.length_append, ← hv, Nat.add_sub_cancel, List.take_left]
  have q₁ := q c₁ p₁ x₁ b₁ h₁ e₁ k₁
  have q₂ := q c₂ p₂ x₂ b₂ h₂ (by rw [e₂]) k₂
  refine ⟨_, q₁.1, hlen ▸ q₂.1, ?_⟩
  rw [q₁.2]
  conv => rhs; rw [hlen]
  rw [q₂.2]
  rw [codec_clientPresharedKey.2.1] at h₁ h₂
  obtain ⟨_, rfl⟩ := h₁
  obtain ⟨_, rfl⟩ := h₂
  have hdl : (Spec.clientPresharedKeyWire p₁).extension_data.length =
      (Spec.clientPresharedKeyWire p₂).extension_data.length := by
    simp only [Spec.clientPresharedKeyWire, List.length_append, vec_length, hid, hlen]
  have hxl : (c₁.extensions.flatMap Spec.extension).length =
      (c₂.extensions.flatMap Spec.extension).length := by
    rw [exts_length, exts_length, e₁, e₂]; simp [hdl]
  rw [hxl, hdl, hid]
  have : Spec.clientHelloNoExtensions c₁ = Spec.clientHelloNoExtensions c₂ := by rw [e₂]; rfl
  rw [this]

/-- C41 (refusal): if the last extension is not pre_shared_key the call fails with decode_error. -/
theorem C41_psk_must_be_last (chlo : ClientHello)
    (h : ∀ e, chlo.extensions.getLast? = some e → e.extension_type ≠ 41) :
    getBinderLength chlo = .error (.err "psk not at end of client hello" (some 50) .fizz) := by
  unfold getBinderLength
  cases hl : chlo.extensions.getLast? with
  | none => rfl
  | some e => simp [ExtensionType.pre_shared_key, h e hl, Failure.fizz]

/-- Non-vacuity of C41. -/
def exampleResumingCH (x : Extension) : ClientHello :=
  ⟨0x0303, hrrRandom, [], [0x1301], [0], [⟨43, [2, 3, 4]⟩] ++ [x]⟩

example : ∃ x bs, encodeClientPresharedKey ⟨[⟨[1, 2], 7⟩], [⟨[9, 9, 9]⟩]⟩ = .ok x ∧
      encodeClientHello (exampleResumingCH x) = .ok bs ∧
      getBinderLength (exampleResumingCH x) = .ok 6 := by
  refine ⟨_, _, rfl, rfl, ?_⟩
  decide

end Fizz.Codec

import Verif.Codec.Spec

/-!
# Specification of the extension bodies

RFC 8446 section 4.2, RFC 7301 (ALPN), RFC 6066 (SNI), RFC 8879, and the ECH draft.  `xWire` is
the extension (type and body) and `XFits` says every variable-length part fits its prefix.
-/

namespace Fizz.Codec.Spec

def keyShareEntry (e : KeyShareEntry) : Bytes := u16 e.group ++ vec .u16 e.key_exchange
def KeyShareEntryFits (e : KeyShareEntry) : Prop := e.key_exchange.length < 65536
def pskIdentity (e : PskIdentity) : Bytes := vec .u16 e.psk_identity ++ u32 e.obfuscated_ticket_age
def PskIdentityFits (e : PskIdentity) : Prop := e.psk_identity.length < 65536
def pskBinder (e : PskBinder) : Bytes := vec .u8 e.binder
def PskBinderFits (e : PskBinder) : Prop := e.binder.length < 256
def protocolName (e : ProtocolName) : Bytes := vec .u8 e.name
def ProtocolNameFits (e : ProtocolName) : Prop := e.name.length < 256
def serverName (e : ServerName) : Bytes := u8 e.name_type ++ vec .u16 e.hostname
def ServerNameFits (e : ServerName) : Prop := e.hostname.length < 65536
def distinguishedName (e : DistinguishedName) : Bytes := vec .u16 e.encoded_name
def DistinguishedNameFits (e : DistinguishedName) : Prop := e.encoded_name.length < 65536

def signatureAlgorithmsWire (x : SignatureAlgorithms) : Extension := ⟨13, vec .u16 (x.supported_signature_algorithms.flatMap u16)⟩
def SignatureAlgorithmsFits (x : SignatureAlgorithms) : Prop := 2 * x.supported_signature_algorithms.length < 65536

def supportedGroupsWire (x : SupportedGroups) : Extension := ⟨10, vec .u16 (x.named_group_list.flatMap u16)⟩
def SupportedGroupsFits (x : SupportedGroups) : Prop := 2 * x.named_group_list.length < 65536

def clientKeyShareWire (x : ClientKeyShare) : Extension := ⟨51, vec .u16 (x.client_shares.flatMap keyShareEntry)⟩
def ClientKeyShareFits (x : ClientKeyShare) : Prop := (∀ e ∈ x.client_shares, KeyShareEntryFits e) ∧
    (x.client_shares.flatMap keyShareEntry).length < 65536

def supportedVersionsWire (x : SupportedVersions) : Extension := ⟨43, vec .u8 (x.versions.flatMap u16)⟩
def SupportedVersionsFits (x : SupportedVersions) : Prop := 2 * x.versions.length < 256

def pskKeyExchangeModesWire (x : PskKeyExchangeModes) : Extension := ⟨45, vec .u8 (x.modes.flatMap u8)⟩
def PskKeyExchangeModesFits (x : PskKeyExchangeModes) : Prop := x.modes.length < 256

def protocolNameListWire (x : ProtocolNameList) : Extension := ⟨16, vec .u16 (x.protocol_name_list.flatMap protocolName)⟩
def ProtocolNameListFits (x : ProtocolNameList) : Prop := (∀ e ∈ x.protocol_name_list, ProtocolNameFits e) ∧
    (x.protocol_name_list.flatMap protocolName).length < 65536

def serverNameListWire (x : ServerNameList) : Extension := ⟨0, vec .u16 (x.server_name_list.flatMap serverName)⟩
def ServerNameListFits (x : ServerNameList) : Prop := (∀ e ∈ x.server_name_list, ServerNameFits e) ∧
    (x.server_name_list.flatMap serverName).length < 65536

def certificateAuthoritiesWire (x : CertificateAuthorities) : Extension := ⟨47, vec .u16 (x.authorities.flatMap distinguishedName)⟩
def CertificateAuthoritiesFits (x : CertificateAuthorities) : Prop := (∀ e ∈ x.authorities, DistinguishedNameFits e) ∧
    (x.authorities.flatMap distinguishedName).length < 65536

def certificateCompressionAlgorithmsWire (x : CertificateCompressionAlgorithms) : Extension := ⟨27, vec .u8 (x.algorithms.flatMap u16)⟩
def CertificateCompressionAlgorithmsFits (x : CertificateCompressionAlgorithms) : Prop := 2 * x.algorithms.length < 256

def echOuterExtensionsWire (x : EchOuterExtensions) : Extension := ⟨0xfd00, vec .u8 (x.extensionTypes.flatMap u16)⟩
def EchOuterExtensionsFits (x : EchOuterExtensions) : Prop := 2 * x.extensionTypes.length < 256

def serverKeyShareWire (x : ServerKeyShare) : Extension := ⟨51, keyShareEntry x.server_share⟩
def ServerKeyShareFits (x : ServerKeyShare) : Prop := KeyShareEntryFits x.server_share

def helloRetryRequestKeyShareWire (x : HelloRetryRequestKeyShare) : Extension :=
  ⟨51, u16 x.selected_group⟩
def HelloRetryRequestKeyShareFits (_ : HelloRetryRequestKeyShare) : Prop := True

def clientPresharedKeyWire (x : ClientPresharedKey) : Extension :=
  ⟨41, vec .u16 (x.identities.flatMap pskIdentity) ++ vec .u16 (x.binders.flatMap pskBinder)⟩
def ClientPresharedKeyFits (x : ClientPresharedKey) : Prop :=
  ((∀ e ∈ x.identities, PskIdentityFits e) ∧ (x.identities.flatMap pskIdentity).length < 65536) ∧
    (∀ e ∈ x.binders, PskBinderFits e) ∧ (x.binders.flatMap pskBinder).length < 65536

def serverPresharedKeyWire (x : ServerPresharedKey) : Extension := ⟨41, u16 x.selected_identity⟩
def ServerPresharedKeyFits (_ : ServerPresharedKey) : Prop := True

def clientEarlyDataWire (_ : ClientEarlyData) : Extension := ⟨42, []⟩
def ClientEarlyDataFits (_ : ClientEarlyData) : Prop := True

def serverEarlyDataWire (_ : ServerEarlyData) : Extension := ⟨42, []⟩
def ServerEarlyDataFits (_ : ServerEarlyData) : Prop := True

def ticketEarlyDataWire (x : TicketEarlyData) : Extension := ⟨42, u32 x.max_early_data_size⟩
def TicketEarlyDataFits (_ : TicketEarlyData) : Prop := True

def cookieWire (x : Cookie) : Extension := ⟨44, vec .u16 x.cookie⟩
def CookieFits (x : Cookie) : Prop := x.cookie.length < 65536

def serverSupportedVersionsWire (x : ServerSupportedVersions) : Extension :=
  ⟨43, u16 x.selected_version⟩
def ServerSupportedVersionsFits (_ : ServerSupportedVersions) : Prop := True

end Fizz.Codec.Spec

import Verif.Codec.Messages

/-!
# Extensions — model of `fizz/record/Extensions.h` and `fizz/record/Extensions-inl.h`
-/

namespace Fizz.Codec

/-- `ExtensionType` values (`fizz/record/Types.h:94-121`). -/
def ExtensionType.server_name : UInt16 := 0
/-- `fizz/record/Types.h:96`. -/
def ExtensionType.supported_groups : UInt16 := 10
/-- `fizz/record/Types.h:97`. -/
def ExtensionType.signature_algorithms : UInt16 := 13
/-- `fizz/record/Types.h:98`. -/
def ExtensionType.application_layer_protocol_negotiation : UInt16 := 16
/-- `fizz/record/Types.h:101`. -/
def ExtensionType.compress_certificate : UInt16 := 27
/-- `fizz/record/Types.h:103`. -/
def ExtensionType.pre_shared_key : UInt16 := 41
/-- `fizz/record/Types.h:104`. -/
def ExtensionType.early_data : UInt16 := 42
/-- `fizz/record/Types.h:105`. -/
def ExtensionType.supported_versions : UInt16 := 43
/-- `fizz/record/Types.h:106`. -/
def ExtensionType.cookie : UInt16 := 44
/-- `fizz/record/Types.h:107`. -/
def ExtensionType.psk_key_exchange_modes : UInt16 := 45
/-- `fizz/record/Types.h:108`. -/
def ExtensionType.certificate_authorities : UInt16 := 47
/-- `fizz/record/Types.h:111`. -/
def ExtensionType.key_share : UInt16 := 51
/-- `fizz/record/Types.h:112`. -/
def ExtensionType.ech_outer_extensions : UInt16 := 0xfd00

/-- `findExtension` (`fizz/record/Extensions-inl.h:16-25`): the first extension of that type. -/
def findExtension (exts : List Extension) (type : UInt16) : Option Extension :=
  match exts with
  | [] => none
  | e :: es => if e.extension_type = type then some e else findExtension es type

/-- `getExtension<T>(Optional<T>&, Error&, const vector<Extension>&)`
(`fizz/record/Extensions-inl.h:27-45`). -/
def getExtension {α} (type : UInt16) (rd : Rd α) (exts : List Extension) : Res (Option α) :=
  match findExtension exts type with
  | none => .ok none
  | some e =>
    match rd e.extension_data with
    | .error f => .error f
    | .ok (a, rest) =>
      if rest.isEmpty then .ok (some a)
      else .error (Failure.rt "didn't read entire extension")

/-! ## Vector elements -/

/-- `struct KeyShareEntry` (`fizz/record/Extensions.h:28-31`). -/
structure KeyShareEntry where
  group : UInt16
  key_exchange : Bytes
  deriving DecidableEq

/-- `Reader<KeyShareEntry>` (`fizz/record/Extensions-inl.h:512-525`). -/
def readKeyShareEntry : Rd (KeyShareEntry × Nat) := do
  let (g, lenRead) ← readU16
  let (k, n) ← readBuf .u16
  pure (⟨g, k⟩, lenRead + n)
/-- `Writer<KeyShareEntry>` (`fizz/record/Extensions-inl.h:527-537`). -/
def writeKeyShareEntry (e : KeyShareEntry) : Res Bytes := do
  let g ← writeU16 e.group
  let k ← writeBuf .u16 e.key_exchange
  pure (g ++ k)
/-- `Sizer<KeyShareEntry>` (`fizz/record/Extensions-inl.h:539-545`). -/
def sizeKeyShareEntry (e : KeyShareEntry) : Nat := 2 + getBufSize .u16 e.key_exchange

/-- `struct PskIdentity` (`fizz/record/Extensions.h:48-51`). -/
structure PskIdentity where
  psk_identity : Bytes
  obfuscated_ticket_age : UInt32
  deriving DecidableEq

/-- `Reader<PskIdentity>` (`fizz/record/Extensions-inl.h:547-561`). -/
def readPskIdentity : Rd (PskIdentity × Nat) := do
  let (i, n) ← readBuf .u16
  let (a, lenRead) ← readU32
  pure (⟨i, a⟩, n + lenRead)
/-- `Writer<PskIdentity>` (`fizz/record/Extensions-inl.h:563-571`). -/
def writePskIdentity (e : PskIdentity) : Res Bytes := do
  let i ← writeBuf .u16 e.psk_identity
  let a ← writeU32 e.obfuscated_ticket_age
  pure (i ++ a)
/-- `Sizer<PskIdentity>` (`fizz/record/Extensions-inl.h:573-579`). -/
def sizePskIdentity (e : PskIdentity) : Nat := getBufSize .u16 e.psk_identity + 4

/-- `struct ServerName` (`fizz/record/Extensions.h:116-122`). -/
structure ServerName where
  name_type : UInt8 := 0
  hostname : Bytes
  deriving DecidableEq

/-- `Reader<ServerName>` (`fizz/record/Extensions-inl.h:641-654`). -/
def readServerName : Rd (ServerName × Nat) := do
  let (t, lenRead) ← readU8
  let (h, n) ← readBuf .u16
  pure (⟨t, h⟩, lenRead + n)
/-- `Writer<ServerName>` (`fizz/record/Extensions-inl.h:656-664`). -/
def writeServerName (e : ServerName) : Res Bytes := do
  let t ← writeU8 e.name_type
  let h ← writeBuf .u16 e.hostname
  pure (t ++ h)
/-- `Sizer<ServerName>` (`fizz/record/Extensions-inl.h:666-672`). -/
def sizeServerName (e : ServerName) : Nat := 1 + getBufSize .u16 e.hostname

/-- `struct PskBinder` (`fizz/record/Extensions.h:53-55`). -/
structure PskBinder where
  binder : Bytes
  deriving DecidableEq

/-- `Reader<PskBinder>` (`fizz/record/Extensions-inl.h:581-592`). -/
def readPskBinder : Rd (PskBinder × Nat) := do
  let (b, n) ← readBuf .u8
  pure (⟨b⟩, n)
/-- `Writer<PskBinder>` (`fizz/record/Extensions-inl.h:594-601`). -/
def writePskBinder (e : PskBinder) : Res Bytes := writeBuf .u8 e.binder
/-- `Sizer<PskBinder>` (`fizz/record/Extensions-inl.h:603-609`). -/
def sizePskBinder (e : PskBinder) : Nat := getBufSize .u8 e.binder

/-- `struct ProtocolName` (`fizz/record/Extensions.h:104-106`). -/
structure ProtocolName where
  name : Bytes
  deriving DecidableEq

/-- `Reader<ProtocolName>` (`fizz/record/Extensions-inl.h:611-622`). -/
def readProtocolName : Rd (ProtocolName × Nat) := do
  let (b, n) ← readBuf .u8
  pure (⟨b⟩, n)
/-- `Writer<ProtocolName>` (`fizz/record/Extensions-inl.h:624-631`). -/
def writeProtocolName (e : ProtocolName) : Res Bytes := writeBuf .u8 e.name
/-- `Sizer<ProtocolName>` (`fizz/record/Extensions-inl.h:633-639`). -/
def sizeProtocolName (e : ProtocolName) : Nat := getBufSize .u8 e.name

/-- `struct DistinguishedName` (`fizz/record/Extensions.h:133-135`). -/
structure DistinguishedName where
  encoded_name : Bytes
  deriving DecidableEq

/-- `Reader<DistinguishedName>` (`fizz/record/Extensions-inl.h:674-685`). -/
def readDistinguishedName : Rd (DistinguishedName × Nat) := do
  let (b, n) ← readBuf .u16
  pure (⟨b⟩, n)
/-- `Writer<DistinguishedName>` (`fizz/record/Extensions-inl.h:687-695`). -/
def writeDistinguishedName (e : DistinguishedName) : Res Bytes := writeBuf .u16 e.encoded_name
/-- `Sizer<DistinguishedName>` (`fizz/record/Extensions-inl.h:697-703`). -/
def sizeDistinguishedName (e : DistinguishedName) : Nat := getBufSize .u16 e.encoded_name

/-! ## Extensions -/

/-- `struct SignatureAlgorithms` (`fizz/record/Extensions.h:16-20`). -/
structure SignatureAlgorithms where
  supported_signature_algorithms : List UInt16
  deriving DecidableEq
/-- `getExtension<SignatureAlgorithms>` (`fizz/record/Extensions-inl.h:47-57`). -/
def readSignatureAlgorithms : Rd SignatureAlgorithms := do
  let (l, _) ← readVector .u16 readU16
  pure ⟨l⟩
/-- `getExtension<SignatureAlgorithms>` on an extension list (`fizz/record/Extensions-inl.h:27-45`). -/
def getSignatureAlgorithms : List Extension → Res (Option SignatureAlgorithms) :=
  getExtension ExtensionType.signature_algorithms readSignatureAlgorithms
/-- `encodeExtension(SignatureAlgorithms)` (`fizz/record/Extensions-inl.h:240-252`). -/
def encodeSignatureAlgorithms (e : SignatureAlgorithms) : Res Extension := do
  let d ← writeVector .u16 sizeU16 writeU16 e.supported_signature_algorithms
  pure ⟨ExtensionType.signature_algorithms, d⟩

/-- `struct SupportedGroups` (`fizz/record/Extensions.h:22-26`). -/
structure SupportedGroups where
  named_group_list : List UInt16
  deriving DecidableEq
/-- `getExtension<SupportedGroups>` (`fizz/record/Extensions-inl.h:59-68`). -/
def readSupportedGroups : Rd SupportedGroups := do
  let (l, _) ← readVector .u16 readU16
  pure ⟨l⟩
/-- `getExtension<SupportedGroups>` on an extension list (`fizz/record/Extensions-inl.h:27-45`). -/
def getSupportedGroups : List Extension → Res (Option SupportedGroups) :=
  getExtension ExtensionType.supported_groups readSupportedGroups
/-- `encodeExtension(SupportedGroups)` (`fizz/record/Extensions-inl.h:254-265`). -/
def encodeSupportedGroups (e : SupportedGroups) : Res Extension := do
  let d ← writeVector .u16 sizeU16 writeU16 e.named_group_list
  pure ⟨ExtensionType.supported_groups, d⟩

/-- `struct ClientKeyShare` (`fizz/record/Extensions.h:33-36`). -/
structure ClientKeyShare where
  client_shares : List KeyShareEntry
  deriving DecidableEq
/-- `getExtension<ClientKeyShare>` (`fizz/record/Extensions-inl.h:70-79`). -/
def readClientKeyShare : Rd ClientKeyShare := do
  let (l, _) ← readVector .u16 readKeyShareEntry
  pure ⟨l⟩
/-- `getExtension<ClientKeyShare>` on an extension list (`fizz/record/Extensions-inl.h:27-45`). -/
def getClientKeyShare : List Extension → Res (Option ClientKeyShare) :=
  getExtension ExtensionType.key_share readClientKeyShare
/-- `encodeExtension(ClientKeyShare)` (`fizz/record/Extensions-inl.h:267-278`). -/
def encodeClientKeyShare (e : ClientKeyShare) : Res Extension := do
  let d ← writeVector .u16 sizeKeyShareEntry writeKeyShareEntry e.client_shares
  pure ⟨ExtensionType.key_share, d⟩

/-- `struct ServerKeyShare` (`fizz/record/Extensions.h:38-41`). -/
structure ServerKeyShare where
  server_share : KeyShareEntry
  deriving DecidableEq
/-- `getExtension<ServerKeyShare>` (`fizz/record/Extensions-inl.h:81-89`). -/
def readServerKeyShare : Rd ServerKeyShare := do
  let (v, _) ← readKeyShareEntry
  pure ⟨v⟩
/-- `getExtension<ServerKeyShare>` on an extension list (`fizz/record/Extensions-inl.h:27-45`). -/
def getServerKeyShare : List Extension → Res (Option ServerKeyShare) :=
  getExtension ExtensionType.key_share readServerKeyShare
/-- `encodeExtension(ServerKeyShare)` (`fizz/record/Extensions-inl.h:280-290`). -/
def encodeServerKeyShare (e : ServerKeyShare) : Res Extension := do
  let d ← writeKeyShareEntry e.server_share
  pure ⟨ExtensionType.key_share, d⟩

/-- `struct HelloRetryRequestKeyShare` (`fizz/record/Extensions.h:43-46`). -/
structure HelloRetryRequestKeyShare where
  selected_group : UInt16
  deriving DecidableEq
/-- `getExtension<HelloRetryRequestKeyShare>` (`fizz/record/Extensions-inl.h:91-101`). -/
def readHelloRetryRequestKeyShare : Rd HelloRetryRequestKeyShare := do
  let (v, _) ← readU16
  pure ⟨v⟩
/-- `getExtension<HelloRetryRequestKeyShare>` on an extension list (`fizz/record/Extensions-inl.h:27-45`). -/
def getHelloRetryRequestKeyShare : List Extension → Res (Option HelloRetryRequestKeyShare) :=
  getExtension ExtensionType.key_share readHelloRetryRequestKeyShare
/-- `encodeExtension(HelloRetryRequestKeyShare)` (`fizz/record/Extensions-inl.h:292-304`). -/
def encodeHelloRetryRequestKeyShare (e : HelloRetryRequestKeyShare) : Res Extension := do
  let d ← writeU16 e.selected_group
  pure ⟨ExtensionType.key_share, d⟩

/-- `struct ClientPresharedKey` (`fizz/record/Extensions.h:57-61`). -/
structure ClientPresharedKey where
  identities : List PskIdentity
  binders : List PskBinder
  deriving DecidableEq
/-- `getExtension<ClientPresharedKey>` (`fizz/record/Extensions-inl.h:103-114`). -/
def readClientPresharedKey : Rd ClientPresharedKey := do
  let (i, _) ← readVector .u16 readPskIdentity
  let (b, _) ← readVector .u16 readPskBinder
  pure ⟨i, b⟩
/-- `getExtension<ClientPresharedKey>` on an extension list
(`fizz/record/Extensions-inl.h:27-45`). -/
def getClientPresharedKey : List Extension → Res (Option ClientPresharedKey) :=
  getExtension ExtensionType.pre_shared_key readClientPresharedKey
/-- `encodeExtension(ClientPresharedKey)` (`fizz/record/Extensions-inl.h:306-319`). -/
def encodeClientPresharedKey (e : ClientPresharedKey) : Res Extension := do
  let i ← writeVector .u16 sizePskIdentity writePskIdentity e.identities
  let b ← writeVector .u16 sizePskBinder writePskBinder e.binders
  pure ⟨ExtensionType.pre_shared_key, i ++ b⟩

/-- `struct ServerPresharedKey` (`fizz/record/Extensions.h:63-66`). -/
structure ServerPresharedKey where
  selected_identity : UInt16
  deriving DecidableEq
/-- `getExtension<ServerPresharedKey>` (`fizz/record/Extensions-inl.h:116-124`). -/
def readServerPresharedKey : Rd ServerPresharedKey := do
  let (v, _) ← readU16
  pure ⟨v⟩
/-- `getExtension<ServerPresharedKey>` on an extension list (`fizz/record/Extensions-inl.h:27-45`). -/
def getServerPresharedKey : List Extension → Res (Option ServerPresharedKey) :=
  getExtension ExtensionType.pre_shared_key readServerPresharedKey
/-- `encodeExtension(ServerPresharedKey)` (`fizz/record/Extensions-inl.h:321-331`). -/
def encodeServerPresharedKey (e : ServerPresharedKey) : Res Extension := do
  let d ← writeU16 e.selected_identity
  pure ⟨ExtensionType.pre_shared_key, d⟩

/-- `struct ClientEarlyData` (`fizz/record/Extensions.h:68-70`): no content. -/
structure ClientEarlyData where
  deriving DecidableEq
/-- `getExtension<ClientEarlyData>` (`fizz/record/Extensions-inl.h:126-133`): reads nothing. -/
def readClientEarlyData : Rd ClientEarlyData := pure ⟨⟩
/-- `getExtension<ClientEarlyData>` on an extension list (`fizz/record/Extensions-inl.h:27-45`). -/
def getClientEarlyData : List Extension → Res (Option ClientEarlyData) :=
  getExtension ExtensionType.early_data readClientEarlyData
/-- `encodeExtension(ClientEarlyData)` (`fizz/record/Extensions-inl.h:333-341`). -/
def encodeClientEarlyData (_ : ClientEarlyData) : Res Extension := pure ⟨ExtensionType.early_data, []⟩

/-- `struct ServerEarlyData` (`fizz/record/Extensions.h:72-74`): no content. -/
structure ServerEarlyData where
  deriving DecidableEq
/-- `getExtension<ServerEarlyData>` (`fizz/record/Extensions-inl.h:135-142`): reads nothing. -/
def readServerEarlyData : Rd ServerEarlyData := pure ⟨⟩
/-- `getExtension<ServerEarlyData>` on an extension list (`fizz/record/Extensions-inl.h:27-45`). -/
def getServerEarlyData : List Extension → Res (Option ServerEarlyData) :=
  getExtension ExtensionType.early_data readServerEarlyData
/-- `encodeExtension(ServerEarlyData)` (`fizz/record/Extensions-inl.h:343-351`). -/
def encodeServerEarlyData (_ : ServerEarlyData) : Res Extension := pure ⟨ExtensionType.early_data, []⟩

/-- `struct TicketEarlyData` (`fizz/record/Extensions.h:76-79`). -/
structure TicketEarlyData where
  max_early_data_size : UInt32
  deriving DecidableEq
/-- `getExtension<TicketEarlyData>` (`fizz/record/Extensions-inl.h:144-152`). -/
def readTicketEarlyData : Rd TicketEarlyData := do
  let (v, _) ← readU32
  pure ⟨v⟩
/-- `getExtension<TicketEarlyData>` on an extension list (`fizz/record/Extensions-inl.h:27-45`). -/
def getTicketEarlyData : List Extension → Res (Option TicketEarlyData) :=
  getExtension ExtensionType.early_data readTicketEarlyData
/-- `encodeExtension(TicketEarlyData)` (`fizz/record/Extensions-inl.h:353-363`). -/
def encodeTicketEarlyData (e : TicketEarlyData) : Res Extension := do
  let d ← writeU32 e.max_early_data_size
  pure ⟨ExtensionType.early_data, d⟩

/-- `struct Cookie` (`fizz/record/Extensions.h:81-84`). -/
structure Cookie where
  cookie : Bytes
  deriving DecidableEq
/-- `getExtension<Cookie>` (`fizz/record/Extensions-inl.h:154-161`). -/
def readCookie : Rd Cookie := do
  let (b, _) ← readBuf .u16
  pure ⟨b⟩
/-- `getExtension<Cookie>` on an extension list (`fizz/record/Extensions-inl.h:27-45`). -/
def getCookie : List Extension → Res (Option Cookie) := getExtension ExtensionType.cookie readCookie
/-- `encodeExtension(Cookie)` (`fizz/record/Extensions-inl.h:365-376`). -/
def encodeCookie (e : Cookie) : Res Extension := do
  let d ← writeBuf .u16 e.cookie
  pure ⟨ExtensionType.cookie, d⟩

/-- `struct SupportedVersions` (`fizz/record/Extensions.h:86-90`). -/
structure SupportedVersions where
  versions : List UInt16
  deriving DecidableEq
/-- `getExtension<SupportedVersions>` (`fizz/record/Extensions-inl.h:163-172`). -/
def readSupportedVersions : Rd SupportedVersions := do
  let (l, _) ← readVector .u8 readU16
  pure ⟨l⟩
/-- `getExtension<SupportedVersions>` on an extension list (`fizz/record/Extensions-inl.h:27-45`). -/
def getSupportedVersions : List Extension → Res (Option SupportedVersions) :=
  getExtension ExtensionType.supported_versions readSupportedVersions
/-- `encodeExtension(SupportedVersions)` (`fizz/record/Extensions-inl.h:378-389`). -/
def encodeSupportedVersions (e : SupportedVersions) : Res Extension := do
  let d ← writeVector .u8 sizeU16 writeU16 e.versions
  pure ⟨ExtensionType.supported_versions, d⟩

/-- `struct ServerSupportedVersions` (`fizz/record/Extensions.h:92-96`). -/
structure ServerSupportedVersions where
  selected_version : UInt16
  deriving DecidableEq
/-- `getExtension<ServerSupportedVersions>` (`fizz/record/Extensions-inl.h:174-182`). -/
def readServerSupportedVersions : Rd ServerSupportedVersions := do
  let (v, _) ← readU16
  pure ⟨v⟩
/-- `getExtension<ServerSupportedVersions>` on an extension list (`fizz/record/Extensions-inl.h:27-45`). -/
def getServerSupportedVersions : List Extension → Res (Option ServerSupportedVersions) :=
  getExtension ExtensionType.supported_versions readServerSupportedVersions
/-- `encodeExtension(ServerSupportedVersions)` (`fizz/record/Extensions-inl.h:391-403`). -/
def encodeServerSupportedVersions (e : ServerSupportedVersions) : Res Extension := do
  let d ← writeU16 e.selected_version
  pure ⟨ExtensionType.supported_versions, d⟩

/-- `struct PskKeyExchangeModes` (`fizz/record/Extensions.h:98-102`). -/
structure PskKeyExchangeModes where
  modes : List UInt8
  deriving DecidableEq
/-- `getExtension<PskKeyExchangeModes>` (`fizz/record/Extensions-inl.h:184-192`). -/
def readPskKeyExchangeModes : Rd PskKeyExchangeModes := do
  let (l, _) ← readVector .u8 readU8
  pure ⟨l⟩
/-- `getExtension<PskKeyExchangeModes>` on an extension list (`fizz/record/Extensions-inl.h:27-45`). -/
def getPskKeyExchangeModes : List Extension → Res (Option PskKeyExchangeModes) :=
  getExtension ExtensionType.psk_key_exchange_modes readPskKeyExchangeModes
/-- `encodeExtension(PskKeyExchangeModes)` (`fizz/record/Extensions-inl.h:405-416`). -/
def encodePskKeyExchangeModes (e : PskKeyExchangeModes) : Res Extension := do
  let d ← writeVector .u8 sizeU8 writeU8 e.modes
  pure ⟨ExtensionType.psk_key_exchange_modes, d⟩

/-- `struct ProtocolNameList` (`fizz/record/Extensions.h:108-112`). -/
structure ProtocolNameList where
  protocol_name_list : List ProtocolName
  deriving DecidableEq
/-- `getExtension<ProtocolNameList>` (`fizz/record/Extensions-inl.h:194-203`). -/
def readProtocolNameList : Rd ProtocolNameList := do
  let (l, _) ← readVector .u16 readProtocolName
  pure ⟨l⟩
/-- `getExtension<ProtocolNameList>` on an extension list (`fizz/record/Extensions-inl.h:27-45`). -/
def getProtocolNameList : List Extension → Res (Option ProtocolNameList) :=
  getExtension ExtensionType.application_layer_protocol_negotiation readProtocolNameList
/-- `encodeExtension(ProtocolNameList)` (`fizz/record/Extensions-inl.h:418-429`). -/
def encodeProtocolNameList (e : ProtocolNameList) : Res Extension := do
  let d ← writeVector .u16 sizeProtocolName writeProtocolName e.protocol_name_list
  pure ⟨ExtensionType.application_layer_protocol_negotiation, d⟩

/-- `struct ServerNameList` (`fizz/record/Extensions.h:124-131`). -/
structure ServerNameList where
  server_name_list : List ServerName
  deriving DecidableEq
/-- `getExtension<ServerNameList>` (`fizz/record/Extensions-inl.h:205-214`). -/
def readServerNameList : Rd ServerNameList := do
  let (l, _) ← readVector .u16 readServerName
  pure ⟨l⟩
/-- `getExtension<ServerNameList>` on an extension list (`fizz/record/Extensions-inl.h:27-45`). -/
def getServerNameList : List Extension → Res (Option ServerNameList) :=
  getExtension ExtensionType.server_name readServerNameList
/-- `encodeExtension(ServerNameList)` (`fizz/record/Extensions-inl.h:431-442`). -/
def encodeServerNameList (e : ServerNameList) : Res Extension := do
  let d ← writeVector .u16 sizeServerName writeServerName e.server_name_list
  pure ⟨ExtensionType.server_name, d⟩

/-- `struct CertificateAuthorities` (`fizz/record/Extensions.h:137-141`). -/
structure CertificateAuthorities where
  authorities : List DistinguishedName
  deriving DecidableEq
/-- `getExtension<CertificateAuthorities>` (`fizz/record/Extensions-inl.h:216-225`). -/
def readCertificateAuthorities : Rd CertificateAuthorities := do
  let (l, _) ← readVector .u16 readDistinguishedName
  pure ⟨l⟩
/-- `getExtension<CertificateAuthorities>` on an extension list (`fizz/record/Extensions-inl.h:27-45`). -/
def getCertificateAuthorities : List Extension → Res (Option CertificateAuthorities) :=
  getExtension ExtensionType.certificate_authorities readCertificateAuthorities
/-- `encodeExtension(CertificateAuthorities)` (`fizz/record/Extensions-inl.h:444-457`). -/
def encodeCertificateAuthorities (e : CertificateAuthorities) : Res Extension := do
  let d ← writeVector .u16 sizeDistinguishedName writeDistinguishedName e.authorities
  pure ⟨ExtensionType.certificate_authorities, d⟩

/-- `struct CertificateCompressionAlgorithms` (`fizz/record/Extensions.h:143-147`). -/
structure CertificateCompressionAlgorithms where
  algorithms : List UInt16
  deriving DecidableEq
/-- `getExtension<CertificateCompressionAlgorithms>` (`fizz/record/Extensions-inl.h:227-238`). -/
def readCertificateCompressionAlgorithms : Rd CertificateCompressionAlgorithms := do
  let (l, _) ← readVector .u8 readU16
  pure ⟨l⟩
/-- `getExtension<CertificateCompressionAlgorithms>` on an extension list (`fizz/record/Extensions-inl.h:27-45`). -/
def getCertificateCompressionAlgorithms : List Extension → Res (Option CertificateCompressionAlgorithms) :=
  getExtension ExtensionType.compress_certificate readCertificateCompressionAlgorithms
/-- `encodeExtension(CertificateCompressionAlgorithms)` (`fizz/record/Extensions-inl.h:459-472`). -/
def encodeCertificateCompressionAlgorithms (e : CertificateCompressionAlgorithms) : Res Extension := do
  let d ← writeVector .u8 sizeU16 writeU16 e.algorithms
  pure ⟨ExtensionType.compress_certificate, d⟩

/-- `struct EchOuterExtensions` (`fizz/record/Extensions.h:149-153`). -/
structure EchOuterExtensions where
  extensionTypes : List UInt16
  deriving DecidableEq
/-- `encodeExtension(EchOuterExtensions)` (`fizz/record/Extensions-inl.h:474-487`). -/
def encodeEchOuterExtensions (e : EchOuterExtensions) : Res Extension := do
  let d ← writeVector .u8 sizeU16 writeU16 e.extensionTypes
  pure ⟨ExtensionType.ech_outer_extensions, d⟩

/-- The cursor part of `getBinderLength` (`fizz/record/Extensions-inl.h:496-507`). `decode_error`
is alert 50 (`fizz/record/Alerts.h:28`). -/
def readBinderLength : Rd Nat := do
  let (identitiesLen, _) ← readU16
  skip identitiesLen.toNat
  let (binderLen, _) ← readU16
  let left ← remaining
  if left ≠ binderLen.toNat then Rd.fail (Failure.fizz "malformed binder length" (some 50))
  else pure (2 + binderLen.toNat)

/-- `getBinderLength` (`fizz/record/Extensions-inl.h:489-508`). -/
def getBinderLength (chlo : ClientHello) : Res Nat :=
  match chlo.extensions.getLast? with
  | none => .error (Failure.fizz "psk not at end of client hello" (some 50))
  | some e =>
    if e.extension_type ≠ ExtensionType.pre_shared_key then
      .error (Failure.fizz "psk not at end of client hello" (some 50))
    else
      match readBinderLength e.extension_data with
      | .ok (n, _) => .ok n
      | .error f => .error f

end Fizz.Codec

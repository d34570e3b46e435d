import Verif.Codec.Prim

/-!
# Handshake messages — model of `fizz/record/Types.h` and the encoders/decoders of
`fizz/record/Types-inl.h`

Enums over `uint8_t`/`uint16_t` are their underlying integer (C++ keeps any value).  The field
`originalEncoding` (`Types.h:88-92`) is not part of the encoded value and is left out here; the
record layer model carries it.  A `Buf` field is its bytes; where a null pointer is observable
(`ServerHello::legacy_session_id_echo`, `NewSessionTicket::ticket_nonce`) the field is an
`Option`; elsewhere null and empty encode alike (`writeBuf`), except that a null
`Extension::extension_data` or `CertificateEntry::cert_data` is dereferenced by `getBufSize`:
such values are excluded here.
-/

namespace Fizz.Codec

/-- `using Random = std::array<uint8_t, 32>` (`fizz/record/Types.h:171`). -/
structure Random where
  val : Bytes
  len : val.length = 32
  deriving DecidableEq

/-- `struct Extension` (`fizz/record/Types.h:151-163`). -/
structure Extension where
  extension_type : UInt16
  extension_data : Bytes
  deriving DecidableEq, Repr

/-- `struct ClientHello` (`fizz/record/Types.h:173-199`). -/
structure ClientHello where
  legacy_version : UInt16 := 0x0303
  random : Random
  legacy_session_id : Bytes
  cipher_suites : List UInt16
  legacy_compression_methods : List UInt8
  extensions : List Extension
  deriving DecidableEq

/-- `struct ServerHello` (`fizz/record/Types.h:201-211`). -/
structure ServerHello where
  legacy_version : UInt16 := 0x0303
  random : Random
  legacy_session_id_echo : Option Bytes
  cipher_suite : UInt16
  legacy_compression_method : UInt8 := 0
  extensions : List Extension
  deriving DecidableEq

/-- `HelloRetryRequest::HrrRandom` (`fizz/record/Types.h:216-219`). -/
def hrrRandom : Random :=
  ⟨[0xCF, 0x21, 0xAD, 0x74, 0xE5, 0x9A, 0x61, 0x11, 0xBE, 0x1D, 0x8C,
    0x02, 0x1E, 0x65, 0xB8, 0x91, 0xC2, 0xA2, 0x11, 0x16, 0x7A, 0xBB,
    0x8C, 0x5E, 0x07, 0x9E, 0x09, 0xE2, 0xC8, 0xA8, 0x33, 0x9C], rfl⟩

/-- `struct HelloRetryRequest` (`fizz/record/Types.h:213-224`). -/
structure HelloRetryRequest where
  legacy_version : UInt16 := 0x0303
  legacy_session_id_echo : Bytes
  cipher_suite : UInt16
  legacy_compression_method : UInt8 := 0
  extensions : List Extension
  deriving DecidableEq

/-- `struct EncryptedExtensions` (`fizz/record/Types.h:230-234`). -/
structure EncryptedExtensions where
  extensions : List Extension
  deriving DecidableEq

/-- `struct CertificateEntry` (`fizz/record/Types.h:236-239`). -/
structure CertificateEntry where
  cert_data : Bytes
  extensions : List Extension
  deriving DecidableEq

/-- `struct CertificateMsg` (`fizz/record/Types.h:241-245`). -/
structure CertificateMsg where
  certificate_request_context : Bytes
  certificate_list : List CertificateEntry
  deriving DecidableEq

/-- `struct CompressedCertificate` (`fizz/record/Types.h:247-253`). -/
structure CompressedCertificate where
  algorithm : UInt16
  uncompressed_length : UInt32
  compressed_certificate_message : Bytes
  deriving DecidableEq

/-- `struct CertificateRequest` (`fizz/record/Types.h:255-260`). -/
structure CertificateRequest where
  certificate_request_context : Bytes
  extensions : List Extension
  deriving DecidableEq

/-- `struct CertificateVerify` (`fizz/record/Types.h:295-300`). -/
structure CertificateVerify where
  algorithm : UInt16
  signature : Bytes
  deriving DecidableEq

/-- `struct Finished` (`fizz/record/Types.h:302-304`). -/
structure Finished where
  verify_data : Bytes
  deriving DecidableEq

/-- `struct NewSessionTicket` (`fizz/record/Types.h:306-315`). -/
structure NewSessionTicket where
  ticket_lifetime : UInt32
  ticket_age_add : UInt32
  ticket_nonce : Option Bytes
  ticket : Bytes
  extensions : List Extension
  deriving DecidableEq

/-- `struct KeyUpdate` (`fizz/record/Types.h:322-325`). -/
structure KeyUpdate where
  request_update : UInt8
  deriving DecidableEq

/-- `struct Alert` (`fizz/record/Types.h:375-381`). -/
structure Alert where
  level : UInt8 := 2
  description : UInt8
  deriving DecidableEq

/-! ## Element readers, writers and sizers -/

/-- `Reader<Random>` (`fizz/record/Types-inl.h:388-397`). -/
def readRandom : Rd (Random × Nat) := fun inp =>
  if h : 32 ≤ inp.length then .ok ((⟨inp.take 32, by simp [h]⟩, 32), inp.drop 32)
  else .error .outOfRange

/-- `Writer<Random>` (`fizz/record/Types-inl.h:211-219`). -/
def writeRandom (r : Random) : Res Bytes := .ok r.val

/-- `Sizer<Extension>` (`fizz/record/Types-inl.h:54-60`). -/
def sizeExtension (e : Extension) : Nat := 2 + getBufSize .u16 e.extension_data

/-- `write<Extension>` (`fizz/record/Types-inl.h:233-242`). -/
def writeExtension (e : Extension) : Res Bytes := do
  let t ← writeU16 e.extension_type
  let d ← writeBuf .u16 e.extension_data
  pure (t ++ d)

/-- `Reader<Extension>` (`fizz/record/Types-inl.h:399-413`). -/
def readExtension : Rd (Extension × Nat) := do
  let (t, _) ← readU16
  let (d, len) ← readBuf .u16
  pure (⟨t, d⟩, 2 + len)

/-- `Sizer<CertificateEntry>` (`fizz/record/Types-inl.h:62-74`). -/
def sizeCertificateEntry (e : CertificateEntry) : Nat :=
  getBufSize .u24 e.cert_data + 2 + (e.extensions.map sizeExtension).sum

/-- `write<CertificateEntry>` (`fizz/record/Types-inl.h:244-252`). -/
def writeCertificateEntry (e : CertificateEntry) : Res Bytes := do
  let c ← writeBuf .u24 e.cert_data
  let x ← writeVector .u16 sizeExtension writeExtension e.extensions
  pure (c ++ x)

/-- `Reader<CertificateEntry>` (`fizz/record/Types-inl.h:415-430`). -/
def readCertificateEntry : Rd (CertificateEntry × Nat) := do
  let (c, len) ← readBuf .u24
  let (x, lenVec) ← readVector .u16 readExtension
  pure (⟨c, x⟩, len + lenVec)

/-! ## Message encoders -/

/-- `encode<ServerHello>` (`fizz/record/Types-inl.h:433-453`). -/
def encodeServerHello (m : ServerHello) : Res Bytes := do
  let v ← writeU16 m.legacy_version
  let r ← writeRandom m.random
  let s ← match m.legacy_session_id_echo with
    | some s => writeBuf .u8 s
    | none => pure []
  let c ← writeU16 m.cipher_suite
  let z ← match m.legacy_session_id_echo with
    | some _ => writeU8 m.legacy_compression_method
    | none => pure []
  let x ← writeVector .u16 sizeExtension writeExtension m.extensions
  pure (v ++ r ++ s ++ c ++ z ++ x)

/-- `encode<HelloRetryRequest>` (`fizz/record/Types-inl.h:455-473`). -/
def encodeHelloRetryRequest (m : HelloRetryRequest) : Res Bytes := do
  let v ← writeU16 m.legacy_version
  let r ← writeRandom hrrRandom
  let s ← writeBuf .u8 m.legacy_session_id_echo
  let c ← writeU16 m.cipher_suite
  let z ← writeU8 m.legacy_compression_method
  let x ← writeVector .u16 sizeExtension writeExtension m.extensions
  pure (v ++ r ++ s ++ c ++ z ++ x)

/-- `encode<EndOfEarlyData>` (`fizz/record/Types-inl.h:475-480`). -/
def encodeEndOfEarlyData (_ : Unit) : Res Bytes := .ok []

/-- `encode<EncryptedExtensions>` (`fizz/record/Types-inl.h:482-493`). -/
def encodeEncryptedExtensions (m : EncryptedExtensions) : Res Bytes :=
  writeVector .u16 sizeExtension writeExtension m.extensions

/-- `encode<CertificateRequest>` (`fizz/record/Types-inl.h:495-506`). -/
def encodeCertificateRequest (m : CertificateRequest) : Res Bytes := do
  let c ← writeBuf .u8 m.certificate_request_context
  let x ← writeVector .u16 sizeExtension writeExtension m.extensions
  pure (c ++ x)

/-- `encode<CertificateMsg>` (`fizz/record/Types-inl.h:508-535`). -/
def encodeCertificateMsg (m : CertificateMsg) : Res Bytes := do
  let c ← writeBuf .u8 m.certificate_request_context
  let l ← writeVector .u24 sizeCertificateEntry writeCertificateEntry m.certificate_list
  pure (c ++ l)

/-- `encode<CompressedCertificate>` (`fizz/record/Types-inl.h:537-560`). -/
def encodeCompressedCertificate (m : CompressedCertificate) : Res Bytes := do
  let a ← writeU16 m.algorithm
  let u ← writeLen .u24 m.uncompressed_length.toNat
  let c ← writeBuf .u24 m.compressed_certificate_message
  pure (a ++ u ++ c)

/-- `encode<CertificateVerify>` (`fizz/record/Types-inl.h:562-574`). -/
def encodeCertificateVerify (m : CertificateVerify) : Res Bytes := do
  let a ← writeU16 m.algorithm
  let s ← writeBuf .u16 m.signature
  pure (a ++ s)

/-- `encode<Alert>` (`fizz/record/Types-inl.h:576-584`). -/
def encodeAlert (m : Alert) : Res Bytes := do
  let l ← writeU8 m.level
  let d ← writeU8 m.description
  pure (l ++ d)

/-- `encode<ClientHello>` (`fizz/record/Types-inl.h:586-616`). -/
def encodeClientHello (m : ClientHello) : Res Bytes := do
  let v ← writeU16 m.legacy_version
  let r ← writeRandom m.random
  let s ← writeBuf .u8 m.legacy_session_id
  let c ← writeVector .u16 sizeU16 writeU16 m.cipher_suites
  let z ← writeVector .u8 sizeU8 writeU8 m.legacy_compression_methods
  let x ← writeVector .u16 sizeExtension writeExtension m.extensions
  pure (v ++ r ++ s ++ c ++ z ++ x)

/-- `encode<Finished>` (`fizz/record/Types-inl.h:618-622`). -/
def encodeFinished (m : Finished) : Res Bytes := .ok m.verify_data

/-- `encode<NewSessionTicket>` (`fizz/record/Types-inl.h:624-640`). -/
def encodeNewSessionTicket (m : NewSessionTicket) : Res Bytes := do
  let l ← writeU32 m.ticket_lifetime
  let a ← writeU32 m.ticket_age_add
  let n ← match m.ticket_nonce with
    | some n => writeBuf .u8 n
    | none => pure []
  let t ← writeBuf .u16 m.ticket
  let x ← writeVector .u16 sizeExtension writeExtension m.extensions
  pure (l ++ a ++ n ++ t ++ x)

/-- `encode<KeyUpdate>` (`fizz/record/Types-inl.h:666-673`). -/
def encodeKeyUpdate (m : KeyUpdate) : Res Bytes := writeU8 m.request_update

/-- `encode<message_hash>` (`fizz/record/Types-inl.h:675-680`). -/
def encodeMessageHash (hash : Bytes) : Res Bytes := .ok hash

/-- `encodeHkdfLabel` (`fizz/record/Types-inl.h:642-664`); `struct HkdfLabel`
(`fizz/record/Types.h:165-169`).  Strings are their bytes. -/
def encodeHkdfLabel (length : UInt16) (label : Bytes) (hashValue : Bytes) (labelPrefix : Bytes) :
    Res Bytes := do
  let l ← writeU16 length
  let n ← writeBuf .u8 (labelPrefix ++ label)
  let h ← writeBuf .u8 hashValue
  pure (l ++ n ++ h)

/-! ## Message decoders (through a cursor) -/

/-- `decode<ClientHello>` (`fizz/record/Types-inl.h:697-718`).  If the cursor is at its end after
the compression methods the extensions block is taken to be empty. -/
def readClientHello : Rd ClientHello := do
  let (v, _) ← readU16
  let (r, _) ← readRandom
  let (s, _) ← readBuf .u8
  let (c, _) ← readVector .u16 readU16
  let (z, _) ← readVector .u8 readU8
  let left ← remaining
  if left ≠ 0 then do
    let (x, _) ← readVector .u16 readExtension
    pure ⟨v, r, s, c, z, x⟩
  else pure ⟨v, r, s, c, z, []⟩

/-- `decode<ServerHello>` (`fizz/record/Types-inl.h:720-734`). -/
def readServerHello : Rd ServerHello := do
  let (v, _) ← readU16
  let (r, _) ← readRandom
  let (s, _) ← readBuf .u8
  let (c, _) ← readU16
  let (z, _) ← readU8
  let (x, _) ← readVector .u16 readExtension
  pure ⟨v, r, some s, c, z, x⟩

/-- `decode<EndOfEarlyData>` (`fizz/record/Types-inl.h:736-741`): reads nothing. -/
def readEndOfEarlyData : Rd Unit := pure ()

/-- `decode<EncryptedExtensions>` (`fizz/record/Types-inl.h:743-752`). -/
def readEncryptedExtensions : Rd EncryptedExtensions := do
  let (x, _) ← readVector .u16 readExtension
  pure ⟨x⟩

/-- `decode<CertificateRequest>` (`fizz/record/Types-inl.h:754-764`). -/
def readCertificateRequest : Rd CertificateRequest := do
  let (c, _) ← readBuf .u8
  let (x, _) ← readVector .u16 readExtension
  pure ⟨c, x⟩

/-- `decode<CertificateMsg>` (`fizz/record/Types-inl.h:766-777`). -/
def readCertificateMsg : Rd CertificateMsg := do
  let (c, _) ← readBuf .u8
  let (l, _) ← readVector .u24 readCertificateEntry
  pure ⟨c, l⟩

/-- `decode<CompressedCertificate>` (`fizz/record/Types-inl.h:779-789`). -/
def readCompressedCertificate : Rd CompressedCertificate := do
  let (a, _) ← readU16
  let u ← readBE 3
  let (c, _) ← readBuf .u24
  pure ⟨a, UInt32.ofNat u, c⟩

/-- `decode<CertificateVerify>` (`fizz/record/Types-inl.h:791-800`). -/
def readCertificateVerify : Rd CertificateVerify := do
  let (a, _) ← readU16
  let (s, _) ← readBuf .u16
  pure ⟨a, s⟩

/-- `decode<NewSessionTicket>` (`fizz/record/Types-inl.h:802-817`). -/
def readNewSessionTicket : Rd NewSessionTicket := do
  let (l, _) ← readU32
  let (a, _) ← readU32
  let (n, _) ← readBuf .u8
  let (t, _) ← readBuf .u16
  let (x, _) ← readVector .u16 readExtension
  pure ⟨l, a, some n, t, x⟩

/-- `decode<Alert>` (`fizz/record/Types-inl.h:819-827`). -/
def readAlert : Rd Alert := do
  let (l, _) ← readU8
  let (d, _) ← readU8
  pure ⟨l, d⟩

/-- `decode<KeyUpdate>` (`fizz/record/Types-inl.h:840-848`). -/
def readKeyUpdate : Rd KeyUpdate := do
  let (u, _) ← readU8
  pure ⟨u⟩

/-! ## Whole-buffer decoders -/

/-- `decode<ClientHello>(buf)`, generic overload `fizz/record/Types-inl.h:850-862`. -/
def decodeClientHello : Bytes → Res ClientHello := decodeAll readClientHello
/-- `decode<ServerHello>(buf)`, `fizz/record/Types-inl.h:850-862`. -/
def decodeServerHello : Bytes → Res ServerHello := decodeAll readServerHello
/-- `decode<EndOfEarlyData>(buf)`, `fizz/record/Types-inl.h:850-862`. -/
def decodeEndOfEarlyData : Bytes → Res Unit := decodeAll readEndOfEarlyData
/-- `decode<EncryptedExtensions>(buf)`, `fizz/record/Types-inl.h:850-862`. -/
def decodeEncryptedExtensions : Bytes → Res EncryptedExtensions :=
  decodeAll readEncryptedExtensions
/-- `decode<CertificateRequest>(buf)`, `fizz/record/Types-inl.h:850-862`. -/
def decodeCertificateRequest : Bytes → Res CertificateRequest := decodeAll readCertificateRequest
/-- `decode<CertificateMsg>(buf)`, `fizz/record/Types-inl.h:850-862`. -/
def decodeCertificateMsg : Bytes → Res CertificateMsg := decodeAll readCertificateMsg
/-- `decode<CompressedCertificate>(buf)`, `fizz/record/Types-inl.h:850-862`. -/
def decodeCompressedCertificate : Bytes → Res CompressedCertificate :=
  decodeAll readCompressedCertificate
/-- `decode<CertificateVerify>(buf)`, `fizz/record/Types-inl.h:850-862`. -/
def decodeCertificateVerify : Bytes → Res CertificateVerify := decodeAll readCertificateVerify
/-- `decode<NewSessionTicket>(buf)`, `fizz/record/Types-inl.h:850-862`. -/
def decodeNewSessionTicket : Bytes → Res NewSessionTicket := decodeAll readNewSessionTicket
/-- `decode<Alert>(buf)`, `fizz/record/Types-inl.h:850-862`. -/
def decodeAlert : Bytes → Res Alert := decodeAll readAlert
/-- `decode<KeyUpdate>(buf)`, `fizz/record/Types-inl.h:850-862`. -/
def decodeKeyUpdate : Bytes → Res KeyUpdate := decodeAll readKeyUpdate
/-- `decode<Finished>(buf)` (`fizz/record/Types-inl.h:829-838`): takes the whole buffer. -/
def decodeFinished (buf : Bytes) : Res Finished := .ok ⟨buf⟩

/-! ## Handshake framing -/

/-- `enum class HandshakeType` values used (`fizz/record/Types.h:60-74`). -/
def HandshakeType.client_hello : UInt8 := 1
/-- `fizz/record/Types.h:62`. -/
def HandshakeType.server_hello : UInt8 := 2
/-- `fizz/record/Types.h:63`. -/
def HandshakeType.new_session_ticket : UInt8 := 4
/-- `fizz/record/Types.h:64`. -/
def HandshakeType.end_of_early_data : UInt8 := 5
/-- `fizz/record/Types.h:66`. -/
def HandshakeType.encrypted_extensions : UInt8 := 8
/-- `fizz/record/Types.h:67`. -/
def HandshakeType.certificate : UInt8 := 11
/-- `fizz/record/Types.h:68`. -/
def HandshakeType.certificate_request : UInt8 := 13
/-- `fizz/record/Types.h:69`. -/
def HandshakeType.certificate_verify : UInt8 := 15
/-- `fizz/record/Types.h:70`. -/
def HandshakeType.finished : UInt8 := 20
/-- `fizz/record/Types.h:71`. -/
def HandshakeType.key_update : UInt8 := 24
/-- `fizz/record/Types.h:72`. -/
def HandshakeType.compressed_certificate : UInt8 := 25
/-- `fizz/record/Types.h:73`. -/
def HandshakeType.message_hash : UInt8 := 254

/-- The handshake messages the record layer can produce (`Param` alternatives built by
`fizz/record/RecordLayer.cpp:161-213`). -/
inductive HsMsg where
  | clientHello (m : ClientHello)
  | serverHello (m : ServerHello)
  | helloRetryRequest (m : HelloRetryRequest)
  | endOfEarlyData
  | newSessionTicket (m : NewSessionTicket)
  | encryptedExtensions (m : EncryptedExtensions)
  | certificate (m : CertificateMsg)
  | compressedCertificate (m : CompressedCertificate)
  | certificateRequest (m : CertificateRequest)
  | certificateVerify (m : CertificateVerify)
  | finished (m : Finished)
  | keyUpdate (m : KeyUpdate)
  deriving DecidableEq

/-- `T::handshake_type` of each message struct (`fizz/record/Types.h:173-325`). -/
def HsMsg.type : HsMsg → UInt8
  | .clientHello _ => HandshakeType.client_hello
  | .serverHello _ => HandshakeType.server_hello
  | .helloRetryRequest _ => HandshakeType.server_hello
  | .endOfEarlyData => HandshakeType.end_of_early_data
  | .newSessionTicket _ => HandshakeType.new_session_ticket
  | .encryptedExtensions _ => HandshakeType.encrypted_extensions
  | .certificate _ => HandshakeType.certificate
  | .compressedCertificate _ => HandshakeType.compressed_certificate
  | .certificateRequest _ => HandshakeType.certificate_request
  | .certificateVerify _ => HandshakeType.certificate_verify
  | .finished _ => HandshakeType.finished
  | .keyUpdate _ => HandshakeType.key_update

/-- `encode(T&&)` dispatched on the message struct (`fizz/record/Types-inl.h:433-680`). -/
def HsMsg.encodeBody : HsMsg → Res Bytes
  | .clientHello m => encodeClientHello m
  | .serverHello m => encodeServerHello m
  | .helloRetryRequest m => encodeHelloRetryRequest m
  | .endOfEarlyData => encodeEndOfEarlyData ()
  | .newSessionTicket m => encodeNewSessionTicket m
  | .encryptedExtensions m => encodeEncryptedExtensions m
  | .certificate m => encodeCertificateMsg m
  | .compressedCertificate m => encodeCompressedCertificate m
  | .certificateRequest m => encodeCertificateRequest m
  | .certificateVerify m => encodeCertificateVerify m
  | .finished m => encodeFinished m
  | .keyUpdate m => encodeKeyUpdate m

/-- `encodeHandshake` (`fizz/record/Types-inl.h:682-695`): type byte, 24-bit length, body. -/
def frameHandshake (t : UInt8) (body : Bytes) : Res Bytes := do
  let ty ← writeU8 t
  let l ← writeLen .u24 body.length
  pure (ty ++ l ++ body)

/-- `encodeHandshake` (`fizz/record/Types-inl.h:682-695`). -/
def encodeHandshake (m : HsMsg) : Res Bytes := do
  let body ← m.encodeBody
  frameHandshake m.type body

/-- `parse<ServerHello>` (`fizz/record/RecordLayer.cpp:126-151`): a ServerHello carrying the
HelloRetryRequest random is turned into a HelloRetryRequest. -/
def parseServerHello (buf : Bytes) : Res HsMsg := do
  let s ← decodeServerHello buf
  if s.random = hrrRandom then
    pure (.helloRetryRequest
      ⟨s.legacy_version, s.legacy_session_id_echo.getD [], s.cipher_suite,
       s.legacy_compression_method, s.extensions⟩)
  else pure (.serverHello s)

/-- The type switch of `decodeHandshakeMessage` (`fizz/record/RecordLayer.cpp:179-215`) with
`parse<T>` (`fizz/record/RecordLayer.cpp:115-123`). -/
def parseHandshake (t : UInt8) (body : Bytes) : Res HsMsg :=
  if t = HandshakeType.client_hello then do
    let m ← decodeClientHello body; pure (.clientHello m)
  else if t = HandshakeType.server_hello then parseServerHello body
  else if t = HandshakeType.end_of_early_data then do
    let _ ← decodeEndOfEarlyData body; pure .endOfEarlyData
  else if t = HandshakeType.new_session_ticket then do
    let m ← decodeNewSessionTicket body; pure (.newSessionTicket m)
  else if t = HandshakeType.encrypted_extensions then do
    let m ← decodeEncryptedExtensions body; pure (.encryptedExtensions m)
  else if t = HandshakeType.certificate then do
    let m ← decodeCertificateMsg body; pure (.certificate m)
  else if t = HandshakeType.compressed_certificate then do
    let m ← decodeCompressedCertificate body; pure (.compressedCertificate m)
  else if t = HandshakeType.certificate_request then do
    let m ← decodeCertificateRequest body; pure (.certificateRequest m)
  else if t = HandshakeType.certificate_verify then do
    let m ← decodeCertificateVerify body; pure (.certificateVerify m)
  else if t = HandshakeType.finished then do
    let m ← decodeFinished body; pure (.finished m)
  else if t = HandshakeType.key_update then do
    let m ← decodeKeyUpdate body; pure (.keyUpdate m)
  else .error (Failure.rt "unknown handshake type")

end Fizz.Codec

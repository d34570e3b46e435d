import Verif.Codec.WireSpec
import Verif.Codec.Extensions

/-!
# Specification of the wire format

Written from RFC 8446 section 4 (and RFC 8879, RFC 8446 section 7.1 for the HKDF label): for each
message struct `wire` is its encoding and `Fits` says that every variable-length field fits its
length prefix.  Nothing here mentions the encoders or decoders of the model.
-/

namespace Fizz.Codec.Spec

/-- Unsigned integers in network byte order. -/
def u8 (v : UInt8) : Bytes := beEnc 1 v.toNat
def u16 (v : UInt16) : Bytes := beEnc 2 v.toNat
def u32 (v : UInt32) : Bytes := beEnc 4 v.toNat

/-- `struct { ExtensionType extension_type; opaque extension_data<0..2^16-1>; } Extension;` -/
def extension (e : Extension) : Bytes := u16 e.extension_type ++ vec .u16 e.extension_data

/-- `Extension extensions<..2^16-1>` -/
def extensions (l : List Extension) : Bytes := vec .u16 (l.flatMap extension)

/-- Every extension body fits 16 bits, and so does the whole block. -/
def ExtensionsFit (l : List Extension) : Prop :=
  (∀ e ∈ l, e.extension_data.length < 65536) ∧
    (l.map fun e => 4 + e.extension_data.length).sum < 65536

instance (l) : Decidable (ExtensionsFit l) := inferInstanceAs (Decidable (_ ∧ _))

def clientHello (m : ClientHello) : Bytes :=
  u16 m.legacy_version ++ m.random.val ++ vec .u8 m.legacy_session_id ++
    vec .u16 (m.cipher_suites.flatMap u16) ++ vec .u8 (m.legacy_compression_methods.flatMap u8) ++
    extensions m.extensions

def ClientHelloFits (m : ClientHello) : Prop :=
  m.legacy_session_id.length < 256 ∧ 2 * m.cipher_suites.length < 65536 ∧
    m.legacy_compression_methods.length < 256 ∧ ExtensionsFit m.extensions

/-- A ClientHello without an extensions block (allowed before TLS 1.3). -/
def clientHelloNoExtensions (m : ClientHello) : Bytes :=
  u16 m.legacy_version ++ m.random.val ++ vec .u8 m.legacy_session_id ++
    vec .u16 (m.cipher_suites.flatMap u16) ++ vec .u8 (m.legacy_compression_methods.flatMap u8)

/-- With a session id echo (TLS 1.3); without (old drafts) both the echo and the compression
method are absent. -/
def serverHello (m : ServerHello) : Bytes :=
  match m.legacy_session_id_echo with
  | some s => u16 m.legacy_version ++ m.random.val ++ vec .u8 s ++ u16 m.cipher_suite ++
      u8 m.legacy_compression_method ++ extensions m.extensions
  | none => u16 m.legacy_version ++ m.random.val ++ u16 m.cipher_suite ++ extensions m.extensions

def ServerHelloFits (m : ServerHello) : Prop :=
  (∀ s, m.legacy_session_id_echo = some s → s.length < 256) ∧ ExtensionsFit m.extensions

def helloRetryRequest (m : HelloRetryRequest) : Bytes :=
  u16 m.legacy_version ++ hrrRandom.val ++ vec .u8 m.legacy_session_id_echo ++
    u16 m.cipher_suite ++ u8 m.legacy_compression_method ++ extensions m.extensions

def HelloRetryRequestFits (m : HelloRetryRequest) : Prop :=
  m.legacy_session_id_echo.length < 256 ∧ ExtensionsFit m.extensions

def encryptedExtensions (m : EncryptedExtensions) : Bytes := extensions m.extensions
def EncryptedExtensionsFits (m : EncryptedExtensions) : Prop := ExtensionsFit m.extensions

def certificateRequest (m : CertificateRequest) : Bytes :=
  vec .u8 m.certificate_request_context ++ extensions m.extensions
def CertificateRequestFits (m : CertificateRequest) : Prop :=
  m.certificate_request_context.length < 256 ∧ ExtensionsFit m.extensions

def certificateEntry (e : CertificateEntry) : Bytes :=
  vec .u24 e.cert_data ++ extensions e.extensions
def certificateMsg (m : CertificateMsg) : Bytes :=
  vec .u8 m.certificate_request_context ++ vec .u24 (m.certificate_list.flatMap certificateEntry)
def CertificateMsgFits (m : CertificateMsg) : Prop :=
  m.certificate_request_context.length < 256 ∧
    (∀ e ∈ m.certificate_list, e.cert_data.length < 16777216 ∧ ExtensionsFit e.extensions) ∧
    (m.certificate_list.map fun e => 3 + e.cert_data.length + 2 +
      (e.extensions.map fun x => 4 + x.extension_data.length).sum).sum < 16777216

def compressedCertificate (m : CompressedCertificate) : Bytes :=
  u16 m.algorithm ++ beEnc 3 m.uncompressed_length.toNat ++
    vec .u24 m.compressed_certificate_message
def CompressedCertificateFits (m : CompressedCertificate) : Prop :=
  m.uncompressed_length.toNat < 16777216 ∧ m.compressed_certificate_message.length < 16777216

def certificateVerify (m : CertificateVerify) : Bytes :=
  u16 m.algorithm ++ vec .u16 m.signature
def CertificateVerifyFits (m : CertificateVerify) : Prop := m.signature.length < 65536

/-- With a nonce (draft 21 and later); without, the field is absent. -/
def newSessionTicket (m : NewSessionTicket) : Bytes :=
  match m.ticket_nonce with
  | some n => u32 m.ticket_lifetime ++ u32 m.ticket_age_add ++ vec .u8 n ++ vec .u16 m.ticket ++
      extensions m.extensions
  | none => u32 m.ticket_lifetime ++ u32 m.ticket_age_add ++ vec .u16 m.ticket ++
      extensions m.extensions
def NewSessionTicketFits (m : NewSessionTicket) : Prop :=
  (∀ n, m.ticket_nonce = some n → n.length < 256) ∧ m.ticket.length < 65536 ∧
    ExtensionsFit m.extensions

def alert (m : Alert) : Bytes := [m.level, m.description]
def keyUpdate (m : KeyUpdate) : Bytes := [m.request_update]
def finished (m : Finished) : Bytes := m.verify_data

/-- The body of each handshake message. -/
def body : HsMsg → Bytes
  | .clientHello m => clientHello m
  | .serverHello m => serverHello m
  | .helloRetryRequest m => helloRetryRequest m
  | .endOfEarlyData => []
  | .newSessionTicket m => newSessionTicket m
  | .encryptedExtensions m => encryptedExtensions m
  | .certificate m => certificateMsg m
  | .compressedCertificate m => compressedCertificate m
  | .certificateRequest m => certificateRequest m
  | .certificateVerify m => certificateVerify m
  | .finished m => finished m
  | .keyUpdate m => keyUpdate m

/-- The handshake type byte of each message (RFC 8446 appendix B.3, RFC 8879). -/
def typeByte : HsMsg → UInt8
  | .clientHello _ => 1
  | .serverHello _ => 2
  | .helloRetryRequest _ => 2
  | .endOfEarlyData => 5
  | .newSessionTicket _ => 4
  | .encryptedExtensions _ => 8
  | .certificate _ => 11
  | .compressedCertificate _ => 25
  | .certificateRequest _ => 13
  | .certificateVerify _ => 15
  | .finished _ => 20
  | .keyUpdate _ => 24

def Fits : HsMsg → Prop
  | .clientHello m => ClientHelloFits m
  | .serverHello m => ServerHelloFits m
  | .helloRetryRequest m => HelloRetryRequestFits m
  | .endOfEarlyData => True
  | .newSessionTicket m => NewSessionTicketFits m
  | .encryptedExtensions m => EncryptedExtensionsFits m
  | .certificate m => CertificateMsgFits m
  | .compressedCertificate m => CompressedCertificateFits m
  | .certificateRequest m => CertificateRequestFits m
  | .certificateVerify m => CertificateVerifyFits m
  | .finished _ => True
  | .keyUpdate _ => True

/-- `struct { HandshakeType msg_type; uint24 length; body } Handshake;` -/
def handshake (m : HsMsg) : Bytes := typeByte m :: vec .u24 (body m)

/-- A message a peer following the current drafts can produce: no field is absent, and a
ServerHello does not carry the HelloRetryRequest random. -/
def Modern : HsMsg → Prop
  | .serverHello m => m.legacy_session_id_echo.isSome ∧ m.random ≠ hrrRandom
  | .newSessionTicket m => m.ticket_nonce.isSome
  | _ => True

/-- The message can be encoded: every field fits its length prefix. -/
def Encodable (m : HsMsg) : Prop := Fits m ∧ (body m).length < 2 ^ 24

/-- `struct { uint16 length; opaque label<..255> = prefix + Label; opaque context<0..255>; }
HkdfLabel;` -/
def hkdfLabel (length : UInt16) (label ctx pre : Bytes) : Bytes :=
  u16 length ++ vec .u8 (pre ++ label) ++ vec .u8 ctx

end Fizz.Codec.Spec

import Verif.Ech.Crypt
import Verif.Record.ReadModel
import Verif.Record.WriteModel

/-!
# Names, numbers and algorithms

Model of `toString` and `getRealDraftVersion` (`fizz/record/Types.cpp`), of `enumToHex`
(`fizz/record/Types-inl.h:864-871`), of `parse` (`fizz/util/Parse-inl.h`), of the tables that give a cipher
suite its hash function and AEAD (`fizz/protocol/Types.cpp:13-45`, `fizz/protocol/MultiBackendFactory.cpp:75-127`,
`fizz/crypto/Crypto.h:18-66`) and of the rest of the HPKE tables (`fizz/crypto/hpke/Utils.cpp:125-142`,
`176-196`).

A C++ enumeration here is an integer of its underlying type: a value outside the list is an ordinary value, and
comes from the peer.  `std::map::find` is a search of the list of pairs; the keys are distinct.
-/

namespace Fizz.Names
open Fizz Fizz.Ech

/-! ## Printing -/

/-- One hexadecimal digit as `folly::hexlify` writes it (lower case). -/
def hexDigit (n : Nat) : Char :=
  ['0', '1', '2', '3', '4', '5', '6', '7', '8', '9', 'a', 'b', 'c', 'd', 'e', 'f'].getD n '0'

/-- `folly::hexlify` of one byte: the high half first. -/
def hexByte (b : Nat) : List Char := [hexDigit (b / 16), hexDigit (b % 16)]

/-- `enumToHex` (`fizz/record/Types-inl.h:864-871`) of a two-byte enumeration: the big-endian bytes. -/
def hex16 (v : UInt16) : String := String.ofList (hexByte (v.toNat / 256) ++ hexByte (v.toNat % 256))

/-- `enumToHex` (`fizz/record/Types-inl.h:864-871`) of a one-byte enumeration. -/
def hex8 (v : UInt8) : String := String.ofList (hexByte v.toNat)

/-- A `switch` over named values. -/
def nameIn {α} [DecidableEq α] (t : List (α × String)) (v : α) : Option String :=
  (t.find? (fun e => e.1 = v)).map (·.2)

/-- The cases of `toString(ProtocolVersion)` (`fizz/record/Types.cpp:41-63`). -/
def versionNames : List (UInt16 × String) :=
  [ (0x301, "TLSv1.0"),
    (0x302, "TLSv1.1"),
    (0x303, "TLSv1.2"),
    (0x304, "TLSv1.3"),
    (0x7f17, "TLSv1.3-draft-23"),
    (0xfb17, "TLSv1.3-draft-23-fb"),
    (0x7f1a, "TLSv1.3-draft-26"),
    (0xfb1a, "TLSv1.3-draft-26-fb"),
    (0x7f1c, "TLSv1.3-draft-28") ]

/-- `toString(ProtocolVersion)` (`fizz/record/Types.cpp:41-63`). -/
def versionName (v : UInt16) : String := (nameIn versionNames v).getD (hex16 v)

/-- The cases of `toString(ExtensionType)` (`fizz/record/Types.cpp:65-117`). -/
def extensionNames : List (UInt16 × String) :=
  [ (0x0, "server_name"),
    (0xa, "supported_groups"),
    (0xd, "signature_algorithms"),
    (0x10, "application_layer_protocol_negotiation"),
    (0x15, "padding"),
    (0x18, "token_binding"),
    (0xffa5, "quic_transport_parameters_draft"),
    (0x39, "quic_transport_parameters"),
    (0x29, "pre_shared_key"),
    (0x2a, "early_data"),
    (0x2b, "supported_version"),
    (0x2c, "cookie"),
    (0x2d, "psk_key_exchange_modes"),
    (0x2f, "certificate_authorities"),
    (0x31, "post_handshake_auth"),
    (0x32, "signature_algorithms_cert"),
    (0x33, "key_share"),
    (0x1b, "compress_certificate"),
    (0xff41, "thrift_parameters"),
    (0xff04, "test_extension"),
    (0x22, "delegated_credential"),
    (0xfe0d, "encrypted_client_hello"),
    (0xff03, "ech_nonce"),
    (0xfd00, "ech_outer_extensions") ]

/-- `toString(ExtensionType)` (`fizz/record/Types.cpp:65-117`). -/
def extensionName (v : UInt16) : String := (nameIn extensionNames v).getD (hex16 v)

/-- The cases of `toString(AlertDescription)` (`fizz/record/Types.cpp:119-185`). -/
def alertNames : List (UInt8 × String) :=
  [ (0x0, "close_notify"),
    (0x1, "end_of_early_data"),
    (0xa, "unexpected_message"),
    (0x14, "bad_record_mac"),
    (0x16, "record_overflow"),
    (0x28, "handshake_failure"),
    (0x2a, "bad_certificate"),
    (0x2b, "unsupported_certificate"),
    (0x2c, "certificate_revoked"),
    (0x2d, "certificate_expired"),
    (0x2e, "certificate_unknown"),
    (0x2f, "illegal_parameter"),
    (0x30, "unknown_ca"),
    (0x31, "access_denied"),
    (0x32, "decode_error"),
    (0x33, "decrypt_error"),
    (0x46, "protocol_version"),
    (0x47, "insufficient_security"),
    (0x50, "internal_error"),
    (0x56, "inappropriate_fallback"),
    (0x5a, "user_canceled"),
    (0x6d, "missing_extension"),
    (0x6e, "unsupported_extension"),
    (0x6f, "certificate_unobtainable"),
    (0x70, "unrecognized_name"),
    (0x71, "bad_certificate_status_response"),
    (0x72, "bad_certificate_hash_value"),
    (0x73, "unknown_psk_identity"),
    (0x74, "certificate_required"),
    (0x78, "no_application_protocol"),
    (0x79, "ech_required") ]

/-- `toString(AlertDescription)` (`fizz/record/Types.cpp:119-185`). -/
def alertName (v : UInt8) : String := (nameIn alertNames v).getD (hex8 v)

/-- The cases of `toString(CipherSuite)` (`fizz/record/Types.cpp:187-205`). -/
def suiteNames : List (UInt16 × String) :=
  [ (0x1301, "TLS_AES_128_GCM_SHA256"),
    (0x1302, "TLS_AES_256_GCM_SHA384"),
    (0x1303, "TLS_CHACHA20_POLY1305_SHA256"),
    (0x1306, "TLS_AEGIS_256_SHA512"),
    (0x1307, "TLS_AEGIS_128L_SHA256"),
    (0xff01, "TLS_AEGIS_128X2_SHA256"),
    (0xff03, "TLS_AEGIS_128X4_SHA256") ]

/-- `toString(CipherSuite)` (`fizz/record/Types.cpp:187-205`). -/
def suiteName (v : UInt16) : String := (nameIn suiteNames v).getD (hex16 v)

/-- The cases of `toString(PskKeyExchangeMode)` (`fizz/record/Types.cpp:207-215`). -/
def pskModeNames : List (UInt8 × String) :=
  [ (0x0, "psk_ke"),
    (0x1, "psk_dhe_ke") ]

/-- `toString(PskKeyExchangeMode)` (`fizz/record/Types.cpp:207-215`). -/
def pskModeName (v : UInt8) : String := (nameIn pskModeNames v).getD (hex8 v)

/-- The cases of `toString(SignatureScheme)` (`fizz/record/Types.cpp:217-269`). The last five are the second `switch`, which lists schemes that fizz does not
support. -/
def schemeNames : List (UInt16 × String) :=
  [ (0x403, "ecdsa_secp256r1_sha256"),
    (0x503, "ecdsa_secp384r1_sha384"),
    (0x603, "ecdsa_secp521r1_sha512"),
    (0x804, "rsa_pss_sha256"),
    (0x805, "rsa_pss_sha384"),
    (0x806, "rsa_pss_sha512"),
    (0x807, "ed25519"),
    (0x808, "ed448"),
    (0xfe00, "ecdsa_secp256r1_sha256_batch"),
    (0xfe01, "ecdsa_secp384r1_sha384_batch"),
    (0xfe02, "ecdsa_secp521r1_sha512_batch"),
    (0xfe03, "ed25519_batch"),
    (0xfe04, "ed448_batch"),
    (0xfe05, "rsa_pss_sha256_batch"),
    (0x401, "rsa_pkcs1_sha256"),
    (0x501, "rsa_pkcs1_sha384"),
    (0x601, "rsa_pkcs1_sha512"),
    (0x201, "rsa_pkcs1_sha1"),
    (0x203, "ecdsa_sha1") ]

/-- `toString(SignatureScheme)` (`fizz/record/Types.cpp:217-269`). -/
def schemeName (v : UInt16) : String := (nameIn schemeNames v).getD (hex16 v)

/-- The cases of `toString(NamedGroup)` (`fizz/record/Types.cpp:271-309`). -/
def groupNames : List (UInt16 × String) :=
  [ (0x17, "secp256r1"),
    (0x18, "secp384r1"),
    (0x19, "secp521r1"),
    (0x1d, "x25519"),
    (0x1e, "x448"),
    (0x200, "MLKEM512"),
    (0x201, "MLKEM768"),
    (0x202, "MLKEM1024"),
    (0x11eb, "SecP256r1MLKEM768"),
    (0xfe02, "X25519MLKEM512_FB"),
    (0x11ec, "X25519MLKEM768"),
    (0x2f39, "x25519_kyber512"),
    (0x1ff, "kyber512"),
    (0x6399, "x25519_kyber768_draft00"),
    (0xfe00, "x25519_kyber768_experimental"),
    (0xfe01, "x25519_kyber512_experimental"),
    (0x639a, "secp256r1_kyber768_draft00") ]

/-- `toString(NamedGroup)` (`fizz/record/Types.cpp:271-309`). -/
def groupName (v : UInt16) : String := (nameIn groupNames v).getD (hex16 v)

/-- The cases of `toString(CertificateCompressionAlgorithm)` (`fizz/record/Types.cpp:311-321`). -/
def compressionNames : List (UInt16 × String) :=
  [ (0x1, "zlib"),
    (0x2, "brotli"),
    (0x3, "zstd") ]

/-- `toString(CertificateCompressionAlgorithm)` (`fizz/record/Types.cpp:311-321`). -/
def compressionName (v : UInt16) : String := (nameIn compressionNames v).getD (hex16 v)

/-! ## Parsing -/

/-- The map of `parse(CipherSuite)` (`fizz/util/Parse-inl.h:14-32`). -/
def suiteValues : List (String × UInt16) :=
  [ ("TLS_AES_128_GCM_SHA256", 0x1301),
    ("TLS_AES_256_GCM_SHA384", 0x1302),
    ("TLS_CHACHA20_POLY1305_SHA256", 0x1303),
    ("TLS_AEGIS_128L_SHA256", 0x1307),
    ("TLS_AEGIS_128X2_SHA256", 0xff01),
    ("TLS_AEGIS_128X4_SHA256", 0xff03),
    ("TLS_AEGIS_256_SHA512", 0x1306) ]

/-- `parse(CipherSuite)` (`fizz/util/Parse-inl.h:14-32`). -/
def parseSuite (s : String) : Res UInt16 :=
  match suiteValues.find? (fun e => e.1 = s) with
  | some e => .ok e.2
  | none => .error (Failure.rt ("Unknown cipher suite: " ++ s))

/-- The map of `parse(SignatureScheme)` (`fizz/util/Parse-inl.h:35-53`). -/
def schemeValues : List (String × UInt16) :=
  [ ("ecdsa_secp256r1_sha256", 0x403),
    ("ecdsa_secp384r1_sha384", 0x503),
    ("ecdsa_secp521r1_sha512", 0x603),
    ("rsa_pss_sha256", 0x804),
    ("rsa_pss_sha384", 0x805),
    ("rsa_pss_sha512", 0x806),
    ("ed25519", 0x807),
    ("ed448", 0x808) ]

/-- `parse(SignatureScheme)` (`fizz/util/Parse-inl.h:35-53`). -/
def parseScheme (s : String) : Res UInt16 :=
  match schemeValues.find? (fun e => e.1 = s) with
  | some e => .ok e.2
  | none => .error (Failure.rt ("Unknown signature scheme: " ++ s))

/-- The map of `parse(NamedGroup)` (`fizz/util/Parse-inl.h:56-75`). -/
def groupValues : List (String × UInt16) :=
  [ ("secp256r1", 0x17),
    ("secp384r1", 0x18),
    ("secp521r1", 0x19),
    ("x25519", 0x1d),
    ("X25519MLKEM512_FB", 0xfe02),
    ("X25519MLKEM768", 0x11ec),
    ("MLKEM512", 0x200),
    ("MLKEM768", 0x201),
    ("MLKEM1024", 0x202) ]

/-- `parse(NamedGroup)` (`fizz/util/Parse-inl.h:56-75`). -/
def parseGroup (s : String) : Res UInt16 :=
  match groupValues.find? (fun e => e.1 = s) with
  | some e => .ok e.2
  | none => .error (Failure.rt ("Unknown named group: " ++ s))

/-- The map of `parse(CertificateCompressionAlgorithm)` (`fizz/util/Parse-inl.h:79-94`). -/
def compressionValues : List (String × UInt16) :=
  [ ("zlib", 0x1),
    ("brotli", 0x2),
    ("zstd", 0x3) ]

/-- `parse(CertificateCompressionAlgorithm)` (`fizz/util/Parse-inl.h:79-94`). -/
def parseCompression (s : String) : Res UInt16 :=
  match compressionValues.find? (fun e => e.1 = s) with
  | some e => .ok e.2
  | none => .error (Failure.rt ("Unknown compression algorithm: " ++ s))

/-! ## Algorithms -/

/-- `getHashFunction(CipherSuite)` (`fizz/protocol/Types.cpp:13-31`). -/
def getHashFunction (cipher : UInt16) : Res HashFn :=
  if cipher = 0x1301 ∨ cipher = 0x1303 ∨ cipher = 0x1307 ∨ cipher = 0xff01 ∨ cipher = 0xff03 then .ok .sha256
  else if cipher = 0x1302 then .ok .sha384
  else if cipher = 0x1306 then .ok .sha512
  else .error (Failure.rt "unknown cipher suite")

/-- `getHashSize` (`fizz/protocol/Types.cpp:33-45`). -/
def getHashSize : HashFn → Nat
  | .sha256 => 32
  | .sha384 => 48
  | .sha512 => 64

/-- The lengths of an AEAD (`fizz/crypto/Crypto.h:18-66`). -/
structure Lengths where
  key : Nat
  iv : Nat
  tag : Nat
  deriving DecidableEq, Repr

/-- `AESGCM128` (`fizz/crypto/Crypto.h:19-23`). -/
def aesGcm128 : Lengths := ⟨16, 12, 16⟩
/-- `AESGCM256` (`fizz/crypto/Crypto.h:25-29`). -/
def aesGcm256 : Lengths := ⟨32, 12, 16⟩
/-- `ChaCha20Poly1305` (`fizz/crypto/Crypto.h:37-41`). -/
def chaCha : Lengths := ⟨32, 12, 16⟩
/-- `AEGIS128L` (`fizz/crypto/Crypto.h:43-47`). -/
def aegis128L : Lengths := ⟨16, 16, 16⟩
/-- `AEGIS256` (`fizz/crypto/Crypto.h:49-53`). -/
def aegis256 : Lengths := ⟨32, 32, 16⟩
/-- `AEGIS128X2` (`fizz/crypto/Crypto.h:55-59`). -/
def aegis128X2 : Lengths := ⟨16, 16, 16⟩
/-- `AEGIS128X4` (`fizz/crypto/Crypto.h:61-65`). -/
def aegis128X4 : Lengths := ⟨16, 16, 16⟩

/-- `MultiBackendFactory::makeAead` (`fizz/protocol/MultiBackendFactory.cpp:76-107`): the kind of cipher made.
`haveAegis` is `FIZZ_HAVE_LIBAEGIS`. -/
def makeAead (haveAegis : Bool) (cipher : UInt16) : Res Lengths :=
  if cipher = 0x1303 then .ok chaCha
  else if cipher = 0x1301 then .ok aesGcm128
  else if cipher = 0x1302 then .ok aesGcm256
  else if haveAegis ∧ cipher = 0x1306 then .ok aegis256
  else if haveAegis ∧ cipher = 0x1307 then .ok aegis128L
  else if haveAegis ∧ cipher = 0xff01 then .ok aegis128X2
  else if haveAegis ∧ cipher = 0xff03 then .ok aegis128X4
  else .error (Failure.rt "aead: not implemented")

/-- `getHashFunctionForKEM` (`fizz/crypto/hpke/Utils.cpp:125-142`). -/
def kemHash (kem : UInt16) : Res HashFn :=
  if kem = 0x10 then .ok .sha256
  else if kem = 0x11 then .ok .sha384
  else if kem = 0x12 then .ok .sha512
  else if kem = 0x20 then .ok .sha256
  else .error (Failure.rt "can't make KEM hash function: not implemented")

/-- `nenc` (`fizz/crypto/hpke/Utils.cpp:176-196`). -/
def nenc (kem : UInt16) : Res Nat :=
  if kem = 0x10 then .ok 65
  else if kem = 0x11 then .ok 97
  else if kem = 0x12 then .ok 133
  else if kem = 0x20 then .ok 32
  else .error (Failure.rt "unknown or invalid kem")

/-! ## The version and the additional data -/

/-- `getRealDraftVersion` (`fizz/record/Types.cpp:18-39`). -/
def getRealDraftVersion (v : UInt16) : Res UInt16 :=
  if v = 0x304 then .ok 0x304
  else if v = 0x7f17 ∨ v = 0xfb17 then .ok 0x7f17
  else if v = 0x7f1a ∨ v = 0xfb1a then .ok 0x7f1a
  else if v = 0x7f1c then .ok 0x7f1c
  else .error (Failure.rt "getRealDraftVersion: invalid protocol version")

/-- `EncryptedReadRecordLayer::setProtocolVersion` (`fizz/record/EncryptedRecordLayer.h:52-61`). -/
def setReadVersion (r : Record.EncRd) (v : UInt16) : Res Record.EncRd := do
  let real ← getRealDraftVersion v
  pure { r with useAD := if real = 0x7f17 then false else true }

/-- `WriteRecordLayer::setProtocolVersion` (`fizz/record/RecordLayer.h:211-220`). -/
def setWriteVersion (w : Record.EncWr) (v : UInt16) : Res Record.EncWr := do
  let real ← getRealDraftVersion v
  pure { w with useAD := if real = 0x7f17 then false else true }

end Fizz.Names

import Verif.Base

/-!
# Signing and verifying with certificate keys

Model of `fizz/protocol/Certificate.cpp`, `fizz/backend/openssl/certificate/CertUtils*.{h,cpp}`,
`OpenSSLPeerCertImpl-inl.h`, `OpenSSLSelfCertImpl-inl.h` and
`fizz/backend/openssl/crypto/signature/Signature-inl.h`.

OpenSSL itself is not modelled: `Ossl K` collects what fizz asks of it, `K` being the type of
`EVP_PKEY` values.  Failures that only memory exhaustion or a missing OpenSSL digest can cause are
left out.
-/

namespace Fizz.Cred

/-- `CertificateVerifyContext` (`fizz/protocol/Certificate.h:36-42`). -/
inductive Ctx where
  | server | client | authenticator | clientDC | serverDC
  deriving DecidableEq, Repr

/-- The bytes of a string literal (`folly::StringPiece`). -/
def str (s : String) : Bytes := s.toList.map fun c => UInt8.ofNat c.toNat

/-- The `switch (context)` of `prepareSignData` (`fizz/protocol/Certificate.cpp:28-56`). -/
def label : Ctx → Bytes
  | .server => str "TLS 1.3, server CertificateVerify"
  | .client => str "TLS 1.3, client CertificateVerify"
  | .authenticator => str "Exported Authenticator"
  | .clientDC => str "TLS, client delegated credentials"
  | .serverDC => str "TLS, server delegated credentials"

/-- `certverify::prepareSignData` (`fizz/protocol/Certificate.cpp:25-73`). -/
def prepareSignData (context : Ctx) (toBeSigned : Bytes) : Bytes :=
  List.replicate 64 32 ++ label context ++ [0] ++ toBeSigned

/-- `openssl::KeyType` (`fizz/backend/openssl/crypto/signature/Signature.h:18`). -/
inductive KeyType where
  | rsa | p256 | p384 | p521 | ed25519
  deriving DecidableEq, Repr

/-- What `EVP_PKEY_id` and, for EC keys, the curve name say about a key. -/
inductive KeyKind where
  | rsa | p256 | p384 | p521 | otherCurve | ed25519 | ed448 | other
  deriving DecidableEq, Repr

/-- An X.509 certificate as OpenSSL presents it: its encoding (`i2d_X509`), its key
(`X509_get_pubkey`, null when it cannot be decoded), the object identifiers of its extensions,
`X509_get_extension_flags`, `X509_get_key_usage` and the two validity dates in seconds since the
epoch. -/
structure X509 (K : Type) where
  der : Bytes
  pubkey : Option K
  extOids : List String
  exFlags : UInt32
  keyUsage : UInt32
  notBefore : Int
  notAfter : Int

/-- OpenSSL, as used here.  `verify scheme key data signature` is "the EVP verification calls made
for `scheme` return 1"; `sign` likewise, `none` when a call fails. -/
structure Ossl (K : Type) where
  kind : K → KeyKind
  ecCheck : K → Bool
  verify : UInt16 → K → Bytes → Bytes → Bool
  sign : UInt16 → K → Bytes → Option Bytes
  d2iX509 : Bytes → Option (X509 K)
  d2iPubkey : Bytes → Option K
  i2dPubkey : K → Option Bytes
  checkPrivateKey : X509 K → K → Bool

/-- `CertUtils::getSigSchemes<T>` (`fizz/backend/openssl/certificate/CertUtils-inl.h:16-40`): each
key type has one scheme. -/
def schemeOf : KeyType → UInt16
  | .rsa => 0x0804
  | .p256 => 0x0403
  | .p384 => 0x0503
  | .p521 => 0x0603
  | .ed25519 => 0x0807

/-- `CertUtils::getSigSchemes<T>` as the vector it returns. -/
def sigSchemes (t : KeyType) : List UInt16 := [schemeOf t]

/-- `CertUtils::getKeyType` (`fizz/backend/openssl/certificate/CertUtils.cpp:230-256`). -/
def getKeyType {K} (o : Ossl K) (k : K) : Res KeyType :=
  match o.kind k with
  | .rsa => .ok .rsa
  | .p256 => .ok .p256
  | .p384 => .ok .p384
  | .p521 => .ok .p521
  | .ed25519 => .ok .ed25519
  | _ => .error (Failure.rt "unknown key type")

/-- `validateECKey` (`fizz/backend/openssl/crypto/OpenSSLKeyUtils.cpp:26-46`). -/
def validateECKey {K} (o : Ossl K) (k : K) (curve : KeyKind) : Res Unit :=
  match o.kind k with
  | .p256 | .p384 | .p521 | .otherCurve =>
    if o.ecCheck k = false then .error (Failure.rt "Private key not valid")
    else if o.kind k ≠ curve then .error (Failure.rt "Invalid group")
    else .ok ()
  | _ => .error (Failure.rt "Wrong key type")

/-- `validateEdKey` for Ed25519 (`fizz/backend/openssl/crypto/OpenSSLKeyUtils.cpp:48-60`). -/
def validateEdKey {K} (o : Ossl K) (k : K) : Res Unit :=
  match o.kind k with
  | .ed25519 => .ok ()
  | .ed448 => .error (Failure.rt "Invalid group")
  | _ => .error (Failure.rt "Wrong key type")

/-- `OpenSSLSignature<T>::setKey`
(`fizz/backend/openssl/crypto/signature/Signature-inl.h:162-208`). -/
def setKey {K} (o : Ossl K) (t : KeyType) (k : K) : Res Unit :=
  match t with
  | .rsa => if o.kind k ≠ .rsa then .error (Failure.rt "key not rsa") else .ok ()
  | .p256 => validateECKey o k .p256
  | .p384 => validateECKey o k .p384
  | .p521 => validateECKey o k .p521
  | .ed25519 => validateEdKey o k

/-- `CertUtils::verify<T>` (`fizz/backend/openssl/certificate/CertUtils-inl.h:42-133`). -/
def certVerify {K} (o : Ossl K) (t : KeyType) (k : K) (scheme : UInt16) (context : Ctx)
    (toBeSigned signature : Bytes) : Res Unit :=
  let signData := prepareSignData context toBeSigned
  if scheme = schemeOf t then
    if o.verify scheme k signData signature then .ok ()
    else .error (Failure.rt "Signature verification failed")
  else .error (Failure.rt "Unsupported signature scheme")

/-- `OpenSSLSelfCertImpl<T>::sign`
(`fizz/backend/openssl/certificate/OpenSSLSelfCertImpl-inl.h:93-185`). -/
def certSign {K} (o : Ossl K) (t : KeyType) (k : K) (scheme : UInt16) (context : Ctx)
    (toBeSigned : Bytes) : Res Bytes :=
  let signData := prepareSignData context toBeSigned
  if scheme = schemeOf t then
    match o.sign scheme k signData with
    | some s => .ok s
    | none => .error (Failure.rt "Failed to sign")
  else .error (Failure.rt "Unsupported signature scheme")

/-- `OpenSSLPeerCertImpl<T>` (`fizz/backend/openssl/certificate/OpenSSLPeerCertImpl.h`). -/
structure PlainCert (K : Type) where
  type : KeyType
  key : K
  x509 : X509 K

/-- `OpenSSLPeerCertImpl<T>::create`
(`fizz/backend/openssl/certificate/OpenSSLPeerCertImpl-inl.h:25-40`). -/
def PlainCert.create {K} (o : Ossl K) (t : KeyType) (x : X509 K) : Res (PlainCert K) :=
  match x.pubkey with
  | none => .error (Failure.rt "could not get key from cert")
  | some k => do
    setKey o t k
    pure ⟨t, k, x⟩

/-- `CertUtils::makePeerCert(X509UniquePtr)`
(`fizz/backend/openssl/certificate/CertUtils.cpp:97-151`). -/
def makePeerCertX509 {K} (o : Ossl K) (x : X509 K) : Res (PlainCert K) :=
  match x.pubkey with
  | none => .error (Failure.rt "couldn't get pubkey from peer cert")
  | some k =>
    match o.kind k with
    | .rsa => PlainCert.create o .rsa x
    | .p256 => PlainCert.create o .p256 x
    | .p384 => PlainCert.create o .p384 x
    | .p521 => PlainCert.create o .p521 x
    | .ed25519 => PlainCert.create o .ed25519 x
    | _ => .error (Failure.rt "unknown peer cert type")

/-- `CertUtils::makePeerCert(ByteRange)` (`fizz/backend/openssl/certificate/CertUtils.cpp:73-89`).
Bytes after the certificate are logged and ignored. -/
def makePeerCertDer {K} (o : Ossl K) (range : Bytes) : Res (PlainCert K) :=
  if range.length = 0 then .error (Failure.rt "empty peer cert")
  else
    match o.d2iX509 range with
    | none => .error (Failure.rt "could not read cert")
    | some x => makePeerCertX509 o x

/-- `OpenSSLPeerCertImpl<T>::verify`
(`fizz/backend/openssl/certificate/OpenSSLPeerCertImpl-inl.h:47-63`). -/
def PlainCert.verify {K} (o : Ossl K) (c : PlainCert K) (scheme : UInt16) (context : Ctx)
    (toBeSigned signature : Bytes) : Res Unit :=
  certVerify o c.type c.key scheme context toBeSigned signature

end Fizz.Cred

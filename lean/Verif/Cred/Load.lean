import Verif.Cred.Delegated
import Verif.Compress.Model

/-!
# Loading a credential

Model of the rest of `fizz/backend/openssl/certificate/CertUtils.cpp`, of `OpenSSLSelfCertImpl<T>::create`, and of the file
readers of `fizz/util/FizzUtil.cpp`.  Parsing PEM is OpenSSL's and folly's work and a parameter, and so is the file system.
-/

namespace Fizz.Cred.Load
open Fizz.Codec Fizz.Cred Fizz.Compress

/-- What the readers get from elsewhere: `folly::ssl::OpenSSLCertUtils::readCertsFromBuffer` (which throws for some inputs, hence
`none`), `PEM_read_bio_PrivateKey` with the bytes its password source yields (`none`: no password available), and
`folly::readFile`. -/
structure Env (K : Type) where
  bio : Bool
  readCerts : Bytes → Option (List (X509 K))
  readKey : Bytes → Option Bytes → Option K
  readFile : Bytes → Option Bytes

/-- `OpenSSLSelfCertImpl<T>` with its compressed certificates. -/
structure Loaded (K : Type) where
  cert : SelfCert K
  compressed : List (UInt16 × CompressedCertificate)

/-- `CertUtils::getCertMessage` (`fizz/backend/openssl/certificate/CertUtils.cpp:42-71`); `i2d_X509` of a certificate in memory
does not fail. -/
def getCertMessage {K} (certs : List (X509 K)) (context : Bytes) : Res CertificateMsg :=
  .ok ⟨context, certs.map fun x => ⟨x.der, []⟩⟩

/-- `OpenSSLSelfCertImpl<T>::create` (`fizz/backend/openssl/certificate/OpenSSLSelfCertImpl-inl.h:33-62`). -/
def create {K} (o : Ossl K) (t : KeyType) (pkey : K) (certs : List (X509 K)) (compressors : List Compressor) :
    Res (Loaded K) :=
  match certs with
  | [] => .error (Failure.rt "Must supply at least 1 cert")
  | x :: rest =>
    if o.checkPrivateKey x pkey = false then .error (Failure.rt "Cert does not match private key")
    else do
      let made ← compressAll (getCertMessage (x :: rest) []) compressors []
      setKey o t pkey
      pure ⟨⟨t, pkey, x, rest⟩, made⟩

/-- `CertUtils::makeSelfCert(std::vector<X509UniquePtr>, EvpPkeyUniquePtr, ...)`
(`fizz/backend/openssl/certificate/CertUtils.cpp:284-346`).  `certs.front()` of an empty vector is undefined. -/
def makeSelfCert {K} (o : Ossl K) (certs : List (X509 K)) (key : K) (compressors : List Compressor) : Res (Loaded K) :=
  match certs with
  | [] => .error (Failure.ub "front() of an empty vector")
  | x :: rest =>
    match x.pubkey with
    | none => .error (Failure.rt "Failed to read public key")
    | some pubKey => do
      let keyType ← getKeyType o pubKey
      create o keyType key (x :: rest) compressors

/-- `CertUtils::readPrivateKeyFromBuffer` (`fizz/backend/openssl/certificate/CertUtils.cpp:153-176`): the password, if any, is
handed to OpenSSL's default callback as a C string. -/
def readPrivateKeyFromBuffer {K} (e : Env K) (keyData : Bytes) (password : Option Bytes) : Res K :=
  if e.bio = false then .error (Failure.rt "failed to create BIO")
  else match e.readKey keyData (password.map fun p => p.takeWhile (· ≠ 0)) with
    | none => .error (Failure.rt "Failed to read key")
    | some k => .ok k

/-- `selfCertFromDataInternal` and the two `makeSelfCert` that take PEM text
(`fizz/backend/openssl/certificate/CertUtils.cpp:180-228`). -/
def makeSelfCertPem {K} (o : Ossl K) (e : Env K) (certData keyData : Bytes) (password : Option Bytes)
    (compressors : List Compressor) : Res (Loaded K) :=
  match e.readCerts certData with
  | none => .error (Failure.rt "certificate parse error")
  | some certs =>
    if certs.isEmpty then .error (Failure.rt "no certificates read")
    else do
      let key ← readPrivateKeyFromBuffer e keyData password
      makeSelfCert o certs key compressors

/-- `Serializer::serialize` (`fizz/backend/openssl/certificate/CertUtils.cpp:383-393`) for a certificate of this backend. -/
def serialize {K} (x : X509 K) : Bytes := x.der

/-- `Serializer::deserialize` (`fizz/backend/openssl/certificate/CertUtils.cpp:395-404`). -/
def deserialize {K} (o : Ossl K) (bytes : Bytes) : Res (PlainCert K) := makePeerCertDer o bytes

/-! ## Files -/

/-- What `passwordCallback` leaves behind: its return value and the bytes it wrote from the start of the buffer. -/
structure Answer where
  length : Int
  wrote : Bytes
  deriving DecidableEq, Repr

/-- `passwordCallback` (`fizz/util/FizzUtil.cpp:23-38`): `buffer` is whether the pointers are non-null, `size` the room, and
`password` what `PasswordInFile::getPassword` yields (assumed shorter than 2^31). -/
def passwordCallback (buffer : Bool) (size : Int) (password : Bytes) : Answer :=
  if buffer = false ∨ size < 1 then ⟨0, []⟩
  else if password.isEmpty then ⟨0, []⟩
  else
    let length : Int := min (password.length : Int) (size - 1)
    ⟨length, password.take length.toNat ++ [0]⟩

/-- `PEM_BUFSIZE`: the room OpenSSL gives the callback. -/
def pemBufSize : Int := 1024

/-- What `PEM_read_bio_PrivateKey` makes of the callback: a length that is not positive is "no password". -/
def usedPassword (password : Bytes) : Option Bytes :=
  let a := passwordCallback true pemBufSize password
  if a.length ≤ 0 then none else some (a.wrote.take a.length.toNat)

/-- `FizzUtil::decryptPrivateKey` (`fizz/util/FizzUtil.cpp:134-162`); `password` is the content of the password file, if there
is one. -/
def decryptPrivateKey {K} (e : Env K) (data : Bytes) (password : Option Bytes) : Res K :=
  if e.bio = false then .error (Failure.rt "couldn't create bio")
  else match e.readKey data (password.bind usedPassword) with
    | none => .error (Failure.rt "couldn't read private key")
    | some k => .ok k

/-- `FizzUtil::readPrivateKey` (`fizz/util/FizzUtil.cpp:81-112`): every failure becomes one message; the result of `readFile` is
not looked at, so an unreadable file is read as empty. -/
def readPrivateKey {K} (e : Env K) (filename : Bytes) (password : Option Bytes) : Res K :=
  match decryptPrivateKey e ((e.readFile filename).getD []) password with
  | .ok k => .ok k
  | .error _ => .error (Failure.rt "Failed to read private key from file")

/-- `FizzUtil::readChainFile` (`fizz/util/FizzUtil.cpp:40-57`). -/
def readChainFile {K} (e : Env K) (filename : Bytes) : Res (List (X509 K)) :=
  match e.readFile filename with
  | none => .error (Failure.rt "couldn't read cert file")
  | some data =>
    match e.readCerts data with
    | none => .error (Failure.rt "certificate parse error")
    | some [] => .error (Failure.rt "couldn't read any cert from file")
    | some (x :: rest) => .ok (x :: rest)

end Fizz.Cred.Load

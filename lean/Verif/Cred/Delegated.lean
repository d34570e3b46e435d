import Verif.Cred.Sign
import Verif.Codec.Extensions
import Verif.Server.CertManager

/-!
# Delegated credentials — model of `fizz/extensions/delegatedcred/`
-/

namespace Fizz.Cred
open Fizz.Codec

/-- `ExtensionType::delegated_credential` (`fizz/record/Types.h:101`). -/
def delegated_credential : UInt16 := 34

/-- `AlertDescription::illegal_parameter`, `certificate_expired` (`fizz/record/Types.h`). -/
def illegal_parameter : UInt8 := 47
/-- See above. -/
def certificate_expired : UInt8 := 45

/-- `struct DelegatedCredential` (`fizz/extensions/delegatedcred/Types.h`). -/
structure DelegatedCredential where
  valid_time : UInt32
  expected_verify_scheme : UInt16
  public_key : Bytes
  credential_scheme : UInt16
  signature : Bytes
  deriving DecidableEq, Repr

/-- The reads of `getExtension<DelegatedCredential>`
(`fizz/extensions/delegatedcred/Types.cpp:28-38`). -/
def readDelegatedCredential : Rd DelegatedCredential := do
  let (valid, _) ← readU32
  let (expected, _) ← readU16
  let (key, _) ← readBuf .u24
  let (scheme, _) ← readU16
  let (sig, _) ← readBuf .u16
  pure ⟨valid, expected, key, scheme, sig⟩

/-- A `getExtension` specialisation that stops reading where its last field ends: bytes left over
are not looked at (both specialisations of `fizz/extensions/delegatedcred/Types.cpp`). -/
def getExtensionLoose {α} (type : UInt16) (rd : Rd α) (exts : List Extension) : Res (Option α) :=
  match findExtension exts type with
  | none => .ok none
  | some e =>
    match rd e.extension_data with
    | .error f => .error f
    | .ok (a, _) => .ok (some a)

/-- `getExtension<DelegatedCredential>` (`fizz/extensions/delegatedcred/Types.cpp:17-40`). -/
def getDelegatedCredential (exts : List Extension) : Res (Option DelegatedCredential) :=
  getExtensionLoose delegated_credential readDelegatedCredential exts

/-- The read of `getExtension<DelegatedCredentialSupport>`
(`fizz/extensions/delegatedcred/Types.cpp:52-58`). -/
def readSupport : Rd (List UInt16) := do
  let (v, _) ← readVector .u16 readU16
  pure v

/-- `getExtension<DelegatedCredentialSupport>`
(`fizz/extensions/delegatedcred/Types.cpp:42-61`). -/
def getDelegatedCredentialSupport (exts : List Extension) : Res (Option (List UInt16)) :=
  getExtensionLoose delegated_credential readSupport exts

/-- `encodeExtension(DelegatedCredential)`
(`fizz/extensions/delegatedcred/Types.cpp:64-80`). -/
def encodeDelegatedCredential (c : DelegatedCredential) : Res Extension := do
  let a ← writeU32 c.valid_time
  let b ← writeU16 c.expected_verify_scheme
  let k ← writeBuf .u24 c.public_key
  let s ← writeU16 c.credential_scheme
  let g ← writeBuf .u16 c.signature
  pure ⟨delegated_credential, a ++ b ++ k ++ s ++ g⟩

/-- `encodeExtension(DelegatedCredentialSupport)`
(`fizz/extensions/delegatedcred/Types.cpp:82-95`). -/
def encodeDelegatedCredentialSupport (algs : List UInt16) : Res Extension := do
  let d ← writeVector .u16 sizeU16 writeU16 algs
  pure ⟨delegated_credential, d⟩

/-- `kDelegatedOid` (`fizz/extensions/delegatedcred/DelegatedCredentialUtils.cpp:46`). -/
def kDelegatedOid : String := "1.3.6.1.4.1.44363.44"

/-- `EXFLAG_KUSAGE` (OpenSSL `x509v3.h`). -/
def EXFLAG_KUSAGE : UInt32 := 2
/-- `KU_DIGITAL_SIGNATURE` (OpenSSL `x509v3.h`). -/
def KU_DIGITAL_SIGNATURE : UInt32 := 0x80

/-- `checkExtensions` with `hasDelegatedExtension`
(`fizz/extensions/delegatedcred/DelegatedCredentialUtils.cpp:18-43,59-74`). -/
def checkExtensions {K} (x : X509 K) : Res Unit :=
  if ¬ kDelegatedOid ∈ x.extOids then
    .error (Failure.fizz "cert is missing DelegationUsage extension" (some illegal_parameter))
  else if x.exFlags &&& EXFLAG_KUSAGE ≠ EXFLAG_KUSAGE then
    .error (Failure.fizz "cert is missing KeyUsage extension" (some illegal_parameter))
  else if x.keyUsage &&& KU_DIGITAL_SIGNATURE ≠ KU_DIGITAL_SIGNATURE then
    .error (Failure.fizz "cert lacks digital signature key usage" (some illegal_parameter))
  else .ok ()

/-- `prepareSignatureBuffer`
(`fizz/extensions/delegatedcred/DelegatedCredentialUtils.cpp:76-93`). -/
def prepareSignatureBuffer (c : DelegatedCredential) (certData : Bytes) : Res Bytes := do
  let a ← writeU32 c.valid_time
  let b ← writeU16 c.expected_verify_scheme
  let k ← writeBuf .u24 c.public_key
  let s ← writeU16 c.credential_scheme
  pure (certData ++ a ++ b ++ k ++ s)

/-- `std::chrono::system_clock` counts nanoseconds in a signed 64-bit integer; an operation whose
result does not fit is undefined behaviour. -/
def ns (t : Int) : Res Int :=
  if -(2 ^ 63) ≤ t ∧ t < 2 ^ 63 then .ok t else .error (.ub "system_clock overflow")

/-- `folly::ssl::OpenSSLCertUtils::asnTimeToTimepoint`: seconds to a `time_point`. -/
def timepoint (seconds : Int) : Res Int := ns (seconds * 1000000000)

/-- `kMaxDelegatedCredentialLifetime` and the limit of `generateCredential`, one week
(`fizz/extensions/delegatedcred/DelegatedCredentialUtils.cpp:47,112`), in nanoseconds. -/
def week : Int := 7 * 24 * 3600 * 1000000000

/-- `getCredentialExpiresTime`
(`fizz/extensions/delegatedcred/DelegatedCredentialUtils.cpp:188-197`). -/
def getCredentialExpiresTime {K} (x : X509 K) (c : DelegatedCredential) : Res Int := do
  let notBefore ← timepoint x.notBefore
  ns (notBefore + c.valid_time.toNat * 1000000000)

/-- `checkCredentialTimeValidity`
(`fizz/extensions/delegatedcred/DelegatedCredentialUtils.cpp:199-231`); `now` is
`clock->getCurrentTime()`. -/
def checkCredentialTimeValidity {K} (now : Int) (x : X509 K) (c : DelegatedCredential) :
    Res Unit := do
  let expires ← getCredentialExpiresTime x c
  if now ≥ expires then
    .error (Failure.fizz "credential is no longer valid" (some certificate_expired))
  else do
    let left ← ns (expires - now)
    if left > week then
      .error (Failure.fizz "credential validity is longer than a week from now"
        (some illegal_parameter))
    else do
      let notAfter ← timepoint x.notAfter
      if expires ≥ notAfter then
        .error (Failure.fizz "credential validity is longer than parent cert validity"
          (some illegal_parameter))
      else .ok ()

/-! ## The peer's side -/

/-- What the factory returns: a plain certificate, or a `PeerDelegatedCredentialImpl<T>`
(`fizz/extensions/delegatedcred/PeerDelegatedCredential.h`): the parent certificate, the
credential's key and the credential. -/
inductive PeerCert (K : Type) where
  | plain (c : PlainCert K)
  | delegated (parent : PlainCert K) (credKey : K) (cred : DelegatedCredential)

/-- `PeerDelegatedCredentialImpl<T>::create`
(`fizz/extensions/delegatedcred/PeerDelegatedCredential-inl.h:25-50`). -/
def createPeer {K} (o : Ossl K) (t : KeyType) (x : X509 K) (pubKey : K)
    (cred : DelegatedCredential) : Res (PeerCert K) := do
  let parent ← PlainCert.create o t x
  let kt ← getKeyType o pubKey
  if kt ≠ t then .error (Failure.rt "Key and credential type don't match")
  else do
    setKey o t pubKey
    pure (.delegated parent pubKey cred)

/-- `makeCredential` (`fizz/extensions/delegatedcred/DelegatedCredentialFactory.cpp:16-105`). -/
def makeCredential {K} (o : Ossl K) (cred : DelegatedCredential) (x : X509 K) :
    Res (PeerCert K) :=
  match o.d2iPubkey cred.public_key with
  | none => .error (Failure.fizz "failed to create credential pubkey" (some illegal_parameter))
  | some pubKey => do
    let t ← getKeyType o pubKey
    createPeer o t x pubKey cred

/-- The `if (!credential)` of `makePeerCertStatic`
(`fizz/extensions/delegatedcred/DelegatedCredentialFactory.cpp:126-136`). -/
def finishPeerCert {K} (o : Ossl K) (parent : PlainCert K) :
    Option DelegatedCredential → Res (PeerCert K)
  | none => .ok (.plain parent)
  | some cred => makeCredential o cred parent.x509

/-- `DelegatedCredentialFactory::makePeerCertStatic`
(`fizz/extensions/delegatedcred/DelegatedCredentialFactory.cpp:108-138`). -/
def makePeerCert {K} (o : Ossl K) (entry : CertificateEntry) (leaf : Bool) : Res (PeerCert K) :=
  if leaf = false ∨ entry.extensions = [] then do
    let c ← makePeerCertDer o entry.cert_data
    pure (.plain c)
  else do
    let parent ← makePeerCertDer o entry.cert_data
    let credential ← getDelegatedCredential entry.extensions
    finishPeerCert o parent credential

/-- The failure reported when the parent's signature on the credential does not verify
(`fizz/extensions/delegatedcred/PeerDelegatedCredential-inl.h:82-103`): whatever `verify` failed
with is wrapped. -/
def credentialFailure : Failure → Failure
  | .err msg _ _ =>
    Failure.fizz ("failed to verify signature on credential: " ++ msg) (some illegal_parameter)
  | f => f

/-- `Res` with its failure replaced. -/
def wrapFailure {α} (w : Failure → Failure) : Res α → Res α
  | .ok a => .ok a
  | .error f => .error (w f)

/-- `PeerDelegatedCredentialImpl<T>::verify`
(`fizz/extensions/delegatedcred/PeerDelegatedCredential-inl.h:52-116`). -/
def verifyDelegated {K} (o : Ossl K) (now : Int) (parent : PlainCert K) (credKey : K)
    (cred : DelegatedCredential) (scheme : UInt16) (context : Ctx) (toBeSigned signature : Bytes) :
    Res Unit :=
  if scheme ≠ cred.expected_verify_scheme then
    .error (Failure.fizz "certificate verify didn't use credential's algorithm"
      (some illegal_parameter))
  else do
    checkExtensions parent.x509
    checkCredentialTimeValidity now parent.x509 cred
    let buf ← prepareSignatureBuffer cred parent.x509.der
    wrapFailure credentialFailure
      (parent.verify o cred.credential_scheme
        (if context = .server then .serverDC else .clientDC) buf cred.signature)
    certVerify o parent.type credKey scheme context toBeSigned signature

/-- `PeerCert::verify`, dispatched. -/
def PeerCert.verify {K} (o : Ossl K) (now : Int) (p : PeerCert K) (scheme : UInt16) (context : Ctx)
    (toBeSigned signature : Bytes) : Res Unit :=
  match p with
  | .plain c => c.verify o scheme context toBeSigned signature
  | .delegated parent credKey cred =>
    verifyDelegated o now parent credKey cred scheme context toBeSigned signature

/-! ## The owner's side -/

/-- `OpenSSLSelfCertImpl<T>`: its chain and private key. -/
structure SelfCert (K : Type) where
  type : KeyType
  key : K
  x509 : X509 K
  rest : List (X509 K) := []

/-- The value of `cred.valid_time` for a duration in seconds: the `int64_t` count is converted to
`uint32_t`, that is reduced modulo 2^32. -/
def toValidTime (seconds : Int) : UInt32 := UInt32.ofNat (seconds % 2 ^ 32).toNat

/-- The part of `generateCredential` after the checks
(`fizz/extensions/delegatedcred/DelegatedCredentialUtils.cpp:157-186`). -/
def issue {K} (o : Ossl K) (now : Int) (cert : SelfCert K) (credKey : K)
    (signScheme verifyScheme : UInt16) (context : Ctx) (validSeconds : Int) :
    Res DelegatedCredential := do
  let notBefore ← timepoint cert.x509.notBefore
  let lifetime ← timepoint validSeconds
  let expires ← ns (now + lifetime)
  let d ← ns (expires - notBefore)
  match o.i2dPubkey credKey with
  | none => .error (Failure.rt "failed to get delegated pkey size")
  | some pk => do
    let cred : DelegatedCredential :=
      ⟨toValidTime (d.tdiv 1000000000), verifyScheme, pk, signScheme, []⟩
    let toSign ← prepareSignatureBuffer cred cert.x509.der
    let sig ← certSign o cert.type cert.key signScheme context toSign
    pure { cred with signature := sig }

/-- `generateCredential`
(`fizz/extensions/delegatedcred/DelegatedCredentialUtils.cpp:95-186`). `now` is
`std::chrono::system_clock::now()`. -/
def generateCredential {K} (o : Ossl K) (now : Int) (cert : SelfCert K) (certKey credKey : K)
    (signScheme verifyScheme : UInt16) (context : Ctx) (validSeconds : Int) :
    Res DelegatedCredential :=
  if context ≠ .serverDC ∧ context ≠ .clientDC then
    .error (Failure.rt "Requested credential with invalid verification context")
  else if validSeconds > 7 * 24 * 3600 then
    .error (Failure.rt "Requested credential with exceedingly large validity")
  else do
    checkExtensions cert.x509
    if o.checkPrivateKey cert.x509 certKey = false then
      .error (Failure.rt "Cert does not match private key")
    else do
      let t ← getKeyType o credKey
      if ¬ verifyScheme ∈ sigSchemes t then
        .error (Failure.rt "selected verification scheme not supported by credential key")
      else if ¬ signScheme ∈ sigSchemes cert.type then
        .error (Failure.rt "credential signature scheme not valid for parent cert")
      else issue o now cert credKey signScheme verifyScheme context validSeconds

/-- `DelegatedCredentialMode` (`fizz/extensions/delegatedcred/Types.h`). -/
inductive Mode where
  | server | client
  deriving DecidableEq

/-- `SelfDelegatedCredentialImpl<T>` (`fizz/extensions/delegatedcred/SelfDelegatedCredential.h`).
Compressed certificates are not modelled. -/
structure SelfDelegated (K : Type) where
  type : KeyType
  key : K
  x509 : X509 K
  rest : List (X509 K)
  cred : DelegatedCredential

/-- `InternalSelfCert::create` and `SelfDelegatedCredentialImpl<T>::create` without compressors
(`fizz/extensions/delegatedcred/SelfDelegatedCredential-inl.h:18-95`). -/
def SelfDelegated.create {K} (o : Ossl K) (t : KeyType) (mode : Mode) (certs : List (X509 K))
    (privateKey : K) (cred : DelegatedCredential) : Res (SelfDelegated K) :=
  match certs with
  | [] => .error (Failure.rt "Must supply at least 1 cert")
  | x :: rest => do
    let kt ← getKeyType o privateKey
    if kt ≠ t then .error (Failure.rt "Key and credential type don't match")
    else do
      checkExtensions x
      setKey o t privateKey
      if ¬ cred.expected_verify_scheme ∈ sigSchemes t then
        .error (Failure.rt "expected verify algorithm not supported by credential")
      else do
        let buf ← prepareSignatureBuffer cred x.der
        let parent ← makePeerCertX509 o x
        parent.verify o cred.credential_scheme
          (if mode = .server then .serverDC else .clientDC) buf cred.signature
        pure ⟨t, privateKey, x, rest, cred⟩

/-- `SelfDelegatedCredentialImpl<T>::getSigSchemes`
(`fizz/extensions/delegatedcred/SelfDelegatedCredential-inl.h:108-112`). -/
def SelfDelegated.getSigSchemes {K} (s : SelfDelegated K) : List UInt16 :=
  [s.cred.expected_verify_scheme]

/-- `SelfDelegatedCredentialImpl<T>::getCertMessage`
(`fizz/extensions/delegatedcred/SelfDelegatedCredential-inl.h:114-128`) over
`CertUtils::getCertMessage` (`fizz/backend/openssl/certificate/CertUtils.cpp:42-71`). -/
def SelfDelegated.getCertMessage {K} (s : SelfDelegated K) (requestContext : Bytes) :
    Res CertificateMsg := do
  let ext ← encodeDelegatedCredential s.cred
  pure ⟨requestContext, ⟨s.x509.der, [ext]⟩ :: s.rest.map fun x => ⟨x.der, []⟩⟩

/-- `SelfDelegatedCredentialImpl<T>::sign`
(`fizz/extensions/delegatedcred/SelfDelegatedCredential-inl.h:136-144`). -/
def SelfDelegated.sign {K} (o : Ossl K) (s : SelfDelegated K) (scheme : UInt16) (context : Ctx)
    (toBeSigned : Bytes) : Res Bytes :=
  certSign o s.type s.key scheme context toBeSigned

/-! ## Choosing a credential -/

/-- `DelegatedCredentialCertManager` (`fizz/extensions/delegatedcred/DelegatedCredentialCertManager.h`):
a `DefaultCertManager` with a second one for credentials. -/
structure DcManager where
  base : CertManager.Manager := {}
  dc : CertManager.Manager := {}

/-- The fallback of `getCert`. -/
def DcManager.orBase (m : DcManager) (sni : Option Bytes) (supported peer : List UInt16) :
    Option (CertManager.Cert × UInt16 × CertManager.MatchType) →
    Option (CertManager.Cert × UInt16 × CertManager.MatchType)
  | some r => some r
  | none => CertManager.getCert m.base sni supported peer

/-- `DelegatedCredentialCertManager::getCert`
(`fizz/extensions/delegatedcred/DelegatedCredentialCertManager.cpp:17-45`). -/
def DcManager.getCert (m : DcManager) (sni : Option Bytes) (supported peer : List UInt16)
    (chlo : List Extension) :
    Res (Option (CertManager.Cert × UInt16 × CertManager.MatchType)) := do
  let credential ← getDelegatedCredentialSupport chlo
  match credential with
  | some algs => .ok (m.orBase sni supported peer (CertManager.getCert m.dc sni supported algs))
  | none => .ok (CertManager.getCert m.base sni supported peer)

end Fizz.Cred

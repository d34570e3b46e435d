import Verif.Cred.Delegated
import Verif.Codec.Extensions
import Verif.Exporter.Model
import Verif.Record.ReadModel

/-!
# Exported authenticators

Model of `fizz/extensions/exportedauth/ExportedAuthenticator.cpp`.

Simplifications: an absent `Buf` and an empty one are the same empty byte string (the code treats
them alike: `writeBuf` at line 374, `decodeAuthRequest` at 336), except for the Finished key, which
is dereferenced; failures of the hash back end are
left out, as in `Verif/Crypto/Hkdf.lean`; a call on `AsyncFizzBase` becomes a field of `Transport`.
-/

namespace Fizz.ExportedAuth
open Fizz.Codec Fizz.Crypto Fizz.Cred
open Fizz.Record (HsOut decodeHandshakeMessage)

/-- A `SelfCert` as used here (`fizz/protocol/Certificate.h:77-125`): the schemes it signs with,
the certificate message for a request context, and its signature. -/
structure Own where
  schemes : List UInt16
  certMessage : Bytes → Res CertificateMsg
  sign : UInt16 → Ctx → Bytes → Res Bytes

/-- `OpenSSLSelfCertImpl<T>` as a `SelfCert`: `getSigSchemes`, `getCertMessage`, `sign`
(`fizz/backend/openssl/certificate/OpenSSLSelfCertImpl-inl.h:67-185`) with
`CertUtils::getCertMessage` (`fizz/backend/openssl/certificate/CertUtils.cpp:42-71`). -/
def ofSelfCert {K} (o : Ossl K) (c : SelfCert K) : Own where
  schemes := sigSchemes c.type
  certMessage ctx := .ok ⟨ctx, (c.x509 :: c.rest).map fun x => ⟨x.der, []⟩⟩
  sign sch ctx m := certSign o c.type c.key sch ctx m

/-- `AlertDescription::illegal_parameter` (`fizz/record/Alerts.h`). -/
def illegal_parameter : UInt8 := 47

/-- `ExportedAuthenticator::getAuthenticatorRequest`
(`fizz/extensions/exportedauth/ExportedAuthenticator.cpp:19-37`).  The request is the body of the
message only: it has no handshake header. -/
def getAuthenticatorRequest (context : Bytes) (extensions : List Extension) : Res Bytes :=
  if context.isEmpty then
    .error (Failure.fizz "certificate request context must not be empty" illegal_parameter)
  else encodeCertificateRequest ⟨context, extensions⟩

/-- `detail::decodeAuthRequest` (`fizz/extensions/exportedauth/ExportedAuthenticator.cpp:331-352`).
The cursor is not checked to be at the end. -/
def decodeAuthRequest (request : Bytes) : Res (Bytes × List Extension) :=
  if request.isEmpty then .ok ([], [])
  else do
    let (r, _) ← readCertificateRequest request
    pure (r.certificate_request_context, r.extensions)

/-- `detail::computeTranscript` (`fizz/extensions/exportedauth/ExportedAuthenticator.cpp:385-396`). -/
def computeTranscript (handshakeContext request certificate : Bytes) : Bytes :=
  handshakeContext ++ request ++ certificate

/-- `detail::computeFinishedTranscript`
(`fizz/extensions/exportedauth/ExportedAuthenticator.cpp:398-405`). -/
def computeFinishedTranscript (transcript certVerify : Bytes) : Bytes := transcript ++ certVerify

/-- `detail::getFinishedData` (`fizz/extensions/exportedauth/ExportedAuthenticator.cpp:407-426`). -/
def getFinishedData (h : HashAlg) (finishedMacKey : Option Bytes) (transcriptHash : Bytes) :
    Res Bytes :=
  match finishedMacKey with
  | some key => hmac h key [transcriptHash] (List.replicate h.hashLen 0)
  | none => .error (.ub "finishedMacKey is null")

/-- `detail::getRequestedSchemes`
(`fizz/extensions/exportedauth/ExportedAuthenticator.cpp:428-448`). -/
def getRequestedSchemes (extensions : List Extension) : Res (Option (List UInt16)) :=
  if extensions.isEmpty then .ok none
  else do
    let sigAlgs ← getSignatureAlgorithms extensions
    pure (sigAlgs.map fun s => s.supported_signature_algorithms)

/-- The first loop of `detail::getSignatureScheme`
(`fizz/extensions/exportedauth/ExportedAuthenticator.cpp:461-473`). -/
def pickRequested (supported certSchemes : List UInt16) : Option (List UInt16) → Option UInt16
  | some requested => supported.find? fun s => certSchemes.contains s && requested.contains s
  | none => none

/-- `detail::getSignatureScheme`
(`fizz/extensions/exportedauth/ExportedAuthenticator.cpp:450-488`). -/
def getSignatureScheme (supported certSchemes : List UInt16) (extensions : List Extension) :
    Res (Option UInt16) := do
  let requested ← getRequestedSchemes extensions
  match pickRequested supported certSchemes requested with
  | some s => pure (some s)
  | none => pure (supported.find? fun s => certSchemes.contains s)

/-- `detail::getEmptyAuthenticator`
(`fizz/extensions/exportedauth/ExportedAuthenticator.cpp:490-523`). -/
def getEmptyAuthenticator (h : HashAlg) (request handshakeContext : Bytes)
    (finishedMacKey : Option Bytes) : Res Bytes := do
  let (ctx, _) ← decodeAuthRequest request
  let cert ← encodeHandshake (.certificate ⟨ctx, []⟩)
  let transcript := computeTranscript handshakeContext request cert
  let verifyData ← getFinishedData h finishedMacKey (h.digest transcript)
  encodeHandshake (.finished ⟨verifyData⟩)

/-- `ExportedAuthenticator::makeAuthenticator` once a scheme is chosen
(`fizz/extensions/exportedauth/ExportedAuthenticator.cpp:174-216`). -/
def makeWith (h : HashAlg) (cert : Own) (scheme : UInt16)
    (requestContext request handshakeContext : Bytes) (finishedMacKey : Option Bytes)
    (context : Ctx) : Res Bytes := do
  let certificate ← cert.certMessage requestContext
  let encodedCert ← encodeHandshake (.certificate certificate)
  let transcript := computeTranscript handshakeContext request encodedCert
  let sig ← cert.sign scheme context (h.digest transcript)
  let encodedVerify ← encodeHandshake (.certificateVerify ⟨scheme, sig⟩)
  let finishedTranscript := computeFinishedTranscript transcript encodedVerify
  let verifyData ← getFinishedData h finishedMacKey (h.digest finishedTranscript)
  let encodedFinished ← encodeHandshake (.finished ⟨verifyData⟩)
  pure (computeTranscript encodedCert encodedVerify encodedFinished)

/-- `ExportedAuthenticator::makeAuthenticator`
(`fizz/extensions/exportedauth/ExportedAuthenticator.cpp:140-217`). -/
def makeAuthenticator (h : HashAlg) (supported : List UInt16) (cert : Own)
    (request handshakeContext : Bytes) (finishedMacKey : Option Bytes) (context : Ctx) : Res Bytes := do
  let (requestContext, extensions) ← decodeAuthRequest request
  let scheme ← getSignatureScheme supported cert.schemes extensions
  match scheme with
  | none => getEmptyAuthenticator h request handshakeContext finishedMacKey
  | some s => makeWith h cert s requestContext request handshakeContext finishedMacKey context

/-- The end of `ExportedAuthenticator::validate`, from the leaf certificate on
(`fizz/extensions/exportedauth/ExportedAuthenticator.cpp:279-328`).  A `verify` that fails or throws
`std::runtime_error` gives none. -/
def validateMessages {K} (o : Ossl K) (h : HashAlg) (certMsg : CertificateMsg)
    (certVerify : CertificateVerify) (finished : Finished)
    (request handshakeContext : Bytes) (finishedMacKey : Option Bytes) (context : Ctx) :
    Res (Option (List CertificateEntry)) :=
  match certMsg.certificate_list with
  | [] => .ok none
  | leaf :: _ => do
    let peerCert ← makePeerCertDer o leaf.cert_data
    let encodedCert ← encodeHandshake (.certificate certMsg)
    let transcript := computeTranscript handshakeContext request encodedCert
    match peerCert.verify o certVerify.algorithm context (h.digest transcript)
        certVerify.signature with
    | .error _ => .ok none
    | .ok _ => do
      let encodedVerify ← encodeHandshake (.certificateVerify certVerify)
      let finishedTranscript := computeFinishedTranscript transcript encodedVerify
      let verifyData ← getFinishedData h finishedMacKey (h.digest finishedTranscript)
      if finished.verify_data = verifyData then pure (some certMsg.certificate_list)
      else pure none

/-- The checks on the types of the three messages
(`fizz/extensions/exportedauth/ExportedAuthenticator.cpp:270-277`). -/
def validateTypes {K} (o : Ossl K) (h : HashAlg) (m1 m2 m3 : HsMsg)
    (request handshakeContext : Bytes) (finishedMacKey : Option Bytes) (context : Ctx) :
    Res (Option (List CertificateEntry)) :=
  match m1, m2, m3 with
  | .certificate c, .certificateVerify v, .finished f =>
    validateMessages o h c v f request handshakeContext finishedMacKey context
  | _, _, _ => .ok none

/-- `ExportedAuthenticator::validate` when the first message is not a Finished: the second and third
messages (`fizz/extensions/exportedauth/ExportedAuthenticator.cpp:256-269`). -/
def validateChain {K} (o : Ossl K) (h : HashAlg) (m1 : HsMsg) (rest : Bytes)
    (request handshakeContext : Bytes) (finishedMacKey : Option Bytes) (context : Ctx) :
    Res (Option (List CertificateEntry)) := do
  let second ← decodeHandshakeMessage rest
  match second with
  | .none => .ok none
  | .msg m2 _ rest => do
    let third ← decodeHandshakeMessage rest
    match third with
    | .none => .ok none
    | .msg m3 _ _ => validateTypes o h m1 m2 m3 request handshakeContext finishedMacKey context

/-- `ExportedAuthenticator::validate`
(`fizz/extensions/exportedauth/ExportedAuthenticator.cpp:219-329`). -/
def validate {K} (o : Ossl K) (h : HashAlg)
    (request authenticator handshakeContext : Bytes) (finishedMacKey : Option Bytes)
    (context : Ctx) :
    Res (Option (List CertificateEntry)) := do
  let first ← decodeHandshakeMessage authenticator
  match first with
  | .none => .ok none
  | .msg (.finished _) _ _ => do
    let emptyAuth ← getEmptyAuthenticator h request handshakeContext finishedMacKey
    if emptyAuth = authenticator then pure (some []) else pure none
  | .msg m1 _ rest => validateChain o h m1 rest request handshakeContext finishedMacKey context

/-- `ExportedAuthenticator::getAuthenticatorContext`
(`fizz/extensions/exportedauth/ExportedAuthenticator.cpp:82-97`).  `param->` on an empty optional
throws. -/
def getAuthenticatorContext (authenticator : Bytes) : Res Bytes := do
  let first ← decodeHandshakeMessage authenticator
  match first with
  | .none => .error .emptyOptional
  | .msg (.certificate c) _ _ => pure c.certificate_request_context
  | .msg _ _ _ => .error (Failure.rt "Param isn't cert msg")

/-- What the two public functions ask of `AsyncFizzBase` (`fizz/protocol/AsyncFizzBase.h:230-283`):
the hash algorithm of its cipher, its exporter master secret and its signature schemes. -/
structure Transport where
  cipher : Option HashAlg
  exporterMaster : Option Bytes
  sigSchemes : List UInt16

/-- `transport.getExportedKeyingMaterial(label, nullptr, hashLength)`, `hashLength` a `size_t` passed
as `uint16_t` (`fizz/client/AsyncFizzClient-inl.h:735-752`, `fizz/server/AsyncFizzServer-inl.h:194-211`).
-/
def Transport.exportKey (t : Transport) (h : HashAlg) (label : Bytes) : Res (Option Bytes) :=
  Exporter.ofConnection t.cipher t.exporterMaster label [] (UInt16.ofNat h.hashLen)

/-- `*cipher`, which throws when there is none, and the hash function of the cipher
(`fizz/extensions/exportedauth/ExportedAuthenticator.cpp:46-55`, `106-114`). -/
def Transport.hasher (t : Transport) : Res HashAlg :=
  match t.cipher with
  | some h => .ok h
  | none => .error .emptyOptional

/-- `ExportedAuthenticator::Direction`
(`fizz/extensions/exportedauth/ExportedAuthenticator.h:20`). -/
inductive Direction where
  | upstream | downstream
  deriving DecidableEq

/-- `"EXPORTER-client authenticator handshake context"`. -/
def clientContextLabel : Bytes := str "EXPORTER-client authenticator handshake context"
/-- `"EXPORTER-client authenticator finished key"`. -/
def clientKeyLabel : Bytes := str "EXPORTER-client authenticator finished key"
/-- `"EXPORTER-server authenticator handshake context"`. -/
def serverContextLabel : Bytes := str "EXPORTER-server authenticator handshake context"
/-- `"EXPORTER-server authenticator finished key"`. -/
def serverKeyLabel : Bytes := str "EXPORTER-server authenticator finished key"

/-- The labels `getAuthenticator` uses
(`fizz/extensions/exportedauth/ExportedAuthenticator.cpp:58-68`). -/
def makeLabels : Direction → Bytes × Bytes
  | .upstream => (clientContextLabel, clientKeyLabel)
  | .downstream => (serverContextLabel, serverKeyLabel)

/-- The labels `validateAuthenticator` uses
(`fizz/extensions/exportedauth/ExportedAuthenticator.cpp:117-127`). -/
def validateLabels : Direction → Bytes × Bytes
  | .upstream => (serverContextLabel, serverKeyLabel)
  | .downstream => (clientContextLabel, clientKeyLabel)

/-- `ExportedAuthenticator::getAuthenticator`
(`fizz/extensions/exportedauth/ExportedAuthenticator.cpp:39-80`). -/
def getAuthenticator (t : Transport) (dir : Direction) (cert : Own) (request : Bytes) : Res Bytes := do
  let h ← t.hasher
  let (contextLabel, keyLabel) := makeLabels dir
  let handshakeContext ← t.exportKey h contextLabel
  let finishedMacKey ← t.exportKey h keyLabel
  makeAuthenticator h t.sigSchemes cert request (handshakeContext.getD []) finishedMacKey
    .authenticator

/-- `ExportedAuthenticator::validateAuthenticator`
(`fizz/extensions/exportedauth/ExportedAuthenticator.cpp:99-138`). -/
def validateAuthenticator {K} (o : Ossl K) (t : Transport) (dir : Direction)
    (request authenticator : Bytes) : Res (Option (List CertificateEntry)) := do
  let h ← t.hasher
  let (contextLabel, keyLabel) := validateLabels dir
  let handshakeContext ← t.exportKey h contextLabel
  let finishedMacKey ← t.exportKey h keyLabel
  validate o h request authenticator (handshakeContext.getD []) finishedMacKey .authenticator

end Fizz.ExportedAuth

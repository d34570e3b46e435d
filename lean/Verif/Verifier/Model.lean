import Verif.Codec.Extensions

/-!
# C93: the default certificate verifier

Model of `fizz/backend/openssl/certificate/OpenSSLCertificateVerifier.cpp` and `.h`, and of the verifiers
of `fizz/tool/CertificateVerifiers.h`.  X.509 path validation itself (`X509_verify_cert`) is a parameter, as
are the OpenSSL calls that can fail.  `C` is the type of peer certificates, `X` of `X509`, `S` of
`X509_STORE`, `F` of verify callbacks.
-/

namespace Fizz.Verifier
open Fizz Fizz.Codec

/-- The result codes of `X509_verify_cert` that `toTLSAlert` tells apart. -/
inductive VErr
  | certRevoked | certNotYetValid | certHasExpired | certChainTooLong | depthZeroSelfSigned
  | pathLengthExceeded | invalidCa | selfSignedInChain | unableToGetIssuer | unableToGetIssuerLocally
  | other (code : Int)
  deriving DecidableEq

/-- `toTLSAlert` (`OpenSSLCertificateVerifier.cpp:24-49`); the numbers are those of
`AlertDescription` (`fizz/record/Types.h`). -/
def toTLSAlert : VErr → UInt8
  | .certRevoked => 44
  | .certNotYetValid | .certHasExpired => 45
  | .certChainTooLong | .depthZeroSelfSigned | .pathLengthExceeded | .invalidCa | .selfSignedInChain
  | .unableToGetIssuer | .unableToGetIssuerLocally => 48
  | .other _ => 42

/-- `VerificationContext` (`fizz/protocol/CertificateVerifier.h:23`). -/
inductive Context
  | client
  | server
  deriving DecidableEq

/-- The OpenSSL calls of `verifyWithX509StoreCtx` that can fail for lack of memory or the like. -/
inductive Call
  | skNew | ctxNew | ctxInit | setDefault | paramNew | setFlags | set1
  deriving DecidableEq

/-- What `X509_verify_cert` is given: store, certificate, untrusted certificates, the name of the default
parameters (which sets the purpose), whether `X509_V_FLAG_X509_STRICT` is set, and the callback. -/
structure Query (X S F : Type) where
  store : S
  leaf : X
  untrusted : List X
  purpose : String
  strict : Bool
  callback : Option F

/-- An entry of a store: a certificate or something else (a revocation list). -/
inductive Entry (X : Type)
  | cert (x : X)
  | other

/-- The library, during one call. -/
structure Lib (C X S F : Type) where
  /-- `getX509` (`OpenSSLCertificateVerifier.cpp:112-138`): `none` if the peer's certificate is not an
  OpenSSL one (possible only without `FIZZ_CERTIFICATE_USE_OPENSSL_CERT`). -/
  getX509 : C → Option X
  fails : Call → Bool
  /-- `X509_verify_cert`; `none` is success. -/
  verifyCert : Query X S F → Option VErr
  /-- `X509_verify_cert_error_string`. -/
  errorString : VErr → String
  /-- `X509_STORE_get0_objects`. -/
  objects : S → List (Entry X)
  /-- `i2d_X509_NAME` of `X509_get_subject_name`; `none` on failure. -/
  subject : X → Option Bytes
  /-- `X509_STORE_new` and `X509_STORE_set_default_paths`. -/
  newDefaultStore : Res S

/-- `getDefaultX509Store` (`OpenSSLCertificateVerifier.cpp:260-284`): the store of the process, made by the
first call that succeeds.  `cache` is the static `defaultStore`; concurrent first calls are serialised by
`try_call_once` and not modelled otherwise. -/
def getDefaultStore {C X S F} (l : Lib C X S F) (cache : Option S) : Res S × Option S :=
  match cache with
  | some s => (.ok s, cache)
  | none =>
    match l.newDefaultStore with
    | .ok s => (.ok s, some s)
    | .error f => (.error f, none)

/-- `OpenSSLCertificateVerifier` (`OpenSSLCertificateVerifier.h:110-114`). -/
structure V (S F : Type) where
  context : Context
  store : Option S
  authorities : List Bytes
  callback : Option F := none

/-- The store in use (`OpenSSLCertificateVerifier.cpp:172-177`). -/
def storeInUse {C X S F} (l : Lib C X S F) (store : Option S) (cache : Option S) : Res S × Option S :=
  match store with
  | some s => (.ok s, cache)
  | none => getDefaultStore l cache

/-- The loop over the chain (`OpenSSLCertificateVerifier.cpp:148-154`). -/
def getX509s {C X S F} (l : Lib C X S F) : List C → Res (List X)
  | [] => .ok []
  | c :: cs =>
    match l.getX509 c with
    | none => .error
        (Failure.rt "unsupported peer certificate type given in OpenSSLCertificateVerifier")
    | some x => do
      let xs ← getX509s l cs
      pure (x :: xs)

/-- A call of OpenSSL. -/
def call {C X S F} (l : Lib C X S F) (c : Call) (f : Failure) : Res Unit :=
  if l.fails c then .error f else .ok ()

/-- `std::bad_alloc`. -/
def badAlloc : Failure := .err "" none .stdBadAlloc

/-- The rest of `verifyWithX509StoreCtx` after the store is known
(`OpenSSLCertificateVerifier.cpp:178-224`). -/
def verifyWith {C X S F} (l : Lib C X S F) (v : V S F) (store : S) (leaf : X) (rest : List X) :
    Res Unit := do
  call l .ctxInit (Failure.rt "failed to initialize store context")
  call l .setDefault (Failure.rt "failed to set default verification method")
  call l .paramNew badAlloc
  call l .setFlags (Failure.rt "failed to set strict certificate checking")
  call l .set1 (Failure.rt "failed to apply verification parameters")
  match l.verifyCert ⟨store, leaf, rest,
      if v.context = .server then "ssl_client" else "ssl_server", true, v.callback⟩ with
  | none => pure ()
  | some e => .error (.err ("certificate verification failed: " ++ l.errorString e)
      (some (toTLSAlert e)) .verifier)

/-- `verifyWithX509StoreCtx` (`OpenSSLCertificateVerifier.cpp:140-228`), with the process's default store
before and after. -/
def verifyWithCtx {C X S F} (l : Lib C X S F) (v : V S F) (cache : Option S) (certs : List C) :
    Res Unit × Option S :=
  match certs with
  | [] => (.error (Failure.rt "no certificates to verify"), cache)
  | c :: cs =>
    match getX509s l (c :: cs) with
    | .error f => (.error f, cache)
    | .ok [] => (.error (Failure.ub "x509s[0]"), cache)
    | .ok (leaf :: rest) =>
      match call l .skNew badAlloc, call l .ctxNew badAlloc with
      | .error f, _ => (.error f, cache)
      | .ok _, .error f => (.error f, cache)
      | .ok _, .ok _ =>
        match storeInUse l v.store cache with
        | (.error f, cache) => (.error f, cache)
        | (.ok s, cache) => (verifyWith l v s leaf rest, cache)

/-- `verify` (`OpenSSLCertificateVerifier.cpp:101-110`). -/
def verify {C X S F} (l : Lib C X S F) (v : V S F) (cache : Option S) (certs : List C) :
    Res (Option C) × Option S :=
  match verifyWithCtx l v cache certs with
  | (.error f, cache) => (.error f, cache)
  | (.ok _, cache) =>
    match certs with
    | [] => (.error (Failure.ub "front() of an empty vector"), cache)
    | c :: _ => (.ok (some c), cache)

/-- `createAuthorities` (`OpenSSLCertificateVerifier.cpp:230-258`). -/
def createAuthorities {C X S F} (l : Lib C X S F) : List (Entry X) → Res (List Bytes)
  | [] => .ok []
  | .other :: es => createAuthorities l es
  | .cert x :: es =>
    match l.subject x with
    | none => .error (Failure.rt "Error computing DN length")
    | some d => do
      let ds ← createAuthorities l es
      pure (d :: ds)

/-- `create` (`OpenSSLCertificateVerifier.cpp:51-69`). -/
def create {C X S F} (l : Lib C X S F) (cache : Option S) (context : Context) (store : Option S) :
    Res (V S F) × Option S :=
  match storeInUse l store cache with
  | (.error f, cache) => (.error f, cache)
  | (.ok s, cache) =>
    match createAuthorities l (l.objects s) with
    | .error f => (.error f, cache)
    | .ok a => (.ok { context, store, authorities := a }, cache)

/-- `setX509Store` (`OpenSSLCertificateVerifier.h:79-88`): the store is in place before the authorities are
computed, whatever comes of that. -/
def setX509Store {C X S F} (l : Lib C X S F) (v : V S F) (cache : Option S) (store : Option S) :
    Res Unit × V S F × Option S :=
  let v := { v with store }
  match storeInUse l store cache with
  | (.error f, cache) => (.error f, v, cache)
  | (.ok s, cache) =>
    match createAuthorities l (l.objects s) with
    | .error f => (.error f, v, cache)
    | .ok a => (.ok (), { v with authorities := a }, cache)

/-- `getCertificateRequestExtensions` (`OpenSSLCertificateVerifier.cpp:286-296`). -/
def getCertificateRequestExtensions {S F} (v : V S F) : Res (List Extension) := do
  let e ← encodeCertificateAuthorities ⟨v.authorities.map fun d => ⟨d⟩⟩
  pure [e]

/-- `StoreCertificateChain` (`fizz/tool/CertificateVerifiers.h:49-81`) around another verifier: the stored
chain and the answer. -/
def storeChainVerify {C} (inner : List C → Res (Option C)) (certs : List C) :
    Res (Option C) × List C :=
  (inner certs, certs)

/-- `InsecureCertificateVerifier::verify` (`fizz/protocol/CertificateVerifier.h:97-106`). -/
def insecureVerify {C} : List C → Res (Option C)
  | [] => .ok none
  | c :: _ => .ok (some c)

/-- `TerminatingCertificateVerifier::verify` (`fizz/protocol/CertificateVerifier.h:67-76`). -/
def terminatingVerify {C} (_ : List C) : Res (Option C) := .error .abort

/-! ## A verifier in use -/

/-- A call on the verifier. -/
inductive Op (C S F : Type)
  | verify (certs : List C)
  | setStore (store : Option S)
  | setCallback (cb : Option F)

/-- One call with the library's answers during it: what the caller sees, the verifier and the process's
default store after it. -/
def step {C X S F} (l : Lib C X S F) (v : V S F) (cache : Option S) :
    Op C S F → Option (Res (Option C)) × V S F × Option S
  | .verify certs =>
    let (r, cache) := verify l v cache certs
    (some r, v, cache)
  | .setStore s =>
    let (_, v, cache) := setX509Store l v cache s
    (none, v, cache)
  | .setCallback cb => (none, { v with callback := cb }, cache)

/-- A history of calls, oldest first. -/
def run {C X S F} (v : V S F) (cache : Option S) : List (Lib C X S F × Op C S F) → V S F × Option S
  | [] => (v, cache)
  | (l, o) :: os =>
    let (_, v, cache) := step l v cache o
    run v cache os

end Fizz.Verifier

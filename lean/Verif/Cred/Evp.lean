import Verif.Cred.Sign

/-!
# The OpenSSL calls behind signing and verifying

Model of `fizz/backend/openssl/crypto/signature/Signature.cpp` and of `OpenSSLSignature<T>::sign` / `verify` in
`Signature-inl.h`: which OpenSSL functions are called, in which order, with which arguments, and what is made of their
return codes.  OpenSSL is an oracle that may answer every call in any way, depending on all calls made before; what its
answers mean is said in `EvpSpec.lean`.
-/

namespace Fizz.Cred.Evp
open Fizz.Cred (KeyType)

/-- The digests named by `NID_sha256`, `NID_sha384`, `NID_sha512`. -/
inductive Hash where
  | sha256 | sha384 | sha512
  deriving DecidableEq, Repr

/-- The OpenSSL functions used, with the arguments that matter. -/
inductive Call (K : Type) where
  | signInit (h : Hash)
  | signUpdate (data : Bytes)
  | signFinal (key : K)
  | verifyInit (h : Hash)
  | verifyUpdate (data : Bytes)
  | verifyFinal (signature : Bytes) (key : K)
  | digestSignInit (h : Option Hash) (key : K)
  | digestVerifyInit (h : Option Hash) (key : K)
  | setRsaPadding (padding : Int)
  | setPssSaltlen (len : Int)
  | digestSignUpdate (data : Bytes)
  | digestVerifyUpdate (data : Bytes)
  | digestSignFinal
  | digestVerifyFinal (signature : Bytes)
  | digestSign (data : Bytes)
  | digestVerify (signature data : Bytes)

/-- OpenSSL: whether `EVP_MD_CTX_new` and `EVP_get_digestbynid` give anything, `EVP_PKEY_size`, and for the calls made on
one context so far (the last one last) the return code of the last, and what it has written if it is one that signs. -/
structure Lib (K : Type) where
  ctxNew : Bool
  digest : Hash → Bool
  size : K → Nat
  rc : List (Call K) → Int
  out : List (Call K) → Bytes

variable {K : Type}

/-- A call of which everything but 1 is a failure (`!= 1`). -/
def one (l : Lib K) (before : List (Call K)) (c : Call K) (msg : String) : Res (List (Call K)) :=
  if l.rc (before ++ [c]) ≠ 1 then .error (Failure.rt msg) else .ok (before ++ [c])

/-- A call of which everything that is not positive is a failure (`<= 0`). -/
def positive (l : Lib K) (before : List (Call K)) (c : Call K) (msg : String) : Res (List (Call K)) :=
  if l.rc (before ++ [c]) ≤ 0 then .error (Failure.rt msg) else .ok (before ++ [c])

/-- `EVP_MD_CTX_new` and the check of it (`Signature.cpp:36-40`, `68-72`, `96-100`, `127-131`, `160-164`, `204-208`);
OpenSSL's own error text is left out of the message. -/
def newCtx (l : Lib K) : Res Unit :=
  if l.ctxNew = false then .error (Failure.rt "Could not allocate EVP_MD_CTX") else .ok ()

/-- `getHash` (`fizz/backend/openssl/crypto/signature/Signature.cpp:21-28`). -/
def getHash (l : Lib K) (h : Hash) : Res Unit :=
  if l.digest h = false then .error (Failure.rt "Invalid hash. Have you initialized openssl?") else .ok ()

/-- The buffer of `EVP_PKEY_size` bytes the signature is written to, cut to what was written (`Signature.cpp:52-59`,
`105-123`, `182-189`). -/
def written (l : Lib K) (key : K) (calls : List (Call K)) : Res Bytes :=
  if (l.out calls).length > l.size key then .error (Failure.ub "signature longer than its buffer")
  else .ok (l.out calls)

/-- `ecSign` (`fizz/backend/openssl/crypto/signature/Signature.cpp:30-61`). -/
def ecSign (l : Lib K) (data : Bytes) (key : K) (h : Hash) : Res Bytes := do
  newCtx l
  getHash l h
  let c ← one l [] (.signInit h) "Could not initialize signature"
  let c ← one l c (.signUpdate data) "Could not sign data "
  let c ← one l c (.signFinal key) "Failed to sign"
  written l key c

/-- `ecVerify` (`fizz/backend/openssl/crypto/signature/Signature.cpp:63-89`). -/
def ecVerify (l : Lib K) (data signature : Bytes) (key : K) (h : Hash) : Res Unit := do
  getHash l h
  newCtx l
  let c ← one l [] (.verifyInit h) "Could not initialize verification"
  let c ← one l c (.verifyUpdate data) "Could not update verification"
  let _ ← one l c (.verifyFinal signature key) "Signature verification failed"
  pure ()

/-- `edSign` (`fizz/backend/openssl/crypto/signature/Signature.cpp:91-124`). -/
def edSign (l : Lib K) (data : Bytes) (key : K) : Res Bytes := do
  newCtx l
  let c ← one l [] (.digestSignInit none key) "Could not initialize digest signature"
  let c ← one l c (.digestSign data) "Failed to sign"
  written l key c

/-- `edVerify` (`fizz/backend/openssl/crypto/signature/Signature.cpp:126-151`). -/
def edVerify (l : Lib K) (data signature : Bytes) (key : K) : Res Unit := do
  newCtx l
  let c ← one l [] (.digestVerifyInit none key) "Could not initialize digest signature"
  let _ ← one l c (.digestVerify signature data) "Signature verification failed"
  pure ()

/-- `RSA_PKCS1_PSS_PADDING`. -/
def pssPadding : Int := 6

/-- `rsaPssSign` (`fizz/backend/openssl/crypto/signature/Signature.cpp:153-191`). -/
def rsaPssSign (l : Lib K) (data : Bytes) (key : K) (h : Hash) : Res Bytes := do
  getHash l h
  newCtx l
  let c ← one l [] (.digestSignInit (some h) key) "Could not initialize signature"
  let c ← positive l c (.setRsaPadding pssPadding) "Could not set pss padding"
  let c ← positive l c (.setPssSaltlen (-1)) "Could not set pss salt length"
  let c ← one l c (.digestSignUpdate data) "Could not update signature"
  let c ← one l c .digestSignFinal "Failed to sign"
  written l key c

/-- `rsaPssVerify` (`fizz/backend/openssl/crypto/signature/Signature.cpp:193-237`). -/
def rsaPssVerify (l : Lib K) (data signature : Bytes) (key : K) (h : Hash) : Res Unit := do
  getHash l h
  newCtx l
  let c ← one l [] (.digestVerifyInit (some h) key) "Could not initialize verification"
  let c ← positive l c (.setRsaPadding pssPadding) "Could not set pss padding"
  let c ← positive l c (.setPssSaltlen (-1)) "Could not set pss salt length"
  let c ← one l c (.digestVerifyUpdate data) "Could not update verification"
  let _ ← one l c (.digestVerifyFinal signature) "Signature verification failed"
  pure ()

/-- `SigAlg<Scheme>::HashNid` for the scheme of a key type (`Signature-inl.h:62-84`); there is none for Ed25519. -/
def hashNid : KeyType → Hash
  | .rsa => .sha256
  | .p256 => .sha256
  | .p384 => .sha384
  | .p521 => .sha512
  | .ed25519 => .sha512

/-- `OpenSSLSignature<Type>::sign<Scheme>` (`fizz/backend/openssl/crypto/signature/Signature-inl.h:86-122`).  Only the
scheme of the key type can be instantiated (`static_assert`). -/
def sign (l : Lib K) (t : KeyType) (key : K) (data : Bytes) : Res Bytes :=
  match t with
  | .p256 | .p384 | .p521 => ecSign l data key (hashNid t)
  | .rsa => rsaPssSign l data key (hashNid t)
  | .ed25519 => edSign l data key

/-- `OpenSSLSignature<Type>::verify<Scheme>` (`fizz/backend/openssl/crypto/signature/Signature-inl.h:124-161`). -/
def verify (l : Lib K) (t : KeyType) (key : K) (data signature : Bytes) : Res Unit :=
  match t with
  | .p256 | .p384 | .p521 => ecVerify l data signature key (hashNid t)
  | .rsa => rsaPssVerify l data signature key (hashNid t)
  | .ed25519 => edVerify l data signature key

end Fizz.Cred.Evp

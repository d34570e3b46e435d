import Verif.Ech.Outer
import Verif.Ech.Types
import Verif.Hpke.Model

/-!
# Sealing and opening the inner ClientHello, and the server's decrypter

Model of `fizz/protocol/ech/Encryption.cpp` (`26-96`, `98-285`, `557-867`), `fizz/protocol/ech/Decrypter.cpp`
and the identifier tables of `fizz/crypto/hpke/Utils.{h,cpp}`.
-/

namespace Fizz.Ech
open Fizz Fizz.Codec Fizz.Crypto Fizz.Kex Fizz.Hpke

/-! ## Identifiers -/

/-- `HashFunction` (`fizz/crypto/Crypto.h`), as far as the key schedules use it. -/
inductive HashFn | sha256 | sha384 | sha512
  deriving DecidableEq, Repr

/-- `getKDFId` (`fizz/crypto/hpke/Utils.cpp:67-82`). -/
def kdfId : HashFn → UInt16
  | .sha256 => 1
  | .sha384 => 2
  | .sha512 => 3

/-- `getAeadId` (`fizz/crypto/hpke/Utils.cpp:84-104`). -/
def aeadId (cipher : UInt16) : Res UInt16 :=
  if cipher = 0x1301 then .ok 1
  else if cipher = 0x1302 then .ok 2
  else if cipher = 0x1303 then .ok 3
  else .error (Failure.rt "ciphersuite: not implemented")

/-- `getKexGroup` (`fizz/crypto/hpke/Utils.cpp:106-123`). -/
def kexGroup (kem : UInt16) : Res UInt16 :=
  if kem = 0x10 then .ok 23
  else if kem = 0x11 then .ok 24
  else if kem = 0x12 then .ok 25
  else if kem = 0x20 then .ok 29
  else .error (Failure.rt "can't make key exchange: not implemented")

/-- `getHashFunction(KDFId)` (`fizz/crypto/hpke/Utils.cpp:144-158`). -/
def hashFunction (kdf : UInt16) : Res HashFn :=
  if kdf = 1 then .ok .sha256
  else if kdf = 2 then .ok .sha384
  else if kdf = 3 then .ok .sha512
  else .error (Failure.rt "kdf: not implemented")

/-- `getCipherSuite` (`fizz/crypto/hpke/Utils.cpp:160-174`). -/
def cipherSuite (aead : UInt16) : Res UInt16 :=
  if aead = 1 then .ok 0x1301
  else if aead = 2 then .ok 0x1302
  else if aead = 3 then .ok 0x1303
  else .error (Failure.rt "ciphersuite: not implemented")

/-- `getHashFunction(CipherSuite)` (`fizz/protocol/Types.cpp:13-31`), for the suites that `cipherSuite` gives
(the AEGIS ones have no HPKE identifier and cannot get here). -/
def suiteHash (cipher : UInt16) : Res HashFn :=
  if cipher = 0x1301 then .ok .sha256
  else if cipher = 0x1303 then .ok .sha256
  else if cipher = 0x1302 then .ok .sha384
  else .error (Failure.rt "unknown cipher suite")

/-- `getCipherOverhead` (`fizz/crypto/hpke/Utils.h:184-197`). -/
def cipherOverhead (aead : UInt16) : Res Nat :=
  if aead = 1 then .ok 16
  else if aead = 2 then .ok 16
  else if aead = 3 then .ok 16
  else .error (Failure.rt "invalid aead")

/-- `generateHpkeSuiteId` (`fizz/crypto/hpke/Utils.cpp:14-27`). -/
def hpkeSuiteId (group : UInt16) (hash : HashFn) (cipher : UInt16) : Res Bytes := do
  let kem ← dhkemId group
  let aead ← aeadId cipher
  pure (Hpke.suiteId kem (kdfId hash) aead)

/-- The factory: its hash functions and AEADs (`fizz/protocol/Factory.h`). -/
structure Prims where
  hash : HashFn → Res HashAlg
  cipher : UInt16 → Res Cipher

/-! ## HPKE contexts -/

/-- `makeHpkeContextInfoParam` (`fizz/protocol/ech/Encryption.cpp:77-96`). -/
def infoParam (c : ConfigContent) : Res Bytes := do
  let content ← encodeConfigContent c
  let config ← writeConfig ⟨draft15, content⟩
  pure (lit "tls ech" ++ [0] ++ config)

/-- `NegotiatedECHConfig` (`fizz/protocol/ech/Encryption.h:20-25`). -/
structure Negotiated where
  config : ConfigContent
  configId : UInt8
  maxLen : UInt16
  suite : Suite
  deriving DecidableEq, Repr

variable {K : Kex}

/-- `getSetupParam` (`fizz/protocol/ech/Encryption.cpp:206-239`). -/
def getSetupParam (P : Prims) (dhkem : Dhkem K) (kem : UInt16) (s : Suite) : Res (SetupParam K) := do
  let group ← kexGroup kem
  let hash ← hashFunction s.kdf
  let cs ← cipherSuite s.aead
  let suiteId ← hpkeSuiteId group hash cs
  let H ← P.hash hash
  let cipher ← P.cipher cs
  pure ⟨dhkem, cipher, .v1 H, suiteId, 0⟩

/-- `constructHpkeSetupResult` (`fizz/protocol/ech/Encryption.cpp:241-285`): the encapsulated key and the
sender's context. -/
def setupSender (P : Prims) (kex : K.State) (gen use : K.Rand) (n : Negotiated) : Res (Bytes × Context) := do
  let hash ← hashFunction n.suite.kdf
  let H ← P.hash hash
  let group ← kexGroup n.config.key.kemId
  let info ← infoParam n.config
  let p ← getSetupParam P ⟨kex, none, group, .v1 H⟩ n.config.key.kemId n.suite
  setupWithEncap .base gen use use n.config.key.publicKey info none p

/-- `setupDecryptionContext` (`fizz/protocol/ech/Encryption.cpp:813-867`). -/
def setupReceiver (P : Prims) (kex : K.State) (use : K.Rand) (c : ConfigContent) (s : Suite) (enc : Bytes)
    (seq : UInt64) : Res Context := do
  let group ← kexGroup c.key.kemId
  let hash ← hashFunction s.kdf
  let H ← P.hash hash
  let cs ← cipherSuite s.aead
  let suiteId ← hpkeSuiteId group hash cs
  let cipher ← P.cipher cs
  let H2 ← P.hash hash
  let info ← infoParam c
  setupWithDecap .base use use enc none info none ⟨⟨kex, none, group, .v1 H⟩, cipher, .v1 H2, suiteId, seq⟩

/-! ## Sealing -/

/-- The SNI part of `calculateECHPadding` (`fizz/protocol/ech/Encryption.cpp:563-579`). -/
def namePadding (maxLen : Nat) : Option ServerNameList → Res Nat
  | some sni =>
    match sni.server_name_list with
    | [] => .error .outOfRange
    | n :: _ => .ok (if n.hostname.length < maxLen then maxLen - n.hostname.length else 0)
  | none => .ok (maxLen + 9)

/-- `calculateECHPadding` (`fizz/protocol/ech/Encryption.cpp:557-585`).  `currentLen - 1` wraps around in C++
when the length is 0; `(x + 31) % 32` is `(x - 1) % 32` on 64-bit words. -/
def echPadding (chlo : ClientHello) (encodedSize maxLen : Nat) : Res Nat := do
  let sni ← getServerNameList chlo.extensions
  let padding ← namePadding maxLen sni
  pure (padding + (31 - (encodedSize + padding + 31) % 32))

/-- The GREASE PSK in the hello used as AAD (`fizz/protocol/ech/Encryption.cpp:685-689`). -/
def optPsk : Option ClientPresharedKey → Res (List Extension)
  | none => .ok []
  | some g => do
    let e ← encodeClientPresharedKey g
    pure [e]

/-- The encoded and padded inner hello (`fizz/protocol/ech/Encryption.cpp:638-662`). -/
def encodeInner (inner : ClientHello) (maxLen : Nat) (outerTypes : List UInt16) : Res Bytes := do
  let exts ← generateOuter inner.extensions outerTypes
  let encoded ← encodeClientHello { inner with legacy_session_id := [], extensions := exts }
  let padding ← echPadding inner encoded.length maxLen
  pure (encoded ++ List.replicate padding 0)

/-- The outcome of sealing with a context. -/
def sealed (c : Call) : Res (Bytes × Context) := do
  let ct ← c.result
  pure (ct, c.after)

/-- `encryptClientHelloImpl` (`fizz/protocol/ech/Encryption.cpp:629-702`): the extension with its payload, and
the context afterwards. -/
def encryptImpl (e : OuterEch) (inner outer : ClientHello) (ctx : Context) (grease : Option ClientPresharedKey)
    (maxLen : Nat) (outerTypes : List UInt16) : Res (OuterEch × Context) := do
  let padded ← encodeInner inner maxLen outerTypes
  let overhead ← cipherOverhead e.suite.aead
  let ext1 ← encodeOuterEch { e with payload := List.replicate (padded.length + overhead) 0 }
  let ext2 ← optPsk grease
  let aad ← encodeClientHello { outer with extensions := outer.extensions ++ [ext1] ++ ext2 }
  let (ct, ctx') ← sealed (ctx.sealMsg aad padded)
  pure ({ e with payload := ct }, ctx')

/-- `encryptClientHello` (`fizz/protocol/ech/Encryption.cpp:732-758`). -/
def encryptFirst (n : Negotiated) (enc : Bytes) (ctx : Context) (outerTypes : List UInt16)
    (inner outer : ClientHello) (grease : Option ClientPresharedKey) : Res (OuterEch × Context) :=
  encryptImpl ⟨n.suite, n.configId, enc, []⟩ inner outer ctx grease n.maxLen.toNat outerTypes

/-- `encryptClientHelloHRR` (`fizz/protocol/ech/Encryption.cpp:706-730`). -/
def encryptRetry (n : Negotiated) (ctx : Context) (outerTypes : List UInt16)
    (inner outer : ClientHello) (grease : Option ClientPresharedKey) : Res (OuterEch × Context) :=
  encryptImpl ⟨n.suite, n.configId, [], []⟩ inner outer ctx grease n.maxLen.toNat outerTypes

/-! ## Opening -/

/-- Find the first ECH extension and zero its payload (`fizz/protocol/ech/Encryption.cpp:33-50`).  Bytes after
the parsed structure are dropped.  `std::find_if` returning `end()` is dereferenced. -/
def zeroPayload : List Extension → Res (List Extension)
  | [] => .error (.ub "dereference of end()")
  | x :: xs =>
    if x.extension_type = tyEch then do
      let (e, _) ← readOuterEch x.extension_data
      let z ← encodeOuterEch { e with payload := List.replicate e.payload.length 0 }
      pure (z :: xs)
    else do
      let r ← zeroPayload xs
      pure (x :: r)

/-- `makeClientHelloOuterForAad` (`fizz/protocol/ech/Encryption.cpp:26-56`). -/
def outerAad (outer : ClientHello) : Res Bytes := do
  let exts ← zeroPayload outer.extensions
  encodeClientHello { outer with extensions := exts }

/-- The padding after the inner hello (`fizz/protocol/ech/Encryption.cpp:785-789`). -/
def checkPadding (rest : Bytes) : Res Unit :=
  if rest.all (· == 0) then .ok () else .error (Failure.rt "ech padding contains nonzero byte")

/-- The inner hello, its encoding and the context afterwards. -/
structure Opened where
  chlo : ClientHello
  encoding : Bytes
  context : Context

/-- The plaintext to the inner hello and its encoding (`fizz/protocol/ech/Encryption.cpp:779-811`). -/
def decodeInner (outer : ClientHello) (pt : Bytes) : Res (ClientHello × Bytes) := do
  let (chlo, rest) ← readClientHello pt
  checkPadding rest
  let exts ← substituteOuter chlo.extensions outer.extensions
  let inner : ClientHello := { chlo with legacy_session_id := outer.legacy_session_id, extensions := exts }
  let encoding ← encodeHandshake (.clientHello inner)
  pure (inner, encoding)

/-- `decryptECHWithContext` (`fizz/protocol/ech/Encryption.cpp:58-75`, `760-811`).  When it fails after the
message has been opened the context has moved on; its owner does not use it again. -/
def decryptWith (outer : ClientHello) (payload : Bytes) (ctx : Context) : Res Opened := do
  let aad ← outerAad outer
  let (pt, ctx') ← sealed (ctx.openMsg aad payload)
  let (inner, encoding) ← decodeInner outer pt
  pure ⟨inner, encoding, ctx'⟩

/-! ## The decrypter -/

/-- `DecrypterParams` (`fizz/protocol/ech/Decrypter.h`).  `KeyExchange::clone` is taken to succeed and to give
the same key. -/
structure DecParam (K : Kex) where
  config : ConfigContent
  kex : K.State

/-- `decodeAndGetParam` (`fizz/protocol/ech/Decrypter.cpp:29-49`). -/
def lookup (x : Extension) (params : List (DecParam K)) : Res (Option (OuterEch × DecParam K)) := do
  let (e, _) ← readOuterEch x.extension_data
  pure ((params.find? fun p => e.configId == p.config.key.configId).map fun p => (e, p))

/-- `DecrypterResult` (`fizz/protocol/ech/Decrypter.h:22-26`). -/
structure Decrypted where
  opened : Opened
  configId : UInt8

/-- The `catch` clauses of `tryToDecodeECH` (`fizz/protocol/ech/Decrypter.cpp:100-107`). -/
def caught {α} : Res α → Res (Option α)
  | .ok a => .ok (some a)
  | .error (.err m _ .outerExtensions) => .error (Failure.fizz m (some 47))
  | .error .abort => .error .abort
  | .error (.ub w) => .error (.ub w)
  | .error _ => .ok none

/-- The `try` block (`fizz/protocol/ech/Decrypter.cpp:68-99`). -/
def tryOpen (P : Prims) (use : K.Rand) (outer : ClientHello) (e : OuterEch) (p : DecParam K) : Res Decrypted := do
  let ctx ← setupReceiver P p.kex use p.config e.suite e.enc 0
  let o ← decryptWith outer e.payload ctx
  pure ⟨o, e.configId⟩

/-- `tryToDecodeECH` (`fizz/protocol/ech/Decrypter.cpp:51-108`). -/
def tryDecode (P : Prims) (params : List (DecParam K)) (use : K.Rand) (outer : ClientHello) (x : Extension) :
    Res (Option Decrypted) := do
  match ← lookup x params with
  | none => pure none
  | some (e, p) => caught (tryOpen P use outer e p)

/-- `ECHConfigManager::decryptClientHello` (`fizz/protocol/ech/Decrypter.cpp:190-203`). -/
def decryptHello (P : Prims) (params : List (DecParam K)) (use : K.Rand) (outer : ClientHello) :
    Res (Option Decrypted) :=
  match findExtension outer.extensions tyEch with
  | some x => tryDecode P params use outer x
  | none => .ok none

/-- The `catch` clause of `decodeClientHelloHRR` (`fizz/protocol/ech/Decrypter.cpp:179-181`). -/
def rethrown {α} : Res α → Res α
  | .error (.err m _ .outerExtensions) => .error (Failure.fizz m (some 47))
  | r => r

/-- The context of the second hello: the one kept, or made again from the encapsulated key
(`fizz/protocol/ech/Decrypter.cpp:133-164`).  With neither the null pointer `encapsulatedKey` is
dereferenced. -/
def retryContext (P : Prims) (use : K.Rand) (e : OuterEch) (p : DecParam K) : Option Context → Option Bytes → Res Context
  | some c, _ => .ok c
  | none, some enc => setupReceiver P p.kex use p.config e.suite enc 1
  | none, none => .error (.ub "null encapsulated key")

/-- The `try` block (`fizz/protocol/ech/Decrypter.cpp:132-178`). -/
def retryOpen (P : Prims) (use : K.Rand) (outer : ClientHello) (ctx : Option Context) (enc : Option Bytes)
    (e : OuterEch) (p : DecParam K) : Res Opened := do
  let c ← retryContext P use e p ctx enc
  decryptWith outer e.payload c

/-- `decodeClientHelloHRR` and the two `decryptClientHelloHRR` (`fizz/protocol/ech/Decrypter.cpp:110-182`,
`205-223`). -/
def decryptHelloHrr (P : Prims) (params : List (DecParam K)) (use : K.Rand) (outer : ClientHello)
    (ctx : Option Context) (enc : Option Bytes) : Res Opened :=
  match findExtension outer.extensions tyEch with
  | none => .error (Failure.fizz "ech not sent for hrr" (some 109))
  | some x => do
    match ← lookup x params with
    | none => .error (Failure.fizz "failed to decrypt hrr ech" (some 51))
    | some (e, p) => rethrown (retryOpen P use outer ctx enc e p)

/-- The retry configurations: those whose public name is the SNI first
(`fizz/protocol/ech/Decrypter.cpp:225-252`). -/
def retryConfig (c : ConfigContent) : Res Config := do
  let content ← encodeConfigContent c
  pure ⟨draft15, content⟩

def retryLoop (sni : Option Bytes) : List ConfigContent → Res (List Config × List Config)
  | [] => .ok ([], [])
  | c :: cs => do
    let x ← retryConfig c
    let (m, n) ← retryLoop sni cs
    pure (if sni = some c.publicName then (x :: m, n) else (m, x :: n))

def getRetryConfigs (params : List (DecParam K)) (sni : Option Bytes) : Res (List Config) := do
  let (m, n) ← retryLoop sni (params.map (·.config))
  pure (m ++ n)

/-! ## Choosing a configuration -/

/-- `echConfigHasMandatoryExtension` (`fizz/protocol/ech/Encryption.cpp:135-144`). -/
def hasMandatory (c : ConfigContent) : Bool := c.extensions.any fun x => x.extension_type &&& 0x8000 != 0

/-- `std::isalnum(c) || c == '-'` in the C locale (`fizz/protocol/ech/Encryption.cpp:116-118`); `char` values
above 127 are negative there and `isalnum` of them, undefined in C, is taken to be false. -/
def ldh (b : UInt8) : Bool :=
  (48 ≤ b && b ≤ 57) || (65 ≤ b && b ≤ 90) || (97 ≤ b && b ≤ 122) || b == 45

/-- `folly::split('.', name, parts, false)`. -/
def splitDots : Bytes → List Bytes
  | [] => [[]]
  | b :: bs =>
    match splitDots bs with
    | [] => [[b]]
    | p :: ps => if b = 46 then [] :: p :: ps else (b :: p) :: ps

/-- `isValidPublicName` (`fizz/protocol/ech/Encryption.cpp:98-122`). -/
def validName (n : Bytes) : Bool :=
  !n.isEmpty && n.head? != some 46 && n.getLast? != some 46 && (splitDots n).all fun p => !p.isEmpty && p.all ldh

/-- The suites of a configuration (`fizz/protocol/ech/Encryption.cpp:177-199`). -/
def chooseSuite (aeads : List UInt16) : List Suite → Res (Option Suite)
  | [] => .ok none
  | s :: ss =>
    if aeads.contains s.aead then do
      let cs ← cipherSuite s.aead
      let h ← suiteHash cs
      if s.kdf = kdfId h then pure (some s) else chooseSuite aeads ss
    else chooseSuite aeads ss

/-- `negotiateECHConfig` (`fizz/protocol/ech/Encryption.cpp:146-204`). -/
def negotiate (kems aeads : List UInt16) : List ConfigContent → Res (Option Negotiated)
  | [] => .ok none
  | c :: cs =>
    if hasMandatory c then negotiate kems aeads cs
    else if !validName c.publicName then negotiate kems aeads cs
    else if !kems.contains c.key.kemId then negotiate kems aeads cs
    else do
      match ← chooseSuite aeads c.key.suites with
      | some s => pure (some ⟨c, c.key.configId, c.maxNameLen.toUInt16, s⟩)
      | none => negotiate kems aeads cs

end Fizz.Ech

import Verif.Crypto.KexProps

/-!
# C87: the key exchanges the default factory makes

Model of `fizz/backend/openssl/crypto/exchange/OpenSSLKeyExchange.cpp`,
`fizz/backend/openssl/crypto/OpenSSLKeyUtils.cpp` and `MultiBackendFactory::makeKeyExchange`
(`fizz/protocol/MultiBackendFactory.cpp:21-75`).  The curve and KEM operations are parameters.
-/

namespace Fizz.Kex

/-- The OpenSSL operations on one curve.  `none` is a failure return code. -/
structure Ec where
  /-- a private key (`EVP_PKEY`) -/
  Priv : Type
  Point : Type
  /-- `EVP_PKEY_keygen` from the randomness it draws -/
  keygen : Bytes → Option Priv
  /-- `EC_KEY_check_key` and `EC_GROUP_cmp` succeed -/
  valid : Priv → Bool
  pub : Priv → Point
  /-- `EC_POINT_oct2point`, which accepts every encoding form -/
  oct2point : Bytes → Option Point
  onCurve : Point → Bool
  /-- `EC_POINT_point2oct` with `POINT_CONVERSION_UNCOMPRESSED`; empty on failure -/
  point2oct : Point → Bytes
  /-- `EVP_PKEY_derive_set_peer` and `EVP_PKEY_derive` -/
  derive : Priv → Point → Option Bytes

/-- `validateECKey` (`OpenSSLKeyUtils.cpp:27-47`), the three failures in one. -/
def Ec.validateECKey (e : Ec) (k : e.Priv) : Res Unit :=
  if e.valid k then .ok () else .error (Failure.rt "Private key not valid")

/-- `decodeECPublicKey` (`OpenSSLKeyUtils.cpp:119-153`): no test of the length or of the form. -/
def Ec.decodeECPublicKey (e : Ec) (range : Bytes) : Res e.Point :=
  match e.oct2point range with
  | none => .error (Failure.rt "Error decoding peer key")
  | some p => if e.onCurve p then .ok p else .error (Failure.rt "Peer key is not on curve")

/-- `encodeECPublicKey` (`OpenSSLKeyUtils.cpp:155-193`). -/
def Ec.encodeECPublicKey (e : Ec) (k : e.Priv) : Res Bytes :=
  if (e.point2oct (e.pub k)).length = 0 then .error (Failure.rt "Failed to encode key")
  else .ok (e.point2oct (e.pub k))

/-- `OpenSSLECKeyExchange::setPrivateKey` (`OpenSSLKeyExchange.cpp:72-78`). -/
def Ec.setPrivateKey (e : Ec) (k : e.Priv) : Res (Option e.Priv) := do
  e.validateECKey k
  pure (some k)

/-- `OpenSSLECKeyExchange` (`OpenSSLKeyExchange.cpp:34-111`); the state is the key, if there is one.
`len` is `keyShareLength_` (`fizz/crypto/Crypto.h:133-146`). -/
def ecKex (e : Ec) (len : Nat) : Kex where
  State := Option e.Priv
  Rand := Bytes
  -- `generateECKeyPair` (`OpenSSLKeyUtils.cpp:89-117`)
  generateKeyPair := fun _ r =>
    match e.keygen r with
    | none => .error (Failure.rt "Error generating key")
    | some k => do
      e.validateECKey k
      pure (some k)
  getKeyShare := fun s =>
    match s with
    | none => .error (Failure.rt "Key not initialized")
    | some k => e.encodeECPublicKey k
  -- the peer's key is decoded first, `OpenSSLKeyExchange.cpp:49-70`
  generateSharedSecret := fun s _ share => do
    let p ← e.decodeECPublicKey share
    match s with
    | none => .error (Failure.rt "Key not generated")
    | some k =>
      match e.derive k p with
      | none => .error (Failure.rt "Error deriving key")
      | some z => pure (z, some k)
  expected := fun _ => len

/-- The libraries behind the factory: `kem768`/`kem512` are absent if `OQS_KEM_new` fails, and
`haveOqs` is `FIZZ_HAVE_OQS`. -/
structure Lib where
  p256 : Ec
  p384 : Ec
  p521 : Ec
  x25519 : Curve
  haveOqs : Bool
  kem768 : Option Kem
  kem512 : Option Kem

/-- `KeyExchangeRole` (`fizz/protocol/Factory.h`). -/
inductive Role
  | client
  | server
  deriving DecidableEq

/-- A key exchange object as the factory returns it: the class and its initial state. -/
structure Obj where
  kex : Kex
  init : kex.State

/-- `liboqs::makeKeyExchange` and `OQSKeyExchange::createOQSKeyExchange`
(`LibOQS.h:30-40`, `OQSKeyExchange.cpp:15-62`). -/
def oqsMake (k : Option Kem) (role : Role) : Except Failure Obj :=
  match k with
  | none => .error (Failure.rt "OQSKeyExchange(): kem is null!")
  | some k =>
    match role with
    | .server => .ok ⟨oqsServer k, none⟩
    | .client => .ok ⟨oqsClient k, none⟩

/-- `HybridKeyExchange::create` on two objects (`HybridKeyExchange.cpp:17-28`). -/
def hybridObj (a b : Obj) : Obj := ⟨hybrid a.kex b.kex, (a.init, b.init)⟩

/-- The object for `NamedGroup::x25519`. -/
def x25519Obj (l : Lib) : Obj := ⟨Kex.x25519 l.x25519, none⟩

/-- The two post-quantum cases (`MultiBackendFactory.cpp:40-70`): the KEM first, X25519 second. -/
def pqMake (l : Lib) (k : Option Kem) (role : Role) : Except Failure Obj :=
  match oqsMake k role with
  | .error f => .error f
  | .ok o => .ok (hybridObj o (x25519Obj l))

/-- `MultiBackendFactory::makeKeyExchange` (`MultiBackendFactory.cpp:21-75`) by the code point of the
group (`fizz/record/Types.h`, `enum class NamedGroup`); the lengths are
`fizz/crypto/Crypto.h:133-146`. -/
def makeKeyExchange (l : Lib) (group : Nat) (role : Role) : Except Failure Obj :=
  if group = 23 then .ok ⟨ecKex l.p256 (32 * 2 + 1), none⟩
  else if group = 24 then .ok ⟨ecKex l.p384 (48 * 2 + 1), none⟩
  else if group = 25 then .ok ⟨ecKex l.p521 (66 * 2 + 1), none⟩
  else if group = 29 then .ok (x25519Obj l)
  else if group = 4588 ∧ l.haveOqs = true then pqMake l l.kem768 role
  else if group = 65026 ∧ l.haveOqs = true then pqMake l l.kem512 role
  else .error (Failure.rt "ke: not implemented")

end Fizz.Kex

import Verif.Base

/-!
# Key exchanges — model of `fizz/crypto/exchange/HybridKeyExchange.cpp`,
`fizz/backend/libsodium/crypto/exchange/X25519.cpp`, `fizz/backend/liboqs/OQSKeyExchange.cpp`

The primitives (scalar multiplication, KEM operations, randomness) are parameters.
-/

namespace Fizz.Kex

/-- `class KeyExchange` (`fizz/crypto/exchange/KeyExchange.h`).  `Rand` is the randomness a call
consumes.  `generateSharedSecret` is `const` but may change mutable parts (the KEM server stores the
ciphertext there), so it returns the new state. -/
structure Kex where
  State : Type
  Rand : Type
  generateKeyPair : State → Rand → Res State
  getKeyShare : State → Res Bytes
  generateSharedSecret : State → Rand → Bytes → Res (Bytes × State)
  expected : State → Nat

/-- `HybridKeyExchange` (`fizz/crypto/exchange/HybridKeyExchange.cpp:12-107`) of two non-null
exchanges. -/
def hybrid (A B : Kex) : Kex where
  State := A.State × B.State
  Rand := A.Rand × B.Rand
  -- `HybridKeyExchange.cpp:30-38`
  generateKeyPair := fun s r => do
    let a ← A.generateKeyPair s.1 r.1
    let b ← B.generateKeyPair s.2 r.2
    if A.expected a = 0 ∨ B.expected b = 0 then
      .error (Failure.rt "expected key share size is 0!")
    else pure (a, b)
  -- `HybridKeyExchange.cpp:47-59`
  getKeyShare := fun s => do
    let a ← A.getKeyShare s.1
    let b ← B.getKeyShare s.2
    pure (a ++ b)
  -- `HybridKeyExchange.cpp:61-85`
  generateSharedSecret := fun s r keyShare =>
    if keyShare.length ≠ A.expected s.1 + B.expected s.2 then
      .error (Failure.rt "Invalid external public key combination ")
    else do
      let firstKeyShare := keyShare.take (A.expected s.1)
      let (k1, a) ← A.generateSharedSecret s.1 r.1 firstKeyShare
      let secondKeyShare := keyShare.drop (keyShare.length - B.expected s.2)
      let (k2, b) ← B.generateSharedSecret s.2 r.2 secondKeyShare
      pure (k1 ++ k2, (a, b))
  -- `HybridKeyExchange.cpp:104-107`
  expected := fun s => A.expected s.1 + B.expected s.2

/-- `doKexSyncFuture` (`fizz/server/ServerProtocol.cpp:850-863`): our share and the secret. -/
def doKex (S : Kex) (s : S.State) (gen use : S.Rand) (clientShare : Bytes) : Res (Bytes × Bytes) := do
  let s ← S.generateKeyPair s gen
  let (secret, s) ← S.generateSharedSecret s use clientShare
  let share ← S.getKeyShare s
  pure (share, secret)

/-- One exchange between a client object and a server object: the client generates keys and sends
its share (`ClientProtocol.cpp:518,574`), the server runs `doKex`, the client uses the server's
share (`ClientProtocol.cpp:1544`).  Returns the two secrets. -/
def exchange (C S : Kex) (c : C.State) (s : S.State) (genC useC : C.Rand) (genS useS : S.Rand) :
    Res (Bytes × Bytes) := do
  let c ← C.generateKeyPair c genC
  let clientShare ← C.getKeyShare c
  let (serverShare, serverSecret) ← doKex S s genS useS clientShare
  let (clientSecret, _) ← C.generateSharedSecret c useC serverShare
  pure (clientSecret, serverSecret)

/-- The curve operations X25519 needs; `none` from `mult` is an invalid point. -/
structure Curve where
  privOf : Bytes → Bytes
  base : Bytes → Bytes
  mult : Bytes → Bytes → Option Bytes

/-- `X25519KeyExchange` (`fizz/backend/libsodium/crypto/exchange/X25519.cpp:37-110`): the state is
the private and public key, if generated. -/
def x25519 (cv : Curve) : Kex where
  State := Option (Bytes × Bytes)
  Rand := Bytes
  generateKeyPair := fun _ r => .ok (some (cv.privOf r, cv.base (cv.privOf r)))
  getKeyShare := fun s =>
    match s with
    | none => .error (Failure.rt "Key not generated")
    | some (_, pub) => .ok pub
  generateSharedSecret := fun s _ keyShare =>
    match s with
    | none => .error (Failure.rt "Key not generated")
    | some (priv, pub) =>
      if keyShare.length ≠ 32 then .error (Failure.rt "Invalid external public key")
      else
        match cv.mult priv keyShare with
        | none => .error (Failure.rt "Invalid point")
        | some k => .ok (k, some (priv, pub))
  expected := fun _ => 32

/-- The KEM operations (`OQS_KEM`); `none` is a non-zero return code. -/
structure Kem where
  lengthPublicKey : Nat
  lengthCiphertext : Nat
  keypair : Bytes → Option (Bytes × Bytes)
  encaps : Bytes → Bytes → Option (Bytes × Bytes)
  decaps : Bytes → Bytes → Option Bytes

/-- `OQSClientKeyExchange` (`fizz/backend/liboqs/OQSKeyExchange.cpp:74-136`): the state is the
secret and public key, if generated.  The buffers are never chained. -/
def oqsClient (k : Kem) : Kex where
  State := Option (Bytes × Bytes)
  Rand := Bytes
  generateKeyPair := fun _ r =>
    match k.keypair r with
    | none => .error (Failure.rt "OQSClientKeyExchange::generateKeyPair(): keypair generation error!")
    | some (pk, sk) => .ok (some (sk, pk))
  getKeyShare := fun s =>
    match s with
    | none => .error (Failure.rt "OQSClientKeyExchange::getKeyShare(): keypair not generated!")
    | some (_, pk) => .ok pk
  generateSharedSecret := fun s _ keyShare =>
    match s with
    | none => .error (Failure.rt "OQSClientKeyExchange::generateSharedSecret(): keys not generated!")
    | some (sk, pk) =>
      if keyShare.length ≠ k.lengthCiphertext then
        .error (Failure.rt
          "OQSClientKeyExchange::generateSharedSecret(): Invalid external cipher text!")
      else
        match k.decaps sk keyShare with
        | none => .error (Failure.rt
            "OQSClientKeyExchange::generateSharedSecret(): cannot generate the shared secret!")
        | some ss => .ok (ss, some (sk, pk))
  expected := fun _ => k.lengthCiphertext

/-- `OQSServerKeyExchange` (`fizz/backend/liboqs/OQSKeyExchange.cpp:102-113,138-168`): the state is
the ciphertext, once made.  `generateKeyPair` does nothing (`OQSKeyExchange.h`). -/
def oqsServer (k : Kem) : Kex where
  State := Option Bytes
  Rand := Bytes
  generateKeyPair := fun s _ => .ok s
  getKeyShare := fun s =>
    match s with
    | none => .error (Failure.rt "OQSServerKeyExchange::getKeyShare(): cipher text not generated!")
    | some ct => .ok ct
  generateSharedSecret := fun _ r keyShare =>
    if keyShare.length ≠ k.lengthPublicKey then
      .error (Failure.rt "OQSServerKeyExchange::generateSharedSecret(): Invalid external public key!")
    else
      match k.encaps r keyShare with
      | none => .error (Failure.rt
          "OQSServerKeyExchange::generateSharedSecret(): cannot generate the shared secret!")
      | some (ct, ss) => .ok (ss, some ct)
  expected := fun _ => k.lengthPublicKey

end Fizz.Kex

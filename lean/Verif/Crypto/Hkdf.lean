import Verif.Codec.Messages

/-!
# HMAC and HKDF — model of `fizz/crypto/Hmac.cpp`, `fizz/crypto/Hkdf.cpp`,
`fizz/crypto/KeyDerivation.cpp`

The hash function is a parameter.  A `Hasher` object (`fizz/crypto/Hasher.h:26-46`) is the string
of the bytes fed to it so far: that feeding a message in pieces gives the same digest as feeding it
at once is an assumption about the cryptographic backend.  Backend failures are not modelled.
-/

namespace Fizz.Crypto
open Fizz.Codec

/-- `HasherFactoryWithMetadata` (`fizz/crypto/Hasher.h:55-102`): a hash algorithm. -/
structure HashAlg where
  /-- `hashLength()` / `getHashLen()`. -/
  hashLen : Nat
  /-- `getBlockSize()`. -/
  blockSize : Nat
  /-- `blankHash()`: a constant stored with the algorithm. -/
  blankHash : Bytes
  /-- What `hash_update*; hash_final` computes. -/
  digest : Bytes → Bytes

/-- `kHashMaxBlockSize` (`fizz/crypto/Crypto.h:125-126`): the largest of the supported block
sizes, 64, 128, 128. -/
def kHashMaxBlockSize : Nat := 128

/-- `memcpy(buf + off, data, data.size())` into the memory `buf`. -/
def overwrite (buf : Bytes) (off : Nat) (data : Bytes) : Bytes :=
  buf.take off ++ data ++ buf.drop (off + data.length)

/-- `for (i = 0; i < B; i++) buf[i] ^= finalKey[i]` after `memset(buf, pad, B)`
(`fizz/crypto/Hmac.cpp:58-62`, `66-70`). -/
def xorPad (pad : UInt8) (B : Nat) (finalKey : Bytes) : Bytes :=
  ((List.replicate B pad).zip finalKey).map fun p => p.1 ^^^ p.2

/-- `hmac` (`fizz/crypto/Hmac.cpp:20-84`).  `inp` is the `IOBuf` chain, `out` the memory given for
the result; the new contents of `out` are returned.  The stack arrays have `kHashMaxBlockSize`
bytes; only their first `blockSize` bytes are initialised and read. -/
def hmac (h : HashAlg) (key : Bytes) (inp : List Bytes) (out : Bytes) : Res Bytes :=
  let L := h.hashLen
  let B := h.blockSize
  if out.length < L then .error .abort else
  if B = 0 then .error .abort else
  if kHashMaxBlockSize < B ∨ kHashMaxBlockSize < L then .error (.ub "stack buffer overflow") else
  let finalKey : Bytes := List.replicate B 0
  let finalKey := if key.length > B then overwrite finalKey 0 (h.digest key)
    else overwrite finalKey 0 key
  let inner := xorPad 0x36 B finalKey
  let outer := xorPad 0x5c B finalKey
  let innerOut := h.digest (inner ++ inp.flatten)
  let outer := outer ++ innerOut.take L
  .ok (overwrite out 0 (h.digest outer))

/-- `Hkdf::extract` (`fizz/crypto/Hkdf.cpp:17-35`). -/
def extract (h : HashAlg) (salt ikm : Bytes) : Res Bytes :=
  let zeros : Bytes := List.replicate h.hashLen 0
  let salt := if salt.isEmpty then zeros else salt
  hmac h salt [ikm] (List.replicate h.hashLen 0)

/-- The loop of `Hkdf::expand` (`fizz/crypto/Hkdf.cpp:80-92`): `n` rounds left, the next one is
`round`.  `inBuf` is the reused input buffer, `expanded` the bytes produced so far. -/
def expandLoop (h : HashAlg) (prk : Bytes) (infoLength : Nat) :
    Nat → Nat → Bytes → Bytes → Res Bytes
  | 0, _, _, expanded => .ok expanded
  | n + 1, round, inBuf, expanded => do
    let inBuf := overwrite inBuf 0 ((expanded.drop ((round - 2) * h.hashLen)).take h.hashLen)
    let inBuf := overwrite inBuf (h.hashLen + infoLength) [UInt8.ofNat round]
    let t ← hmac h prk [inBuf] (List.replicate h.hashLen 0)
    expandLoop h prk infoLength n (round + 1) inBuf (expanded ++ t)

/-- `Hkdf::expand` (`fizz/crypto/Hkdf.cpp:37-96`). -/
def expand (h : HashAlg) (extractedKey info : Bytes) (outputBytes : Nat) : Res Bytes :=
  let hlen := h.hashLen
  if extractedKey.length ≠ hlen then .error .abort else
  if outputBytes > 255 * hlen then .error (Failure.rt "Output too long") else
  if outputBytes = 0 then .ok [] else do
  let numRounds := (outputBytes + hlen - 1) / hlen
  let infoLength := info.length
  let inBuf : Bytes := List.replicate (hlen + infoLength + 1) 0
  let inBuf := overwrite inBuf hlen info
  let inBuf := overwrite inBuf (hlen + infoLength) [1]
  let t1 ← hmac h extractedKey [(inBuf.drop hlen).take (infoLength + 1)] (List.replicate hlen 0)
  let expanded ← expandLoop h extractedKey infoLength (numRounds - 1) 2 inBuf t1
  pure (expanded.take (expanded.length - (numRounds * hlen - outputBytes)))

/-- `Hkdf::hkdf` (`fizz/crypto/Hkdf.cpp:98-110`). -/
def hkdf (h : HashAlg) (ikm salt info : Bytes) (outputBytes : Nat) : Res Bytes := do
  let e ← extract h salt ikm
  expand h e info outputBytes

/-- `kHkdfLabelPrefix` (`fizz/record/Types.h:23`): "tls13 ". -/
def kHkdfLabelPrefix : Bytes := [116, 108, 115, 49, 51, 32]

/-- `KeyDerivationImpl::expandLabel` (`fizz/crypto/KeyDerivation.cpp:14-28`). -/
def expandLabel (h : HashAlg) (secret label hashValue : Bytes) (length : UInt16) : Res Bytes := do
  let encoded ← encodeHkdfLabel length label hashValue kHkdfLabelPrefix
  expand h secret encoded length.toNat

/-- `KeyDerivationImpl::deriveSecret` (`fizz/crypto/KeyDerivation.cpp:40-66`).  The copy loop
copies at most `length` bytes of `out` into a zeroed vector of `length` bytes. -/
def deriveSecret (h : HashAlg) (secret label messageHash : Bytes) (length : UInt16) : Res Bytes :=
  if secret.length ≠ h.hashLen then .error .abort else
  if messageHash.length ≠ h.hashLen then .error .abort else
  if ¬ 0 < length.toNat then .error .abort else do
  let out ← expandLabel h secret label messageHash length
  pure (overwrite (List.replicate length.toNat 0) 0 (out.take length.toNat))

end Fizz.Crypto

import Verif.Codec.Spec

/-!
# Specification: HMAC (RFC 2104), HKDF (RFC 5869), TLS 1.3 Expand-Label (RFC 8446 section 7.1)

Independent of the model; only the hash function's digest and sizes are parameters.
-/

namespace Fizz.Crypto.Spec

/-- A hash function as the RFCs see it. -/
structure Hash where
  /-- output length in bytes -/
  L : Nat
  /-- block length in bytes -/
  B : Nat
  H : Bytes → Bytes

/-- RFC 2104 step (1), after hashing a key longer than `B`: append zeros up to `B` bytes. -/
def padKey (h : Hash) (k : Bytes) : Bytes :=
  let k' := if h.B < k.length then h.H k else k
  k' ++ List.replicate (h.B - k'.length) 0

/-- XOR every byte of the padded key with `pad`. -/
def xorAll (pad : UInt8) (k : Bytes) : Bytes := k.map fun b => pad ^^^ b

/-- `HMAC(K, text) = H(K XOR opad, H(K XOR ipad, text))`. -/
def HMAC (h : Hash) (k text : Bytes) : Bytes :=
  h.H (xorAll 0x5c (padKey h k) ++ h.H (xorAll 0x36 (padKey h k) ++ text))

/-- `HKDF-Extract(salt, IKM)`; an absent salt is `HashLen` zeros. -/
def Extract (h : Hash) (salt ikm : Bytes) : Bytes :=
  HMAC h (if salt = [] then List.replicate h.L 0 else salt) ikm

/-- `T(0) = ""`, `T(i) = HMAC(PRK, T(i-1) | info | i)`. -/
def T (h : Hash) (prk info : Bytes) : Nat → Bytes
  | 0 => []
  | i + 1 => HMAC h prk (T h prk info i ++ info ++ [UInt8.ofNat (i + 1)])

/-- `T(1) | T(2) | ... | T(n)`. -/
def Tcat (h : Hash) (prk info : Bytes) : Nat → Bytes
  | 0 => []
  | n + 1 => Tcat h prk info n ++ T h prk info (n + 1)

/-- `HKDF-Expand(PRK, info, L)`: the first `L` octets of the concatenation of the
`N = ceil(L / HashLen)` blocks. -/
def Expand (h : Hash) (prk info : Bytes) (len : Nat) : Bytes :=
  (Tcat h prk info ((len + h.L - 1) / h.L)).take len

/-- `HKDF-Expand-Label(Secret, Label, Context, Length)`. -/
def ExpandLabel (h : Hash) (secret label ctx : Bytes) (len : UInt16) : Bytes :=
  Expand h secret (Fizz.Codec.Spec.hkdfLabel len label ctx [116, 108, 115, 49, 51, 32]) len.toNat

end Fizz.Crypto.Spec

import Verif.Ticket.Token
import Verif.Crypto.Spec

/-!
# What the token format is (specification side of C16)

Written from the comment `fizz/server/AeadTokenCipher.cpp:17-35` and RFC 5869, without the model's
functions.
-/

namespace Fizz.Ticket.Spec
open Fizz.Crypto

/-- `secret = HKDF-Extract(context, secret)` for each context string in turn. -/
def contextual (h : Spec.Hash) (contexts : List Bytes) (secret : Bytes) : Bytes :=
  contexts.foldl (fun s c => Spec.Extract h c s) secret

/-- `aead key | aead iv = HKDF-Expand(secret, salt, key length + iv length)`. -/
def aeadKey (A : TokenAlg) (h : Spec.Hash) (secret salt : Bytes) : Bytes :=
  (Spec.Expand h secret salt (A.keyLen + A.ivLen)).take A.keyLen

/-- The IV half of the same output. -/
def aeadIv (A : TokenAlg) (h : Spec.Hash) (secret salt : Bytes) : Bytes :=
  (Spec.Expand h secret salt (A.keyLen + A.ivLen)).drop A.keyLen

/-- The secrets in force after a sequence of `setSecrets` calls: the last call all of whose secrets
have at least 32 bytes. -/
def installed : List (List Bytes) → List Bytes → List Bytes
  | [], cur => cur
  | call :: calls, cur => installed calls (if ∀ s ∈ call, 32 ≤ s.length then call else cur)

end Fizz.Ticket.Spec

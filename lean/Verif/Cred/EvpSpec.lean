import Verif.Cred.Evp

/-!
# What OpenSSL's answers mean, and what the TLS signature schemes are (specification side of C96)

`finish` follows the calls made on one context and says what the last one was asked to do (OpenSSL manual:
EVP_SignInit, EVP_VerifyInit, EVP_DigestSignInit, EVP_DigestVerifyInit, EVP_PKEY_CTX_set_rsa_padding,
EVP_PKEY_CTX_set_rsa_pss_saltlen).  `rfc` is the table of RFC 8446 section 4.2.3.
-/

namespace Fizz.Cred.Evp.Spec
open Fizz.Cred Fizz.Cred.Evp

/-- A signature algorithm with all its parameters. -/
inductive Alg where
  | ecdsa (h : Hash)
  | rsaPkcs1 (h : Hash)
  /-- the digest is used for the message and for MGF1; the salt has the length of the digest -/
  | rsaPssDigestSalt (h : Hash)
  /-- PSS with the longest salt (signing), any salt (verifying) -/
  | rsaPssAnySalt (h : Hash)
  | ed25519
  deriving DecidableEq, Repr

/-- RFC 8446 section 4.2.3: the scheme's algorithm and the keys it is for. -/
def rfc : UInt16 → Option (KeyKind × Alg)
  | 0x0403 => some (.p256, .ecdsa .sha256)
  | 0x0503 => some (.p384, .ecdsa .sha384)
  | 0x0603 => some (.p521, .ecdsa .sha512)
  | 0x0804 => some (.rsa, .rsaPssDigestSalt .sha256)
  | 0x0807 => some (.ed25519, .ed25519)
  | _ => none

/-- What a context has been told. -/
structure Job (K : Type) where
  verifying : Bool
  hash : Option Hash
  /-- known from the beginning with the Digest functions, given last with the others -/
  key : Option K
  padding : Int := 1
  saltlen : Int := -2
  data : Bytes := []

/-- The algorithm OpenSSL uses for a kind of key. -/
def algOf {K} (j : Job K) : KeyKind → Option Alg
  | .rsa =>
    match j.hash with
    | none => none
    | some h =>
      if j.padding = 1 then some (.rsaPkcs1 h)
      else if j.padding = 6 then
        if j.saltlen = -1 then some (.rsaPssDigestSalt h) else if j.saltlen = -2 then some (.rsaPssAnySalt h) else none
      else none
  | .p256 | .p384 | .p521 | .otherCurve => j.hash.map .ecdsa
  | .ed25519 => if j.hash = none then some .ed25519 else none
  | _ => none

/-- One call of those that prepare. -/
def prepare {K} : Option (Job K) → Call K → Option (Job K)
  | none, .signInit h => some { verifying := false, hash := some h, key := none }
  | none, .verifyInit h => some { verifying := true, hash := some h, key := none }
  | none, .digestSignInit h k => some { verifying := false, hash := h, key := some k }
  | none, .digestVerifyInit h k => some { verifying := true, hash := h, key := some k }
  | some j, .setRsaPadding n => some { j with padding := n }
  | some j, .setPssSaltlen n => some { j with saltlen := n }
  | some j, .signUpdate d | some j, .digestSignUpdate d =>
    if j.verifying then none else some { j with data := j.data ++ d }
  | some j, .verifyUpdate d | some j, .digestVerifyUpdate d =>
    if j.verifying then some { j with data := j.data ++ d } else none
  | _, _ => none

/-- What the last call is asked: to sign these data with this key and algorithm, or to verify this signature of them. -/
structure Ask (K : Type) where
  alg : Alg
  key : K
  data : Bytes
  signature : Option Bytes

def ask {K} (kind : K → KeyKind) (j : Job K) (key : Option K) (more : Bytes) (signature : Option Bytes) : Option (Ask K) :=
  match key with
  | none => none
  | some k => if j.verifying ≠ signature.isSome then none else
    (algOf j (kind k)).map fun a => ⟨a, k, j.data ++ more, signature⟩

/-- The last call. -/
def last {K} (kind : K → KeyKind) (j : Job K) : Call K → Option (Ask K)
  | .signFinal k => ask kind j (some k) [] none
  | .verifyFinal s k => ask kind j (some k) [] (some s)
  | .digestSignFinal => ask kind j j.key [] none
  | .digestVerifyFinal s => ask kind j j.key [] (some s)
  | .digestSign d => ask kind j j.key d none
  | .digestVerify s d => ask kind j j.key d (some s)
  | _ => none

/-- What a sequence of calls amounts to: all but the last prepare. -/
def finish {K} (kind : K → KeyKind) (calls : List (Call K)) : Option (Ask K) :=
  match calls.getLast? with
  | none => none
  | some c => (calls.dropLast.foldl (fun j c => j.bind fun j => (prepare j c).map some) (some none)).bind fun j =>
    j.bind fun j => last kind j c

/-- OpenSSL computes the algorithms it is asked for: what it returns 1 for as a signature is one, fits into the buffer,
and what it returns 1 for as a verification is a valid signature.  Nothing is assumed about any other return code, nor
that a call succeeds. -/
structure Sound {K} (kind : K → KeyKind) (valid : Alg → K → Bytes → Bytes → Prop) (l : Lib K) : Prop where
  signs : ∀ calls a, finish kind calls = some a → a.signature = none → l.rc calls = 1 →
    valid a.alg a.key a.data (l.out calls) ∧ (l.out calls).length ≤ l.size a.key
  verifies : ∀ calls a s, finish kind calls = some a → a.signature = some s → l.rc calls = 1 → valid a.alg a.key a.data s

/-- And nothing fails but the verification of signatures that are not valid. -/
structure Working {K} (kind : K → KeyKind) (valid : Alg → K → Bytes → Bytes → Prop) (l : Lib K) : Prop where
  sound : Sound kind valid l
  ctx : l.ctxNew = true
  digest : ∀ h, l.digest h = true
  calls : ∀ calls, (∀ a, finish kind calls = some a → ∀ s, a.signature = some s → valid a.alg a.key a.data s) → l.rc calls = 1

end Fizz.Cred.Evp.Spec

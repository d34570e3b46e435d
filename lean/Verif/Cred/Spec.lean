import Verif.Cred.Delegated
import Verif.Codec.WireSpec

/-!
# Specification of delegated credentials (draft-ietf-tls-subcerts)

Stated from the protocol's text; uses the data types of the model and nothing of its behaviour.
-/

namespace Fizz.Cred.Spec
open Fizz.Codec (vec Extension)

/-- The bytes of an ASCII string. -/
def ascii (s : String) : Bytes := s.toList.map fun c => UInt8.ofNat c.toNat

/-- The context string a signature is bound to (RFC 8446 §4.4.3, draft-ietf-tls-subcerts §4). -/
def contextString : Ctx → Bytes
  | .server => ascii "TLS 1.3, server CertificateVerify"
  | .client => ascii "TLS 1.3, client CertificateVerify"
  | .authenticator => ascii "Exported Authenticator"
  | .clientDC => ascii "TLS, client delegated credentials"
  | .serverDC => ascii "TLS, server delegated credentials"

/-- What is signed for a content: 64 spaces, the context string, a zero byte, the content. -/
def signed (c : Ctx) (content : Bytes) : Bytes :=
  List.replicate 64 0x20 ++ contextString c ++ [0x00] ++ content

/-- The fields of a credential up to the signature: they are both what travels and what the parent
signs after its own certificate. -/
def credentialFields (c : DelegatedCredential) : Bytes :=
  beEnc 4 c.valid_time.toNat ++ beEnc 2 c.expected_verify_scheme.toNat ++
    (beEnc 3 c.public_key.length ++ c.public_key) ++ beEnc 2 c.credential_scheme.toNat

/-- The credential on the wire. -/
def wire (c : DelegatedCredential) : Bytes :=
  credentialFields c ++ (beEnc 2 c.signature.length ++ c.signature)

/-- The credentials that have a wire form. -/
def Fits (c : DelegatedCredential) : Prop :=
  c.public_key.length < 2 ^ 24 ∧ c.signature.length < 2 ^ 16

/-- The list of schemes a peer accepts for credentials, on the wire. -/
def supportWire (l : List UInt16) : Bytes :=
  beEnc 2 (2 * l.length) ++ l.flatMap fun v => beEnc 2 v.toNat

/-- The key can be used with that type: it is of that type and, for a curve, passes OpenSSL's key
check. -/
def Usable {K} (o : Ossl K) (t : KeyType) (k : K) : Prop :=
  match t with
  | .rsa => o.kind k = .rsa
  | .ed25519 => o.kind k = .ed25519
  | .p256 => o.kind k = .p256 ∧ o.ecCheck k = true
  | .p384 => o.kind k = .p384 ∧ o.ecCheck k = true
  | .p521 => o.kind k = .p521 ∧ o.ecCheck k = true

/-- The one scheme fizz uses with keys of a type. -/
def scheme : KeyType → UInt16
  | .p256 => 0x0403
  | .p384 => 0x0503
  | .p521 => 0x0603
  | .rsa => 0x0804
  | .ed25519 => 0x0807

/-- The certificate may delegate: it carries the DelegationUsage extension and a KeyUsage extension
(bit 1 of the flags) that allows digital signatures (bit 7). -/
def Permits {K} (x : X509 K) : Prop :=
  "1.3.6.1.4.1.44363.44" ∈ x.extOids ∧
    x.exFlags.toNat.testBit 1 = true ∧ x.keyUsage.toNat.testBit 7 = true

/-- The moment the credential expires, in nanoseconds since the epoch. -/
def expiry {K} (x : X509 K) (c : DelegatedCredential) : Int :=
  (x.notBefore + c.valid_time.toNat) * 1000000000

/-- Seven days, in nanoseconds. -/
def sevenDays : Int := 7 * 86400 * 1000000000

/-- The credential is inside its validity at time `now`: not expired, at most seven days to go, and
expiring before its certificate does. -/
def InTime {K} (now : Int) (x : X509 K) (c : DelegatedCredential) : Prop :=
  now < expiry x c ∧ expiry x c ≤ now + sevenDays ∧ expiry x c < x.notAfter * 1000000000

/-- A number of nanoseconds the system clock can hold. -/
def Holds (t : Int) : Prop := -(2 ^ 63) ≤ t ∧ t < 2 ^ 63

/-- The dates of the certificate and of the credential are within what the clock can hold. -/
def Representable {K} (now : Int) (x : X509 K) (c : DelegatedCredential) : Prop :=
  Holds (x.notBefore * 1000000000) ∧ Holds (expiry x c) ∧ Holds (expiry x c - now) ∧
    Holds (x.notAfter * 1000000000)

/-- The context under which a parent signs a credential used in a handshake context. -/
def delegation : Ctx → Ctx
  | .server => .serverDC
  | _ => .clientDC

/-- The parent's signature over its certificate and the credential's fields is good. -/
def ParentSigned {K} (o : Ossl K) (x : X509 K) (k : K) (ctx : Ctx) (c : DelegatedCredential) : Prop :=
  o.verify c.credential_scheme k (signed ctx (x.der ++ credentialFields c)) c.signature = true

/-- Everything that must hold for a CertificateVerify made with a delegated credential to be
accepted: `cert` and `data` are the bytes of the leaf certificate and of its delegated credential
extension as received, and the CertificateVerify carries `sch` and `sig`. -/
structure Accepts {K} (o : Ossl K) (now : Int) (cert data : Bytes) (sch : UInt16) (ctx : Ctx)
    (content sig : Bytes) (x : X509 K) (t : KeyType) (parentKey credKey : K)
    (c : DelegatedCredential) : Prop where
  nonempty : cert ≠ []
  parses : o.d2iX509 cert = some x
  hasKey : x.pubkey = some parentKey
  fits : Fits c
  received : ∃ trailing, data = wire c ++ trailing
  keyParses : o.d2iPubkey c.public_key = some credKey
  parentType : Usable o t parentKey
  credType : Usable o t credKey
  schemeUsed : sch = c.expected_verify_scheme
  schemeOfKey : c.expected_verify_scheme = scheme t
  schemeOfParent : c.credential_scheme = scheme t
  permits : Permits x
  representable : Representable now x c
  inTime : InTime now x c
  parentSigned : ParentSigned o x parentKey (delegation ctx) c
  signedByCredential : o.verify sch credKey (signed ctx content) sig = true

/-- The private key signs what the public key accepts. -/
def Pair {K} (o : Ossl K) (pub priv : K) : Prop :=
  ∀ sch m s, o.sign sch priv m = some s → o.verify sch pub m s = true

end Fizz.Cred.Spec

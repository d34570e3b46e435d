import Verif.Cred.Spec
import Verif.Codec.Spec
import Verif.Crypto.Spec
import Verif.Exporter.Spec
import Verif.ExportedAuth.Model

/-!
# Specification of exported authenticators (RFC 9261)

Stated with the wire formats (`Verif/Codec/Spec.lean`), HMAC (`Verif/Crypto/Spec.lean`) and the
signature input (`Verif/Cred/Spec.lean`); of the model only the data types are used.
-/

namespace Fizz.ExportedAuth.Spec
open Fizz.Codec Fizz.Cred Fizz.Crypto.Spec
open Fizz.Codec.Spec (handshake)

/-- The request asks for an answer with this context and these extensions: no request asks for an
empty context; otherwise the request begins with the body of a CertificateRequest.  (A request made
by `getAuthenticatorRequest` is such a body and nothing else.) -/
def Asks (request ctx : Bytes) (exts : List Extension) : Prop :=
  (request = [] ∧ ctx = [] ∧ exts = []) ∨
  (request ≠ [] ∧ Codec.Spec.CertificateRequestFits ⟨ctx, exts⟩ ∧
    ∃ more, request = Codec.Spec.certificateRequest ⟨ctx, exts⟩ ++ more)

/-- `Hash(Handshake Context || authenticator request || Certificate)`. -/
def certHash (h : Hash) (hctx request : Bytes) (c : CertificateMsg) : Bytes :=
  h.H (hctx ++ request ++ handshake (.certificate c))

/-- The Finished of an authenticator:
`HMAC(Finished MAC Key, Hash(Handshake Context || request || Certificate || CertificateVerify))`. -/
def mac (h : Hash) (hctx key request : Bytes) (c : CertificateMsg) (v : CertificateVerify) : Finished :=
  ⟨HMAC h key (h.H (hctx ++ request ++ handshake (.certificate c) ++ handshake (.certificateVerify v)))⟩

/-- The Finished of an empty authenticator: the MAC of an empty Certificate for that context. -/
def emptyMac (h : Hash) (hctx key request ctx : Bytes) : Finished :=
  ⟨HMAC h key (certHash h hctx request ⟨ctx, []⟩)⟩

/-- The largest handshake message fizz decodes. -/
def maxBody : Nat := 131072

/-- `auth` is good for this request, handshake context and key, and stands for `chain`. -/
inductive Good {K} (o : Ossl K) (h : Hash) (hctx key request : Bytes) (sigCtx : Ctx) :
    Bytes → List CertificateEntry → Prop
  /-- A refusal: the Finished alone, and no certificate. -/
  | refusal (ctx exts) (asks : Asks request ctx exts) :
      Good o h hctx key request sigCtx (handshake (.finished (emptyMac h hctx key request ctx))) []
  /-- Certificate, CertificateVerify and Finished, then bytes that are ignored.  The leaf is a
  certificate with a usable key, and the signature of its key covers handshake context, request and
  Certificate. -/
  | certified (ctx leaf others v more x t k)
      (certFits : Codec.Spec.Fits (.certificate ⟨ctx, leaf :: others⟩))
      (certSize : (Codec.Spec.body (.certificate ⟨ctx, leaf :: others⟩)).length ≤ maxBody)
      (verifyFits : Codec.Spec.Fits (.certificateVerify v))
      (nonempty : leaf.cert_data ≠ []) (isCert : o.d2iX509 leaf.cert_data = some x)
      (hasKey : x.pubkey = some k) (usable : Cred.Spec.Usable o t k)
      (schemeOfKey : v.algorithm = Cred.Spec.scheme t)
      (signedBy : o.verify v.algorithm k
        (Cred.Spec.signed sigCtx (certHash h hctx request ⟨ctx, leaf :: others⟩)) v.signature = true) :
      Good o h hctx key request sigCtx
        (handshake (.certificate ⟨ctx, leaf :: others⟩) ++ handshake (.certificateVerify v) ++
          handshake (.finished (mac h hctx key request ⟨ctx, leaf :: others⟩ v)) ++ more)
        (leaf :: others)

/-- The certificate list of a chain: the encodings of the certificates, without extensions. -/
def entries {K} (chain : List (X509 K)) : List CertificateEntry := chain.map fun x => ⟨x.der, []⟩

/-- The scheme to sign with, for a peer that asks with these extensions: `some s` is the first
supported scheme the certificate has that is also among those the peer asks for; if it asks for none,
or none of those will do, the first supported scheme the certificate has; `none` when there is no
such scheme either. -/
def Picks (supported own : List UInt16) (asked : Option (List UInt16)) (r : Option UInt16) : Prop :=
  let both : List UInt16 := supported.filter fun s => s ∈ own ∧ ∃ l, asked = some l ∧ s ∈ l
  (both ≠ [] → r = both.head?) ∧ (both = [] → r = (supported.filter fun s => s ∈ own).head?)

/-- The schemes asked for: the signature_algorithms extension (13), if there is one. -/
def AskedSchemes (exts : List Extension) (asked : Option (List UInt16)) : Prop :=
  match asked with
  | none => ∀ e ∈ exts, e.extension_type ≠ 13
  | some l => ∃ pre post, exts = pre ++ ⟨13, beEnc 2 (2 * l.length) ++ l.flatMap fun v => beEnc 2 v.toNat⟩ :: post ∧
      (∀ e ∈ pre, e.extension_type ≠ 13) ∧ 2 * l.length < 65536

end Fizz.ExportedAuth.Spec

namespace Fizz.ExportedAuth.Spec
open Fizz.Codec Fizz.Cred Fizz.Crypto.Spec
open Fizz.Codec.Spec (handshake)

/-- What the Finished of `auth` is the MAC of, for this handshake context and request: they and the
messages before the Finished; for a refusal, they and an empty Certificate with the context asked for. -/
inductive Covers (hctx request : Bytes) : Bytes → Bytes → Prop
  | refusal (ctx exts f) (asks : Asks request ctx exts) :
      Covers hctx request (handshake (.finished f)) (hctx ++ request ++ handshake (.certificate ⟨ctx, []⟩))
  | certified (c v f more) (certFits : Codec.Spec.Encodable (.certificate c))
      (verifyFits : Codec.Spec.Encodable (.certificateVerify v)) :
      Covers hctx request
        (handshake (.certificate c) ++ handshake (.certificateVerify v) ++ handshake (.finished f) ++ more)
        (hctx ++ request ++ handshake (.certificate c) ++ handshake (.certificateVerify v))

/-- The inputs of the hash function in the MAC of `covered`: `covered` itself and the two of the HMAC. -/
def macInputs (h : Hash) (key covered : Bytes) : List Bytes :=
  [covered,
   xorAll 0x5c (padKey h key) ++ h.H (xorAll 0x36 (padKey h key) ++ h.H covered),
   xorAll 0x36 (padKey h key) ++ h.H covered]

end Fizz.ExportedAuth.Spec

namespace Fizz.ExportedAuth.Spec
open Fizz.Crypto.Spec

/-- The other end's direction. -/
def opposite : Direction → Direction
  | .upstream => .downstream
  | .downstream => .upstream

/-- The exporter labels (RFC 9261 section 5.1) for an authenticator made by the end that sends in this
direction: a client sends upstream, a server downstream. -/
def contextLabel : Direction → Bytes
  | .upstream => Exporter.Spec.ascii "EXPORTER-client authenticator handshake context"
  | .downstream => Exporter.Spec.ascii "EXPORTER-server authenticator handshake context"

def keyLabel : Direction → Bytes
  | .upstream => Exporter.Spec.ascii "EXPORTER-client authenticator finished key"
  | .downstream => Exporter.Spec.ascii "EXPORTER-server authenticator finished key"

/-- The handshake context and the Finished key of a connection with exporter secret `s`. -/
def handshakeContext (h : Hash) (s : Bytes) (sender : Direction) : Bytes :=
  Exporter.Spec.exporter h s (contextLabel sender) [] (UInt16.ofNat h.L)

def finishedKey (h : Hash) (s : Bytes) (sender : Direction) : Bytes :=
  Exporter.Spec.exporter h s (keyLabel sender) [] (UInt16.ofNat h.L)

end Fizz.ExportedAuth.Spec

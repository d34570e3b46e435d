import Verif.Crypto.Spec

/-!
# Specification: HPKE (RFC 9180 sections 4, 4.1, 5.1, 5.2)
-/

namespace Fizz.Hpke.Spec
open Fizz Fizz.Crypto.Spec

def str (s : String) : Bytes := s.toList.map fun c => UInt8.ofNat c.toNat
def i2osp (n w : Nat) : Bytes := beEnc w n

/-- Section 4. -/
def LabeledExtract (h : Hash) (suite salt : Bytes) (label : String) (ikm : Bytes) : Bytes :=
  Extract h salt (str "HPKE-v1" ++ suite ++ str label ++ ikm)
def LabeledExpand (h : Hash) (suite prk : Bytes) (label : String) (info : Bytes) (L : Nat) : Bytes :=
  Expand h prk (i2osp L 2 ++ str "HPKE-v1" ++ suite ++ str label ++ info) L

/-- Section 4.1; `suite` is `concat("KEM", I2OSP(kem_id, 2))` and `Nsecret` the hash length. -/
def ExtractAndExpand (h : Hash) (kemId : Nat) (dh ctx : Bytes) : Bytes :=
  let suite := str "KEM" ++ i2osp kemId 2
  LabeledExpand h suite (LabeledExtract h suite [] "eae_prk" dh) "shared_secret" ctx h.L

/-- Section 5.1, `KeySchedule`. -/
structure Inputs where
  mode : UInt8
  shared : Bytes
  info : Bytes
  psk : Bytes
  pskId : Bytes
  suite : Bytes

def context (h : Hash) (i : Inputs) : Bytes :=
  [i.mode] ++ LabeledExtract h i.suite [] "psk_id_hash" i.pskId ++ LabeledExtract h i.suite [] "info_hash" i.info
def secret (h : Hash) (i : Inputs) : Bytes := LabeledExtract h i.suite i.shared "secret" i.psk
def key (h : Hash) (i : Inputs) (Nk : Nat) : Bytes := LabeledExpand h i.suite (secret h i) "key" (context h i) Nk
def baseNonce (h : Hash) (i : Inputs) (Nn : Nat) : Bytes :=
  LabeledExpand h i.suite (secret h i) "base_nonce" (context h i) Nn
def exporterSecret (h : Hash) (i : Inputs) : Bytes :=
  LabeledExpand h i.suite (secret h i) "exp" (context h i) h.L

/-- Section 5.2, `ComputeNonce`. -/
def computeNonce (base : Bytes) (seq : Nat) : Bytes := List.zipWith (· ^^^ ·) base (i2osp seq base.length)

end Fizz.Hpke.Spec

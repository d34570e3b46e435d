import Verif.Ech.TypesSpec
import Verif.Hpke.Spec

/-!
# Specification: the HPKE inputs of ECH (draft-ietf-tls-esni section 6.1, RFC 9180 section 7)
-/

namespace Fizz.Ech.Spec
open Fizz Fizz.Crypto.Spec

/-- `"tls ech" || 0x00 || ECHConfig`, the config with its version and length. -/
def info (c : ConfigContent) : Bytes := Hpke.Spec.str "tls ech" ++ [0] ++ config ⟨0xfe0d, configContent c⟩

/-- `"HPKE" || I2OSP(kem_id, 2) || I2OSP(kdf_id, 2) || I2OSP(aead_id, 2)`. -/
def hpkeSuite (kem : UInt16) (s : Suite) : Bytes :=
  Hpke.Spec.str "HPKE" ++ Hpke.Spec.i2osp kem.toNat 2 ++ Hpke.Spec.i2osp s.kdf.toNat 2 ++
    Hpke.Spec.i2osp s.aead.toNat 2

/-- The inputs of the key schedule, for the Diffie-Hellman value `dh` and the encapsulated key `enc`: mode base,
no PSK.  `h` is the hash of the suite's KDF; it is used in the KEM too. -/
def inputs (h : Hash) (c : ConfigContent) (s : Suite) (dh enc : Bytes) : Hpke.Spec.Inputs where
  mode := 0
  shared := Hpke.Spec.ExtractAndExpand h c.key.kemId.toNat dh (enc ++ c.key.publicKey)
  info := info c
  psk := []
  pskId := []
  suite := hpkeSuite c.key.kemId s

end Fizz.Ech.Spec

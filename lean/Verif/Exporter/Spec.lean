import Verif.Crypto.Spec
import Verif.Agree.NoClash

/-! # Specification of exported keying material (RFC 8446 section 7.5) -/

namespace Fizz.Exporter.Spec
open Fizz.Crypto.Spec

/-- The bytes of an ASCII string. -/
def ascii (s : String) : Bytes := s.toList.map fun c => UInt8.ofNat c.toNat

/-- `Derive-Secret(Secret, label, "")`. -/
def derived (h : Hash) (secret label : Bytes) : Bytes :=
  ExpandLabel h secret label (h.H []) (UInt16.ofNat h.L)

/-- `TLS-Exporter(label, context_value, key_length) =
HKDF-Expand-Label(Derive-Secret(Secret, label, ""), "exporter", Hash(context_value), key_length)`. -/
def exporter (h : Hash) (secret label context : Bytes) (length : UInt16) : Bytes :=
  ExpandLabel h (derived h secret label) (ascii "exporter") (h.H context) length

/-- The inputs of the hash function in `HMAC(k, t)`. -/
def hmacInputs (h : Hash) (k t : Bytes) : List Bytes :=
  [xorAll 0x5c (padKey h k) ++ h.H (xorAll 0x36 (padKey h k) ++ t), xorAll 0x36 (padKey h k) ++ t]

/-- The inputs of the hash function for an exported key, up to its first `Hash.length` bytes. -/
def inputs (h : Hash) (secret label context : Bytes) (length : UInt16) : List Bytes :=
  context ::
  hmacInputs h secret
    (Fizz.Codec.Spec.hkdfLabel (UInt16.ofNat h.L) label (h.H []) (ascii "tls13 ") ++ [1]) ++
  hmacInputs h (derived h secret label)
    (Fizz.Codec.Spec.hkdfLabel length (ascii "exporter") (h.H context) (ascii "tls13 ") ++ [1])

end Fizz.Exporter.Spec

import Verif.Ech.OuterSpec
import Verif.Ech.TypesSpec
import Verif.Hpke.Model

/-!
# Specification: what ECH promises (draft-ietf-tls-esni sections 5, 6, 7)
-/

namespace Fizz.Ech.Spec
open Fizz Fizz.Codec Fizz.Codec.Spec

/-- The AEAD decrypts what it encrypted, and adds a tag of 16 bytes. -/
def GoodAead (C : Hpke.Cipher) : Prop :=
  ∀ k n a m ct, C.enc k n a m = .ok ct → C.dec k n a ct = some m ∧ ct.length = m.length + 16

/-- The inner hello can be compressed for `T` and rebuilt: no extension type is repeated, none is
`ech_outer_extensions`, those to be compressed stand next to each other, and none of them is one in which
inner and outer hello differ: server_name, pre_shared_key, early_data, encrypted_client_hello. -/
structure Compressible (T : List UInt16) (inner : ClientHello) : Prop where
  distinct : (types inner.extensions).Nodup
  noRef : 0xfd00 ∉ types inner.extensions
  contiguous : Contiguous T inner.extensions
  differ : ∀ t ∈ [0, 41, 42, 0xfe0d], t ∉ T

/-- The additional data of section 5.2: the outer hello with the payload of its (first) ECH extension
replaced by as many zeros.  `trailing` are bytes after the structure in that extension.  Both have to fit their
length fields. -/
def Aad (o : ClientHello) (e : OuterEch) (trailing a : Bytes) : Prop :=
  ∃ pre post z, o.extensions = pre ++ ⟨0xfe0d, (outerEchWire e).extension_data ++ trailing⟩ :: post ∧
    0xfe0d ∉ types pre ∧ OuterEchFits e ∧
    z = { o with extensions := pre ++ outerEchWire { e with payload := List.replicate e.payload.length 0 } :: post } ∧
    ClientHelloFits z ∧ a = clientHello z

/-- `o'` is `o` except for bytes after the structure in its ECH extension. -/
def SameButTrailing (o o' : ClientHello) : Prop :=
  ∃ pre post e trailing trailing', 0xfe0d ∉ types pre ∧
    o.extensions = pre ++ ⟨0xfe0d, (outerEchWire e).extension_data ++ trailing⟩ :: post ∧
    o' = { o with extensions := pre ++ ⟨0xfe0d, (outerEchWire e).extension_data ++ trailing'⟩ :: post }

/-- What the plaintext `pt` in an outer hello `o` stands for: a hello followed by zeros (or a hello without an
extensions block, and nothing after it), with the session id of `o` and its references to extensions of `o`
expanded. -/
def StandsFor (o : ClientHello) (pt : Bytes) (inner : ClientHello) : Prop :=
  ∃ m k, (pt = clientHello m ++ List.replicate k 0 ∨
      (m.extensions = [] ∧ pt = clientHelloNoExtensions m)) ∧
    Expansion m.extensions o.extensions inner.extensions ∧
    inner = { m with legacy_session_id := o.legacy_session_id, extensions := inner.extensions }

/-- The hello with additional data `a` is opened with the key and nonce of `c`. -/
def Opens (o : ClientHello) (e : OuterEch) (trailing : Bytes) (c : Hpke.Context) (inner : ClientHello) : Prop :=
  ∃ a nonce pt, Aad o e trailing a ∧ Record.createIV c.seq c.cipher.ivLength c.iv = .ok nonce ∧
    c.cipher.dec c.key nonce a e.payload = some pt ∧ StandsFor o pt inner

end Fizz.Ech.Spec

import Verif.TokenBinding.Model
import Verif.Codec.Spec

/-! # Token binding: specification (RFC 8471, RFC 8472) -/

namespace Fizz.TokenBinding.Spec

open Fizz.Codec Fizz.Codec.Spec

/-- `TokenBindingID`. -/
def id (i : ID) : Bytes := u8 i.key_parameters ++ vec .u16 i.key
/-- `TokenBinding`. -/
def binding (b : Binding) : Bytes :=
  u8 b.tokenbinding_type ++ (id b.tokenbindingid ++ (vec .u16 b.signature ++ vec .u16 b.extensions))
/-- The variable parts fit. -/
def BindingFits (b : Binding) : Prop :=
  b.tokenbindingid.key.length < 65536 ∧ b.signature.length < 65536 ∧ b.extensions.length < 65536
/-- `TokenBindingMessage`. -/
def message (l : List Binding) : Bytes := vec .u16 (l.flatMap binding)
@[inherit_doc BindingFits]
def MessageFits (l : List Binding) : Prop :=
  (∀ b ∈ l, BindingFits b) ∧ (l.flatMap binding).length < 65536

/-- Body of the token_binding extension. -/
def parameters (p : Parameters) : Bytes := u16 p.version ++ vec .u8 (p.key_parameters_list.flatMap u8)
@[inherit_doc BindingFits]
def ParametersFit (p : Parameters) : Prop := p.key_parameters_list.length < 256

/-- The first extension of type token_binding (24) begins with these parameters. -/
def Offers (exts : List Extension) (p : Parameters) : Prop :=
  ∃ before after rest, exts = before ++ ⟨24, parameters p ++ rest⟩ :: after ∧
    (∀ e ∈ before, e.extension_type ≠ 24) ∧ ParametersFit p

/-- There is no such extension. -/
def OffersNone (exts : List Extension) : Prop := ∀ e ∈ exts, e.extension_type ≠ 24

/-- What is signed (RFC 8471, 3.3): the type, the key parameters and the exported keying material. -/
def signed (type params : UInt8) (ekm : Bytes) : Bytes := type :: params :: ekm

/-- The greatest element with a property. -/
def Greatest (l : List UInt16) (p : UInt16 → Prop) (v : UInt16) : Prop :=
  v ∈ l ∧ p v ∧ ∀ w ∈ l, p w → w ≤ v

/-- A binding's key and signature, for P-256: 64 as length byte and the two coordinates; `r` and `s` of 32
bytes.  Anything may follow either. -/
def EcdsaValid {K P : Type} (lib : Lib K P) (key signature hash : Bytes) : Prop :=
  ∃ xy r s t t' p, key = 64 :: xy ++ t ∧ xy.length = 64 ∧ signature = r ++ (s ++ t') ∧
    r.length = 32 ∧ s.length = 32 ∧ lib.decodePoint (4 :: xy) = some p ∧
    lib.ecdsaVerify p hash (beDec r) (beDec s) = true

/-- For Ed25519: 32 as length byte, then a buffer's worth of exactly 32 bytes; buffers after that are not
looked at. -/
def EdValid {K P : Type} (lib : Lib K P) (key : List Bytes) (signature message : Bytes) : Prop :=
  ∃ k rest, (key.filter (fun b => !b.isEmpty) = (32 :: k) :: rest ∨
      key.filter (fun b => !b.isEmpty) = [32] :: k :: rest) ∧
    k.length = 32 ∧ lib.edVerify k message signature = true

/-- Honest cryptography: keys encode to 65 bytes and back, signatures verify and have components below
`2^256`. -/
structure Honest {K P : Type} (lib : Lib K P) (key : K) : Prop where
  format : ∃ xy, xy.length = 64 ∧ lib.encodePoint (lib.publicKey key) = 4 :: xy ∧
    lib.decodePoint (4 :: xy) = some (lib.publicKey key)
  signs : ∀ h, ∃ r s, lib.ecdsaSign key h = some (r, s) ∧ r < 256 ^ 32 ∧ s < 256 ^ 32 ∧
    lib.ecdsaVerify (lib.publicKey key) h r s = true

end Fizz.TokenBinding.Spec

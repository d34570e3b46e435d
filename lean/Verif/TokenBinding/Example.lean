import Verif.TokenBinding.Bind

/-! # C81, C82: concrete cases -/

namespace Fizz.TokenBinding.Example

open Fizz.Codec

/-- A key is one byte; a "signature" is the number of the key and of the first hash bytes. -/
def lib : Lib UInt8 UInt8 where
  sha256 m := m.take 32
  publicKey k := k
  encodePoint p := 4 :: List.replicate 64 p
  decodePoint b := match b with
    | 4 :: x :: l => if l = List.replicate 63 x then some x else none
    | _ => none
  ecdsaSign k h := some (beDec (h.take 32), k.toNat)
  ecdsaVerify p h r s := decide (r = beDec (h.take 32) ∧ s = p.toNat)
  edVerify k m sig := decide (sig = k.take 1 ++ m)

theorem lib_honest (key : UInt8) : Spec.Honest lib key where
  format := ⟨List.replicate 64 key, by simp, rfl, by simp [lib, List.replicate_succ]⟩
  signs h := ⟨_, _, rfl, by
      have := beDec_lt (h.take 32)
      refine Nat.lt_of_lt_of_le this (Nat.pow_le_pow_right (by decide) ?_)
      rw [List.length_take]; omega,
    by have := key.toNat_lt; exact Nat.lt_of_lt_of_le this (by decide), by simp [lib]⟩

/-- `C82_made`'s binding, and that it is refused under other keying material or another type. -/
def made : Res Binding := createTokenBinding lib 9 [1, 2, 3] 2 0

example : ∃ b, made = .ok b ∧ validate lib b [b.tokenbindingid.key] [1, 2, 3] 2 = some b.tokenbindingid ∧
    validate lib b [b.tokenbindingid.key] [1, 2, 4] 2 = none ∧
    validate lib { b with tokenbinding_type := 1 } [b.tokenbindingid.key] [1, 2, 3] 2 = none ∧
    validate lib b [b.tokenbindingid.key] [1, 2, 3] 1 = none := by
  refine ⟨⟨0, ⟨2, 64 :: List.replicate 64 9⟩,
    List.replicate 28 0 ++ [2, 1, 2, 3] ++ (List.replicate 31 0 ++ [9]), []⟩, ?_, ?_, ?_, ?_, ?_⟩ <;>
  decide +kernel

/-- `C82_bound`'s hypotheses: an owner who signed two messages. -/
example : ∀ m ∈ [Spec.signed 0 2 [1, 2, 3], Spec.signed 1 2 [1, 2, 3]],
    lib.sha256 m = lib.sha256 (Spec.signed 0 2 [1, 2, 3]) → m = Spec.signed 0 2 [1, 2, 3] := by
  decide +kernel

/-- `C82_fragments`' hypotheses. -/
example : validate lib ⟨0, ⟨239, 32 :: List.replicate 32 5⟩, 5 :: Spec.signed 0 239 [1], []⟩
    [32 :: List.replicate 32 5] [1] 239 = some ⟨239, 32 :: List.replicate 32 5⟩ := by decide +kernel

/-- Contexts: the client prefers 0x0102, the server has 0x0101 and 0x0100. -/
def client : Context := ⟨[0x0102, 0x0101], [239, 2]⟩
def server : Context := ⟨[0x0101, 0x0100], [2, 0]⟩

example : client.Ok ∧ server.Ok := by
  simp [Context.Ok, client, server]

example : clientExtensions client = .ok [⟨24, [1, 2, 2, 239, 2]⟩] := by decide +kernel
example : serverExtensions server none [⟨0, [7]⟩, ⟨24, [1, 2, 2, 239, 2]⟩] =
    .ok ([⟨24, [1, 1, 1, 2]⟩], some 2) := by decide +kernel
example : onEncryptedExtensions client {} [⟨24, [1, 1, 1, 2]⟩] = .ok ⟨some 0x0101, some 2⟩ := by
  decide +kernel
/-- A server that only has a version the client does not know. -/
example : serverExtensions ⟨[0x0100], [2]⟩ none [⟨24, [1, 2, 2, 239, 2]⟩] =
    .ok ([⟨24, [1, 0, 1, 2]⟩], some 2) ∧
    onEncryptedExtensions client {} [⟨24, [1, 0, 1, 2]⟩] = .ok {} := by decide +kernel
/-- Refused: a higher version. -/
example : onEncryptedExtensions client {} [⟨24, [1, 3, 1, 2]⟩] =
    .error (Failure.fizz "Server sent higher tokbind version" (some 110)) := by decide +kernel

/-- Messages. -/
example : encodeMessage [⟨0, ⟨2, [64]⟩, [1], []⟩] = .ok [0, 10, 0, 2, 0, 1, 64, 0, 1, 1, 0, 0] := by
  decide +kernel

end Fizz.TokenBinding.Example

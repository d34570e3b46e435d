import Verif.Ech.TamperProps
import Verif.Ech.PadSpec

/-!
# The length of the payload hides the name (C67)
-/

namespace Fizz.Ech
open Fizz Fizz.Codec
open Fizz.Ech.Spec (types withName)

/-- Bytes taken by some extensions. -/
def bytesOf (l : List Extension) : Nat := (l.flatMap Codec.Spec.extension).length

theorem bytesOf_append (a b : List Extension) : bytesOf (a ++ b) = bytesOf a + bytesOf b := by
  simp [bytesOf]
theorem bytesOf_cons (x : Extension) (l : List Extension) : bytesOf (x :: l) = 4 + x.extension_data.length + bytesOf l := by
  simp only [bytesOf, List.flatMap_cons, Codec.Spec.extension, Codec.Spec.u16, Codec.vec, List.length_append, beEnc_length]
  simp only [Width.bytes]
  omega

theorem generateOuter_bytes {inner : List Extension} {T c} (h0 : 0xfd00 ∉ types inner) (h : generateOuter inner T = .ok c) :
    bytesOf c = bytesOf (inner.filter fun e => !T.contains e.extension_type) +
      (if selectedTypes T inner = [] then 0 else 5 + 2 * (selectedTypes T inner).length) := by
  rcases split_selected T inner with ⟨h1, h2⟩ | ⟨pre, f, post, hs, h2, hf⟩
  · rw [(generateOuter_eq inner T h0).1 h2] at h
    simp only [Except.ok.injEq] at h
    subst h
    rw [if_pos h1, (none_selected h2).2.1]; rfl
  · obtain ⟨-, rfl⟩ := ((generateOuter_eq inner T h0).2 pre f post hs h2 hf c).1 h
    have hne : selectedTypes T inner ≠ [] := by
      rw [hs, selectedTypes_append, selectedTypes_cons, if_pos hf]; simp
    have hlen : ∀ l : List UInt16, (List.flatMap Codec.Spec.u16 l).length = 2 * l.length := by
      intro l
      induction l with
      | nil => rfl
      | cons a l ih => simp [List.flatMap_cons, ih, Codec.Spec.u16]; omega
    rw [if_neg hne]
    conv => rhs; rw [hs]
    rw [List.filter_append, (none_selected h2).2.1, List.filter_cons, if_neg (by simpa using hf), ← hs,
      bytesOf_append, bytesOf_append, bytesOf_cons]
    simp only [Spec.outerExtensionsWire, Codec.vec, List.length_append, hlen, beEnc_length]
    simp only [Width.bytes]
    omega

/-- C67: the encoded inner hello is followed by zeros up to a multiple of 32 bytes. -/
theorem C67_block (inner : ClientHello) (maxLen : Nat) (T : List UInt16) (pt : Bytes)
    (h : encodeInner inner maxLen T = .ok pt) :
    32 ∣ pt.length ∧ ∃ exts k, generateOuter inner.extensions T = .ok exts ∧
      pt = Codec.Spec.clientHello { inner with legacy_session_id := [], extensions := exts } ++ List.replicate k 0 := by
  unfold encodeInner at h
  simp only [Res.bind_eq_ok, Res.pure_eq, Except.ok.injEq] at h
  obtain ⟨exts, h1, enc, h2, pad, h3, rfl⟩ := h
  obtain ⟨-, rfl⟩ := encodeClientHello_eq_ok.1 h2
  unfold echPadding at h3
  simp only [Res.bind_eq_ok, Res.pure_eq, Except.ok.injEq] at h3
  obtain ⟨-, -, p, -, rfl⟩ := h3
  refine ⟨?_, exts, _, h1, rfl⟩
  rw [List.length_append, List.length_replicate]
  omega

theorem get_withName {A B : List Extension} {name : Option Bytes} (h0 : 0 ∉ types (A ++ B))
    (hn : ∀ n, name = some n → n.length < 65000) :
    getServerNameList (withName A B name) = .ok (name.map fun n => ⟨[{ hostname := n }]⟩) := by
  cases name with
  | none => exact getExtension_none.2 (fun e he ht => h0 (List.mem_map.2 ⟨e, he, ht⟩))
  | some n =>
    have hA : ∀ e ∈ A, e.extension_type ≠ 0 := fun e he ht =>
      h0 (List.mem_map.2 ⟨e, List.mem_append_left _ he, ht⟩)
    have := hn n rfl
    refine (getExtension_some codec_serverNameList).2 ⟨_, A, B, ?_, rfl, hA⟩
    rw [codec_serverNameList.2.1]
    refine ⟨⟨?_, ?_⟩, rfl⟩
    · simp [Codec.Spec.ServerNameFits]; omega
    · simp [Codec.Spec.serverName, Codec.vec, Width.bytes, Codec.Spec.u8]; omega

/-- The sum of what a hello with and one without a name need, before rounding. -/
theorem padded_length {inner : ClientHello} {A B T pt} {maxLen : Nat} {name : Option Bytes}
    (h : encodeInner { inner with extensions := withName A B name } maxLen T = .ok pt)
    (h0 : 0 ∉ types (A ++ B)) (hT : 0 ∉ T) (href : 0xfd00 ∉ types (A ++ B)) (hm : maxLen ≤ 255)
    (hn : ∀ n, name = some n → n.length ≤ maxLen) :
    ∃ k, pt.length = k + (31 - (k + 31) % 32) ∧
      k = 49 + 2 * inner.cipher_suites.length + inner.legacy_compression_methods.length + maxLen +
        bytesOf ((A ++ B).filter fun e => !T.contains e.extension_type) +
        (if selectedTypes T (A ++ B) = [] then 0 else 5 + 2 * (selectedTypes T (A ++ B)).length) := by
  unfold encodeInner at h
  simp only [Res.bind_eq_ok, Res.pure_eq, Except.ok.injEq] at h
  obtain ⟨exts, h1, enc, h2, pad, h3, rfl⟩ := h
  obtain ⟨-, rfl⟩ := encodeClientHello_eq_ok.1 h2
  unfold echPadding at h3
  rw [get_withName h0 (fun n e => by have := hn n e; omega)] at h3
  simp only [Res.ok_bind, Res.bind_eq_ok, Res.pure_eq, Except.ok.injEq] at h3
  obtain ⟨p, h4, rfl⟩ := h3
  have href' : 0xfd00 ∉ types (withName A B name) := by
    cases name with
    | none => exact href
    | some n =>
      simp only [withName, types_append, types_cons, List.mem_append, List.mem_cons] at href ⊢
      rintro (h | h | h)
      · exact href (.inl h)
      · rw [show (Codec.Spec.serverNameListWire ⟨[{ hostname := n }]⟩).extension_type = 0 from rfl] at h
        exact absurd h (by decide)
      · exact href (.inr h)
  have hb := generateOuter_bytes href' h1
  have hsel : selectedTypes T (withName A B name) = selectedTypes T (A ++ B) := by
    cases name with
    | none => rfl
    | some n =>
      simp only [withName]
      rw [selectedTypes_append, selectedTypes_cons,
        show (Codec.Spec.serverNameListWire ⟨[{ hostname := n }]⟩).extension_type = 0 from rfl, if_neg hT, selectedTypes_append]
  have hflt : bytesOf ((withName A B name).filter fun e => !T.contains e.extension_type) + p =
      bytesOf ((A ++ B).filter fun e => !T.contains e.extension_type) + maxLen + 9 := by
    cases name with
    | none =>
      simp only [namePadding, Option.map_none, Except.ok.injEq] at h4
      simp only [withName]
      omega
    | some n =>
      have hl := hn n rfl
      simp only [namePadding, Option.map_some, Except.ok.injEq] at h4
      simp only [withName]
      rw [List.filter_append, List.filter_cons, if_pos (by simpa [Codec.Spec.serverNameListWire] using hT),
        List.filter_append, bytesOf_append, bytesOf_cons, bytesOf_append]
      have : (Codec.Spec.serverNameListWire ⟨[{ hostname := n }]⟩).extension_data.length = 5 + n.length := by
        simp only [Codec.Spec.serverNameListWire, List.flatMap_cons, List.flatMap_nil, Codec.Spec.serverName, Codec.vec,
          List.length_append, beEnc_length, List.length_nil, Codec.Spec.u8, Width.bytes, List.length_singleton]
        omega
      rw [this]
      split at h4 <;> omega
  have hu16 : ∀ l : List UInt16, (List.flatMap Codec.Spec.u16 l).length = 2 * l.length := by
    intro l
    induction l with
    | nil => rfl
    | cons a l ih => simp [List.flatMap_cons, ih, Codec.Spec.u16]; omega
  have hu8 : ∀ l : List UInt8, (List.flatMap Codec.Spec.u8 l).length = l.length := by
    intro l
    induction l with
    | nil => rfl
    | cons a l ih => simp [List.flatMap_cons, ih, Codec.Spec.u8]; omega
  have hlen : (Codec.Spec.clientHello { inner with legacy_session_id := [], extensions := exts }).length =
      40 + 2 * inner.cipher_suites.length + inner.legacy_compression_methods.length + bytesOf exts := by
    simp only [Codec.Spec.clientHello, Codec.Spec.extensions, Codec.vec, List.length_append, beEnc_length, hu16, hu8,
      Codec.Spec.u16, inner.random.len, Width.bytes, List.length_nil, bytesOf]
    omega
  refine ⟨_, ?_, rfl⟩
  rw [List.length_append, List.length_replicate, hlen, hb, hsel]
  omega

/-- C67: the length of what is encrypted does not depend on the name, nor on whether there is one, among the
names that the configuration allows for. -/
theorem C67_hides (inner : ClientHello) (A B : List Extension) (T : List UInt16) (maxLen : Nat) (name name' : Option Bytes)
    (pt pt' : Bytes) (h0 : 0 ∉ types (A ++ B)) (hT : 0 ∉ T) (href : 0xfd00 ∉ types (A ++ B)) (hm : maxLen ≤ 255)
    (hn : ∀ n, name = some n → n.length ≤ maxLen) (hn' : ∀ n, name' = some n → n.length ≤ maxLen)
    (h : encodeInner { inner with extensions := withName A B name } maxLen T = .ok pt)
    (h' : encodeInner { inner with extensions := withName A B name' } maxLen T = .ok pt') :
    pt.length = pt'.length := by
  obtain ⟨k, a, b⟩ := padded_length h h0 hT href hm hn
  obtain ⟨k', a', b'⟩ := padded_length h' h0 hT href hm hn'
  rw [a, a', b, b']

end Fizz.Ech

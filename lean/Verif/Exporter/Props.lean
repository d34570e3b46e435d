import Verif.Exporter.Model
import Verif.Exporter.Spec
import Verif.Agree.Mac
import Verif.Crypto.HkdfProps

/-!
# C71: exported keying material
-/

namespace Fizz.Exporter
open Fizz.Crypto Fizz.Crypto.Spec Fizz.Codec
open Fizz.Agree.Spec (NoClash)

theorem hl16 {h : HashAlg} (ok : h.Ok) : (UInt16.ofNat h.hashLen).toNat = h.hashLen := by
  have h2 := ok.le
  have h3 := ok.max
  rw [UInt16.toNat_ofNat_of_lt']
  show h.hashLen < 65536
  omega

theorem derived_len {h : HashAlg} (ok : h.Ok) (secret label : Bytes) :
    (Spec.derived h.spec secret label).length = h.hashLen := by
  have h2 := ok.le
  have h3 := ok.max
  unfold Spec.derived ExpandLabel
  show (Expand h.spec secret _ (UInt16.ofNat h.hashLen).toNat).length = _
  rw [hl16 ok, Expand_length ok]

/-- C71: for a secret of the hash's length, a label of at most 249 bytes and at most 255 hash lengths
of output, the exported keying material is that of RFC 8446 section 7.5, of the length asked for. -/
theorem C71_rfc {h : HashAlg} (ok : h.Ok) (secret label context : Bytes) (length : UInt16)
    (hs : secret.length = h.hashLen) (hl : label.length ≤ 249) (hn : length.toNat ≤ 255 * h.hashLen) :
    getExportedKeyingMaterial h secret label context length =
        .ok (Spec.exporter h.spec secret label context length) ∧
      (Spec.exporter h.spec secret label context length).length = length.toNat := by
  have h1 := ok.pos
  have h2 := ok.le
  have h3 := ok.max
  refine ⟨?_, ?_⟩
  · have e : deriveSecret h secret label h.blankHash (UInt16.ofNat h.hashLen) =
        .ok (Spec.derived h.spec secret label) := by
      rw [ok.blank]
      exact deriveSecret_eq ok _ _ _ _ hs (ok.len _) (by rw [hl16 ok]; exact h1)
        (by rw [hl16 ok]; omega) hl
    simp only [getExportedKeyingMaterial, e, Res.ok_bind]
    exact expandLabel_eq ok _ _ _ _ (derived_len ok _ _) hn (by decide)
      (by rw [ok.len]; omega)
  · exact Expand_length ok _ _ _

/-- C71: more than 255 hash lengths, or a label of more than 249 bytes, is refused. -/
theorem C71_refused {h : HashAlg} (ok : h.Ok) (secret label context : Bytes) (length : UInt16)
    (hs : secret.length = h.hashLen) (hb : 249 < label.length ∨ 255 * h.hashLen < length.toNat) :
    ∃ f, getExportedKeyingMaterial h secret label context length = .error f := by
  have h1 := ok.pos
  have h2 := ok.le
  have h3 := ok.max
  by_cases hl : label.length ≤ 249
  · have hn : 255 * h.hashLen < length.toNat := by omega
    have e : deriveSecret h secret label h.blankHash (UInt16.ofNat h.hashLen) =
        .ok (Spec.derived h.spec secret label) := by
      rw [ok.blank]
      exact deriveSecret_eq ok _ _ _ _ hs (ok.len _) (by rw [hl16 ok]; exact h1)
        (by rw [hl16 ok]; omega) hl
    simp only [getExportedKeyingMaterial, e, Res.ok_bind, expandLabel]
    cases encodeHkdfLabel length (Cred.str "exporter") (h.digest context) kHkdfLabelPrefix with
    | error f => exact ⟨f, rfl⟩
    | ok b =>
      simp only [Res.ok_bind, expand]
      rw [if_neg (by simpa using derived_len ok secret label), if_pos hn]
      exact ⟨_, rfl⟩
  · have hf : ∀ b, encodeHkdfLabel (UInt16.ofNat h.hashLen) label h.blankHash kHkdfLabelPrefix ≠ .ok b := by
      intro b hb
      have := (C22_refuses (UInt16.ofNat h.hashLen) label h.blankHash kHkdfLabelPrefix).1 ⟨b, hb⟩
      simp [kHkdfLabelPrefix] at this
      omega
    simp only [getExportedKeyingMaterial, deriveSecret]
    rw [if_neg (by simpa using hs), if_neg (by rw [ok.blank, ok.len]; simp),
      if_neg (by rw [hl16 ok]; omega)]
    cases he : encodeHkdfLabel (UInt16.ofNat h.hashLen) label h.blankHash kHkdfLabelPrefix with
    | error f =>
      simp only [expandLabel, he, Res.error_bind]
      exact ⟨f, rfl⟩
    | ok b => exact absurd he (hf b)

/-- C71: before the connection has a cipher and an exporter secret nothing is exported (a null buffer,
not an error); afterwards the value of RFC 8446. -/
theorem C71_connection (cipher : Option HashAlg) (secret : Option Bytes) (label context : Bytes)
    (length : UInt16) :
    (cipher = none ∨ secret = none → ofConnection cipher secret label context length = .ok none) ∧
    (∀ h s, cipher = some h → secret = some s → h.Ok → s.length = h.hashLen → label.length ≤ 249 →
      length.toNat ≤ 255 * h.hashLen →
      ofConnection cipher secret label context length =
        .ok (some (Spec.exporter h.spec s label context length))) := by
  refine ⟨?_, ?_⟩
  · rintro (rfl | rfl)
    · rfl
    · cases cipher <;> rfl
  · rintro h s rfl rfl ok hs hl hn
    simp only [ofConnection, (C71_rfc ok s label context length hs hl hn).1, Res.ok_bind, Res.pure_eq]

/-- C71: without early data there is no early exporter, and with it it is that of RFC 8446 for the
early secret. -/
theorem C71_early (label context : Bytes) (length : UInt16) :
    early none label context length = .error (Failure.rt "early ekm not available") ∧
    ∀ h s, h.Ok → s.length = h.hashLen → label.length ≤ 249 → length.toNat ≤ 255 * h.hashLen →
      early (some (h, s)) label context length = .ok (Spec.exporter h.spec s label context length) :=
  ⟨rfl, fun h s ok hs hl hn => (C71_rfc ok s label context length hs hl hn).1⟩

/-- The first hash length of an expanded label is one HMAC. -/
theorem expandLabel_take {h : HashAlg} (ok : h.Ok) (s l c : Bytes) (len : UInt16)
    (hn : h.hashLen ≤ len.toNat) :
    (ExpandLabel h.spec s l c len).take h.hashLen = HMAC h.spec s
      (Codec.Spec.hkdfLabel len l c [116, 108, 115, 49, 51, 32] ++ [1]) := by
  have h1 := ok.pos
  unfold ExpandLabel Expand
  have hp : 1 ≤ (len.toNat + h.spec.L - 1) / h.spec.L := by
    show 1 ≤ (len.toNat + h.hashLen - 1) / h.hashLen
    rw [Nat.le_div_iff_mul_le h1]; omega
  obtain ⟨n, hn'⟩ : ∃ n, (len.toNat + h.spec.L - 1) / h.spec.L = n + 1 := ⟨_, (Nat.sub_add_cancel hp).symm⟩
  rw [hn', List.take_take, Nat.min_eq_left hn]
  have key : ∀ (p i : Bytes) n, (Tcat h.spec p i (n + 1)).take h.hashLen = HMAC h.spec p (i ++ [1]) := by
    intro p i n
    induction n with
    | zero =>
      rw [Tcat, Tcat, List.nil_append, List.take_of_length_le (by rw [T_length ok]; exact Nat.le_refl _)]
      rfl
    | succ n ih =>
      rw [Tcat, List.take_append_of_le_length, ih]
      have := congrArg List.length ih
      rw [List.length_take, show (HMAC h.spec p (i ++ [1])).length = h.hashLen from ok.len _] at this
      omega
  exact key _ _ _

theorem label_inj {n n' : UInt16} {l l' c c' : Bytes} (hl : l.length ≤ 249) (hl' : l'.length ≤ 249)
    (hc : c.length = c'.length)
    (h : Codec.Spec.hkdfLabel n l c [116, 108, 115, 49, 51, 32] =
      Codec.Spec.hkdfLabel n' l' c' [116, 108, 115, 49, 51, 32]) : n = n' ∧ l = l' ∧ c = c' := by
  unfold Codec.Spec.hkdfLabel at h
  rw [List.append_assoc, List.append_assoc] at h
  obtain ⟨h1, h2⟩ := List.append_inj h (by simp [Codec.Spec.u16])
  unfold vec at h2
  rw [List.append_assoc, List.append_assoc (beEnc Width.u8.bytes (List.length (_ ++ l')))] at h2
  obtain ⟨h3, h4⟩ := List.append_inj h2 (by simp)
  have h5 := beEnc_inj (by simp [Width.bytes]; omega) (by simp [Width.bytes]; omega) h3
  obtain ⟨h6, h7⟩ := List.append_inj h4 h5
  have h8 := (List.append_inj h7 (by simp)).2
  refine ⟨?_, (List.append_inj h6 rfl).2, h8⟩
  have := beEnc_inj (n := 2) (by have := n.toNat_lt; simpa using this)
    (by have := n'.toNat_lt; simpa using this) h1
  exact UInt16.toNat.inj this

/-- C71: two exported keys of at least a hash length that begin with the same hash length of bytes
were exported from the same secret for the same label, context and length, unless the two
computations contain a collision of the hash function. -/
theorem C71_separate {h : HashAlg} (ok : h.Ok) {s s' l l' c c' : Bytes} {n n' : UInt16}
    (hs : s.length = h.hashLen) (hs' : s'.length = h.hashLen) (hl : l.length ≤ 249)
    (hl' : l'.length ≤ 249) (hn : h.hashLen ≤ n.toNat) (hn' : h.hashLen ≤ n'.toNat)
    (hc : NoClash h.spec (Spec.inputs h.spec s l c n) (Spec.inputs h.spec s' l' c' n'))
    (he : (Spec.exporter h.spec s l c n).take h.hashLen =
      (Spec.exporter h.spec s' l' c' n').take h.hashLen) :
    s = s' ∧ l = l' ∧ c = c' ∧ n = n' := by
  unfold Spec.exporter at he
  rw [expandLabel_take ok _ _ _ _ hn, expandLabel_take ok _ _ _ _ hn'] at he
  have hlen : ∀ m, (h.spec.H m).length = h.hashLen := ok.len
  obtain ⟨e1, e2⟩ := Agree.hmac_inj ok (derived_len ok s l) (derived_len ok s' l')
    (Agree.NoClash.mono hc (fun a ha => List.mem_append_right _ ha) (fun a ha => List.mem_append_right _ ha)) he
  obtain ⟨e3, -, e4⟩ := label_inj (by decide) (by decide) (by rw [hlen, hlen]) (List.append_inj' e2 rfl).1
  have e5 := hc _ (by simp [Spec.inputs]) _ (by simp [Spec.inputs]) e4
  have e6 := congrArg (List.take h.hashLen) e1
  unfold Spec.derived at e6
  rw [expandLabel_take ok _ _ _ _ (by show _ ≤ (UInt16.ofNat h.hashLen).toNat; rw [hl16 ok]; exact Nat.le_refl _),
    expandLabel_take ok _ _ _ _ (by show _ ≤ (UInt16.ofNat h.hashLen).toNat; rw [hl16 ok]; exact Nat.le_refl _)] at e6
  obtain ⟨e7, e8⟩ := Agree.hmac_inj ok hs hs'
    (Agree.NoClash.mono hc (fun a ha => List.mem_append_left _ (List.mem_cons_of_mem _ ha))
      (fun a ha => List.mem_append_left _ (List.mem_cons_of_mem _ ha))) e6
  obtain ⟨-, e9, -⟩ := label_inj hl hl' rfl (List.append_inj' e8 rfl).1
  exact ⟨e7, e9, e5, e3⟩

/-! ## Concrete cases -/

example : getExportedKeyingMaterial toyHash [1, 2] [65, 66] [7] 5 =
    .ok (Spec.exporter toyHash.spec [1, 2] [65, 66] [7] 5) :=
  (C71_rfc toyHash_ok _ _ _ _ rfl (by decide) (by decide)).1

example : (Spec.exporter toyHash.spec [1, 2] [65, 66] [7] 5).take 2 ≠
    (Spec.exporter toyHash.spec [1, 2] [65, 67] [7] 5).take 2 := by decide +kernel

example : ∃ f, getExportedKeyingMaterial toyHash [1, 2] [65, 66] [7] 511 = .error f :=
  C71_refused toyHash_ok _ _ _ _ rfl (.inr (by decide))

/-- The hypotheses of `C71_separate` can be met: here by the two computations being the same. -/
example : NoClash toyHash.spec (Spec.inputs toyHash.spec [1, 2] [65] [7] 5)
    (Spec.inputs toyHash.spec [1, 2] [65] [7] 5) := by
  intro a ha b hb
  revert a b
  decide +kernel

end Fizz.Exporter

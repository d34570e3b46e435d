import Verif.TokenBinding.Spec
import Verif.Codec.ExtLemmas

/-! # C81, C82: token binding -/

namespace Fizz.TokenBinding

open Fizz.Codec

/-! ## Codec -/

theorem elem_id : ElemSpec readID (fun i => i.key.length < 65536) Spec.id := by
  intro inp a n rest
  simp only [readID, Rd.bind_eq_ok, readU8_eq_ok, readBuf_eq_ok, Rd.pure_eq_ok,
    Prod.exists, Prod.mk.injEq, pow_u16]
  constructor
  · rintro ⟨t, _, _, ⟨rfl, rfl⟩, d, _, _, ⟨h, rfl, rfl⟩, ⟨rfl, rfl⟩, rfl⟩
    exact ⟨h, by simp [Spec.id, Codec.Spec.u8], by simp [Spec.id, Codec.Spec.u8]⟩
  · rintro ⟨h, rfl, rfl⟩
    exact ⟨_, _, _, ⟨by simp only [Spec.id, List.append_assoc]; rfl, rfl⟩, _, _, _,
      ⟨h, rfl, rfl⟩, ⟨rfl, by simp [Spec.id, Codec.Spec.u8]⟩, rfl⟩

theorem elem_binding : ElemSpec readBinding Spec.BindingFits Spec.binding := by
  intro inp a n rest
  simp only [readBinding, Rd.bind_eq_ok, readU8_eq_ok, elem_id _ _ _ _, readBuf_eq_ok, Rd.pure_eq_ok,
    Prod.exists, Prod.mk.injEq, pow_u16]
  constructor
  · rintro ⟨t, _, _, ⟨rfl, rfl⟩, i, _, _, ⟨h1, rfl, rfl⟩, s, _, _, ⟨h2, rfl, rfl⟩, e, _, _,
      ⟨h3, rfl, rfl⟩, ⟨rfl, rfl⟩, rfl⟩
    exact ⟨⟨h1, h2, h3⟩, by simp [Spec.binding, Codec.Spec.u8],
      by simp [Spec.binding, Codec.Spec.u8]; omega⟩
  · rintro ⟨⟨h1, h2, h3⟩, rfl, rfl⟩
    refine ⟨_, _, _, ⟨by simp only [Spec.binding, List.append_assoc]; rfl, rfl⟩, _, _, _,
      ⟨h1, rfl, rfl⟩, _, _, _, ⟨h2, rfl, rfl⟩, _, _, _, ⟨h3, rfl, rfl⟩,
      ⟨rfl, by simp [Spec.binding, Codec.Spec.u8]; omega⟩, rfl⟩

theorem size_id (i : ID) : sizeID i = (Spec.id i).length := by
  simp [sizeID, getBufSize, Spec.id, Codec.Spec.u8]

theorem writeID_eq_ok {i : ID} {bs : Bytes} :
    writeID i = .ok bs ↔ i.key.length < 65536 ∧ bs = Spec.id i := by
  simp only [writeID, Res.bind_eq_ok, writeBuf_eq_ok, writeU8, Res.pure_eq, Except.ok.injEq, pow_u16]
  constructor
  · rintro ⟨_, rfl, _, ⟨h, rfl⟩, rfl⟩; exact ⟨h, rfl⟩
  · rintro ⟨h, rfl⟩; exact ⟨_, rfl, _, ⟨h, rfl⟩, rfl⟩

theorem wspec_binding : WriteSpec sizeBinding writeBinding Spec.BindingFits Spec.binding := by
  constructor
  · intro a; simp [sizeBinding, size_id, getBufSize, Spec.binding, Codec.Spec.u8]; omega
  · intro a bs
    simp only [writeBinding, Res.bind_eq_ok, writeBuf_eq_ok, writeU8, writeID_eq_ok, Res.pure_eq,
      Except.ok.injEq, pow_u16]
    constructor
    · rintro ⟨_, rfl, _, ⟨h1, rfl⟩, _, ⟨h2, rfl⟩, _, ⟨h3, rfl⟩, rfl⟩; exact ⟨⟨h1, h2, h3⟩, rfl⟩
    · rintro ⟨⟨h1, h2, h3⟩, rfl⟩
      exact ⟨_, rfl, _, ⟨h1, rfl⟩, _, ⟨h2, rfl⟩, _, ⟨h3, rfl⟩, rfl⟩

theorem pos_binding (b) : 0 < (Spec.binding b).length := by
  simp [Spec.binding, Codec.Spec.u8]; omega

/-- **C82** Encoding a token binding message gives its wire form, when the parts fit their length fields;
decoding accepts exactly the wire forms, so encoding and decoding are inverse to each other. -/
theorem C82_codec (l : List Binding) (bs : Bytes) :
    (encodeMessage l = .ok bs ↔ Spec.MessageFits l ∧ bs = Spec.message l) ∧
    (decodeMessage bs = .ok l ↔ Spec.MessageFits l ∧ bs = Spec.message l) := by
  constructor
  · rw [encodeMessage, writeVector_eq_ok wspec_binding]; rfl
  · rw [decodeMessage, decodeAll_eq_ok]
    simp only [readMessage, Rd.bind_eq_ok, readVector_eq_ok elem_binding pos_binding, Rd.pure_eq_ok,
      Prod.exists]
    constructor
    · rintro ⟨_, _, _, ⟨h, rfl, rfl⟩, rfl, rfl⟩; exact ⟨h, by simp [Spec.message]⟩
    · rintro ⟨h, rfl⟩; exact ⟨_, _, _, ⟨h, by simp [Spec.message], rfl⟩, rfl, rfl⟩

theorem flatMap_u8_length (l : List UInt8) :
    (l.flatMap (fun v => beEnc 1 v.toNat)).length = l.length := by
  induction l with
  | nil => rfl
  | cons a l ih => rw [List.flatMap_cons, List.length_append, ih, beEnc_length, List.length_cons]; omega

theorem readParameters_eq_ok {d : Bytes} {p : Parameters} {rest : Bytes} :
    readParameters d = .ok (p, rest) ↔ Spec.ParametersFit p ∧ d = Spec.parameters p ++ rest := by
  simp only [readParameters, Rd.bind_eq_ok, readU16_eq_ok,
    readVector_eq_ok elem_u8 (fun a => by simp), Rd.pure_eq_ok, Prod.exists]
  constructor
  · rintro ⟨v, _, _, ⟨rfl, rfl⟩, l, _, _, ⟨⟨-, h⟩, rfl, rfl⟩, rfl, rfl⟩
    refine ⟨?_, by simp [Spec.parameters, Codec.Spec.u16]; rfl⟩
    have := flatMap_u8_length l
    rw [Spec.ParametersFit]; rw [this] at h; exact h
  · rintro ⟨h, rfl⟩
    refine ⟨_, _, _, ⟨by simp only [Spec.parameters, List.append_assoc]; rfl, rfl⟩, _, _, _,
      ⟨⟨fun _ _ => trivial, ?_⟩, rfl, rfl⟩, rfl, rfl⟩
    have := flatMap_u8_length p.key_parameters_list
    rw [this]; exact h

theorem encodeParameters_eq_ok {p : Parameters} {e : Extension} :
    encodeParameters p = .ok e ↔ Spec.ParametersFit p ∧ e = ⟨24, Spec.parameters p⟩ := by
  have hl := flatMap_u8_length p.key_parameters_list
  simp only [encodeParameters, Res.bind_eq_ok, writeU16, writeVector_eq_ok wspec_u8, hl, Res.pure_eq,
    Except.ok.injEq]
  constructor
  · rintro ⟨_, rfl, _, ⟨⟨-, h⟩, rfl⟩, rfl⟩; exact ⟨h, rfl⟩
  · rintro ⟨h, rfl⟩; exact ⟨_, rfl, _, ⟨⟨fun _ _ => trivial, h⟩, rfl⟩, rfl⟩

theorem findExtension_none {exts : List Extension} {t : UInt16} :
    findExtension exts t = none ↔ ∀ e ∈ exts, e.extension_type ≠ t := by
  induction exts with
  | nil => simp [findExtension]
  | cons e l ih =>
    simp only [findExtension]
    split
    next h => simp [h]
    next h => simp [ih, h]

theorem findExtension_some {exts : List Extension} {t : UInt16} {x : Extension} :
    findExtension exts t = some x ↔ x.extension_type = t ∧ ∃ before after,
      exts = before ++ x :: after ∧ ∀ e ∈ before, e.extension_type ≠ t := by
  induction exts with
  | nil => simp [findExtension]
  | cons e l ih =>
    simp only [findExtension]
    split
    next h =>
      constructor
      · intro hx; cases hx; exact ⟨h, [], l, rfl, by simp⟩
      · rintro ⟨hx, before, after, e1, e2⟩
        cases before with
        | nil => cases e1; rfl
        | cons b bs => cases e1; exact (e2 _ (by simp) h).elim
    next h =>
      rw [ih]
      constructor
      · rintro ⟨hx, before, after, rfl, e2⟩
        exact ⟨hx, e :: before, after, rfl, by
          intro y hy; rcases List.mem_cons.mp hy with rfl | hy
          · exact h
          · exact e2 y hy⟩
      · rintro ⟨hx, before, after, e1, e2⟩
        cases before with
        | nil => cases e1; exact (h hx).elim
        | cons b bs =>
          cases e1
          exact ⟨hx, bs, after, rfl, fun y hy => e2 y (by simp [hy])⟩

/-- The parameters found in a list of extensions. -/
theorem getParameters_eq_ok {exts : List Extension} {o : Option Parameters} :
    getParameters exts = .ok o ↔
      (o = none ∧ Spec.OffersNone exts) ∨ ∃ p, o = some p ∧ Spec.Offers exts p := by
  unfold getParameters
  cases h : findExtension exts 24 with
  | none =>
    have hn := findExtension_none.mp h
    simp only [Except.ok.injEq]
    constructor
    · intro e; exact Or.inl ⟨e.symm, hn⟩
    · rintro (⟨rfl, -⟩ | ⟨p, rfl, b, a, r, rfl, -, -⟩)
      · rfl
      · exact (hn ⟨24, Spec.parameters p ++ r⟩ (by simp) rfl).elim
  | some x =>
    obtain ⟨h1, b, a, rfl, h2⟩ := findExtension_some.mp h
    obtain ⟨ty, d⟩ := x
    cases h1
    have hnot : ¬ Spec.OffersNone (b ++ ⟨24, d⟩ :: a) := fun hn => hn ⟨24, d⟩ (by simp) rfl
    simp only
    cases hr : readParameters d with
    | error f =>
      simp only [reduceCtorEq, false_iff]
      rintro (⟨-, hn⟩ | ⟨p, rfl, b', a', r, e, e2, e3⟩)
      · exact hnot hn
      · have := (findExtension_some (x := ⟨24, Spec.parameters p ++ r⟩)).mpr ⟨rfl, b', a', e, e2⟩
        rw [h] at this
        cases this
        rw [readParameters_eq_ok.mpr ⟨e3, rfl⟩] at hr
        cases hr
    | ok q =>
      obtain ⟨p, rest⟩ := q
      obtain ⟨f1, f2⟩ := readParameters_eq_ok.mp hr
      simp only [Except.ok.injEq]
      constructor
      · intro e; exact Or.inr ⟨p, e.symm, b, a, rest, by rw [f2]; rfl, h2, f1⟩
      · rintro (⟨-, hn⟩ | ⟨p', rfl, b', a', r, e, e2, e3⟩)
        · exact (hnot hn).elim
        · have := (findExtension_some (x := ⟨24, Spec.parameters p' ++ r⟩)).mpr ⟨rfl, b', a', e, e2⟩
          rw [h] at this
          cases this
          rw [readParameters_eq_ok.mpr ⟨e3, rfl⟩] at hr
          cases hr; rfl

/-! ## Negotiation -/

theorem sorted_iff : ∀ l : List UInt16,
    (isSortedDown l = true ∧ hasTwins l = false) ↔ l.Pairwise (· > ·)
  | [] => by simp [isSortedDown, hasTwins]
  | [a] => by simp [isSortedDown, hasTwins]
  | a :: b :: l => by
    have ih := sorted_iff (b :: l)
    rw [List.pairwise_cons, ← ih]
    simp only [isSortedDown, hasTwins, Bool.and_eq_true, Bool.not_eq_true', decide_eq_false_iff_not,
      Bool.or_eq_false_iff]
    constructor
    · rintro ⟨⟨h1, h2⟩, h3, h4⟩
      have hab : b < a := by
        have n1 : ¬ a.toNat < b.toNat := fun g => h1 (UInt16.lt_iff_toNat_lt.mpr g)
        have n2 : a.toNat ≠ b.toNat := fun g => h3 (UInt16.toNat_inj.mp g)
        exact UInt16.lt_iff_toNat_lt.mpr (by omega)
      refine ⟨fun x hx => ?_, h2, h4⟩
      rcases List.mem_cons.mp hx with rfl | hx
      · exact hab
      · exact UInt16.lt_trans ((List.pairwise_cons.mp (ih.mp ⟨h2, h4⟩)).1 x hx) hab
    · rintro ⟨h1, h2, h4⟩
      have hab := UInt16.lt_iff_toNat_lt.mp (h1 b (by simp))
      refine ⟨⟨fun g => ?_, h2⟩, fun g => ?_, h4⟩
      · have := UInt16.lt_iff_toNat_lt.mp g; omega
      · subst g; omega

/-- **C81** The versions a context takes are exactly the strictly descending lists. -/
theorem C81_versions (c : Context) (versions : List UInt16) :
    (∀ d, c.setSupportedVersions versions = .ok d ↔
      versions.Pairwise (· > ·) ∧ d = { c with supportedVersions := versions }) ∧
    ((∃ msg, c.setSupportedVersions versions = .error (.rt msg)) ↔ ¬ versions.Pairwise (· > ·)) := by
  have hs := sorted_iff versions
  unfold Context.setSupportedVersions
  split
  next h =>
    have : ¬ versions.Pairwise (· > ·) := fun g => h (hs.mpr g).1
    simp only [this, reduceCtorEq, false_and, not_false_eq_true, iff_true]
    exact ⟨fun _ => trivial, _, rfl⟩
  next h =>
    rw [Decidable.not_not] at h
    split
    next h' =>
      have : ¬ versions.Pairwise (· > ·) := fun g => by rw [(hs.mpr g).2] at h'; cases h'
      simp only [this, reduceCtorEq, false_and, not_false_eq_true, iff_true]
      exact ⟨fun _ => trivial, _, rfl⟩
    next h' =>
      have : versions.Pairwise (· > ·) := hs.mp ⟨h, by simpa using h'⟩
      simp [this, eq_comm]

/-- A context made by its setters. -/
def Context.Ok (c : Context) : Prop := c.supportedVersions.Pairwise (· > ·)

theorem first_greatest {l : List UInt16} (h : l.Pairwise (· > ·)) (p : UInt16 → Prop) [DecidablePred p]
    (v : UInt16) : l.find? (fun x => decide (p x)) = some v ↔ Spec.Greatest l p v := by
  induction l with
  | nil => simp [Spec.Greatest]
  | cons a l ih =>
    obtain ⟨h1, h2⟩ := List.pairwise_cons.mp h
    by_cases hp : p a
    · rw [List.find?_cons_of_pos (by simpa using hp)]
      constructor
      · intro e; cases e
        refine ⟨by simp, hp, fun w hw _ => ?_⟩
        rcases List.mem_cons.mp hw with rfl | hw
        · exact UInt16.le_refl _
        · exact UInt16.le_of_lt (h1 w hw)
      · rintro ⟨hv, hpv, hmax⟩
        rcases List.mem_cons.mp hv with rfl | hv
        · rfl
        · have g1 := UInt16.le_iff_toNat_le.mp (hmax a (by simp) hp)
          have g2 := UInt16.lt_iff_toNat_lt.mp (h1 v hv)
          omega
    · rw [List.find?_cons_of_neg (by simpa using hp), ih h2]
      constructor
      · rintro ⟨hv, hpv, hmax⟩
        refine ⟨by simp [hv], hpv, fun w hw hpw => ?_⟩
        rcases List.mem_cons.mp hw with rfl | hw
        · exact (hp hpw).elim
        · exact hmax w hw hpw
      · rintro ⟨hv, hpv, hmax⟩
        rcases List.mem_cons.mp hv with rfl | hv
        · exact (hp hpv).elim
        · exact ⟨hv, hpv, fun w hw => hmax w (by simp [hw])⟩

/-- **C81** The server answers with a token_binding extension exactly when the client sent one, a
supported version is not above the client's and a supported key parameter is among the client's; it then
sends the greatest such version and its own first such parameter, which becomes the negotiated one.
Otherwise it sends nothing and what it negotiated stays as it was. -/
theorem C81_server (c : Context) (hc : c.Ok) (before : Option UInt8) (clientHello : List Extension)
    (out : List Extension) (after : Option UInt8)
    (h : serverExtensions c before clientHello = .ok (out, after)) :
    (∃ p v k, Spec.Offers clientHello p ∧ Spec.Greatest c.supportedVersions (· ≤ p.version) v ∧
      Negotiate.FirstIn c.supportedKeyParams (· ∈ p.key_parameters_list) k ∧
      out = [⟨24, Spec.parameters ⟨v, [k]⟩⟩] ∧ after = some k) ∨
    (out = [] ∧ after = before ∧
      (Spec.OffersNone clientHello ∨ ∃ p, Spec.Offers clientHello p ∧
        ((∀ v ∈ c.supportedVersions, ¬ v ≤ p.version) ∨
          ∀ k ∈ c.supportedKeyParams, k ∉ p.key_parameters_list))) := by
  simp only [serverExtensions, Res.bind_eq_ok] at h
  obtain ⟨o, h1, h2⟩ := h
  rcases getParameters_eq_ok.mp h1 with ⟨rfl, hn⟩ | ⟨p, rfl, hp⟩
  · cases h2
    exact Or.inr ⟨rfl, rfl, Or.inl hn⟩
  · simp only at h2
    split at h2
    next v k hv hk =>
      simp only [Res.bind_eq_ok, encodeParameters_eq_ok] at h2
      obtain ⟨e, ⟨-, rfl⟩, h3⟩ := h2
      cases h3
      exact Or.inl ⟨p, v, k, hp, (first_greatest hc _ v).mp hv,
        ((Negotiate.C14_flat _ _).1 k).mp hk, rfl, rfl⟩
    next hnone =>
      cases h2
      refine Or.inr ⟨rfl, rfl, Or.inr ⟨p, hp, ?_⟩⟩
      cases hv : negotiateVersion c p.version with
      | none =>
        left
        simp only [negotiateVersion, List.find?_eq_none, decide_eq_true_eq] at hv
        exact hv
      | some v =>
        cases hk : Negotiate.negotiateFlat c.supportedKeyParams p.key_parameters_list with
        | none =>
          right
          simp only [Negotiate.negotiateFlat, List.find?_eq_none, decide_eq_true_eq] at hk
          exact hk
        | some k => exact (hnone v k hv hk).elim

/-- **C81** The client: whatever extensions the server sends, if the handshake goes on, then either nothing
was negotiated now, or the server's extension names exactly one key parameter and a version, both among
the client's own, and they are what the client reports.  A server's version above the client's highest, a
parameter the client did not offer, or a number of parameters other than one is refused with
`unsupported_extension`. -/
theorem C81_client (c : Context) (s : ClientState) (exts : List Extension) :
    (∀ t, onEncryptedExtensions c s exts = .ok t →
      (t = s ∧ (Spec.OffersNone exts ∨ ∃ v k, Spec.Offers exts ⟨v, [k]⟩ ∧ v ∉ c.supportedVersions ∧
        k ∈ c.supportedKeyParams)) ∨
      ∃ v k, Spec.Offers exts ⟨v, [k]⟩ ∧ v ∈ c.supportedVersions ∧ k ∈ c.supportedKeyParams ∧
        t = ⟨some v, some k⟩) ∧
    (∀ p, Spec.Offers exts p → c.supportedVersions ≠ [] →
      ((∀ k, p.key_parameters_list ≠ [k]) ∨ (∀ v ∈ c.supportedVersions.head?, v < p.version) ∨
        (∃ k ∈ p.key_parameters_list, k ∉ c.supportedKeyParams)) →
      ∃ msg, onEncryptedExtensions c s exts = .error (Failure.fizz msg (some 110))) := by
  constructor
  · intro t h
    simp only [onEncryptedExtensions, Res.bind_eq_ok] at h
    obtain ⟨o, h1, h2⟩ := h
    rcases getParameters_eq_ok.mp h1 with ⟨rfl, hn⟩ | ⟨p, rfl, hp⟩
    · cases h2; exact Or.inl ⟨rfl, Or.inl hn⟩
    · simp only at h2
      split at h2
      next k hk =>
        have hp' : Spec.Offers exts ⟨p.version, [k]⟩ := by rw [← hk]; exact hp
        split at h2
        · cases h2
        next front l hv =>
          split at h2
          · cases h2
          split at h2
          · cases h2
          next hkin =>
          rw [Decidable.not_not] at hkin
          split at h2
          next hvin =>
            cases h2
            exact Or.inl ⟨rfl, Or.inr ⟨_, _, hp', hvin, hkin⟩⟩
          next hvin =>
            rw [Decidable.not_not] at hvin
            cases h2
            exact Or.inr ⟨_, _, hp', hvin, hkin, rfl⟩
      · cases h2
  · intro p hp hne hbad
    have hg : getParameters exts = .ok (some p) := getParameters_eq_ok.mpr (Or.inr ⟨p, rfl, hp⟩)
    simp only [onEncryptedExtensions, hg, Res.ok_bind]
    split
    next k hk =>
      cases hv : c.supportedVersions with
      | nil => exact (hne hv).elim
      | cons front l =>
        simp only
        split
        · exact ⟨_, rfl⟩
        next h1 =>
        split
        · exact ⟨_, rfl⟩
        next h2 =>
        rcases hbad with h | h | ⟨k', h3, h4⟩
        · exact (h k hk).elim
        · exact (h1 (h front (by rw [hv]; rfl))).elim
        · rw [hk, List.mem_singleton] at h3
          subst h3
          exact (h2 h4).elim
    next => exact ⟨_, rfl⟩

theorem parameters_inj {p q : Parameters} {r r' : Bytes} (hp : Spec.ParametersFit p)
    (hq : Spec.ParametersFit q) (h : Spec.parameters p ++ r = Spec.parameters q ++ r') : p = q := by
  have h1 : readParameters (Spec.parameters p ++ r) = .ok (p, r) := readParameters_eq_ok.mpr ⟨hp, rfl⟩
  have h2 : readParameters (Spec.parameters q ++ r') = .ok (q, r') := readParameters_eq_ok.mpr ⟨hq, rfl⟩
  rw [h] at h1
  rw [h1] at h2
  cases h2; rfl

theorem offers_unique {exts : List Extension} {p q : Parameters} (hp : Spec.Offers exts p)
    (hq : Spec.Offers exts q) : p = q := by
  have h1 := (getParameters_eq_ok (exts := exts)).mpr (Or.inr ⟨p, rfl, hp⟩)
  have h2 := (getParameters_eq_ok (exts := exts)).mpr (Or.inr ⟨q, rfl, hq⟩)
  rw [h1] at h2
  cases h2; rfl

theorem offers_not_none {exts : List Extension} {p : Parameters} (hp : Spec.Offers exts p)
    (hn : Spec.OffersNone exts) : False := by
  obtain ⟨b, a, r, rfl, -, -⟩ := hp
  exact hn ⟨24, Spec.parameters p ++ r⟩ (by simp) rfl

/-- **C81** A client and a server of this library, the client's extensions and the server's answer among
any others: the client does not fail; if the server answered, the client reports the server's key
parameter and the greatest version of the server's not above its own highest, provided it supports that
version itself; otherwise it reports nothing new. -/
theorem C81_agree (c s : Context) (hs : s.Ok) (before : Option UInt8) (st : ClientState)
    (pre post pre' post' : List Extension) (hpre : Spec.OffersNone pre) (hpost : Spec.OffersNone post)
    (hpre' : Spec.OffersNone pre') (hpost' : Spec.OffersNone post')
    {sent out : List Extension} {after : Option UInt8} (h1 : clientExtensions c = .ok sent)
    (h2 : serverExtensions s before (pre ++ sent ++ post) = .ok (out, after)) :
    (out = [] ∧ after = before ∧ onEncryptedExtensions c st (pre' ++ out ++ post') = .ok st) ∨
    ∃ top v k, c.supportedVersions.head? = some top ∧ Spec.Greatest s.supportedVersions (· ≤ top) v ∧
      Negotiate.FirstIn s.supportedKeyParams (· ∈ c.supportedKeyParams) k ∧ after = some k ∧
      onEncryptedExtensions c st (pre' ++ out ++ post') =
        .ok (if v ∈ c.supportedVersions then ⟨some v, some k⟩ else st) := by
  rcases C81_server s hs before _ out after h2 with ⟨p, v, k, g1, g2, g3, g4, g5⟩ | ⟨g1, g2, -⟩
  · right
    subst g4
    unfold clientExtensions at h1
    have hno : ∀ sent, sent = [] → sent = ([] : List Extension) → ¬ Spec.Offers (pre ++ sent ++ post) p := by
      rintro _ rfl - ho
      refine offers_not_none ho (fun e he => ?_)
      simp only [List.append_nil, List.mem_append] at he
      rcases he with he | he
      · exact hpre e he
      · exact hpost e he
    split at h1
    · cases h1; exact (hno _ rfl rfl g1).elim
    next top l hv =>
      split at h1
      · cases h1; exact (hno _ rfl rfl g1).elim
      · simp only [Res.bind_eq_ok, encodeParameters_eq_ok] at h1
        obtain ⟨e, ⟨hfit, rfl⟩, h3⟩ := h1
        cases h3
        have ho : Spec.Offers (pre ++ [⟨24, Spec.parameters ⟨top, c.supportedKeyParams⟩⟩] ++ post)
            ⟨top, c.supportedKeyParams⟩ := ⟨pre, post, [], by simp, hpre, hfit⟩
        have he := offers_unique g1 ho
        subst he
        refine ⟨top, v, k, by rw [hv]; rfl, g2, g3, g5, ?_⟩
        have ho' : Spec.Offers (pre' ++ [⟨24, Spec.parameters ⟨v, [k]⟩⟩] ++ post') ⟨v, [k]⟩ :=
          ⟨pre', post', [], by simp, hpre', by simp [Spec.ParametersFit]⟩
        have hg := getParameters_eq_ok.mpr (Or.inr ⟨_, rfl, ho'⟩)
        have hle : ¬ top < v := by
          have : v.toNat ≤ top.toNat := UInt16.le_iff_toNat_le.mp g2.2.1
          intro g
          have g := UInt16.lt_iff_toNat_lt.mp g
          omega
        simp only [onEncryptedExtensions, hg, Res.ok_bind, hv, if_neg hle]
        have hk : k ∈ c.supportedKeyParams := g3.1
        simp only [hk, not_true, if_false]
        by_cases hin : v ∈ top :: l
        · simp [hin]
        · simp [hin]
  · left
    subst g1
    refine ⟨rfl, g2, ?_⟩
    have hn : Spec.OffersNone (pre' ++ [] ++ post') := by
      intro e he
      simp only [List.append_nil, List.mem_append] at he
      rcases he with he | he
      · exact hpre' e he
      · exact hpost' e he
    simp only [onEncryptedExtensions, getParameters_eq_ok.mpr (Or.inl ⟨rfl, hn⟩), Res.ok_bind]
    rfl

/-- **C81** The server never fails on what such a client sent, nor on a ClientHello without the extension;
and a client fails to make its extension only if it has more than 255 key parameters. -/
theorem C81_answers (c s : Context) (before : Option UInt8) (pre post : List Extension)
    (hpre : Spec.OffersNone pre) (hpost : Spec.OffersNone post) :
    (c.supportedKeyParams.length < 256 → ∃ sent, clientExtensions c = .ok sent) ∧
    ∀ sent, clientExtensions c = .ok sent →
      ∃ r, serverExtensions s before (pre ++ sent ++ post) = .ok r := by
  have some_ok : ∀ exts o, getParameters exts = .ok o → ∃ r, serverExtensions s before exts = .ok r := by
    intro exts o ho
    simp only [serverExtensions, ho, Res.ok_bind]
    cases o with
    | none => exact ⟨_, rfl⟩
    | some p =>
      simp only
      split
      next v k _ _ =>
        rw [encodeParameters_eq_ok.mpr ⟨by simp [Spec.ParametersFit], rfl⟩]
        exact ⟨_, rfl⟩
      next => exact ⟨_, rfl⟩
  constructor
  · intro h
    unfold clientExtensions
    split
    · exact ⟨_, rfl⟩
    next v _ _ =>
      split
      · exact ⟨_, rfl⟩
      · have hf : Spec.ParametersFit ⟨v, c.supportedKeyParams⟩ := h
        rw [encodeParameters_eq_ok.mpr ⟨hf, rfl⟩]
        exact ⟨_, rfl⟩
  · intro sent h1
    have hnone : Spec.OffersNone (pre ++ [] ++ post) := by
      intro e he
      simp only [List.append_nil, List.mem_append] at he
      rcases he with he | he
      · exact hpre e he
      · exact hpost e he
    unfold clientExtensions at h1
    split at h1
    · cases h1; exact some_ok _ none (getParameters_eq_ok.mpr (Or.inl ⟨rfl, hnone⟩))
    · split at h1
      · cases h1; exact some_ok _ none (getParameters_eq_ok.mpr (Or.inl ⟨rfl, hnone⟩))
      next top l _ _ =>
        simp only [Res.bind_eq_ok, encodeParameters_eq_ok] at h1
        obtain ⟨e, ⟨hfit, rfl⟩, h3⟩ := h1
        cases h3
        exact some_ok _ _ (getParameters_eq_ok.mpr (Or.inr ⟨⟨top, c.supportedKeyParams⟩, rfl, pre, post, [],
          by simp, hpre, hfit⟩))

/-- **C81** (a limit of the code) A context may have no version at all; a client with such a context offers
nothing, and its handler, if shown the extension nevertheless, reads the front of an empty vector.  (The client
refuses extensions it did not offer, C94_client; so another extension object must have offered it.) -/
theorem C81_unasked (c : Context) (hc : c.supportedVersions = []) (s : ClientState) (v : UInt16)
    (k : UInt8) :
    clientExtensions c = .ok [] ∧
    onEncryptedExtensions c s [⟨24, Spec.parameters ⟨v, [k]⟩⟩] =
      .error (.ub "front of an empty vector") := by
  constructor
  · simp [clientExtensions, hc]
  · have ho : Spec.Offers [⟨24, Spec.parameters ⟨v, [k]⟩⟩] ⟨v, [k]⟩ :=
      ⟨[], [], [], by simp, by simp, by simp [Spec.ParametersFit]⟩
    simp only [onEncryptedExtensions, getParameters_eq_ok.mpr (Or.inr ⟨_, rfl, ho⟩), Res.ok_bind, hc]

/-- **C81** What a context is set up with is what its client offers: the first of the supported versions and
exactly the supported key parameters, in their order; nothing when either list is empty. -/
theorem C81_offer (c : Context) (versions : List UInt16) (params : List UInt8) (d : Context)
    (hd : c.setSupportedVersions versions = .ok d) (hl : params.length < 256) :
    clientExtensions (d.setSupportedKeyParameters params) =
      .ok (match versions with
        | [] => []
        | v :: _ => if params = [] then [] else [⟨24, Spec.parameters ⟨v, params⟩⟩]) := by
  have hd := ((C81_versions c versions).1 d |>.mp hd).2
  subst hd
  unfold clientExtensions Context.setSupportedKeyParameters
  cases versions with
  | nil => rfl
  | cons v vs =>
    cases params with
    | nil => rfl
    | cons k ks =>
      have he : encodeParameters ⟨v, k :: ks⟩ = .ok ⟨24, Spec.parameters ⟨v, k :: ks⟩⟩ :=
        encodeParameters_eq_ok.mpr ⟨hl, rfl⟩
      simp [he, Res.ok_bind, Res.pure_eq]

/-- `C81_offer` for a client of two versions that prefers an experimental key type. -/
example : clientExtensions
    (((({} : Context).setSupportedVersions [0x0200, 0x0100]).toOption.getD {}).setSupportedKeyParameters
      [ed25519_experimental, ecdsap256]) = .ok [⟨24, [2, 0, 2, 239, 2]⟩] := by rfl

end Fizz.TokenBinding

import Verif.TokenBinding.Props

/-! # C82: making and checking token bindings -/

namespace Fizz.TokenBinding

open Fizz.Codec

variable {K P : Type} {lib : Lib K P}

theorem beEnc_one (a : UInt8) : beEnc 1 a.toNat = [a] := by
  simp [beEnc]

theorem message_eq (type params : UInt8) (ekm : Bytes) :
    constructMessage type params ekm = Spec.signed type params ekm := by
  simp [constructMessage, Spec.signed, beEnc_one]

theorem readBE_one {inp : Bytes} {v : Nat} {rest : Bytes} :
    readBE 1 inp = .ok (v, rest) ↔ ∃ b : UInt8, inp = b :: rest ∧ v = b.toNat := by
  rw [readBE_eq_ok]
  constructor
  · rintro ⟨h, rfl⟩
    refine ⟨UInt8.ofNat v, by simp [beEnc], ?_⟩
    rw [UInt8.toNat_ofNat']
    simp at h
    omega
  · rintro ⟨b, rfl, rfl⟩
    exact ⟨by have := b.toNat_lt; simp; omega, by rw [beEnc_one]; rfl⟩

theorem constructEcKey_eq_ok {key : Bytes} {p : P} :
    constructEcKey lib key = .ok p ↔
      ∃ xy t, key = 64 :: xy ++ t ∧ xy.length = 64 ∧ lib.decodePoint (4 :: xy) = some p := by
  simp only [constructEcKey, Res.bind_eq_ok, Prod.exists, readBE_one]
  constructor
  · rintro ⟨v, rest, ⟨b, rfl, rfl⟩, h⟩
    split at h
    · cases h
    next hb =>
      rw [Decidable.not_not] at hb
      rw [hb] at h
      simp only [Res.bind_eq_ok, Prod.exists, pull_eq_ok] at h
      obtain ⟨xy, t, ⟨h1, rfl⟩, h2⟩ := h
      split at h2
      · cases h2
      next q hq =>
        cases h2
        have : b = 64 := UInt8.toNat_inj.mp hb
        subst this
        exact ⟨xy, t, rfl, h1, hq⟩
  · rintro ⟨xy, t, rfl, h1, h2⟩
    refine ⟨64, xy ++ t, ⟨64, rfl, rfl⟩, ?_⟩
    rw [if_neg (by decide)]
    have : pull 64 (xy ++ t) = .ok (xy, t) := pull_eq_ok.mpr ⟨h1, rfl⟩
    simp only [this, Res.ok_bind, h2]
    rfl

theorem constructSig_eq_ok {sig : Bytes} {rs : Nat × Nat} :
    constructSig sig = .ok rs ↔
      ∃ r s t, sig = r ++ (s ++ t) ∧ r.length = 32 ∧ s.length = 32 ∧ rs = (beDec r, beDec s) := by
  simp only [constructSig, Res.bind_eq_ok, Prod.exists, pull_eq_ok, Res.pure_eq, Except.ok.injEq]
  constructor
  · rintro ⟨r, _, ⟨h1, rfl⟩, s, t, ⟨h2, rfl⟩, rfl⟩; exact ⟨r, s, t, rfl, h1, h2, rfl⟩
  · rintro ⟨r, s, t, rfl, h1, h2, rfl⟩; exact ⟨r, _, ⟨h1, rfl⟩, s, t, ⟨h2, rfl⟩, rfl⟩

/-- The first byte of a chain and what is seen after it. -/
theorem peek_spec : ∀ (key : List Bytes) (b : UInt8) (k : Bytes), k ≠ [] →
    ((∃ rest, key.flatten = b :: rest) ∧ peekAfterByte key = k ↔
      ∃ rest, key.filter (fun x => !x.isEmpty) = (b :: k) :: rest ∨
        key.filter (fun x => !x.isEmpty) = [b] :: k :: rest)
  | [], b, k, hk => by simp
  | [] :: l, b, k, hk => by
    have := peek_spec l b k hk
    simpa [peekAfterByte] using this
  | [a] :: l, b, k, hk => by
    simp only [peekAfterByte, List.flatten_cons, List.cons_append, List.nil_append, List.cons.injEq,
      List.filter_cons, List.isEmpty_cons, Bool.not_false, if_true]
    constructor
    · rintro ⟨⟨rest, rfl, -⟩, h⟩
      refine ⟨(l.filter (fun x => !x.isEmpty)).tail, Or.inr ⟨⟨rfl, trivial⟩, ?_⟩⟩
      cases hf : l.find? (fun b => !b.isEmpty) with
      | none => rw [hf] at h; exact (hk h.symm).elim
      | some x =>
        rw [hf] at h
        cases h
        have hh : (l.filter (fun x => !x.isEmpty)).head? = some x := by
          rw [List.head?_filter]; exact hf
        cases hl : l.filter (fun x => !x.isEmpty) with
        | nil => rw [hl] at hh; cases hh
        | cons y ys => rw [hl] at hh; cases hh; rfl
    · rintro ⟨rest, ⟨⟨-, h1⟩, -⟩ | ⟨⟨h1, -⟩, h2⟩⟩
      · exact (hk h1.symm).elim
      · refine ⟨⟨_, h1, rfl⟩, ?_⟩
        have hh : (l.filter (fun x => !x.isEmpty)).head? = some k := by rw [h2]; rfl
        rw [List.head?_filter] at hh
        rw [hh]; rfl
  | (a :: a' :: m) :: l, b, k, hk => by
    simp only [peekAfterByte, List.flatten_cons, List.cons_append, List.cons.injEq,
      List.filter_cons, List.isEmpty_cons, Bool.not_false, if_true]
    constructor
    · rintro ⟨⟨rest, rfl, -⟩, rfl⟩
      exact ⟨_, Or.inl ⟨⟨rfl, rfl⟩, rfl⟩⟩
    · rintro ⟨rest, ⟨⟨rfl, rfl⟩, -⟩ | ⟨⟨-, h1⟩, -⟩⟩
      · exact ⟨⟨_, rfl, rfl⟩, rfl⟩
      · cases h1

theorem verify_eq_ok {params : UInt8} {key : List Bytes} {sig msg : Bytes} :
    verify lib params key sig msg = .ok () ↔
      (params = 2 ∧ Spec.EcdsaValid lib key.flatten sig (lib.sha256 msg)) ∨
      (params = 239 ∧ Spec.EdValid lib key sig msg) := by
  unfold verify
  split
  next h =>
    subst h
    have hne : ¬ ((2 : UInt8) = 239) := by decide
    simp only [show ecdsap256 = (2 : UInt8) from rfl, hne, false_and, or_false, true_and,
      Res.bind_eq_ok, constructEcKey_eq_ok, Prod.exists, constructSig_eq_ok]
    constructor
    · rintro ⟨p, ⟨xy, t, h1, h2, h3⟩, _, _, ⟨r, s, t', h4, h5, h6, h7⟩, h8⟩
      cases h7
      split at h8
      next hv => exact ⟨xy, r, s, t, t', p, h1, h2, h4, h5, h6, h3, hv⟩
      next => cases h8
    · rintro ⟨xy, r, s, t, t', p, h1, h2, h4, h5, h6, h3, hv⟩
      exact ⟨p, ⟨xy, t, h1, h2, h3⟩, _, _, ⟨r, s, t', h4, h5, h6, rfl⟩, by rw [if_pos hv]; rfl⟩
  next h =>
    have h2 : params ≠ 2 := h
    split
    next h' =>
      subst h'
      have hne : ¬ ((239 : UInt8) = 2) := by decide
      simp only [show ed25519_experimental = (239 : UInt8) from rfl, hne, false_and, false_or, true_and,
        Res.bind_eq_ok, Prod.exists, readBE_one, Spec.EdValid]
      constructor
      · rintro ⟨_, rest, ⟨b, hb, rfl⟩, h⟩
        split at h
        · cases h
        next hl =>
          rw [Decidable.not_not] at hl
          have : b = 32 := UInt8.toNat_inj.mp hl
          subst this
          split at h
          · cases h
          next hp =>
            rw [Decidable.not_not] at hp
            split at h
            next hv =>
              have hne : peekAfterByte key ≠ [] := by
                intro e; rw [e] at hp; simp at hp
              obtain ⟨rest', hr⟩ := (peek_spec key 32 _ hne).mp ⟨⟨rest, hb⟩, rfl⟩
              exact ⟨_, rest', hr, hp, hv⟩
            next => cases h
      · rintro ⟨k, rest, hr, hk, hv⟩
        have hne : k ≠ [] := by intro e; rw [e] at hk; simp at hk
        obtain ⟨⟨rest', h1⟩, h2⟩ := (peek_spec key 32 k hne).mpr ⟨rest, hr⟩
        refine ⟨_, rest', ⟨32, h1, rfl⟩, ?_⟩
        rw [if_neg (by decide), h2, if_neg (by rw [hk]; decide), if_pos hv]
        rfl
    next h' =>
      have h3 : params ≠ 239 := h'
      simp [h2, h3]

/-- **C82** What the validator accepts, exactly.  With the negotiated parameter it returns the binding's ID
iff the ID's parameters are the negotiated ones and key and signature are valid for the type, the
parameters and this connection's keying material; with a list of supported parameters likewise.  It
returns nothing in every other case, and never anything but the binding's own ID. -/
theorem C82_validate (b : Binding) (key : List Bytes) (hkey : key.flatten = b.tokenbindingid.key)
    (ekm : Bytes) (i : ID) :
    let valid := i = b.tokenbindingid ∧
      ((i.key_parameters = 2 ∧ Spec.EcdsaValid lib b.tokenbindingid.key b.signature
        (lib.sha256 (Spec.signed b.tokenbinding_type 2 ekm))) ∨
      (i.key_parameters = 239 ∧
        Spec.EdValid lib key b.signature (Spec.signed b.tokenbinding_type 239 ekm)))
    (∀ negotiated, validate lib b key ekm negotiated = some i ↔
      i.key_parameters = negotiated ∧ valid) ∧
    (∀ supported, validateAny lib b key ekm supported = some i ↔
      i.key_parameters ∈ supported ∧ valid) := by
  have core : constructAndVerify lib b key ekm = some i ↔ i = b.tokenbindingid ∧
      ((i.key_parameters = 2 ∧ Spec.EcdsaValid lib b.tokenbindingid.key b.signature
        (lib.sha256 (Spec.signed b.tokenbinding_type 2 ekm))) ∨
      (i.key_parameters = 239 ∧
        Spec.EdValid lib key b.signature (Spec.signed b.tokenbinding_type 239 ekm))) := by
    unfold constructAndVerify
    rw [message_eq]
    have hv := verify_eq_ok (lib := lib) (params := b.tokenbindingid.key_parameters) (key := key)
      (sig := b.signature) (msg := Spec.signed b.tokenbinding_type b.tokenbindingid.key_parameters ekm)
    rw [hkey] at hv
    split
    next e he =>
      rw [he] at hv
      simp only [reduceCtorEq, false_iff] at hv
      simp only [reduceCtorEq, false_iff]
      rintro ⟨rfl, ⟨h1, h2⟩ | ⟨h1, h2⟩⟩
      · exact hv (Or.inl ⟨h1, by rw [h1]; exact h2⟩)
      · exact hv (Or.inr ⟨h1, by rw [h1]; exact h2⟩)
    next he =>
      have hv := hv.mp he
      simp only [Option.some.injEq]
      constructor
      · rintro rfl
        refine ⟨rfl, ?_⟩
        rcases hv with ⟨h1, h2⟩ | ⟨h1, h2⟩
        · exact Or.inl ⟨h1, by rw [h1] at h2; exact h2⟩
        · exact Or.inr ⟨h1, by rw [h1] at h2; exact h2⟩
      · rintro ⟨rfl, -⟩; rfl
  constructor
  · intro negotiated
    unfold validate
    split
    next h =>
      simp only [reduceCtorEq, false_iff]
      rintro ⟨h1, h2, -⟩
      exact h (by rw [← h2]; exact h1)
    next h =>
      rw [Decidable.not_not] at h
      rw [core]
      constructor
      · rintro ⟨rfl, g⟩; exact ⟨h, rfl, g⟩
      · exact fun g => g.2
  · intro supported
    unfold validateAny
    split
    next h =>
      simp only [reduceCtorEq, false_iff]
      rintro ⟨h1, h2, -⟩
      exact h (by rw [← h2]; exact h1)
    next h =>
      rw [Decidable.not_not] at h
      rw [core]
      constructor
      · rintro ⟨rfl, g⟩; exact ⟨h, rfl, g⟩
      · exact fun g => g.2

/-! ## Making -/

theorem numBytes_spec : ∀ n, n < 256 ^ numBytes n ∧ (∀ m, n < 256 ^ m → numBytes n ≤ m) := by
  intro n
  induction n using Nat.strongRecOn with
  | ind n ih =>
    cases n with
    | zero => simp [numBytes]
    | succ n =>
      obtain ⟨h1, h2⟩ := ih ((n + 1) / 256) (by omega)
      rw [numBytes]
      constructor
      · rw [Nat.pow_succ]; omega
      · intro m hm
        cases m with
        | zero => simp at hm
        | succ m =>
          rw [Nat.pow_succ] at hm
          have := h2 m (by omega)
          omega

theorem beDec_zeros (k : Nat) (bs : Bytes) : beDec (List.replicate k 0 ++ bs) = beDec bs := by
  induction k with
  | zero => rfl
  | succ k ih => simp [List.replicate_succ, beDec, ih]

theorem padBignum_spec {n : Nat} (h : n < 256 ^ 32) :
    ∃ bs, padBignum n = .ok bs ∧ bs.length = 32 ∧ beDec bs = n := by
  obtain ⟨h1, h2⟩ := numBytes_spec n
  have h3 := h2 32 h
  refine ⟨_, by rw [padBignum, if_neg (by omega)], ?_, ?_⟩
  · rw [List.length_append, List.length_replicate, beEnc_length]; omega
  · rw [beDec_zeros, beDec_beEnc h1]

/-- **C82** A token binding made with an elliptic curve key for a connection's keying material is accepted
there — under the negotiated parameter ECDSA P-256 or a list with it — however its key is cut into
buffers, and yields an ID with the 64 coordinate bytes of that key. -/
theorem C82_made (key : K) (hk : Spec.Honest lib key) (ekm : Bytes) (type : UInt8) :
    ∃ b xy, createTokenBinding lib key ekm 2 type = .ok b ∧
      b.tokenbinding_type = type ∧ b.extensions = [] ∧ b.signature.length = 64 ∧
      b.tokenbindingid = ⟨2, 64 :: xy⟩ ∧ 4 :: xy = lib.encodePoint (lib.publicKey key) ∧
      ∀ chunks : List Bytes, chunks.flatten = b.tokenbindingid.key →
        validate lib b chunks ekm 2 = some b.tokenbindingid ∧
        ∀ supported, 2 ∈ supported → validateAny lib b chunks ekm supported = some b.tokenbindingid := by
  obtain ⟨xy, hxy, henc, hdec⟩ := hk.format
  obtain ⟨r, s, hsig, hr, hs, hv⟩ := hk.signs (lib.sha256 (constructMessage type 2 ekm))
  obtain ⟨rb, e1, l1, d1⟩ := padBignum_spec hr
  obtain ⟨sb, e2, l2, d2⟩ := padBignum_spec hs
  let b : Binding := ⟨type, ⟨2, 64 :: xy⟩, rb ++ sb, []⟩
  have hvalid : Spec.EcdsaValid lib (64 :: xy) (rb ++ sb)
      (lib.sha256 (Spec.signed type 2 ekm)) := by
    refine ⟨xy, rb, sb, [], [], lib.publicKey key, by simp, hxy, by simp, l1, l2, hdec, ?_⟩
    rw [d1, d2, ← message_eq]; exact hv
  refine ⟨b, xy, ?_, rfl, rfl, by simp [b, l1, l2], rfl, henc.symm, fun chunks hc => ?_⟩
  · have : ¬ ((2 : UInt8) ≠ ecdsap256) := by decide
    simp only [createTokenBinding, this, if_false, signWithEcKey, hsig, encodeSignature, e1, e2,
      Res.ok_bind, Res.pure_eq, henc, encodeEcKey, hxy]
    rfl
  · obtain ⟨v1, v2⟩ := C82_validate (lib := lib) b chunks hc ekm b.tokenbindingid
    exact ⟨(v1 2).mpr ⟨rfl, rfl, Or.inl ⟨rfl, hvalid⟩⟩,
      fun sup h => (v2 sup).mpr ⟨h, rfl, Or.inl ⟨rfl, hvalid⟩⟩⟩

/-- **C82** Binding to the connection: if a verifying P-256 signature can only be one the key's owner made
over one of the messages it signed, and none of these collides under SHA-256 with the message at hand,
then an accepted binding was signed by the owner of the key in its ID for exactly this type, these
parameters and this keying material. -/
theorem C82_bound (b : Binding) (key : List Bytes) (hkey : key.flatten = b.tokenbindingid.key)
    (ekm : Bytes) (i : ID) (hv : validate lib b key ekm 2 = some i) (owner : P → List Bytes)
    (unforgeable : ∀ p h r s, lib.ecdsaVerify p h r s = true → ∃ m ∈ owner p, lib.sha256 m = h)
    (collisionFree : ∀ p, ∀ m ∈ owner p,
      lib.sha256 m = lib.sha256 (Spec.signed b.tokenbinding_type 2 ekm) →
      m = Spec.signed b.tokenbinding_type 2 ekm) :
    ∃ xy t p, i.key = 64 :: xy ++ t ∧ xy.length = 64 ∧ lib.decodePoint (4 :: xy) = some p ∧
      Spec.signed b.tokenbinding_type 2 ekm ∈ owner p := by
  obtain ⟨v1, -⟩ := C82_validate (lib := lib) b key hkey ekm i
  obtain ⟨h1, rfl, ⟨-, h2⟩ | ⟨h2, -⟩⟩ := (v1 2).mp hv
  · obtain ⟨xy, r, s, t, t', p, g1, g2, -, -, -, g3, g4⟩ := h2
    obtain ⟨m, m1, m2⟩ := unforgeable p _ _ _ g4
    exact ⟨xy, t, p, g1, g2, g3, by rw [← collisionFree p m m1 m2]; exact m1⟩
  · rw [h1] at h2; exact absurd h2 (by decide)

/-- What is signed determines type, parameters and keying material. -/
theorem signed_inj {t t' p p' : UInt8} {e e' : Bytes} (h : Spec.signed t p e = Spec.signed t' p' e') :
    t = t' ∧ p = p' ∧ e = e' := by
  simpa [Spec.signed] using h

/-- **C82** (a limit of the code) The ID is not canonical: whatever is appended to the key and to the
signature of an accepted P-256 binding, it is still accepted, with the longer key in the ID — one key pair
has as many token binding IDs as its owner likes. -/
theorem C82_malleable (b : Binding) (key : List Bytes) (hkey : key.flatten = b.tokenbindingid.key)
    (ekm : Bytes) (i : ID) (hv : validate lib b key ekm 2 = some i) (extra extra' : Bytes) :
    validate lib { b with tokenbindingid := ⟨2, b.tokenbindingid.key ++ extra⟩,
                          signature := b.signature ++ extra' } (key ++ [extra]) ekm 2 =
      some ⟨2, b.tokenbindingid.key ++ extra⟩ := by
  obtain ⟨v1, -⟩ := C82_validate (lib := lib) b key hkey ekm i
  obtain ⟨h1, rfl, ⟨-, h2⟩ | ⟨h2, -⟩⟩ := (v1 2).mp hv
  · refine ((C82_validate (lib := lib) _ (key ++ [extra]) (by simp [hkey]) ekm _).1 2).mpr
      ⟨rfl, rfl, Or.inl ⟨rfl, ?_⟩⟩
    obtain ⟨xy, r, s, t, t', p, g1, g2, g3, g4, g5, g6, g7⟩ := h2
    exact ⟨xy, r, s, t ++ extra, t' ++ extra', p, by rw [g1]; simp, g2, by rw [g3]; simp, g4, g5, g6, g7⟩
  · rw [h1] at h2; exact absurd h2 (by decide)

/-- **C82** (a limit of the code) For Ed25519 the verdict depends on how the key is cut into buffers: a key
accepted in one buffer is refused when the 32 bytes lie in two. -/
theorem C82_fragments (b : Binding) (k k' : Bytes) (hk : k ≠ []) (hk' : k' ≠ [])
    (hkey : b.tokenbindingid.key = 32 :: (k ++ k')) (hp : b.tokenbindingid.key_parameters = 239)
    (hlen : (k ++ k').length = 32) (ekm : Bytes)
    (hsig : lib.edVerify (k ++ k') (Spec.signed b.tokenbinding_type 239 ekm) b.signature = true) :
    validate lib b [32 :: (k ++ k')] ekm 239 = some b.tokenbindingid ∧
    validate lib b [32 :: k, k'] ekm 239 = none := by
  have pos : 0 < k.length := List.length_pos_iff.mpr hk
  have pos' : 0 < k'.length := List.length_pos_iff.mpr hk'
  constructor
  · exact ((C82_validate (lib := lib) b _ (by simp [hkey]) ekm _).1 239).mpr
      ⟨hp, rfl, Or.inr ⟨hp, k ++ k', [], Or.inl (by simp), hlen, hsig⟩⟩
  · cases h : validate lib b [32 :: k, k'] ekm 239 with
    | none => rfl
    | some i =>
      exfalso
      obtain ⟨-, rfl, ⟨g, -⟩ | ⟨-, x, rest, g, g2, -⟩⟩ :=
        ((C82_validate (lib := lib) b [32 :: k, k'] (by simp [hkey]) ekm i).1 239).mp h
      · rw [hp] at g; exact absurd g (by decide)
      · have e1 : k'.isEmpty = false := by rw [List.isEmpty_eq_false_iff]; exact hk'
        simp only [List.filter_cons, List.isEmpty_cons, Bool.not_false, if_true, e1, List.filter_nil] at g
        rw [List.length_append] at hlen
        rcases g with g | g
        · cases g; omega
        · simp only [List.cons.injEq, true_and] at g
          exact hk g.1

end Fizz.TokenBinding

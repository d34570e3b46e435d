import Verif.Ech.Grease
import Verif.Ech.TypesProps
import Mathlib.Tactic.SplitIfs

/-! # C89: GREASE ECH and GREASE PSKs -/

namespace Fizz.Ech.Grease
open Fizz Fizz.Codec Fizz.Ech

/-! ## Specification -/

/-- The HPKE AEADs with a known ciphertext expansion (16 bytes each, RFC 9180 section 7.3). -/
def knownAead (a : UInt16) : Prop := a = 1 ∨ a = 2 ∨ a = 3

/-- What a setting allows: the extension `e` over a hello of `n` encoded bytes, with `p` of the
configured range as (padding) size. -/
structure Allowed (s : Setting) (n p : Nat) (e : OuterEch) : Prop where
  kdf : e.suite.kdf ∈ s.kdfs
  aead : e.suite.aead ∈ s.aeads
  configId : s.minConfigId ≤ e.configId ∧ e.configId ≤ s.maxConfigId
  enc : ∃ k ∈ s.keySizes, e.enc.length = k.toNat
  range : s.minPayloadSize ≤ p ∧ p ≤ s.maxPayloadSize
  uniform : s.strategy = .uniformRandom → e.payload.length = p
  computed : s.strategy = .computed → knownAead e.suite.aead ∧
    e.payload.length = (n + 16 + p) % 2 ^ 64

/-- The settings that always work: nothing to choose from is missing. -/
structure Good (s : Setting) : Prop where
  kdfs : s.kdfs ≠ []
  aeads : s.aeads ≠ []
  keySizes : s.keySizes ≠ []
  ids : s.minConfigId ≤ s.maxConfigId
  sizes : s.minPayloadSize ≤ s.maxPayloadSize
  range : s.maxPayloadSize - s.minPayloadSize ≠ 2 ^ 64 - 1
  known : s.strategy = .computed → ∀ a ∈ s.aeads, knownAead a

/-- Vectors and sizes a 64-bit machine can hold. -/
structure Setting.Fits (s : Setting) : Prop where
  kdfs : s.kdfs.length < 2 ^ 64
  aeads : s.aeads.length < 2 ^ 64
  keySizes : s.keySizes.length < 2 ^ 64

/-! ## Lemmas -/

theorem genNumber_eq_ok {r i min max v} : genNumber r i min max = .ok v ↔
    min ≤ max ∧ max - min ≠ 2 ^ 64 - 1 ∧ v = min + r.number i % (max - min + 1) := by
  unfold genNumber
  by_cases h : min > max
  · rw [if_pos h]; simp only [reduceCtorEq, false_iff]; omega
  · rw [if_neg h]
    by_cases h2 : max - min = 2 ^ 64 - 1
    · rw [if_pos h2]; simp [h2]
    · rw [if_neg h2]
      simp only [Except.ok.injEq, h2, ne_eq, not_false_eq_true, true_and]
      constructor
      · intro e; exact ⟨by omega, e.symm⟩
      · rintro ⟨-, e⟩; exact e.symm

theorem genNumber_range {r i min max v} (h : genNumber r i min max = .ok v) :
    min ≤ v ∧ v ≤ max := by
  obtain ⟨h1, -, rfl⟩ := genNumber_eq_ok.1 h
  have := Nat.mod_lt (r.number i) (show 0 < max - min + 1 by omega)
  omega

theorem lenWrap {n : Nat} (h0 : 0 < n) (h : n < 2 ^ 64) : (n + (2 ^ 64 - 1)) % 2 ^ 64 = n - 1 := by
  omega

theorem select_nil {α} {r i} : select (α := α) r i [] = .error (Failure.rt "The range exeeds size_t") := by
  have : genNumber r i 0 ((([] : List α).length + (2 ^ 64 - 1)) % 2 ^ 64) =
      .error (Failure.rt "The range exeeds size_t") := by
    unfold genNumber
    rw [if_neg (by omega), if_pos (by simp)]
  rw [select, this]
  rfl

theorem select_eq_ok {α} {r i} {l : List α} {x : α} (hl : l.length < 2 ^ 64) :
    select r i l = .ok x ↔ l ≠ [] ∧ l[r.number i % l.length]? = some x := by
  by_cases h0 : l = []
  · subst h0
    rw [select_nil]
    simp
  · have hp : 0 < l.length := List.length_pos_iff.2 h0
    have hg : genNumber r i 0 ((l.length + (2 ^ 64 - 1)) % 2 ^ 64) =
        .ok (r.number i % l.length) := by
      rw [genNumber_eq_ok, lenWrap hp hl]
      refine ⟨by omega, by omega, ?_⟩
      rw [show l.length - 1 - 0 + 1 = l.length by omega]
      omega
    rw [select, hg]
    simp only [Res.ok_bind, ne_eq, h0, not_false_eq_true, true_and]
    cases l[r.number i % l.length]? <;> simp

theorem select_mem {α} {r i} {l : List α} {x : α} (hl : l.length < 2 ^ 64)
    (h : select r i l = .ok x) : x ∈ l :=
  List.mem_of_getElem? ((select_eq_ok hl).1 h).2

theorem select_exists {α} (r i) (l : List α) (hl : l.length < 2 ^ 64) (h0 : l ≠ []) :
    ∃ x ∈ l, select r i l = .ok x := by
  have hp : 0 < l.length := List.length_pos_iff.2 h0
  have hlt := Nat.mod_lt (r.number i) hp
  exact ⟨l[r.number i % l.length], List.getElem_mem _, (select_eq_ok hl).2 ⟨h0, by simp⟩⟩

theorem overhead_eq_ok {a : UInt16} {n : Nat} :
    cipherOverhead a = .ok n ↔ knownAead a ∧ n = 16 := by
  unfold cipherOverhead knownAead
  split_ifs with h1 h2 h3
  · simp [h1, eq_comm]
  · simp [h2, eq_comm]
  · simp [h3, eq_comm]
  · simp [h1, h2, h3]

theorem payloadSize_eq_ok {s : Setting} {a : UInt16} {p n k : Nat} :
    payloadSize s a p n = .ok k ↔ (s.strategy = .uniformRandom ∧ k = p) ∨
      (s.strategy = .computed ∧ knownAead a ∧ k = (n + 16 + p) % 2 ^ 64) := by
  unfold payloadSize
  cases hs : s.strategy with
  | uniformRandom => simp [eq_comm]
  | computed =>
    simp only [Res.bind_eq_ok, overhead_eq_ok, Res.pure_eq, Except.ok.injEq, reduceCtorEq,
      false_and, true_and, false_or]
    constructor
    · rintro ⟨_, ⟨h, rfl⟩, rfl⟩; exact ⟨h, by rw [Nat.add_comm]⟩
    · rintro ⟨h, rfl⟩; exact ⟨_, ⟨h, rfl⟩, by rw [Nat.add_comm]⟩

theorem generate_eq_ok {s : Setting} {r : Rng} {n : Nat} {e : OuterEch} :
    generateGreaseECH s r n = .ok e ↔ ∃ kdf aead id k p size,
      select r 0 s.kdfs = .ok kdf ∧ select r 1 s.aeads = .ok aead ∧
      genNumber r 2 s.minConfigId.toNat s.maxConfigId.toNat = .ok id ∧
      select r 3 s.keySizes = .ok k ∧ genNumber r 5 s.minPayloadSize s.maxPayloadSize = .ok p ∧
      payloadSize s aead p n = .ok size ∧
      e = ⟨⟨kdf, aead⟩, UInt8.ofNat id, r.draw 4 k.toNat, r.draw 6 size⟩ := by
  simp only [generateGreaseECH, Res.bind_eq_ok, Res.pure_eq, Except.ok.injEq]
  constructor
  · rintro ⟨a, h1, b, h2, c, h3, d, h4, p, h5, z, h6, rfl⟩
    exact ⟨a, b, c, d, p, z, h1, h2, h3, h4, h5, h6, rfl⟩
  · rintro ⟨a, b, c, d, p, z, h1, h2, h3, h4, h5, h6, rfl⟩
    exact ⟨a, h1, b, h2, c, h3, d, h4, p, h5, z, h6, rfl⟩

/-! ## Theorems -/

/-- C89: whatever the random source gives, a GREASE extension is one the setting allows. -/
theorem C89_allowed (s : Setting) (hf : s.Fits) (r : Rng) (n : Nat) (e : OuterEch)
    (h : generateGreaseECH s r n = .ok e) : ∃ p, Allowed s n p e := by
  obtain ⟨kdf, aead, id, k, p, size, h1, h2, h3, h4, h5, h6, rfl⟩ := generate_eq_ok.1 h
  have hid := genNumber_range h3
  have hlt : id < 256 := by have := s.maxConfigId.toNat_lt; omega
  have hid' : (UInt8.ofNat id).toNat = id := by
    rw [UInt8.toNat_ofNat']; omega
  refine ⟨p, select_mem hf.kdfs h1, select_mem hf.aeads h2, ⟨?_, ?_⟩,
    ⟨k, select_mem hf.keySizes h4, r.length _ _⟩, genNumber_range h5, ?_, ?_⟩
  · show s.minConfigId ≤ UInt8.ofNat id
    rw [UInt8.le_iff_toNat_le, hid']; exact hid.1
  · show UInt8.ofNat id ≤ s.maxConfigId
    rw [UInt8.le_iff_toNat_le, hid']; exact hid.2
  · intro hs
    rcases payloadSize_eq_ok.1 h6 with ⟨-, rfl⟩ | ⟨hs', -⟩
    · exact r.length _ _
    · rw [hs] at hs'; cases hs'
  · intro hs
    rcases payloadSize_eq_ok.1 h6 with ⟨hs', -⟩ | ⟨-, hk, rfl⟩
    · rw [hs] at hs'; cases hs'
    · exact ⟨hk, r.length _ _⟩

/-- C89: and a setting with something to choose in every place never fails. -/
theorem C89_total (s : Setting) (hf : s.Fits) (hg : Good s) (r : Rng) (n : Nat) :
    ∃ e, generateGreaseECH s r n = .ok e := by
  obtain ⟨kdf, -, h1⟩ := select_exists r 0 s.kdfs hf.kdfs hg.kdfs
  obtain ⟨aead, ha, h2⟩ := select_exists r 1 s.aeads hf.aeads hg.aeads
  obtain ⟨k, -, h4⟩ := select_exists r 3 s.keySizes hf.keySizes hg.keySizes
  have hid : s.minConfigId.toNat ≤ s.maxConfigId.toNat := UInt8.le_iff_toNat_le.1 hg.ids
  have hmax := s.maxConfigId.toNat_lt
  have hsize : ∃ size, payloadSize s aead
      (s.minPayloadSize + r.number 5 % (s.maxPayloadSize - s.minPayloadSize + 1)) n = .ok size := by
    cases hs : s.strategy with
    | uniformRandom => exact ⟨_, payloadSize_eq_ok.2 (.inl ⟨hs, rfl⟩)⟩
    | computed => exact ⟨_, payloadSize_eq_ok.2 (.inr ⟨hs, hg.known hs aead ha, rfl⟩)⟩
  obtain ⟨size, h6⟩ := hsize
  exact ⟨_, generate_eq_ok.2 ⟨kdf, aead, _, k, _, size, h1, h2,
    genNumber_eq_ok.2 ⟨hid, by omega, rfl⟩, h4,
    genNumber_eq_ok.2 ⟨hg.sizes, hg.range, rfl⟩, h6, rfl⟩⟩

/-- C89: a setting with an empty list, or an empty range, always fails (and does not read past the end
of a list). -/
theorem C89_empty (s : Setting) (r : Rng) (n : Nat)
    (h : s.kdfs = [] ∨ s.aeads = [] ∨ s.keySizes = [] ∨ s.maxConfigId < s.minConfigId ∨
      s.maxPayloadSize < s.minPayloadSize) :
    ∀ e, generateGreaseECH s r n ≠ .ok e := by
  intro e he
  obtain ⟨kdf, aead, id, k, p, size, h1, h2, h3, h4, h5, h6, -⟩ := generate_eq_ok.1 he
  rcases h with h | h | h | h | h
  · rw [h, select_nil] at h1; cases h1
  · rw [h, select_nil] at h2; cases h2
  · rw [h, select_nil] at h4; cases h4
  · have := (genNumber_eq_ok.1 h3).1
    rw [UInt8.lt_iff_toNat_lt] at h
    omega
  · have := (genNumber_eq_ok.1 h5).1
    omega

/-- C89: no access outside a list, with any setting and random source. -/
theorem C89_no_ub (s : Setting) (hf : s.Fits) (r : Rng) (n : Nat) (msg : String) :
    generateGreaseECH s r n ≠ .error (.ub msg) := by
  have sel : ∀ {α} (i) (l : List α), l.length < 2 ^ 64 → ∀ m, select r i l ≠ .error (.ub m) := by
    intro α i l hl m
    by_cases h0 : l = []
    · subst h0
      rw [select_nil]; simp [Failure.rt]
    · obtain ⟨x, -, hx⟩ := select_exists r i l hl h0
      rw [hx]; simp
  have gen : ∀ i a b m, genNumber r i a b ≠ .error (.ub m) := by
    intro i a b m
    unfold genNumber
    split_ifs <;> simp [Failure.rt]
  intro h
  unfold generateGreaseECH at h
  cases h1 : select r 0 s.kdfs with
  | error f => rw [h1] at h; cases h; exact sel _ _ hf.kdfs _ h1
  | ok kdf =>
  rw [h1] at h
  cases h2 : select r 1 s.aeads with
  | error f => rw [h2] at h; cases h; exact sel _ _ hf.aeads _ h2
  | ok aead =>
  rw [h2] at h
  cases h3 : genNumber r 2 s.minConfigId.toNat s.maxConfigId.toNat with
  | error f => rw [h3] at h; cases h; exact gen _ _ _ _ h3
  | ok id =>
  rw [h3] at h
  cases h4 : select r 3 s.keySizes with
  | error f => rw [h4] at h; cases h; exact sel _ _ hf.keySizes _ h4
  | ok k =>
  rw [h4] at h
  cases h5 : genNumber r 5 s.minPayloadSize s.maxPayloadSize with
  | error f => rw [h5] at h; cases h; exact gen _ _ _ _ h5
  | ok p =>
  rw [h5] at h
  simp only [Res.ok_bind] at h
  cases h6 : payloadSize s aead p n with
  | ok z => rw [h6] at h; cases h
  | error f =>
    rw [h6] at h
    cases h
    revert h6
    unfold payloadSize cipherOverhead
    cases s.strategy with
    | uniformRandom => simp
    | computed => split_ifs <;> simp [Failure.rt]

/-- C89: it looks like the real thing: what the extension encodes to (exactly if the payload is below
64 KiB) is read back by a server's parser as an outer ECH extension with these fields. -/
theorem C89_encode (s : Setting) (hf : s.Fits) (r : Rng) (n : Nat) (e : OuterEch)
    (h : generateGreaseECH s r n = .ok e) :
    (e.payload.length < 65536 ↔ ∃ x, encodeOuterEch e = .ok x) ∧
    ∀ x, encodeOuterEch e = .ok x →
      x.extension_type = 0xfe0d ∧ readOuterEch x.extension_data = .ok (e, []) := by
  obtain ⟨p, ha⟩ := C89_allowed s hf r n e h
  obtain ⟨k, -, hk⟩ := ha.enc
  have hkl := k.toNat_lt
  obtain ⟨c1, c2, c3⟩ := codec_outerEch
  constructor
  · constructor
    · intro hp; exact ⟨_, (c2 e _).2 ⟨⟨by omega, hp⟩, rfl⟩⟩
    · rintro ⟨x, hx⟩; exact ((c2 e x).1 hx).1.2
  · intro x hx
    obtain ⟨hfit, rfl⟩ := (c2 e x).1 hx
    exact ⟨c1 e, (c3 _ _ _).2 ⟨hfit, by simp⟩⟩

/-! ### Every allowed choice can occur -/

def leEnc : Nat → Nat → Bytes
  | 0, _ => []
  | n + 1, v => UInt8.ofNat (v % 256) :: leEnc n (v / 256)

theorem leEnc_length (n : Nat) : ∀ v, (leEnc n v).length = n := by
  induction n with
  | zero => intro v; rfl
  | succ n ih => intro v; simp [leEnc, ih]

theorem leDec_leEnc (n : Nat) : ∀ v, v < 256 ^ n → leDec (leEnc n v) = v := by
  induction n with
  | zero => intro v h; simp at h; subst h; rfl
  | succ n ih =>
    intro v h
    have h2 : v / 256 < 256 ^ n := by
      rw [Nat.div_lt_iff_lt_mul (by decide)]; rw [Nat.pow_succ] at h; exact h
    rw [leEnc, leDec, ih _ h2, UInt8.toNat_ofNat']
    omega

/-- The random source whose `i`-th call gives the number `f i` if it is asked for 8 bytes. -/
def fixed (f : Nat → Nat) : Rng where
  draw i n := if n = 8 then leEnc 8 (f i) else List.replicate n 0
  length i n := by split <;> simp_all [leEnc_length]

theorem fixed_number (f : Nat → Nat) (i : Nat) (h : f i < 2 ^ 64) : (fixed f).number i = f i := by
  simp only [Rng.number, fixed, if_true]
  exact leDec_leEnc 8 _ (by simpa using h)

/-- C89: nothing the setting allows is out of reach: for every choice of algorithms, config id, key size
and (padding) size in its ranges there is a random source that produces it. -/
theorem C89_cover (s : Setting) (hf : s.Fits) (hg : Good s) (n : Nat) (kdf aead : UInt16)
    (id : UInt8) (k : UInt16) (p : Nat) (h1 : kdf ∈ s.kdfs) (h2 : aead ∈ s.aeads)
    (h3 : s.minConfigId ≤ id) (h3' : id ≤ s.maxConfigId) (h4 : k ∈ s.keySizes)
    (h5 : s.minPayloadSize ≤ p) (h5' : p ≤ s.maxPayloadSize) (hp : s.maxPayloadSize < 2 ^ 64) :
    ∃ r e, generateGreaseECH s r n = .ok e ∧ e.suite = ⟨kdf, aead⟩ ∧ e.configId = id ∧
      e.enc.length = k.toNat ∧ Allowed s n p e := by
  obtain ⟨a, ha, ea⟩ := List.mem_iff_getElem.1 h1
  obtain ⟨b, hb, eb⟩ := List.mem_iff_getElem.1 h2
  obtain ⟨c, hc, ec⟩ := List.mem_iff_getElem.1 h4
  have l1 := hf.kdfs
  have l2 := hf.aeads
  have l3 := hf.keySizes
  let f : Nat → Nat := fun i =>
    if i = 0 then a else if i = 1 then b else if i = 2 then id.toNat - s.minConfigId.toNat
    else if i = 3 then c else if i = 5 then p - s.minPayloadSize else 0
  have hidlt := id.toNat_lt
  have n0 : (fixed f).number 0 = a := fixed_number f 0 (show a < 2 ^ 64 by omega)
  have n1 : (fixed f).number 1 = b := fixed_number f 1 (show b < 2 ^ 64 by omega)
  have n2 : (fixed f).number 2 = id.toNat - s.minConfigId.toNat :=
    fixed_number f 2 (show id.toNat - s.minConfigId.toNat < 2 ^ 64 by omega)
  have n3 : (fixed f).number 3 = c := fixed_number f 3 (show c < 2 ^ 64 by omega)
  have n5 : (fixed f).number 5 = p - s.minPayloadSize :=
    fixed_number f 5 (show p - s.minPayloadSize < 2 ^ 64 by omega)
  rw [UInt8.le_iff_toNat_le] at h3 h3'
  have s1 : select (fixed f) 0 s.kdfs = .ok kdf := (select_eq_ok l1).2
    ⟨hg.kdfs, by rw [n0, Nat.mod_eq_of_lt ha, List.getElem?_eq_getElem ha, ea]⟩
  have s2 : select (fixed f) 1 s.aeads = .ok aead := (select_eq_ok l2).2
    ⟨hg.aeads, by rw [n1, Nat.mod_eq_of_lt hb, List.getElem?_eq_getElem hb, eb]⟩
  have s4 : select (fixed f) 3 s.keySizes = .ok k := (select_eq_ok l3).2
    ⟨hg.keySizes, by rw [n3, Nat.mod_eq_of_lt hc, List.getElem?_eq_getElem hc, ec]⟩
  have hmax := s.maxConfigId.toNat_lt
  have s3 : genNumber (fixed f) 2 s.minConfigId.toNat s.maxConfigId.toNat = .ok id.toNat :=
    genNumber_eq_ok.2 ⟨by omega, by omega, by rw [n2, Nat.mod_eq_of_lt (by omega)]; omega⟩
  have s5 : genNumber (fixed f) 5 s.minPayloadSize s.maxPayloadSize = .ok p :=
    genNumber_eq_ok.2 ⟨hg.sizes, hg.range, by rw [n5, Nat.mod_eq_of_lt (by omega)]; omega⟩
  have hsize : ∃ size, payloadSize s aead p n = .ok size := by
    cases hs : s.strategy with
    | uniformRandom => exact ⟨_, payloadSize_eq_ok.2 (.inl ⟨hs, rfl⟩)⟩
    | computed => exact ⟨_, payloadSize_eq_ok.2 (.inr ⟨hs, hg.known hs aead h2, rfl⟩)⟩
  obtain ⟨size, s6⟩ := hsize
  refine ⟨fixed f, _, generate_eq_ok.2 ⟨kdf, aead, _, k, p, size, s1, s2, s3, s4, s5, s6, rfl⟩,
    rfl, by simp, (fixed f).length _ _, h1, h2, ?_, ⟨k, h4, (fixed f).length _ _⟩, ⟨h5, h5'⟩, ?_, ?_⟩
  · show s.minConfigId ≤ UInt8.ofNat id.toNat ∧ UInt8.ofNat id.toNat ≤ s.maxConfigId
    rw [UInt8.le_iff_toNat_le, UInt8.le_iff_toNat_le]
    simpa using ⟨h3, h3'⟩
  · intro hs
    rcases payloadSize_eq_ok.1 s6 with ⟨-, rfl⟩ | ⟨hs', -⟩
    · exact (fixed f).length _ _
    · rw [hs] at hs'; cases hs'
  · intro hs
    rcases payloadSize_eq_ok.1 s6 with ⟨hs', -⟩ | ⟨-, hk, rfl⟩
    · rw [hs] at hs'; cases hs'
    · exact ⟨hk, (fixed f).length _ _⟩

/-! ## GREASE PSKs -/

theorem pskLoop_spec (r : Rng) (keep : Bool) (binders : List PskBinder) :
    ∀ (ids : List PskIdentity) (i : Nat) (is : List PskIdentity) (bs : List PskBinder),
      pskLoop r keep binders i ids = .ok (is, bs) →
      i + ids.length ≤ binders.length ∨ ids = [] := by
  intro ids
  induction ids with
  | nil => intro i is bs _; exact .inr rfl
  | cons x xs ih =>
    intro i is bs h
    left
    unfold pskLoop at h
    cases hb : binders[i]? with
    | none => simp [hb] at h
    | some b =>
      have hi : i < binders.length := (List.getElem?_eq_some_iff.1 hb).1
      simp only [hb] at h
      cases hr : pskLoop r keep binders (i + 1) xs with
      | error f => simp [hr] at h
      | ok p =>
        rcases ih (i + 1) p.1 p.2 hr with h' | rfl
        · simp only [List.length_cons]; omega
        · simp; omega

theorem pskLoop_ok (r : Rng) (keep : Bool) (binders : List PskBinder) :
    ∀ (ids : List PskIdentity) (i : Nat), i + ids.length ≤ binders.length →
      ∃ is bs, pskLoop r keep binders i ids = .ok (is, bs) ∧
        is.length = ids.length ∧ bs.map (fun b => b.binder.length) =
          ((binders.drop i).take ids.length).map (fun b => b.binder.length) ∧
        (keep = true → is.map (·.psk_identity) = ids.map (·.psk_identity)) ∧
        (keep = false → ∀ x ∈ is, x.psk_identity.length = 16) := by
  intro ids
  induction ids with
  | nil => intro i _; exact ⟨[], [], rfl, rfl, by simp, by simp, by simp⟩
  | cons x xs ih =>
    intro i hi
    simp only [List.length_cons] at hi
    have hlt : i < binders.length := by omega
    obtain ⟨is, bs, h1, h2, h3, h4, h5⟩ := ih (i + 1) (by omega)
    have hb : binders[i]? = some binders[i] := List.getElem?_eq_getElem hlt
    refine ⟨_, _, by simp only [pskLoop, hb, h1]; rfl, by simp [h2], ?_, ?_, ?_⟩
    · rw [List.drop_eq_getElem_cons hlt]
      simp only [List.map_cons, h3, List.length_cons, List.take_succ_cons, List.cons.injEq, and_true]
      exact r.length _ _
    · intro hk
      simp [hk, h4 hk]
    · intro hk y hy
      rcases List.mem_cons.1 hy with rfl | hy
      · simp only [hk]
        exact r.length _ _
      · exact h5 hk y hy

/-- C89: the GREASE PSKs of the outer hello, whatever the random source gives: as many identities of 16
bytes as the inner hello has and as many binders, each of the length of the inner one.  In the answer
to a HelloRetryRequest the identities are the ones sent before. -/
theorem C89_psk (r : Rng) (source : ClientPresharedKey) (keep : Bool)
    (h : source.binders.length = source.identities.length) :
    ∃ g, generateGreasePskCommon r source keep = .ok g ∧
      g.identities.length = source.identities.length ∧
      g.binders.map (fun b => b.binder.length) =
        source.binders.map (fun b => b.binder.length) ∧
      (keep = true →
        g.identities.map (·.psk_identity) = source.identities.map (·.psk_identity)) ∧
      (keep = false → ∀ x ∈ g.identities, x.psk_identity.length = 16) := by
  obtain ⟨is, bs, h1, h2, h3, h4, h5⟩ :=
    pskLoop_ok r keep source.binders source.identities 0 (by omega)
  refine ⟨⟨is, bs⟩, by simp [generateGreasePskCommon, h1], h2, ?_, h4, h5⟩
  rw [List.drop_zero, ← h, List.take_length] at h3
  exact h3

/-- The shape of a PSK extension: how many identities, and the lengths of the binders. -/
def shape (p : ClientPresharedKey) : Nat × List Nat :=
  (p.identities.length, p.binders.map fun b => b.binder.length)

theorem pskLoop_hides (r : Rng) (b1 b2 : List PskBinder)
    (hb : b1.map (fun b => b.binder.length) = b2.map (fun b => b.binder.length)) :
    ∀ (l1 l2 : List PskIdentity) (i : Nat), l1.length = l2.length →
      pskLoop r false b1 i l1 = pskLoop r false b2 i l2 := by
  have get : ∀ i : Nat, (b1[i]?).map (fun b => b.binder.length) =
      (b2[i]?).map (fun b => b.binder.length) := by
    intro i
    rw [← List.getElem?_map, ← List.getElem?_map, hb]
  intro l1
  induction l1 with
  | nil => intro l2 i h; cases l2 with
    | nil => rfl
    | cons _ _ => cases h
  | cons x xs ih =>
    intro l2 i h
    cases l2 with
    | nil => cases h
    | cons y ys =>
      have e := ih ys (i + 1) (by simpa using h)
      have g := get i
      unfold pskLoop
      cases h1 : b1[i]? with
      | none =>
        rw [h1] at g
        cases h2 : b2[i]? with
        | none => rfl
        | some _ => rw [h2] at g; cases g
      | some u =>
        rw [h1] at g
        cases h2 : b2[i]? with
        | none => rw [h2] at g; cases g
        | some v =>
          rw [h2] at g
          have g' : u.binder.length = v.binder.length := Option.some.inj g
          simp only [e, g']
          rfl

/-- C89: after a HelloRetryRequest the GREASE PSK repeats the identities of the one sent before, with
new binders of the same lengths. -/
theorem C89_psk_hrr (r : Rng) (previous : ClientPresharedKey)
    (h : previous.binders.length = previous.identities.length) :
    ∃ g, generateGreasePSKForHRR r previous = .ok g ∧
      g.identities.map (·.psk_identity) = previous.identities.map (·.psk_identity) ∧
      g.binders.map (fun b => b.binder.length) =
        previous.binders.map (fun b => b.binder.length) := by
  obtain ⟨g, h1, -, h3, h4, -⟩ := C89_psk r previous true h
  exact ⟨g, h1, h4 rfl, h3⟩

/-- C89: the GREASE PSKs tell nothing of the real ones but their number and the lengths of the binders:
two inner hellos with the same shape give the same GREASE from the same randomness. -/
theorem C89_psk_hides (r : Rng) (p1 p2 : ClientPresharedKey) (h : shape p1 = shape p2) :
    generateGreasePskCommon r p1 false = generateGreasePskCommon r p2 false := by
  simp only [shape, Prod.mk.injEq] at h
  simp only [generateGreasePskCommon, pskLoop_hides r _ _ h.2 _ _ 0 h.1]

/-- C89: a first hello gets a GREASE PSK exactly if the inner hello has PSKs; with fewer binders than
identities the call throws. -/
theorem C89_psk_present (r : Rng) (inner : ClientHello) :
    (getExtension 41 readClientPresharedKey inner.extensions = .ok none →
      generateGreasePSK r inner = .ok none) ∧
    (∀ psk, getExtension 41 readClientPresharedKey inner.extensions = .ok (some psk) →
      psk.identities.length ≤ psk.binders.length → ∃ g, generateGreasePSK r inner = .ok (some g)) ∧
    (∀ psk, getExtension 41 readClientPresharedKey inner.extensions = .ok (some psk) →
      psk.binders.length < psk.identities.length → ∀ g, generateGreasePSK r inner ≠ .ok g) := by
  refine ⟨fun h => by simp [generateGreasePSK, h], fun psk h hl => ?_, fun psk h hl g hg => ?_⟩
  · obtain ⟨is, bs, h1, -⟩ := pskLoop_ok r false psk.binders psk.identities 0 (by omega)
    exact ⟨⟨is, bs⟩, by simp [generateGreasePSK, h, generateGreasePskCommon, h1]⟩
  · unfold generateGreasePSK generateGreasePskCommon at hg
    rw [h] at hg
    cases hp : pskLoop r false psk.binders 0 psk.identities with
    | error f => simp [hp] at hg
    | ok p =>
      rcases pskLoop_spec r false psk.binders psk.identities 0 p.1 p.2 hp with h' | h'
      · omega
      · rw [h'] at hl; cases hl

/-! ## A concrete case -/

/-- The default setting of `GreaseECHSetting.h` with a payload of 100 to 200 bytes. -/
def exampleSetting : Setting where
  minConfigId := 0
  maxConfigId := 255
  strategy := .computed
  minPayloadSize := 100
  maxPayloadSize := 200
  keySizes := [32, 48, 64]
  kdfs := [1, 2, 3]
  aeads := [1, 2, 3]

example : exampleSetting.Fits ∧ Good exampleSetting :=
  ⟨⟨by decide, by decide, by decide⟩, by decide, by decide, by decide, by decide, by decide, by decide,
    fun _ => by simp [exampleSetting, knownAead]⟩

example : (generateGreaseECH exampleSetting (fixed fun i => 7 * i + 300) 500).toOption.map
    (fun e => (e.suite, e.configId, e.enc.length, e.payload.length)) =
    some (⟨1, 2⟩, 58, 32, 500 + 16 + 100 + 335 % 101) := by decide +kernel

example : ∃ g, generateGreasePskCommon (fixed fun _ => 0) ⟨[⟨[1, 2, 3], 5⟩], [⟨[9, 9]⟩]⟩ false = .ok g ∧
    g.identities.length = 1 ∧ g.binders = [⟨[0, 0]⟩] := ⟨_, rfl, rfl, rfl⟩

end Fizz.Ech.Grease

import Verif.Codec.WireSpec

/-! # Lemmas about the codec primitives (helpers, not claims) -/

namespace Fizz.Codec

theorem Rd.bind_eq_ok {α β} {m : Rd α} {f : α → Rd β} {inp : Bytes} {b : β} {rest : Bytes} :
    (m >>= f) inp = .ok (b, rest) ↔ ∃ a r1, m inp = .ok (a, r1) ∧ f a r1 = .ok (b, rest) := by
  show (match m inp with | .ok (a, rest) => f a rest | .error e => .error e) = _ ↔ _
  cases h : m inp with
  | error e => simp
  | ok p =>
    obtain ⟨a, r⟩ := p
    constructor
    · exact fun h => ⟨a, r, rfl, h⟩
    · rintro ⟨_, _, h, h2⟩; cases h; exact h2

theorem Rd.bind_eq_error {α β} {m : Rd α} {f : α → Rd β} {inp : Bytes} {e : Failure} :
    (m >>= f) inp = .error e ↔
      m inp = .error e ∨ ∃ a r1, m inp = .ok (a, r1) ∧ f a r1 = .error e := by
  show (match m inp with | .ok (a, rest) => f a rest | .error e => .error e) = _ ↔ _
  cases h : m inp with
  | error e => simp
  | ok p =>
    obtain ⟨a, r⟩ := p
    constructor
    · exact fun h => .inr ⟨a, r, rfl, h⟩
    · rintro (h | ⟨_, _, h, h2⟩)
      · cases h
      · cases h; exact h2

@[simp] theorem Rd.pure_eq_ok {α} {a b : α} {inp rest : Bytes} :
    (pure a : Rd α) inp = .ok (b, rest) ↔ b = a ∧ inp = rest := by
  show (Except.ok (a, inp) : Res _) = _ ↔ _
  simp [eq_comm (a := b)]

@[simp] theorem Rd.pure_ne_error {α} {a : α} {inp : Bytes} {e : Failure} :
    (pure a : Rd α) inp = .error e ↔ False := by
  show (Except.ok (a, inp) : Res _) = _ ↔ _
  simp

@[simp] theorem Rd.fail_ne_ok {α} {e : Failure} {inp : Bytes} {p : α × Bytes} :
    (Rd.fail e : Rd α) inp = .ok p ↔ False := by simp [Rd.fail]

@[simp] theorem Rd.fail_eq_error {α} {e e' : Failure} {inp : Bytes} :
    (Rd.fail e : Rd α) inp = .error e' ↔ e = e' := by simp [Rd.fail]

@[simp] theorem remaining_eq_ok {n inp rest} :
    remaining inp = .ok (n, rest) ↔ n = inp.length ∧ inp = rest := by
  simp [remaining, eq_comm (a := n)]

theorem pull_eq_ok {n inp b rest} :
    pull n inp = .ok (b, rest) ↔ b.length = n ∧ inp = b ++ rest := by
  unfold pull
  split
  · next h =>
    simp only [Except.ok.injEq, Prod.mk.injEq]
    constructor
    · rintro ⟨rfl, rfl⟩; simp [h]
    · rintro ⟨rfl, rfl⟩; simp
  · next h =>
    simp only [reduceCtorEq, false_iff, not_and]
    rintro rfl rfl; simp at h

theorem pull_eq_error {n inp e} :
    pull n inp = .error e ↔ inp.length < n ∧ e = .outOfRange := by
  unfold pull; split <;> simp_all [eq_comm (a := e)] <;> omega

theorem readBE_eq_ok {n inp v rest} :
    readBE n inp = .ok (v, rest) ↔ v < 256 ^ n ∧ inp = beEnc n v ++ rest := by
  simp only [readBE, Rd.bind_eq_ok, pull_eq_ok, Rd.pure_eq_ok]
  constructor
  · rintro ⟨b, r, ⟨rfl, rfl⟩, rfl, rfl⟩
    exact ⟨beDec_lt b, by rw [beEnc_beDec]⟩
  · rintro ⟨hv, rfl⟩
    exact ⟨beEnc n v, rest, ⟨by simp, rfl⟩, (beDec_beEnc hv).symm, rfl⟩

theorem writeLen_eq_ok {w len bs} :
    writeLen w len = .ok bs ↔ len < 256 ^ w.bytes ∧ bs = beEnc w.bytes len := by
  unfold writeLen
  split
  · next h => simp [h, eq_comm]
  · next h => simp [h]

theorem writeBuf_eq_ok {w b bs} :
    writeBuf w b = .ok bs ↔ b.length < 256 ^ w.bytes ∧ bs = vec w b := by
  simp only [writeBuf, Res.bind_eq_ok, writeLen_eq_ok, Res.pure_eq, Except.ok.injEq, vec]
  constructor
  · rintro ⟨l, ⟨h, rfl⟩, rfl⟩; exact ⟨h, rfl⟩
  · rintro ⟨h, rfl⟩; exact ⟨_, ⟨h, rfl⟩, rfl⟩

@[simp] theorem vec_length (w : Width) (b : Bytes) : (vec w b).length = w.bytes + b.length := by
  simp [vec]

theorem readBuf_eq_ok {w inp b n rest} :
    readBuf w inp = .ok ((b, n), rest) ↔
      b.length < 256 ^ w.bytes ∧ inp = vec w b ++ rest ∧ n = w.bytes + b.length := by
  simp only [readBuf, Rd.bind_eq_ok, readBE_eq_ok, pull_eq_ok, Rd.pure_eq_ok, Prod.mk.injEq, vec]
  constructor
  · rintro ⟨v, r, ⟨hv, rfl⟩, b', r', ⟨rfl, rfl⟩, ⟨rfl, rfl⟩, rfl⟩
    exact ⟨hv, by simp, rfl⟩
  · rintro ⟨h, rfl, rfl⟩
    exact ⟨b.length, b ++ rest, ⟨h, by simp⟩, b, rest, ⟨rfl, rfl⟩, ⟨rfl, rfl⟩, rfl⟩

theorem readU8_eq_ok {inp v n rest} :
    readU8 inp = .ok ((v, n), rest) ↔ inp = beEnc 1 v.toNat ++ rest ∧ n = 1 := by
  simp only [readU8, Rd.bind_eq_ok, readBE_eq_ok, Rd.pure_eq_ok, Prod.mk.injEq]
  constructor
  · rintro ⟨x, r, ⟨hx, rfl⟩, ⟨rfl, rfl⟩, rfl⟩
    have : (UInt8.ofNat x).toNat = x := by
      rw [UInt8.toNat_ofNat']; exact Nat.mod_eq_of_lt (by simpa using hx)
    rw [this]; exact ⟨rfl, rfl⟩
  · rintro ⟨rfl, rfl⟩
    exact ⟨v.toNat, rest, ⟨by simpa using v.toNat_lt, rfl⟩, ⟨by simp, rfl⟩, rfl⟩

theorem readU16_eq_ok {inp v n rest} :
    readU16 inp = .ok ((v, n), rest) ↔ inp = beEnc 2 v.toNat ++ rest ∧ n = 2 := by
  simp only [readU16, Rd.bind_eq_ok, readBE_eq_ok, Rd.pure_eq_ok, Prod.mk.injEq]
  constructor
  · rintro ⟨x, r, ⟨hx, rfl⟩, ⟨rfl, rfl⟩, rfl⟩
    have : (UInt16.ofNat x).toNat = x := by
      rw [UInt16.toNat_ofNat']; exact Nat.mod_eq_of_lt (by simpa using hx)
    rw [this]; exact ⟨rfl, rfl⟩
  · rintro ⟨rfl, rfl⟩
    exact ⟨v.toNat, rest, ⟨by simpa using v.toNat_lt, rfl⟩, ⟨by simp, rfl⟩, rfl⟩

theorem readU32_eq_ok {inp v n rest} :
    readU32 inp = .ok ((v, n), rest) ↔ inp = beEnc 4 v.toNat ++ rest ∧ n = 4 := by
  simp only [readU32, Rd.bind_eq_ok, readBE_eq_ok, Rd.pure_eq_ok, Prod.mk.injEq]
  constructor
  · rintro ⟨x, r, ⟨hx, rfl⟩, ⟨rfl, rfl⟩, rfl⟩
    have : (UInt32.ofNat x).toNat = x := by
      rw [UInt32.toNat_ofNat']; exact Nat.mod_eq_of_lt (by simpa using hx)
    rw [this]; exact ⟨rfl, rfl⟩
  · rintro ⟨rfl, rfl⟩
    exact ⟨v.toNat, rest, ⟨by simpa using v.toNat_lt, rfl⟩, ⟨by simp, rfl⟩, rfl⟩

theorem readU64_eq_ok {inp v n rest} :
    readU64 inp = .ok ((v, n), rest) ↔ inp = beEnc 8 v.toNat ++ rest ∧ n = 8 := by
  simp only [readU64, Rd.bind_eq_ok, readBE_eq_ok, Rd.pure_eq_ok, Prod.mk.injEq]
  constructor
  · rintro ⟨x, r, ⟨hx, rfl⟩, ⟨rfl, rfl⟩, rfl⟩
    have : (UInt64.ofNat x).toNat = x := by
      rw [UInt64.toNat_ofNat']; exact Nat.mod_eq_of_lt (by simpa using hx)
    rw [this]; exact ⟨rfl, rfl⟩
  · rintro ⟨rfl, rfl⟩
    exact ⟨v.toNat, rest, ⟨by simpa using v.toNat_lt, rfl⟩, ⟨by simp, rfl⟩, rfl⟩

/-- A sized element reader is characterised by its wire form. -/
def ElemSpec {α} (rd : Rd (α × Nat)) (fits : α → Prop) (wire : α → Bytes) : Prop :=
  ∀ inp a n rest, rd inp = .ok ((a, n), rest) ↔
    fits a ∧ inp = wire a ++ rest ∧ n = (wire a).length

theorem readLoop_eq_ok {α} {rd : Rd (α × Nat)} {fits wire} (hs : ElemSpec rd fits wire)
    (hpos : ∀ a, 0 < (wire a).length) (len : Nat) :
    ∀ (fuel consumed : Nat), len - consumed ≤ fuel → consumed ≤ len → ∀ inp l rest,
      (readLoop rd len fuel consumed inp = .ok (l, rest) ↔
        (∀ a ∈ l, fits a) ∧ inp = l.flatMap wire ++ rest ∧
          consumed + (l.flatMap wire).length = len) := by
  intro fuel
  induction fuel with
  | zero =>
    intro consumed hf hc inp l rest
    have : consumed = len := by omega
    subst this
    unfold readLoop
    simp only [Nat.lt_irrefl, if_false, ne_eq, not_true_eq_false, Rd.pure_eq_ok]
    constructor
    · rintro ⟨rfl, rfl⟩; simp
    · rintro ⟨_, rfl, h⟩
      cases l with
      | nil => simp
      | cons a l =>
        have := hpos a
        simp only [List.flatMap_cons, List.length_append] at h; omega
  | succ fuel ih =>
    intro consumed hf hc inp l rest
    unfold readLoop
    split
    · next hlt =>
      simp only [Rd.bind_eq_ok, Rd.pure_eq_ok]
      constructor
      · rintro ⟨⟨a, n⟩, r1, h1, l', r2, h2, rfl, rfl⟩
        rw [hs] at h1
        obtain ⟨ha, rfl, rfl⟩ := h1
        have hp := hpos a
        by_cases hle : consumed + (wire a).length ≤ len
        · rw [ih _ (by omega) hle] at h2
          obtain ⟨h3, rfl, h4⟩ := h2
          refine ⟨?_, by simp, by
            simp only [List.flatMap_cons, List.length_append]; omega⟩
          intro b hb
          cases hb with
          | head => exact ha
          | tail _ hb => exact h3 _ hb
        · unfold readLoop at h2
          have h1 : ¬ (consumed + (wire a).length < len) := by omega
          have h3 : consumed + (wire a).length ≠ len := by omega
          simp [h1, h3] at h2
      · rintro ⟨hall, rfl, hlen⟩
        cases l with
        | nil => simp at hlen; omega
        | cons a l =>
          have hp := hpos a
          simp only [List.flatMap_cons, List.length_append] at hlen
          refine ⟨⟨a, _⟩, l.flatMap wire ++ rest, (hs _ _ _ _).2
            ⟨hall a (by simp), by simp, rfl⟩, l, rest, ?_, rfl, rfl⟩
          rw [ih _ (by omega) (by omega)]
          exact ⟨fun b hb => hall b (by simp [hb]), rfl, by omega⟩
    · next hlt =>
      have : consumed = len := by omega
      subst this
      simp only [ne_eq, not_true_eq_false, if_false, Rd.pure_eq_ok]
      constructor
      · rintro ⟨rfl, rfl⟩; simp
      · rintro ⟨_, rfl, h⟩
        cases l with
        | nil => simp
        | cons a l =>
        have := hpos a
        simp only [List.flatMap_cons, List.length_append] at h; omega

theorem readVector_eq_ok {α} {rd : Rd (α × Nat)} {fits wire} (hs : ElemSpec rd fits wire)
    (hpos : ∀ a, 0 < (wire a).length) {w inp l n rest} :
    readVector w rd inp = .ok ((l, n), rest) ↔
      ((∀ a ∈ l, fits a) ∧ (l.flatMap wire).length < 256 ^ w.bytes) ∧
        inp = vec w (l.flatMap wire) ++ rest ∧ n = (vec w (l.flatMap wire)).length := by
  simp only [readVector, Rd.bind_eq_ok, readBE_eq_ok, remaining_eq_ok]
  constructor
  · rintro ⟨len, r, ⟨hlen, rfl⟩, avail, r', ⟨rfl, rfl⟩, h⟩
    split at h
    · simp at h
    · simp only [Rd.bind_eq_ok, Rd.pure_eq_ok, Prod.mk.injEq] at h
      obtain ⟨l', r2, h1, ⟨rfl, rfl⟩, rfl⟩ := h
      rw [readLoop_eq_ok hs hpos _ _ _ (by omega) (by omega)] at h1
      obtain ⟨h1, rfl, h2⟩ := h1
      simp only [Nat.zero_add] at h2
      subst h2
      exact ⟨⟨h1, hlen⟩, by simp [vec], by simp [Nat.add_comm]⟩
  · rintro ⟨⟨hall, hlen⟩, rfl, rfl⟩
    refine ⟨_, l.flatMap wire ++ rest, ⟨hlen, by simp [vec]⟩, _, _, ⟨rfl, rfl⟩, ?_⟩
    rw [if_neg (by simp)]
    simp only [Rd.bind_eq_ok, Rd.pure_eq_ok, Prod.mk.injEq]
    refine ⟨l, rest, ?_, ⟨rfl, by simp [Nat.add_comm]⟩, rfl⟩
    rw [readLoop_eq_ok hs hpos _ _ _ (by omega) (by omega)]
    exact ⟨hall, rfl, by simp⟩

/-- A sizer/writer pair is characterised by its wire form. -/
def WriteSpec {α} (size : α → Nat) (wr : α → Res Bytes) (fits : α → Prop) (wire : α → Bytes) :
    Prop :=
  (∀ a, size a = (wire a).length) ∧ ∀ a bs, wr a = .ok bs ↔ fits a ∧ bs = wire a

theorem writeAll_eq_ok {α} {size wr} {fits : α → Prop} {wire} (hs : WriteSpec size wr fits wire)
    {l : List α} {bs} :
    writeAll wr l = .ok bs ↔ (∀ a ∈ l, fits a) ∧ bs = l.flatMap wire := by
  induction l generalizing bs with
  | nil => simp [writeAll, eq_comm]
  | cons a l ih =>
    simp only [writeAll, Res.bind_eq_ok, hs.2, ih, Res.pure_eq, Except.ok.injEq]
    constructor
    · rintro ⟨_, ⟨h1, rfl⟩, _, ⟨h2, rfl⟩, rfl⟩
      exact ⟨by simpa using ⟨h1, h2⟩, by simp⟩
    · rintro ⟨h, rfl⟩
      exact ⟨_, ⟨h a (by simp), rfl⟩, _, ⟨fun b hb => h b (by simp [hb]), rfl⟩, by simp⟩

theorem sum_size {α} {size wr} {fits : α → Prop} {wire} (hs : WriteSpec size wr fits wire)
    (l : List α) : (l.map size).sum = (l.flatMap wire).length := by
  induction l with
  | nil => rfl
  | cons a l ih => simp [ih, hs.1 a]

theorem writeVector_eq_ok {α} {size wr} {fits : α → Prop} {wire}
    (hs : WriteSpec size wr fits wire) {w l bs} :
    writeVector w size wr l = .ok bs ↔
      ((∀ a ∈ l, fits a) ∧ (l.flatMap wire).length < 256 ^ w.bytes) ∧
        bs = vec w (l.flatMap wire) := by
  simp only [writeVector, Res.bind_eq_ok, writeLen_eq_ok, sum_size hs, writeAll_eq_ok hs,
    Res.pure_eq, Except.ok.injEq, vec]
  constructor
  · rintro ⟨_, ⟨h1, rfl⟩, _, ⟨h2, rfl⟩, rfl⟩; exact ⟨⟨h2, h1⟩, rfl⟩
  · rintro ⟨⟨h2, h1⟩, rfl⟩; exact ⟨_, ⟨h1, rfl⟩, _, ⟨h2, rfl⟩, rfl⟩

theorem elem_u8 : ElemSpec readU8 (fun _ => True) (fun v => beEnc 1 v.toNat) := by
  intro inp a n rest; rw [readU8_eq_ok]; simp
theorem elem_u16 : ElemSpec readU16 (fun _ => True) (fun v => beEnc 2 v.toNat) := by
  intro inp a n rest; rw [readU16_eq_ok]; simp
theorem wspec_u8 : WriteSpec sizeU8 writeU8 (fun _ => True) (fun v => beEnc 1 v.toNat) := by
  simp [WriteSpec, sizeU8, writeU8, eq_comm]
theorem wspec_u16 : WriteSpec sizeU16 writeU16 (fun _ => True) (fun v => beEnc 2 v.toNat) := by
  simp [WriteSpec, sizeU16, writeU16, eq_comm]

theorem decodeAll_eq_ok {α} {rd : Rd α} {buf a} :
    decodeAll rd buf = .ok a ↔ rd buf = .ok (a, []) := by
  unfold decodeAll
  cases h : rd buf with
  | error e => simp
  | ok p =>
    obtain ⟨x, r⟩ := p
    cases r <;> simp

/-! ### Undefined behaviour never happens -/

/-- The reader never reports undefined behaviour. -/
def NoUB {α} (rd : Rd α) : Prop := ∀ inp why, rd inp ≠ .error (.ub why)

theorem NoUB.bind {α β} {m : Rd α} {f : α → Rd β} (hm : NoUB m) (hf : ∀ a, NoUB (f a)) :
    NoUB (m >>= f) := by
  intro inp why h
  rw [Rd.bind_eq_error] at h
  rcases h with h | ⟨a, r, _, h⟩
  · exact hm _ _ h
  · exact hf _ _ _ h

theorem NoUB.pure {α} (a : α) : NoUB (pure a) := by intro inp why h; simp at h
theorem NoUB.pull (n) : NoUB (pull n) := by
  intro inp why h; rw [pull_eq_error] at h; simp at h
theorem NoUB.remaining : NoUB remaining := by
  intro inp why h; simp [Codec.remaining] at h
theorem NoUB.readBE (n) : NoUB (readBE n) :=
  NoUB.bind (NoUB.pull n) fun _ => NoUB.pure _
theorem NoUB.readBuf (w) : NoUB (readBuf w) :=
  NoUB.bind (NoUB.readBE _) fun _ => NoUB.bind (NoUB.pull _) fun _ => NoUB.pure _
theorem NoUB.readU8 : NoUB readU8 := NoUB.bind (NoUB.readBE _) fun _ => NoUB.pure _
theorem NoUB.readU16 : NoUB readU16 := NoUB.bind (NoUB.readBE _) fun _ => NoUB.pure _
theorem NoUB.readU32 : NoUB readU32 := NoUB.bind (NoUB.readBE _) fun _ => NoUB.pure _
theorem NoUB.readU64 : NoUB readU64 := NoUB.bind (NoUB.readBE _) fun _ => NoUB.pure _

theorem NoUB.readLoop {α} {rd : Rd (α × Nat)} (h0 : NoUB rd)
    (hpos : ∀ inp a n rest, rd inp = .ok ((a, n), rest) → 0 < n) (len : Nat) :
    ∀ fuel consumed, len - consumed ≤ fuel → NoUB (readLoop rd len fuel consumed) := by
  intro fuel
  induction fuel with
  | zero =>
    intro consumed hf inp why h
    unfold Codec.readLoop at h
    rw [if_neg (by omega)] at h
    split at h <;> simp [Failure.rt] at h
  | succ fuel ih =>
    intro consumed hf inp why h
    unfold Codec.readLoop at h
    split at h
    · rw [Rd.bind_eq_error] at h
      rcases h with h | ⟨⟨a, n⟩, r, h1, h⟩
      · exact h0 _ _ h
      · have := hpos _ _ _ _ h1
        rw [Rd.bind_eq_error] at h
        rcases h with h | ⟨a, r, _, h⟩
        · exact ih _ (by omega) _ _ h
        · simp at h
    · split at h <;> simp [Failure.rt] at h

theorem NoUB.readVector {α} {rd : Rd (α × Nat)} (h0 : NoUB rd)
    (hpos : ∀ inp a n rest, rd inp = .ok ((a, n), rest) → 0 < n) (w : Width) :
    NoUB (readVector w rd) := by
  refine NoUB.bind (NoUB.readBE _) fun len => NoUB.bind NoUB.remaining fun avail => ?_
  intro inp why h
  split at h
  · simp at h
  · exact NoUB.bind (NoUB.readLoop h0 hpos _ _ _ (by omega)) (fun _ => NoUB.pure _) _ _ h

theorem NoUB.decodeAll {α} {rd : Rd α} (h : NoUB rd) (buf : Bytes) (why : String) :
    decodeAll rd buf ≠ .error (.ub why) := by
  unfold Codec.decodeAll
  cases hr : rd buf with
  | error e => intro he; simp at he; exact h _ _ (he ▸ hr)
  | ok p =>
    obtain ⟨x, r⟩ := p
    cases r <;> simp [Failure.rt]

end Fizz.Codec

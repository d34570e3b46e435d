import Verif.Async.Aligned

/-!
# C95: record-aligned reading
-/

namespace Fizz.Async.Aligned
open Fizz.Record Fizz.Codec

variable {σ α : Type}

/-! ## Helper lemmas -/

theorem not_isRecord_nil : ¬ IsRecord [] := by
  rintro ⟨hd, body, h, _⟩; simp [Header.bytes] at h

theorem atMostOne_nil : AtMostOne [] := Or.inl (by simp)

/-- A reading function that is given at most one record takes all of it or nothing. -/
structure Single (body : σ → Bytes → Iter σ α) : Prop where
  need : ∀ {st buf h st' rest}, AtMostOne buf → body st buf = .needMore h st' rest →
    rest = buf ∨ (rest = [] ∧ IsRecord buf)
  again : ∀ {st buf st' rest}, AtMostOne buf → body st buf = .again st' rest →
    rest = [] ∧ IsRecord buf
  done : ∀ {st buf a st' rest}, AtMostOne buf → body st buf = .done a st' rest →
    rest = [] ∧ IsRecord buf

theorem recordBody_whole {hdr : σ → Header → Bytes → Res σ} {act : σ → Header → Bytes → RecAct σ α}
    {st : σ} {buf : Bytes} (h1 : AtMostOne buf) :
    (∃ h st', recordBody hdr act st buf = .needMore h st' buf) ∨
    (∃ f, recordBody hdr act st buf = .fail f) ∨
    (IsRecord buf ∧ ((∃ st', recordBody hdr act st buf = .again st' []) ∨
      ∃ a st', recordBody hdr act st buf = .done a st' [])) := by
  rcases short_or_header buf with hs | ⟨t, v1, v2, l1, l2, body, rfl⟩
  · rw [recordBody_short _ _ st hs]; exact Or.inl ⟨_, _, rfl⟩
  · have hle : body.length ≤ Header.length ⟨t, v1, v2, l1, l2⟩ := by
      rcases h1 with h1 | ⟨hd, b2, h2, h3⟩
      · simp at h1; omega
      · simp only [Header.bytes, List.cons_append, List.nil_append, List.cons.injEq] at h2
        obtain ⟨rfl, rfl, rfl, rfl, rfl, rfl⟩ := h2
        exact h3
    simp only [recordBody]
    split
    · exact Or.inr (Or.inl ⟨_, rfl⟩)
    · split_ifs with hl
      · exact Or.inl ⟨_, _, rfl⟩
      · have heq : body.length = Header.length ⟨t, v1, v2, l1, l2⟩ := by omega
        have hd : body.drop (Header.length ⟨t, v1, v2, l1, l2⟩) = [] := by
          rw [← heq]; exact List.drop_length
        have hrec : IsRecord (t :: v1 :: v2 :: l1 :: l2 :: body) :=
          ⟨⟨t, v1, v2, l1, l2⟩, body, rfl, heq⟩
        rw [hd]
        split
        · exact Or.inr (Or.inr ⟨hrec, Or.inl ⟨_, rfl⟩⟩)
        · exact Or.inr (Or.inr ⟨hrec, Or.inr ⟨_, _, rfl⟩⟩)
        · exact Or.inr (Or.inl ⟨_, rfl⟩)

theorem recordBody_single {hdr : σ → Header → Bytes → Res σ}
    {act : σ → Header → Bytes → RecAct σ α} : Single (recordBody hdr act) := by
  constructor
  · intro st buf h st' rest h1 h2
    rcases recordBody_whole (hdr := hdr) (act := act) (st := st) h1 with
      ⟨_, _, h3⟩ | ⟨_, h3⟩ | ⟨_, ⟨_, h3⟩ | ⟨_, _, h3⟩⟩ <;> rw [h3] at h2 <;> cases h2
    exact Or.inl rfl
  · intro st buf st' rest h1 h2
    rcases recordBody_whole (hdr := hdr) (act := act) (st := st) h1 with
      ⟨_, _, h3⟩ | ⟨_, h3⟩ | ⟨hr, ⟨_, h3⟩ | ⟨_, _, h3⟩⟩ <;> rw [h3] at h2 <;> cases h2
    exact ⟨rfl, hr⟩
  · intro st buf a st' rest h1 h2
    rcases recordBody_whole (hdr := hdr) (act := act) (st := st) h1 with
      ⟨_, _, h3⟩ | ⟨_, h3⟩ | ⟨hr, ⟨_, h3⟩ | ⟨_, _, h3⟩⟩ <;> rw [h3] at h2 <;> cases h2
    exact ⟨rfl, hr⟩

theorem Single.run {body : σ → Bytes → Iter σ α} (hs : Single body) (hc : Consumes body) :
    Single (Record.run body) := by
  have hnil : ∀ st, (∀ a st' rest, Record.run body st [] ≠ .done a st' rest) ∧
      ∀ h st' rest, Record.run body st [] = .needMore h st' rest → rest = [] := by
    intro st
    rw [run_eq hc]
    cases hb : body st [] with
    | again st' rest => exact absurd (hs.again atMostOne_nil hb).2 not_isRecord_nil
    | done a st' rest => exact absurd (hs.done atMostOne_nil hb).2 not_isRecord_nil
    | needMore h st' rest =>
      refine ⟨by simp, ?_⟩
      intro h' s' r' he
      cases he
      rcases hs.need atMostOne_nil hb with h | h
      · exact h
      · exact h.1
    | fail f => simp
  constructor
  · intro st buf h st' rest h1 h2
    rw [run_eq hc] at h2
    cases hb : body st buf with
    | again s1 r1 =>
      rw [hb] at h2
      obtain ⟨rfl, hr⟩ := hs.again h1 hb
      exact Or.inr ⟨(hnil s1).2 _ _ _ h2, hr⟩
    | needMore a b c => rw [hb] at h2; cases h2; exact hs.need h1 hb
    | done a b c => rw [hb] at h2; simp at h2
    | fail f => rw [hb] at h2; simp at h2
  · intro st buf st' rest _ h2
    exact absurd h2 (run_ne_again hc _ _ _ _)
  · intro st buf a st' rest h1 h2
    rw [run_eq hc] at h2
    cases hb : body st buf with
    | again s1 r1 =>
      rw [hb] at h2
      obtain ⟨rfl, hr⟩ := hs.again h1 hb
      exact absurd h2 ((hnil s1).1 _ _ _)
    | needMore a b c => rw [hb] at h2; simp at h2
    | done a b c => rw [hb] at h2; cases h2; exact hs.done h1 hb
    | fail f => rw [hb] at h2; simp at h2

theorem encRead_single : Single encRead := by
  have hs : Single getDecryptedBuf := Single.run recordBody_single encBody_mono.consumes
  constructor
  · intro st buf h st' rest h1 h2
    unfold encRead at h2
    cases hg : getDecryptedBuf st buf with
    | needMore a b c => rw [hg] at h2; cases h2; exact hs.need h1 hg
    | done a b c => rw [hg] at h2; simp only at h2; split at h2 <;> cases h2
    | _ => rw [hg] at h2; cases h2
  · intro st buf st' rest h1 h2
    unfold encRead at h2
    cases hg : getDecryptedBuf st buf with
    | again a b => rw [hg] at h2; cases h2; exact hs.again h1 hg
    | done a b c => rw [hg] at h2; simp only at h2; split at h2 <;> cases h2
    | _ => rw [hg] at h2; cases h2
  · intro st buf a st' rest h1 h2
    unfold encRead at h2
    cases hg : getDecryptedBuf st buf with
    | done a b c =>
      rw [hg] at h2; simp only at h2; split at h2 <;> cases h2; exact hs.done h1 hg
    | _ => rw [hg] at h2; cases h2

theorem Single.mapSt {body : σ → Bytes → Iter σ α} (hs : Single body) {τ : Type} (f : σ → τ) {st buf}
    (h1 : AtMostOne buf) :
    (∀ h st' rest, (body st buf).mapSt f = .needMore h st' rest →
      rest = buf ∨ (rest = [] ∧ IsRecord buf)) ∧
    (∀ st' rest, (body st buf).mapSt f = .again st' rest → rest = [] ∧ IsRecord buf) ∧
    (∀ a st' rest, (body st buf).mapSt f = .done a st' rest → rest = [] ∧ IsRecord buf) := by
  cases hb : body st buf with
  | needMore h s r =>
    refine ⟨?_, by simp [Iter.mapSt], by simp [Iter.mapSt]⟩
    intro _ _ _ he; cases he; exact hs.need h1 hb
  | again s r =>
    refine ⟨by simp [Iter.mapSt], ?_, by simp [Iter.mapSt]⟩
    intro _ _ he; cases he; exact hs.again h1 hb
  | done a s r =>
    refine ⟨by simp [Iter.mapSt], by simp [Iter.mapSt], ?_⟩
    intro _ _ _ he; cases he; exact hs.done h1 hb
  | fail f => simp [Iter.mapSt]

theorem layerRead_single : Single Layer.read := by
  have hp : Single plainRead := Single.run recordBody_single plainBody_mono.consumes
  constructor <;> intro l
  · cases l with
    | plain p => intro buf h st' rest h1 h2; exact (hp.mapSt Layer.plain h1).1 _ _ _ h2
    | enc e => intro buf h st' rest h1 h2; exact (encRead_single.mapSt Layer.enc h1).1 _ _ _ h2
  · cases l with
    | plain p => intro buf st' rest h1 h2; exact (hp.mapSt Layer.plain h1).2.1 _ _ h2
    | enc e => intro buf st' rest h1 h2; exact (encRead_single.mapSt Layer.enc h1).2.1 _ _ h2
  · cases l with
    | plain p => intro buf a st' rest h1 h2; exact (hp.mapSt Layer.plain h1).2.2 _ _ _ h2
    | enc e => intro buf a st' rest h1 h2; exact (encRead_single.mapSt Layer.enc h1).2.2 _ _ _ h2

theorem eventBody_single : Single eventBody := by
  constructor
  · intro r buf h r' rest h1 h2
    rw [eventBody_eq] at h2
    cases hg : r.layer.read buf with
    | needMore a b c => rw [hg] at h2; cases h2; exact layerRead_single.need h1 hg
    | done m l rest1 =>
      rw [hg] at h2
      simp only at h2
      rcases eventAct_cases r l m with ⟨f, h3⟩ | ⟨ev, r1, h3⟩ | ⟨r1, h3⟩ | ⟨r1, h3, -⟩ <;>
        simp only [h3] at h2 <;> cases h2
    | _ => rw [hg] at h2; cases h2
  · intro r buf r' rest h1 h2
    rw [eventBody_eq] at h2
    cases hg : r.layer.read buf with
    | again a b => rw [hg] at h2; cases h2; exact layerRead_single.again h1 hg
    | done m l rest1 =>
      rw [hg] at h2
      simp only at h2
      obtain ⟨rfl, hr⟩ := layerRead_single.done h1 hg
      rcases eventAct_cases r l m with ⟨f, h3⟩ | ⟨ev, r1, h3⟩ | ⟨r1, h3⟩ | ⟨r1, h3, -⟩ <;>
        simp only [h3] at h2 <;> cases h2
      exact ⟨rfl, hr⟩
    | _ => rw [hg] at h2; cases h2
  · intro r buf ev r' rest h1 h2
    rw [eventBody_eq] at h2
    cases hg : r.layer.read buf with
    | done m l rest1 =>
      rw [hg] at h2
      simp only at h2
      obtain ⟨rfl, hr⟩ := layerRead_single.done h1 hg
      rcases eventAct_cases r l m with ⟨f, h3⟩ | ⟨ev, r1, h3⟩ | ⟨r1, h3⟩ | ⟨r1, h3, -⟩ <;>
        simp only [h3] at h2 <;> cases h2 <;> exact ⟨rfl, hr⟩
    | _ => rw [hg] at h2; cases h2

/-- `readEvent` on a buffer with at most one record, nothing decodable left over. -/
theorem readEvent_done_single {r buf ev r' rest}
    (hu : decodeHandshakeMessage r.unparsed = .ok .none) (h1 : AtMostOne buf)
    (h : readEvent r buf = .done ev r' rest) : rest = [] ∧ IsRecord buf := by
  rw [readEvent_eq, hu] at h
  exact (eventBody_single.run eventBody_mono.consumes).done h1 h

theorem readEvent_need_single {r buf h r' rest} (h1 : AtMostOne buf)
    (hr : readEvent r buf = .needMore h r' rest) :
    (rest = buf ∨ (rest = [] ∧ IsRecord buf)) ∧ Pending rest h ∧
      decodeHandshakeMessage r'.unparsed = .ok .none := by
  have hp := (readEvent_hinted _ _ _ _ _ hr).2.1
  rw [readEvent_eq] at hr
  split at hr
  · cases hr
  · cases hr
  · rename_i hd
    exact ⟨(eventBody_single.run eventBody_mono.consumes).need h1 hr, hp,
      run_event_unparsed r buf hd _ _ _ hr⟩

theorem readEvent_nil {r ev r' rest} (h : readEvent r [] = .done ev r' rest) : rest = [] := by
  rw [readEvent_eq] at h
  split at h
  · cases h
  · cases h; rfl
  · exact ((eventBody_single.run eventBody_mono.consumes).done atMostOne_nil h).1

theorem Records.add {a b : Bytes} (ha : Records a) (hb : IsRecord b) : Records (a ++ b) := by
  obtain ⟨rs, h1, rfl⟩ := ha
  refine ⟨rs ++ [b], ?_, by simp⟩
  intro r hr
  rcases List.mem_append.1 hr with h | h
  · exact h1 r h
  · rw [List.mem_singleton.1 h]; exact hb

/-- What `readEvent` leaves is the end of what it was given. -/
theorem recordBody_suffix {hdr : σ → Header → Bytes → Res σ} {act : σ → Header → Bytes → RecAct σ α}
    {st : σ} {buf : Bytes} :
    (∀ h st' rest, recordBody hdr act st buf = .needMore h st' rest → rest <:+ buf) ∧
    (∀ st' rest, recordBody hdr act st buf = .again st' rest → rest <:+ buf) ∧
    (∀ a st' rest, recordBody hdr act st buf = .done a st' rest → rest <:+ buf) := by
  rcases short_or_header buf with hs | ⟨t, v1, v2, l1, l2, body, rfl⟩
  · rw [recordBody_short _ _ st hs]
    refine ⟨?_, by simp, by simp⟩
    intro h st' rest he; cases he; exact List.suffix_refl _
  · have hd : ∀ n, body.drop n <:+ t :: v1 :: v2 :: l1 :: l2 :: body := fun n =>
      (List.drop_suffix n body).trans ⟨[t, v1, v2, l1, l2], rfl⟩
    simp only [recordBody]
    split
    · simp
    · split_ifs
      · refine ⟨?_, by simp, by simp⟩
        intro h st' rest he; cases he; exact List.suffix_refl _
      · split
        · refine ⟨by simp, ?_, by simp⟩
          intro st' rest he; cases he; exact hd _
        · refine ⟨by simp, by simp, ?_⟩
          intro a st' rest he; cases he; exact hd _
        · simp

/-- A reading function whose remainder is the end of what it was given. -/
structure Suffix (body : σ → Bytes → Iter σ α) : Prop where
  need : ∀ {st buf h st' rest}, body st buf = .needMore h st' rest → rest <:+ buf
  again : ∀ {st buf st' rest}, body st buf = .again st' rest → rest <:+ buf
  done : ∀ {st buf a st' rest}, body st buf = .done a st' rest → rest <:+ buf

theorem Suffix.run {body : σ → Bytes → Iter σ α} (hs : Suffix body) (hc : Consumes body) :
    Suffix (Record.run body) := by
  have key : ∀ st buf, (∀ h st' rest, Record.run body st buf = .needMore h st' rest → rest <:+ buf) ∧
      (∀ a st' rest, Record.run body st buf = .done a st' rest → rest <:+ buf) := by
    intro st buf
    refine run_ind hc (P := fun st buf =>
      (∀ h st' rest, Record.run body st buf = .needMore h st' rest → rest <:+ buf) ∧
      (∀ a st' rest, Record.run body st buf = .done a st' rest → rest <:+ buf)) ?_ st buf
    intro st buf ih
    rw [run_eq hc]
    cases hb : body st buf with
    | again s r =>
      have h1 := ih _ _ hb
      have h2 := hs.again hb
      exact ⟨fun _ _ _ h => (h1.1 _ _ _ h).trans h2, fun _ _ _ h => (h1.2 _ _ _ h).trans h2⟩
    | needMore a b c =>
      refine ⟨?_, by simp⟩
      intro _ _ _ h; cases h; exact hs.need hb
    | done a b c =>
      refine ⟨by simp, ?_⟩
      intro _ _ _ h; cases h; exact hs.done hb
    | fail f => simp
  exact ⟨fun h => (key _ _).1 _ _ _ h, fun h => absurd h (run_ne_again hc _ _ _ _),
    fun h => (key _ _).2 _ _ _ h⟩

theorem recordBody_suf {hdr : σ → Header → Bytes → Res σ} {act : σ → Header → Bytes → RecAct σ α} :
    Suffix (recordBody hdr act) :=
  ⟨fun h => recordBody_suffix.1 _ _ _ h, fun h => recordBody_suffix.2.1 _ _ h,
    fun h => recordBody_suffix.2.2 _ _ _ h⟩

theorem layerRead_suf : Suffix Layer.read := by
  have hp : Suffix plainRead := recordBody_suf.run plainBody_mono.consumes
  have hg : Suffix getDecryptedBuf := recordBody_suf.run encBody_mono.consumes
  have he : Suffix encRead := by
    constructor
    · intro st buf h st' rest h2
      unfold encRead at h2
      cases hq : getDecryptedBuf st buf with
      | needMore a b c => rw [hq] at h2; cases h2; exact hg.need hq
      | done a b c => rw [hq] at h2; simp only at h2; split at h2 <;> cases h2
      | _ => rw [hq] at h2; cases h2
    · intro st buf st' rest h2
      unfold encRead at h2
      cases hq : getDecryptedBuf st buf with
      | again a b => rw [hq] at h2; cases h2; exact hg.again hq
      | done a b c => rw [hq] at h2; simp only at h2; split at h2 <;> cases h2
      | _ => rw [hq] at h2; cases h2
    · intro st buf a st' rest h2
      unfold encRead at h2
      cases hq : getDecryptedBuf st buf with
      | done a b c =>
        rw [hq] at h2; simp only at h2; split at h2 <;> cases h2; exact hg.done hq
      | _ => rw [hq] at h2; cases h2
  constructor
  · intro l buf h l' rest h2
    cases l with
    | plain p =>
      simp only [Layer.read] at h2
      cases hq : plainRead p buf <;> rw [hq] at h2 <;> cases h2
      exact hp.need hq
    | enc e =>
      simp only [Layer.read] at h2
      cases hq : encRead e buf <;> rw [hq] at h2 <;> cases h2
      exact he.need hq
  · intro l buf l' rest h2
    exact absurd h2 (layerRead_ne_again _ _ _ _)
  · intro l buf a l' rest h2
    cases l with
    | plain p =>
      simp only [Layer.read] at h2
      cases hq : plainRead p buf <;> rw [hq] at h2 <;> cases h2
      exact hp.done hq
    | enc e =>
      simp only [Layer.read] at h2
      cases hq : encRead e buf <;> rw [hq] at h2 <;> cases h2
      exact he.done hq

theorem eventBody_suf : Suffix eventBody := by
  constructor
  · intro r buf h r' rest h2
    rw [eventBody_eq] at h2
    cases hg : r.layer.read buf with
    | needMore a b c => rw [hg] at h2; cases h2; exact layerRead_suf.need hg
    | done m l rest1 =>
      rw [hg] at h2
      simp only at h2
      rcases eventAct_cases r l m with ⟨f, h3⟩ | ⟨ev, r1, h3⟩ | ⟨r1, h3⟩ | ⟨r1, h3, -⟩ <;>
        simp only [h3] at h2 <;> cases h2
    | _ => rw [hg] at h2; cases h2
  · intro r buf r' rest h2
    rw [eventBody_eq] at h2
    cases hg : r.layer.read buf with
    | again a b => rw [hg] at h2; cases h2; exact layerRead_suf.again hg
    | done m l rest1 =>
      rw [hg] at h2
      simp only at h2
      rcases eventAct_cases r l m with ⟨f, h3⟩ | ⟨ev, r1, h3⟩ | ⟨r1, h3⟩ | ⟨r1, h3, -⟩ <;>
        simp only [h3] at h2 <;> cases h2
      exact layerRead_suf.done hg
    | _ => rw [hg] at h2; cases h2
  · intro r buf ev r' rest h2
    rw [eventBody_eq] at h2
    cases hg : r.layer.read buf with
    | done m l rest1 =>
      rw [hg] at h2
      simp only at h2
      rcases eventAct_cases r l m with ⟨f, h3⟩ | ⟨ev, r1, h3⟩ | ⟨r1, h3⟩ | ⟨r1, h3, -⟩ <;>
        simp only [h3] at h2 <;> cases h2
      · exact layerRead_suf.done hg
      · exact List.nil_suffix
    | _ => rw [hg] at h2; cases h2

theorem readEvent_suffix {r buf h r' rest} (hr : readEvent r buf = .needMore h r' rest) :
    ∃ used, buf = used ++ rest := by
  rw [readEvent_eq] at hr
  split at hr
  · cases hr
  · cases hr
  · obtain ⟨u, hu⟩ := (eventBody_suf.run eventBody_mono.consumes).need hr
    exact ⟨u, hu.symm⟩

/-- What holds between reads and polls of a synchronous execution. -/
structure Inv (pre : Bytes) (s : St) : Prop where
  /-- what was read since the beginning (`pre`) is whole records and what is buffered -/
  whole : ∀ r buf evs, s.sess = .live r buf evs → ∃ a, Records a ∧ s.got = pre ++ a ++ buf
  /-- waiting: the hint is what is missing -/
  wait : ∀ r buf evs, s.sess = .live r buf evs → s.waiting = true →
    Pending buf s.hint ∧ decodeHandshakeMessage r.unparsed = .ok .none
  /-- processing: at most one record is buffered, and none while messages are left over -/
  busy : ∀ r buf evs, s.sess = .live r buf evs → s.waiting = false →
    buf = [] ∨ (AtMostOne buf ∧ decodeHandshakeMessage r.unparsed = .ok .none)

theorem pending_extend {buf d : Bytes} {h : Nat} (hp : Pending buf h) (hd : d.length ≤ h) :
    AtMostOne (buf ++ d) := by
  rcases hp with ⟨h1, h2⟩ | ⟨hd', body, rfl, h1, h2⟩
  · by_cases h5 : (buf ++ d).length < 5
    · exact Or.inl h5
    · right
      have hl : (buf ++ d).length = 5 := by simp at h5 ⊢; omega
      generalize buf ++ d = x at hl
      match x, hl with
      | [a, b, c, e, f], _ => exact ⟨⟨a, b, c, e, f⟩, [], rfl, by simp⟩
  · right
    exact ⟨hd', body ++ d, by simp, by simp; omega⟩

theorem readLimit_le (hint chain : Nat) : readLimit hint chain ≤ hint := by
  unfold readLimit; simp only; split <;> omega

theorem readLimit_pos {hint : Nat} (h : 0 < hint) (chain : Nat) : 0 < readLimit hint chain := by
  unfold readLimit; simp only; split <;> omega

theorem offer_le {o : Opts} {room : Nat → Nat → Nat} {hint chain : Nat}
    (ho : o.alignedRecords = true ∨ o.handshakeAligned = true) (h0 : 0 < hint) :
    (getReadBuffer o room hint chain).len ≤ hint := by
  unfold getReadBuffer
  simp only
  by_cases ha : o.alignedRecords = true
  · rw [if_pos ⟨ha, readLimit_pos h0 chain⟩]
    exact Nat.le_trans (Nat.min_le_right _ _) (readLimit_le _ _)
  · have hh : o.handshakeAligned = true := by rcases ho with h | h; exact absurd h ha; exact h
    rw [if_neg (by rintro ⟨h, _⟩; exact ha h)]
    simp only [hh, if_true]
    omega

theorem pending_pos {b : Bytes} {h : Nat} (hp : Pending b h) : 0 < h := by
  rcases hp with ⟨h1, h2⟩ | ⟨_, _, _, h1, h2⟩ <;> omega

theorem inv_step {react : React} {pre : Bytes} {s : St} {op : Op} (hi : Inv pre s) (hv : Allowed true s op)
    (ho : ∀ o room d, op = .recv o room d → o.alignedRecords = true ∨ o.handshakeAligned = true) :
    Inv pre (s.step react op) := by
  cases op with
  | recv o room d =>
    obtain ⟨hl, hw⟩ := hv
    have hw : s.waiting = true := by rcases hw with h | h; exact h; cases h
    cases hs : s.sess with
    | dead e w =>
      constructor <;> intro r buf evs h <;> simp [St.step, Session.step, hs] at h
    | live r buf evs =>
      obtain ⟨a, ha, hg⟩ := hi.whole _ _ _ hs
      obtain ⟨hp, hu⟩ := hi.wait _ _ _ hs hw
      have hd : d.length ≤ s.hint := Nat.le_trans hl (offer_le (ho _ _ _ rfl) (pending_pos hp))
      constructor <;> intro r1 b1 e1 h <;>
        simp only [St.step, Session.step, hs, Session.live.injEq] at h <;>
        obtain ⟨rfl, rfl, rfl⟩ := h
      · exact ⟨a, ha, by simp [St.step, hg, List.append_assoc]⟩
      · intro h; simp [St.step] at h
      · intro _; exact Or.inr ⟨pending_extend hp hd, hu⟩
  | poll =>
    have hw : s.waiting = false := hv
    cases hs : s.sess with
    | dead e w =>
      have : s.step react .poll = s := by simp [St.step, hs]
      rw [this]; exact hi
    | live r buf evs =>
      obtain ⟨a, ha, hg⟩ := hi.whole _ _ _ hs
      have hb := hi.busy _ _ _ hs hw
      have h1 : AtMostOne buf := by
        rcases hb with rfl | h
        · exact atMostOne_nil
        · exact h.1
      cases hr : readEvent r buf with
      | needMore h r' rest =>
        have hst : s.step react .poll = ⟨.live r' rest evs, h, true, s.got⟩ := by
          simp [St.step, Session.step, hs, hr]
        rw [hst]
        obtain ⟨h2, h3, h4⟩ := readEvent_need_single h1 hr
        constructor <;> intro r1 b1 e1 he <;>
          simp only [Session.live.injEq] at he <;> obtain ⟨rfl, rfl, rfl⟩ := he
        · rcases h2 with rfl | ⟨rfl, h5⟩
          · exact ⟨a, ha, hg⟩
          · exact ⟨a ++ buf, ha.add h5, by simp [hg, List.append_assoc]⟩
        · intro _; exact ⟨h3, h4⟩
        · intro h; cases h
      | again r' rest =>
        rw [readEvent_eq] at hr
        split at hr
        · cases hr
        · cases hr
        · exact absurd hr (run_ne_again eventBody_mono.consumes _ _ _ _)
      | fail f =>
        constructor <;> intro r1 b1 e1 he <;> simp [St.step, Session.step, hs, hr] at he
      | done ev r' rest =>
        have hrest : rest = [] := by
          rcases hb with rfl | h
          · exact readEvent_nil hr
          · exact (readEvent_done_single h.2 h.1 hr).1
        have hrec : ∃ a', Records a' ∧ s.got = pre ++ a' ++ rest := by
          rcases hb with rfl | h
          · exact ⟨a, ha, by rw [hg, hrest]⟩
          · exact ⟨a ++ buf, ha.add (readEvent_done_single h.2 h.1 hr).2, by simp [hg, hrest, List.append_assoc]⟩
        by_cases hc : ∃ x, ev = .closeNotify x
        · obtain ⟨x, rfl⟩ := hc
          constructor <;> intro r1 b1 e1 he <;> simp [St.step, Session.step, hs, hr] at he
        · have hst : s.step react .poll =
              ⟨.live (react (evs ++ [ev]) r') rest (evs ++ [ev]), s.hint, s.waiting, s.got⟩ := by
            cases ev <;> first
              | exact absurd ⟨_, rfl⟩ hc
              | simp [St.step, Session.step, hs, hr]
          rw [hst]
          constructor <;> intro r1 b1 e1 he <;>
            simp only [Session.live.injEq] at he <;> obtain ⟨rfl, rfl, rfl⟩ := he
          · exact hrec
          · intro h; simp only [hw] at h; cases h
          · intro _; exact Or.inl hrest

theorem exec_inv {react : React} {pre : Bytes} {s0 s : St} {ops : List Op}
    (h : Exec react true s0 ops s) (h0 : Inv pre s0) : Inv pre s := by
  induction h with
  | nil => exact h0
  | snoc _ hv ho ih => exact inv_step ih hv ho

/-! ## C95 -/

/-- The state when the handshake is about to begin: nothing read, `setHandshakeRecordAlignedReads(true)`
called. -/
def start (r : Reader) : St := ⟨.live r [] [], (setHandshakeAligned {} 0 true).2, true, []⟩

theorem start_inv {r : Reader} (hr : r.unparsed = []) : Inv [] (start r) := by
  constructor <;> intro r1 b e h <;> simp only [start, Session.live.injEq] at h <;>
    obtain ⟨rfl, rfl, rfl⟩ := h
  · exact ⟨[], ⟨[], by simp, rfl⟩, rfl⟩
  · intro _; exact ⟨Or.inl ⟨by simp, rfl⟩, by rw [hr]; rfl⟩
  · intro h; cases h

/-- C95: with record-aligned reads on, and every event processed before the transport is read again,
then whatever the peer sends and however the transport cuts it up: whenever an event is handed to the
state machine, everything read from the transport so far is a sequence of whole records and nothing is
left in the read buffer — the next byte of the transport is the first byte of a record. -/
theorem C95_aligned (react : React) (r0 : Reader) (hr : r0.unparsed = []) (ops : List Op) (s : St)
    (h : Exec react true (start r0) ops s) (r : Reader) (buf : Bytes) (evs : List Event)
    (hs : s.sess = .live r buf evs) (hw : s.waiting = false) (ev : Event) (r' : Reader) (rest : Bytes)
    (he : readEvent r buf = .done ev r' rest) : rest = [] ∧ Records s.got := by
  have hi := exec_inv h (start_inv hr)
  obtain ⟨a, ha, hg⟩ := hi.whole _ _ _ hs
  rcases hi.busy _ _ _ hs hw with rfl | hb
  · exact ⟨readEvent_nil he, by rw [hg]; simpa using ha⟩
  · obtain ⟨h1, h2⟩ := readEvent_done_single hb.2 hb.1 he
    exact ⟨h1, by rw [hg]; exact ha.add h2⟩

/-- C95: alignment may be turned on at any time (`setAlignedRecordReads`), whatever was read before and
however: from the first `WaitForData` on, reads stop at record boundaries.  `s1` is any state in which the
loop finds that it needs more data; `s` any later state; then whenever an event is handed to the state
machine, what was read since the beginning of the record in progress at that `WaitForData` is whole
records. -/
theorem C95_resync (react : React) (s1 : St) (r1 : Reader) (b1 : Bytes) (e1 : List Event)
    (h1 : s1.sess = .live r1 b1 e1) (pre : Bytes) (hgot : s1.got = pre ++ b1) (h : Nat) (r2 : Reader)
    (b2 : Bytes) (hn : readEvent r1 b1 = .needMore h r2 b2) (ops : List Op) (s : St)
    (hx : Exec react true (s1.step react .poll) ops s) (r : Reader) (buf : Bytes) (evs : List Event)
    (hs : s.sess = .live r buf evs) (hw : s.waiting = false) (ev : Event) (r' : Reader) (rest : Bytes)
    (he : readEvent r buf = .done ev r' rest) :
    rest = [] ∧ ∃ used a, b1 = used ++ b2 ∧ Records a ∧ s.got = pre ++ used ++ a := by
  have hst : s1.step react .poll = ⟨.live r2 b2 e1, h, true, s1.got⟩ := by
    simp [St.step, Session.step, h1, hn]
  have hsuf : ∃ used, b1 = used ++ b2 := readEvent_suffix hn
  obtain ⟨used, hu⟩ := hsuf
  have h0 : Inv (pre ++ used) (s1.step react .poll) := by
    rw [hst]
    constructor <;> intro ra ba ea hh <;> simp only [Session.live.injEq] at hh <;>
      obtain ⟨rfl, rfl, rfl⟩ := hh
    · exact ⟨[], ⟨[], by simp, rfl⟩, by simp [hgot, hu]⟩
    · intro _
      refine ⟨(readEvent_hinted _ _ _ _ _ hn).2.1, ?_⟩
      rw [readEvent_eq] at hn
      split at hn
      · cases hn
      · cases hn
      · rename_i hd
        exact run_event_unparsed _ _ hd _ _ _ hn
    · intro hh; cases hh
  have hi := exec_inv hx h0
  obtain ⟨a, ha, hg⟩ := hi.whole _ _ _ hs
  rcases hi.busy _ _ _ hs hw with rfl | hb
  · exact ⟨readEvent_nil he, used, a, hu, ha, by simpa using hg⟩
  · obtain ⟨h3, h4⟩ := readEvent_done_single hb.2 hb.1 he
    exact ⟨h3, used, a ++ buf, hu, ha.add h4, by rw [hg, List.append_assoc]⟩

/-- C95: at every moment of such an execution what has been read is whole records and at most one more,
and when the connection waits for data the transport is asked for at least one byte and for no more than
the record in progress (or its header) lacks. -/
theorem C95_bounded (react : React) (r0 : Reader) (hr : r0.unparsed = []) (ops : List Op) (s : St)
    (h : Exec react true (start r0) ops s) (r : Reader) (buf : Bytes) (evs : List Event)
    (hs : s.sess = .live r buf evs) :
    (∃ a, Records a ∧ s.got = a ++ buf ∧ AtMostOne buf) ∧
    (s.waiting = true → ∀ (o : Opts) (room : Nat → Nat → Nat) (chain : Nat), (∀ a b, a ≤ room a b) →
      o.alignedRecords = true ∨ o.handshakeAligned = true → 0 < o.minRead →
      0 < (getReadBuffer o room s.hint chain).len ∧
      ((buf.length < 5 ∧ buf.length + (getReadBuffer o room s.hint chain).len ≤ 5) ∨
        ∃ (hd : Header) (body : Bytes), buf = hd.bytes ++ body ∧
          body.length + (getReadBuffer o room s.hint chain).len ≤ hd.length)) := by
  have hi := exec_inv h (start_inv hr)
  obtain ⟨a, ha, hg⟩ := hi.whole _ _ _ hs
  constructor
  · refine ⟨a, ha, by simpa using hg, ?_⟩
    cases hw : s.waiting with
    | true =>
      have := pending_extend (d := []) (hi.wait _ _ _ hs hw).1 (by simp)
      simpa using this
    | false =>
      rcases hi.busy _ _ _ hs hw with rfl | hb
      · exact atMostOne_nil
      · exact hb.1
  · intro hw o room chain hroom ho hmin
    have hp := (hi.wait _ _ _ hs hw).1
    have hle := offer_le (room := room) (chain := chain) ho (pending_pos hp)
    refine ⟨?_, ?_⟩
    · have h0 := (pending_pos hp)
      unfold getReadBuffer
      simp only
      split
      · rename_i h
        have := hroom (readLimit s.hint chain) (readLimit s.hint chain)
        exact Nat.lt_min.2 ⟨by omega, h.2⟩
      · have := hroom o.minRead (if o.preallocFromHint = true then max o.alloc s.hint else o.alloc)
        show 0 < if o.handshakeAligned = true then min o.minRead s.hint
          else room o.minRead (if o.preallocFromHint = true then max o.alloc s.hint else o.alloc)
        cases o.handshakeAligned
        · simp only [Bool.false_eq_true, if_false]; omega
        · simp only [if_true]; omega
    · rcases hp with ⟨h1, h2⟩ | ⟨hd, body, h1, h2, h3⟩
      · exact Or.inl ⟨h1, by omega⟩
      · exact Or.inr ⟨hd, body, h1, by omega⟩

/-- C95: whatever the options and the hint, the transport is never told to write more than was
reserved. -/
theorem C95_space (o : Opts) (room : Nat → Nat → Nat) (hroom : ∀ a b, a ≤ room a b) (hint chain : Nat) :
    (getReadBuffer o room hint chain).len ≤ (getReadBuffer o room hint chain).space := by
  unfold getReadBuffer
  simp only
  split
  · exact Nat.min_le_left _ _
  · have := hroom o.minRead (if o.preallocFromHint = true then max o.alloc hint else o.alloc)
    cases o.handshakeAligned
    · simp
    · simp only [if_true]; omega

/-! ### Suspended processing -/

/-- A record with three KeyUpdate messages and one with a single KeyUpdate. -/
def rec3 : Bytes := [22, 3, 3, 0, 15, 24, 0, 0, 1, 0, 24, 0, 0, 1, 0, 24, 0, 0, 1, 0]
def rec1 : Bytes := [22, 3, 3, 0, 5, 24, 0, 0, 1, 0]

def alignedOpts : Opts := (setHandshakeAligned {} 0 true).1

/-- Reads made with room to spare. -/
def roomy (a b : Nat) : Nat := max a b

def tooMuch : List Op :=
  [.recv alignedOpts roomy (rec3.take 5), .poll, .recv alignedOpts roomy (rec3.drop 5),
   .poll, .poll, .poll,
   .recv alignedOpts roomy (rec1 ++ rec1.take 5)]

def tooMuchEnd : St := tooMuch.foldl (St.step (fun _ r => r)) (start ⟨.plain {}, []⟩)

theorem exec_foldl {react : React} {sync : Bool} (s0 : St) (ops : List Op)
    (h : ∀ n op, ops[n]? = some op →
      Allowed sync ((ops.take n).foldl (St.step react) s0) op ∧
      ∀ o room d, op = .recv o room d → o.alignedRecords = true ∨ o.handshakeAligned = true) :
    Exec react sync s0 ops (ops.foldl (St.step react) s0) := by
  have key : ∀ n, n ≤ ops.length →
      Exec react sync s0 (ops.take n) ((ops.take n).foldl (St.step react) s0) := by
    intro n
    induction n with
    | zero => intro _; exact .nil s0
    | succ n ih =>
      intro hn
      have hlt : n < ops.length := by omega
      have e : ops.take (n + 1) = ops.take n ++ [ops[n]] := List.take_succ_eq_append_getElem hlt
      rw [e, List.foldl_append]
      obtain ⟨h1, h2⟩ := h n ops[n] (List.getElem?_eq_getElem hlt)
      exact .snoc (ih (by omega)) h1 h2
  have := key ops.length (Nat.le_refl _)
  rwa [List.take_length] at this

theorem records_tail {hd : Header} {body more : Bytes} (hl : body.length = hd.length)
    (h : Records (hd.bytes ++ body ++ more)) : Records more := by
  obtain ⟨rs, h1, h2⟩ := h
  cases rs with
  | nil => simp [Header.bytes] at h2
  | cons x rs =>
    obtain ⟨hd', body', rfl, hl'⟩ := h1 x (by simp)
    rw [List.flatten_cons, List.append_assoc, List.append_assoc] at h2
    have h3 := List.append_inj h2 rfl
    have e : hd = hd' := by
      have := h3.1
      simp only [Header.bytes, List.cons.injEq] at this
      obtain ⟨a, b, c, d, e, -⟩ := this
      cases hd; cases hd'; simp_all
    subst e
    have h4 := List.append_inj h3.2 (by rw [hl, hl'])
    exact ⟨rs, fun r hr => h1 r (by simp [hr]), h4.2⟩

/-- C95: without that proviso the promise is broken: if the transport is read while the processing of an
event is suspended, the hint of the previous record is still in force, and the next event is processed
with bytes beyond its record already taken from the transport. -/
theorem C95_suspended : ∃ (ops : List Op) (s : St) (r : Reader) (buf : Bytes) (evs : List Event)
    (ev : Event) (r' : Reader) (rest : Bytes),
    Exec (fun _ r => r) false (start ⟨.plain {}, []⟩) ops s ∧
    s.sess = .live r buf evs ∧ s.waiting = false ∧ readEvent r buf = .done ev r' rest ∧
    rest ≠ [] ∧ ¬ Records s.got := by
  refine ⟨tooMuch, tooMuchEnd, ⟨.plain { receivedVersion := some 0x0303 }, []⟩, rec1 ++ rec1.take 5,
    List.replicate 3 (.handshake (.keyUpdate ⟨0⟩) [24, 0, 0, 1, 0]),
    .handshake (.keyUpdate ⟨0⟩) [24, 0, 0, 1, 0], ⟨.plain { receivedVersion := some 0x0303 }, []⟩,
    rec1.take 5, ?_, rfl, rfl, rfl, by simp [rec1], ?_⟩
  · refine exec_foldl _ _ ?_
    intro n op hop
    match n with
    | 0 | 2 | 6 =>
      cases Option.some.inj hop
      refine ⟨⟨by decide +kernel, Or.inr rfl⟩, fun o room d h => ?_⟩
      cases h
      exact Or.inr rfl
    | 1 | 3 | 4 | 5 =>
      cases Option.some.inj hop
      exact ⟨rfl, fun o room d h => by cases h⟩
    | n + 7 => simp [tooMuch] at hop
  · intro h
    have e : tooMuchEnd.got = (Header.bytes ⟨22, 3, 3, 0, 15⟩ ++ rec3.drop 5) ++
        (Header.bytes ⟨22, 3, 3, 0, 5⟩ ++ rec1.drop 5 ++ rec1.take 5) := rfl
    rw [e] at h
    have h2 := records_tail (hd := ⟨22, 3, 3, 0, 5⟩) rfl (records_tail (hd := ⟨22, 3, 3, 0, 15⟩) rfl h)
    obtain ⟨rs, h3, h4⟩ := h2
    cases rs with
    | nil => simp [rec1] at h4
    | cons x rs =>
      obtain ⟨hd', body', rfl, hl'⟩ := h3 x (by simp)
      rw [List.flatten_cons, List.append_assoc] at h4
      have h5 := List.append_inj (s₁ := Header.bytes ⟨22, 3, 3, 0, 5⟩) (t₁ := []) h4 rfl
      have h6 : body' = [] := by
        have := h5.2.symm
        exact (List.append_eq_nil_iff.1 this).1
      have h7 := h5.1
      cases hd'
      simp only [Header.bytes, List.cons.injEq] at h7
      obtain ⟨-, -, -, rfl, rfl, -⟩ := h7
      rw [h6] at hl'
      exact absurd hl' (by simp [Header.length, be16])

/-- C95, hypotheses: a synchronous execution that reads two records and delivers four events. -/
example : ∃ s, Exec (fun _ r => r) true (start ⟨.plain {}, []⟩)
    [.recv alignedOpts roomy (rec3.take 3), .poll, .recv alignedOpts roomy ((rec3.drop 3).take 2), .poll,
     .recv alignedOpts roomy (rec3.drop 5), .poll, .poll, .poll, .poll,
     .recv alignedOpts roomy (rec1.take 5), .poll, .recv alignedOpts roomy (rec1.drop 5)] s ∧
    s.waiting = false ∧ s.got = rec3 ++ rec1 ∧ s.buf = rec1 := by
  refine ⟨_, exec_foldl _ _ ?_, rfl, rfl, rfl⟩
  intro n op hop
  match n with
  | 0 | 2 | 4 | 9 | 11 =>
    cases Option.some.inj hop
    refine ⟨⟨by decide +kernel, Or.inl (by rfl)⟩, fun o room d h => ?_⟩
    cases h
    exact Or.inr rfl
  | 1 | 3 | 5 | 6 | 7 | 8 | 10 =>
    cases Option.some.inj hop
    exact ⟨by rfl, fun o room d h => by cases h⟩
  | n + 12 => simp at hop

end Fizz.Async.Aligned

import Verif.Record.ReadLemmas

/-! Helper lemmas: size hints, padding removal, records read (nothing here is a claim). -/

namespace Fizz.Record
open Fizz.Codec

variable {σ α : Type}

/-! ## Size hints -/

/-- `rest` is an incomplete header, or a header followed by an incomplete body, and `h` is exactly
what is missing. -/
def Pending (rest : Bytes) (h : Nat) : Prop :=
  (rest.length < 5 ∧ rest.length + h = 5) ∨
    ∃ (hd : Header) (body : Bytes), rest = hd.bytes ++ body ∧ body.length < hd.length ∧
      body.length + h = hd.length

def Hinted (body : σ → Bytes → Iter σ α) : Prop :=
  ∀ st buf h st' rest, body st buf = .needMore h st' rest →
    0 < h ∧ Pending rest h ∧ ∀ more : Bytes, more.length < h →
      ∃ st'', body st (buf ++ more) = .needMore (h - more.length) st'' (rest ++ more)

theorem recordBody_hinted {hdr : σ → Header → Bytes → Res σ} {act : σ → Header → Bytes → RecAct σ α}
    (hh : HdrOk hdr) : Hinted (recordBody hdr act) := by
  intro st buf h st' rest hb
  rcases short_or_header buf with hs | ⟨t, v1, v2, l1, l2, body, rfl⟩
  · rw [recordBody_short _ _ st hs] at hb
    cases hb
    refine ⟨by omega, Or.inl ⟨hs, by omega⟩, fun more hm => ?_⟩
    have : (buf ++ more).length < 5 := by simp; omega
    rw [recordBody_short _ _ st this]
    exact ⟨st, by congr 1; simp; omega⟩
  · simp only [recordBody] at hb
    split at hb
    · cases hb
    · rename_i st1 hst
      split_ifs at hb with hl
      · cases hb
        refine ⟨by omega, Or.inr ⟨⟨t, v1, v2, l1, l2⟩, body, rfl, hl, by omega⟩, fun more hm => ?_⟩
        simp only [recordBody, List.cons_append]
        rw [(hh.ok hst _).1]
        have hlt : (body ++ more).length < Header.length ⟨t, v1, v2, l1, l2⟩ := by simp; omega
        simp only [hlt, if_true]
        exact ⟨st', by congr 1; simp; omega⟩
      · split at hb <;> cases hb

theorem Hinted.run {body : σ → Bytes → Iter σ α} {fin} (hm : Mono body fin) (hh : Hinted body) :
    Hinted (Record.run body) := by
  have hc := hm.consumes
  intro st buf
  refine run_ind hc (P := fun st buf => ∀ h st' rest, Record.run body st buf = .needMore h st' rest →
    0 < h ∧ Pending rest h ∧ ∀ more : Bytes, more.length < h →
      ∃ st'', Record.run body st (buf ++ more) = .needMore (h - more.length) st'' (rest ++ more))
    ?_ st buf
  intro st buf ih h st' rest hr
  rw [run_eq hc] at hr
  cases hb : body st buf with
  | again s r =>
    rw [hb] at hr
    obtain ⟨h1, h2, h3⟩ := ih _ _ hb _ _ _ hr
    refine ⟨h1, h2, fun more hmore => ?_⟩
    rw [run_eq hc, (hm.again hb).1 more]
    exact h3 more hmore
  | needMore h1 s1 r1 =>
    rw [hb] at hr
    cases hr
    obtain ⟨h1, h2, h3⟩ := hh _ _ _ _ _ hb
    refine ⟨h1, h2, fun more hmore => ?_⟩
    obtain ⟨s2, h4⟩ := h3 more hmore
    rw [run_eq hc, h4]
    exact ⟨s2, rfl⟩
  | _ => rw [hb] at hr; simp at hr

theorem encRead_hinted : Hinted encRead := by
  have hh : Hinted getDecryptedBuf := Hinted.run encBody_mono (recordBody_hinted encHeader_ok)
  intro st buf h st' rest hb
  unfold encRead at hb ⊢
  cases hg : getDecryptedBuf st buf with
  | needMore h1 s1 r1 =>
    rw [hg] at hb; cases hb
    obtain ⟨h1, h2, h3⟩ := hh _ _ _ _ _ hg
    refine ⟨h1, h2, fun more hmore => ?_⟩
    obtain ⟨s2, h4⟩ := h3 more hmore
    rw [h4]; exact ⟨_, rfl⟩
  | done c s r => rw [hg] at hb; simp only at hb; split at hb <;> cases hb
  | _ => rw [hg] at hb; cases hb

theorem layerRead_hinted : Hinted Layer.read := by
  have hp : Hinted plainRead := Hinted.run plainBody_mono (recordBody_hinted plainHeader_ok)
  intro l buf h l' rest hb
  cases l with
  | plain p =>
    simp only [Layer.read] at *
    cases hg : plainRead p buf with
    | needMore h1 s1 r1 =>
      rw [hg] at hb; cases hb
      obtain ⟨h1, h2, h3⟩ := hp _ _ _ _ _ hg
      refine ⟨h1, h2, fun more hmore => ?_⟩
      obtain ⟨s2, h4⟩ := h3 more hmore
      rw [h4]; exact ⟨_, rfl⟩
    | _ => rw [hg] at hb; cases hb
  | enc e =>
    simp only [Layer.read] at *
    cases hg : encRead e buf with
    | needMore h1 s1 r1 =>
      rw [hg] at hb; cases hb
      obtain ⟨h1, h2, h3⟩ := encRead_hinted _ _ _ _ _ hg
      refine ⟨h1, h2, fun more hmore => ?_⟩
      obtain ⟨s2, h4⟩ := h3 more hmore
      rw [h4]; exact ⟨_, rfl⟩
    | _ => rw [hg] at hb; cases hb

theorem eventBody_hinted : Hinted eventBody := by
  intro r buf h r' rest hb
  rw [eventBody_eq] at hb
  cases hg : r.layer.read buf with
  | needMore h1 l1 r1 =>
    rw [hg] at hb; cases hb
    obtain ⟨h1, h2, h3⟩ := layerRead_hinted _ _ _ _ _ hg
    refine ⟨h1, h2, fun more hmore => ?_⟩
    obtain ⟨s2, h4⟩ := h3 more hmore
    rw [eventBody_eq, h4]; exact ⟨_, rfl⟩
  | done m l rest1 =>
    rw [hg] at hb
    simp only at hb
    rcases eventAct_cases r l m with ⟨f, hf⟩ | ⟨ev, r1, h1⟩ | ⟨r1, h1⟩ | ⟨r1, h1, h2⟩
    · rw [hf] at hb; cases hb
    · rw [h1] at hb; cases hb
    · rw [h1] at hb; cases hb
    · rw [h1] at hb; cases hb
  | _ => rw [hg] at hb; cases hb

theorem readEvent_hinted : Hinted readEvent := by
  have hh : Hinted (run eventBody) := Hinted.run eventBody_mono eventBody_hinted
  intro r buf h r' rest hb
  rw [readEvent_eq] at hb
  split at hb
  · cases hb
  · cases hb
  · rename_i hd
    obtain ⟨h1, h2, h3⟩ := hh _ _ _ _ _ hb
    refine ⟨h1, h2, fun more hmore => ?_⟩
    obtain ⟨s2, h4⟩ := h3 more hmore
    rw [readEvent_eq, hd]
    exact ⟨_, h4⟩

/-! ## Padding removal -/

theorem dropWhile_zero (l : Bytes) :
    (l.dropWhile (· == 0) = [] → l = List.replicate l.length 0) ∧
    (∀ c cs, l.dropWhile (· == 0) = c :: cs → c ≠ 0 ∧ ∃ k, l = List.replicate k 0 ++ c :: cs) := by
  induction l with
  | nil => simp
  | cons x xs ih =>
    by_cases hx : x = 0
    · subst hx
      constructor
      · intro h
        have := ih.1 (by simpa using h)
        rw [List.length_cons, List.replicate_succ, ← this]
      · intro c cs h
        obtain ⟨h1, k, h2⟩ := ih.2 c cs (by simpa using h)
        exact ⟨h1, k+1, by rw [List.replicate_succ, List.cons_append, ← h2]⟩
    · have : List.dropWhile (· == 0) (x :: xs) = x :: xs := by
        have : (x == 0) = false := by simpa using hx
        simp [List.dropWhile, this]
      rw [this]
      constructor
      · intro h; cases h
      · intro c cs h; cases h; exact ⟨hx, 0, rfl⟩

theorem stripRev_spec (rc : List Bytes) : ∀ after, after.flatten = [] →
    match stripRev rc after with
    | none => ∃ k, rc.reverse.flatten = List.replicate k 0
    | some (t, ch) => t ≠ 0 ∧ ∃ k, rc.reverse.flatten = ch.flatten ++ t :: List.replicate k 0 := by
  induction rc with
  | nil => intro after _; simp only [stripRev]; exact ⟨0, rfl⟩
  | cons b prev ih =>
    intro after ha
    simp only [stripRev]
    have hb := dropWhile_zero b.reverse
    cases hd : b.reverse.dropWhile (· == 0) with
    | nil =>
      simp only
      have hz := hb.1 hd
      have hbz : b = List.replicate b.length 0 := by
        have := congrArg List.reverse hz
        simpa using this
      have := ih ([] :: after) (by simpa using ha)
      cases hs : stripRev prev ([] :: after) with
      | none =>
        rw [hs] at this
        obtain ⟨k, hk⟩ := this
        refine ⟨k + b.length, ?_⟩
        rw [List.reverse_cons, List.flatten_append, hk]
        simp only [List.flatten_cons, List.flatten_nil, List.append_nil]
        rw [hbz, List.length_replicate, List.replicate_append_replicate]
      | some v =>
        obtain ⟨t, ch⟩ := v
        rw [hs] at this
        obtain ⟨h1, k, hk⟩ := this
        refine ⟨h1, k + b.length, ?_⟩
        rw [List.reverse_cons, List.flatten_append, hk]
        simp only [List.flatten_cons, List.flatten_nil, List.append_nil, List.append_assoc,
          List.cons_append]
        congr 2
        rw [hbz, List.length_replicate, List.replicate_append_replicate]
    | cons c cs =>
      simp only
      obtain ⟨h1, k, h2⟩ := hb.2 c cs hd
      refine ⟨h1, k, ?_⟩
      have hbz : b = cs.reverse ++ c :: List.replicate k 0 := by
        have := congrArg List.reverse h2
        simpa using this
      rw [List.reverse_cons, List.flatten_append, List.flatten_append]
      simp only [ha, List.flatten_cons, List.flatten_nil, List.append_nil, List.append_assoc]
      rw [hbz]

theorem zeros_unique {a b : Bytes} {t u : UInt8} {j k : Nat} (ht : t ≠ 0) (hu : u ≠ 0)
    (h : a ++ t :: List.replicate j 0 = b ++ u :: List.replicate k 0) : a = b ∧ t = u := by
  have hr := congrArg List.reverse h
  simp only [List.reverse_append, List.reverse_cons, List.reverse_replicate, List.append_assoc,
    List.singleton_append] at hr
  have key : ∀ (j k : Nat) (x y : Bytes), List.replicate j (0 : UInt8) ++ t :: x =
      List.replicate k 0 ++ u :: y → t :: x = u :: y := by
    intro j
    induction j with
    | zero =>
      intro k x y h
      cases k with
      | zero => simpa using h
      | succ k => rw [List.replicate_succ] at h; simp at h; exact absurd h.1 ht
    | succ j ih =>
      intro k x y h
      cases k with
      | zero => rw [List.replicate_succ] at h; simp at h; exact absurd h.1.symm hu
      | succ k =>
        rw [List.replicate_succ, List.replicate_succ] at h
        simp only [List.cons_append, List.cons.injEq, true_and] at h
        exact ih k x y h
  have := key j k _ _ hr
  simp only [List.cons.injEq, List.reverse_inj] at this
  exact ⟨this.2, this.1⟩

/-- `openInner` inverts `TLSInnerPlaintext`. -/
theorem openInner_iff {chain : List Bytes} (hne : chain ≠ []) (m : TLSMessage) :
    openInner chain = .ok m ↔
      (∃ k, chain.flatten = m.fragment ++ m.type :: List.replicate k 0) ∧
      (m.type = ContentType.handshake ∨ m.type = ContentType.alert ∨
        m.type = ContentType.application_data) ∧
      (m.fragment = [] → m.type = ContentType.application_data) := by
  have hs := stripRev_spec chain.reverse [] rfl
  rw [List.reverse_reverse] at hs
  unfold openInner
  rw [if_neg hne]
  cases hst : stripRev chain.reverse [] with
  | none =>
    rw [hst] at hs
    obtain ⟨k, hk⟩ := hs
    simp only [reduceCtorEq, false_iff]
    rintro ⟨⟨j, hj⟩, ht, -⟩
    rw [hk] at hj
    have : m.type ∈ List.replicate k (0 : UInt8) := by rw [hj]; simp
    have := List.eq_of_mem_replicate this
    rw [this] at ht
    revert ht; decide
  | some v =>
    obtain ⟨t, ch⟩ := v
    rw [hst] at hs
    obtain ⟨h0, k, hk⟩ := hs
    simp only
    constructor
    · intro h
      split_ifs at h with c1 c2
      cases h
      refine ⟨⟨k, hk⟩, ?_, ?_⟩
      · by_cases a1 : t = ContentType.handshake
        · exact Or.inl a1
        · by_cases a2 : t = ContentType.alert
          · exact Or.inr (Or.inl a2)
          · right; right
            by_cases a3 : t = ContentType.application_data
            · exact a3
            · exact absurd ⟨a1, a2, a3⟩ c1
      · intro he
        by_cases a3 : t = ContentType.application_data
        · exact a3
        · exact absurd ⟨he, a3⟩ c2
    · rintro ⟨⟨j, hj⟩, ht, hf⟩
      have hm0 : m.type ≠ 0 := by
        rcases ht with h | h | h <;> rw [h] <;> decide
      rw [hk] at hj
      obtain ⟨e1, e2⟩ := zeros_unique h0 hm0 hj
      rw [e1, e2]
      rw [if_neg (by rintro ⟨a, b, c⟩; rcases ht with h | h | h <;> contradiction),
        if_neg (by rintro ⟨a, b⟩; exact b (hf a))]

theorem openInner_ne_nil {chain : List Bytes} {m} (h : openInner chain = .ok m) : chain ≠ [] := by
  intro e; rw [openInner, if_pos e] at h; cases h

/-! ## Delivered records -/

theorem plainRead_type (p : PlainRd) (buf : Bytes) : ∀ m s rest,
    plainRead p buf = .done m s rest →
    (m.type = ContentType.handshake ∨ m.type = ContentType.alert ∨
      m.type = ContentType.application_data) ∧
    (m.fragment = [] → m.type = ContentType.application_data) := by
  refine run_ind plainBody_mono.consumes (P := fun p buf => ∀ m s rest,
    run plainBody p buf = .done m s rest →
    (m.type = ContentType.handshake ∨ m.type = ContentType.alert ∨
      m.type = ContentType.application_data) ∧
    (m.fragment = [] → m.type = ContentType.application_data)) ?_ p buf
  intro st buf ih m s rest hr
  rw [run_eq plainBody_mono.consumes] at hr
  cases hb : plainBody st buf with
  | again s1 r1 => rw [hb] at hr; exact ih _ _ hb _ _ _ hr
  | done m1 s1 r1 =>
    rw [hb] at hr; cases hr
    rcases short_or_header buf with hs | ⟨t, v1, v2, l1, l2, body, rfl⟩
    · rw [plainBody, recordBody_short _ _ st hs] at hb; cases hb
    · simp only [plainBody, recordBody] at hb
      split at hb
      · cases hb
      · rename_i st1 hst
        split_ifs at hb with hl
        split at hb <;> cases hb
        rename_i hact
        unfold plainRecord at hact
        split_ifs at hact with a1 a2
        cases hact
        simp only at a1 a2
        unfold plainHeader at hst
        have c1 : ¬ (st.skipEncrypted = true ∧ t = ContentType.application_data) := by
          rintro ⟨_, b⟩; exact a1 b
        simp only [if_neg c1] at hst
        split_ifs at hst with b1 b2 b3
        refine ⟨?_, fun e => ?_⟩
        · by_cases e1 : t = ContentType.handshake
          · exact Or.inl e1
          · right; left
            by_cases e2 : t = ContentType.alert
            · exact e2
            · exact absurd ⟨e1, e2, a2⟩ b1
        · exfalso
          have h1 := congrArg List.length e
          simp only [List.length_take, List.length_nil] at h1
          omega
  | _ => rw [hb] at hr; simp at hr

/-- The layer never delivers a record of another type, nor an empty handshake or alert record. -/
theorem layerRead_type {l : Layer} {buf : Bytes} {m l' rest} (h : l.read buf = .done m l' rest) :
    (m.type = ContentType.handshake ∨ m.type = ContentType.alert ∨
      m.type = ContentType.application_data) ∧
    (m.fragment = [] → m.type = ContentType.application_data) := by
  cases l with
  | plain p =>
    simp only [Layer.read] at h
    cases hg : plainRead p buf with
    | done c s r =>
      rw [hg] at h; cases h
      exact plainRead_type p buf _ _ _ hg
    | _ => rw [hg] at h; cases h
  | enc e =>
    simp only [Layer.read] at h
    cases hg : encRead e buf with
    | done c s r =>
      rw [hg] at h; cases h
      unfold encRead at hg
      cases hq : getDecryptedBuf e buf with
      | done c s r =>
        rw [hq] at hg
        simp only at hg
        split at hg
        · rename_i m1 ho
          cases hg
          exact ((openInner_iff (openInner_ne_nil ho) _).1 ho).2
        · cases hg
      | _ => rw [hq] at hg; cases hg
    | _ => rw [hg] at h; cases h

end Fizz.Record

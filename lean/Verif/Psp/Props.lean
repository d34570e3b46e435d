import Verif.Psp.Spec
import Verif.Codec.PrimLemmas

/-! # C83: PSP upgrade -/

namespace Fizz.Psp

open Fizz.Codec

/-! ## Messages -/

theorem encodeTLV_eq_ok {sa : SA} {b : Bytes} :
    encodeTLV sa = .ok b ↔ sa.key.length ≤ 32 ∧ b = Spec.message sa := by
  unfold encodeTLV
  split
  next h => simp; intro h'; omega
  next h =>
    simp only [Except.ok.injEq]
    constructor
    · rintro rfl; exact ⟨by omega, rfl⟩
    · rintro ⟨-, rfl⟩; rfl

theorem keyLength_eq_some {sa : SA} :
    keyLength sa.psp_version = some sa.key.length ↔ Spec.Valid sa := by
  unfold keyLength Spec.Valid
  split
  next h => rcases h with h | h <;> simp [h, eq_comm]
  next h =>
    simp only [not_or] at h
    split
    next h' => rcases h' with h' | h' <;> simp [h', eq_comm]
    next h' =>
      simp only [not_or] at h'
      simp [h, h']

theorem readBE_one {inp : Bytes} {v : Nat} {rest : Bytes} :
    readBE 1 inp = .ok (v, rest) ↔ ∃ b : UInt8, inp = b :: rest ∧ v = b.toNat := by
  rw [readBE_eq_ok]
  constructor
  · rintro ⟨h, rfl⟩
    refine ⟨UInt8.ofNat v, by simp [beEnc], ?_⟩
    rw [UInt8.toNat_ofNat']
    simp at h
    omega
  · rintro ⟨b, rfl, rfl⟩
    exact ⟨by have := b.toNat_lt; simp; omega, by simp [beEnc]⟩

theorem decodeSA_eq_ok {buf : Bytes} {sa : SA} :
    decodeSA buf = .ok sa ↔ ∃ reserved tail, 40 ≤ buf.length ∧ Spec.Valid sa ∧ reserved.length = 3 ∧
      buf = beEnc 4 sa.spi.toNat ++ ([sa.psp_version] ++ (reserved ++ (sa.key ++ tail))) := by
  unfold decodeSA
  split
  next h =>
    simp only [reduceCtorEq, false_iff]
    rintro ⟨_, _, h', -⟩
    simp [kSAMsgSize] at h
    omega
  next h =>
    have h40 : 40 ≤ buf.length := by simp only [kSAMsgSize] at h; omega
    simp only [Res.bind_eq_ok, Prod.exists, readBE_eq_ok (n := 4), readBE_one, pull_eq_ok]
    constructor
    · rintro ⟨spi, r1, ⟨hs, rfl⟩, v, r2, ⟨b, rfl, rfl⟩, res, r3, ⟨hres, rfl⟩, h5⟩
      have hb : UInt8.ofNat b.toNat = b := by simp
      rw [hb] at h5
      split at h5
      · cases h5
      next n hn =>
        simp only [Res.bind_eq_ok, Prod.exists, pull_eq_ok, Res.pure_eq, Except.ok.injEq] at h5
        obtain ⟨key, tail, ⟨hk, rfl⟩, rfl⟩ := h5
        subst hk
        refine ⟨res, tail, h40, keyLength_eq_some.mp hn, hres, ?_⟩
        have : (UInt32.ofNat spi).toNat = spi := by
          rw [UInt32.toNat_ofNat']; simp at hs; omega
        simp only [this]
        rfl
    · rintro ⟨res, tail, -, hv, hres, rfl⟩
      refine ⟨sa.spi.toNat, _, ⟨by have := sa.spi.toNat_lt; simp; omega, rfl⟩, _, _, ⟨sa.psp_version, rfl, rfl⟩,
        res, _, ⟨hres, rfl⟩, ?_⟩
      have hb : UInt8.ofNat sa.psp_version.toNat = sa.psp_version := by simp
      rw [hb, keyLength_eq_some.mpr hv]
      have : pull sa.key.length (sa.key ++ tail) = .ok (sa.key, tail) := pull_eq_ok.mpr ⟨rfl, rfl⟩
      simp only [this, Res.ok_bind, Res.pure_eq]
      simp

theorem readTLV_eq_some {b : Bytes} {tag : UInt8} {msg rest : Bytes} :
    readTLV b = some (tag, msg, rest) ↔
      ∃ len : UInt8, msg.length = len.toNat ∧ b = tag :: len :: (msg ++ rest) := by
  match b with
  | [] => simp [readTLV]
  | [_] => simp [readTLV]
  | t :: l :: r =>
    simp only [readTLV]
    split
    next h =>
      simp only [reduceCtorEq, List.cons.injEq, false_iff]
      rintro ⟨len, h1, -, rfl, rfl⟩
      simp at h; omega
    next h =>
      simp only [Option.some.injEq, Prod.mk.injEq, List.cons.injEq]
      constructor
      · rintro ⟨rfl, rfl, rfl⟩
        exact ⟨l, by rw [List.length_take]; omega, rfl, rfl, by rw [List.take_append_drop]⟩
      · rintro ⟨len, h1, rfl, rfl, rfl⟩
        exact ⟨rfl, by rw [← h1, List.take_left], by rw [← h1, List.drop_left]⟩

/-- What the read phase takes for the peer's SA. -/
theorem begins_iff {b : Bytes} {sa : SA} :
    (∃ msg rest, readTLV b = some (1, msg, rest) ∧ decodeSA msg = .ok sa) ↔ Spec.Begins b sa := by
  simp only [readTLV_eq_some, decodeSA_eq_ok]
  constructor
  · rintro ⟨msg, rest, ⟨len, hl, rfl⟩, res, tail, h40, hv, hres, rfl⟩
    refine ⟨len, res, tail, rest, by omega, hv, hres, ?_, by simp⟩
    rw [← hl]; simp [hres]; omega
  · rintro ⟨len, res, tail, rest, h40, hv, hres, hl, rfl⟩
    have : (beEnc 4 sa.spi.toNat ++ ([sa.psp_version] ++ (res ++ (sa.key ++ tail)))).length = len.toNat := by
      rw [hl]; simp [hres]; omega
    exact ⟨_, rest, ⟨len, this, by simp⟩, res, tail, by omega, hv, hres, rfl⟩

theorem begins_message {sa : SA} (h : Spec.Valid sa) (rest : Bytes) :
    Spec.Begins (Spec.message sa ++ rest) sa := by
  have hk : sa.key.length ≤ 32 := by rcases h with h | h | h | h <;> omega
  refine ⟨40, [0, 0, 0], List.replicate (32 - sa.key.length) 0, rest, by decide, h, rfl, ?_, rfl⟩
  rw [List.length_replicate]
  show 40 = _
  omega

theorem message_length {sa : SA} (h : sa.key.length ≤ 32) : (Spec.message sa).length = 42 := by
  simp [Spec.message]; omega

theorem begins_unique {b : Bytes} {x y : SA} (hx : Spec.Begins b x) (hy : Spec.Begins b y) : x = y := by
  obtain ⟨m, r, h1, h2⟩ := begins_iff.mpr hx
  obtain ⟨m', r', h1', h2'⟩ := begins_iff.mpr hy
  rw [h1] at h1'
  cases h1'
  rw [h2] at h2'
  cases h2'; rfl

theorem begins_mono {b c : Bytes} {sa : SA} (h : Spec.Begins b sa) : Spec.Begins (b ++ c) sa := by
  obtain ⟨len, res, tail, rest, h1, h2, h3, h4, rfl⟩ := h
  exact ⟨len, res, tail, rest ++ c, h1, h2, h3, h4, by simp⟩

/-! ## The operation -/

theorem received_snoc (es : List Event) (e : Event) :
    Spec.received (es ++ [e]) = Spec.received es ++ Spec.received [e] := by
  simp [Spec.received, List.flatMap_append]

/-- Progress of an operation that has not ended: phase, flags, effects and what must have happened. -/
inductive Going (s : St) (es : List Event) : List Eff → Prop
  | rx : s.phase = .rxAssocCompleted → s.rxPending = true → s.reading = false → s.writing = false →
    s.txPending = false → s.ioErr = none → s.readBuf = [] → Spec.received es = [] → Going s es [.rxAssoc]
  | writing {sa : SA} : s.phase = .writeSACompleted → s.writing = true → s.reading = false →
    s.rxPending = false → s.txPending = false → s.ioErr = none → s.readBuf = [] →
    Spec.received es = [] → sa.key.length ≤ 32 → .rxDone (.ok sa) ∈ es →
    Going s es [.rxAssoc, .write (Spec.message sa)]
  | reading {sa : SA} : s.phase = .readData → s.reading = true → s.writing = false →
    s.rxPending = false → s.txPending = false → s.ioErr = none → s.readBuf = Spec.received es →
    sa.key.length ≤ 32 → .rxDone (.ok sa) ∈ es → .wrote ∈ es →
    Going s es [.rxAssoc, .write (Spec.message sa)]
  | tx {sa peer : SA} : s.phase = .txAssocCompleted → s.txPending = true → s.reading = false →
    s.writing = false → s.rxPending = false → sa.key.length ≤ 32 → .rxDone (.ok sa) ∈ es → .wrote ∈ es →
    Spec.Begins (Spec.received es) peer →
    Going s es [.rxAssoc, .write (Spec.message sa), .txAssoc peer]

/-- Where a run may be. -/
inductive Inv (s : St) (es : List Event) : List Eff → Prop
  | idle : (∀ t, .start t ∉ es) → s.awaiter = false → s.async = false → s.phase = .init →
    s.transport = true → s.ioErr = none → s.readBuf = [] → s.reading = false → s.writing = false →
    s.timer = false → s.rxPending = false → s.txPending = false → Spec.received es = [] → Inv s es []
  | going {fs : List Eff} : (∃ t, .start t ∈ es) → .destroy ∉ es → s.awaiter = true → s.async = true →
    s.transport = true → Going s es fs → Inv s es fs
  | won {sa peer : SA} : (∃ t, .start t ∈ es) → s.awaiter = false → s.async = false →
    s.transport = false → s.reading = false → s.writing = false → s.timer = false →
    s.phase = .txAssocCompleted → sa.key.length ≤ 32 →
    .rxDone (.ok sa) ∈ es → .wrote ∈ es → Spec.Begins (Spec.received es) peer → .txDone (.ok ()) ∈ es →
    Inv s es [.rxAssoc, .write (Spec.message sa), .txAssoc peer, .success]
  | lost {s' : St} {es' : List Event} {done sent : List Eff} {msg : String} : (∃ t, .start t ∈ es) →
    s.awaiter = false → s.async = false → s.transport = true → s.reading = false → s.writing = false →
    s.timer = false → (done = [] ∨ (es' <+: es ∧ Going s' es' done)) →
    (sent = [] ∨ ((done = [] ∨ done = [.rxAssoc]) ∧ ∃ c, sent = [.write (errorTLV c)])) →
    Inv s es (done ++ sent ++ [.close, .failure msg])

/-- Failing. -/
theorem fail_ok {s : St} {msg : String} {c : Option UInt8} (ha : s.awaiter = true)
    (ht : s.transport = true) : ∃ t sent, fail s msg c = .ok (t, sent ++ [.close, .failure msg]) ∧
      t.awaiter = false ∧ t.async = false ∧ t.transport = true ∧ t.reading = false ∧ t.writing = false ∧
      t.timer = false ∧
      (sent = match c with | none => [] | some c => [.write (errorTLV c)]) := by
  cases c with
  | none =>
    refine ⟨(prepare s).1, [], ?_, ?_⟩
    · simp [fail, ha, ht, prepare]
    · simp [prepare, ht]
  | some c =>
    refine ⟨(prepare s).1, [.write (errorTLV c)], ?_, ?_⟩
    · simp [fail, ha, ht, prepare]
    · simp [prepare, ht]

theorem started_snoc {es : List Event} {e : Event} (h : ∃ t, Event.start t ∈ es) :
    ∃ t, Event.start t ∈ es ++ [e] := by
  obtain ⟨t, h⟩ := h; exact ⟨t, by simp [h]⟩

/-- A failure after some progress. -/
theorem lost_of_fail {s s' : St} {es : List Event} {e : Event} {fs : List Eff} {msg : String}
    {c : Option UInt8} (hst : ∃ t, Event.start t ∈ es) (ha : s'.awaiter = true)
    (ht : s'.transport = true) (hg : Going s es fs) (hc : c = none ∨ fs = [.rxAssoc]) :
    ∃ t gs, fail s' msg c = .ok (t, gs) ∧ Inv t (es ++ [e]) (fs ++ gs) := by
  obtain ⟨t, sent, h1, h2, h3, h4, h5, h6, h7, h8⟩ := fail_ok (msg := msg) (c := c) ha ht
  refine ⟨t, _, h1, ?_⟩
  rw [← List.append_assoc]
  refine .lost (started_snoc hst) h2 h3 h4 h5 h6 h7 (Or.inr ⟨List.prefix_append es [e], hg⟩) ?_
  rcases hc with rfl | rfl
  · exact Or.inl h8
  · cases c with
    | none => exact Or.inl h8
    | some c => exact Or.inr ⟨Or.inr rfl, c, h8⟩

theorem mem_snoc {α : Type} {x y : α} {l : List α} (h : x ∈ l) : x ∈ l ++ [y] := by simp [h]

theorem prefix_snoc {α : Type} {l' l : List α} {x : α} (h : l' <+: l) : l' <+: l ++ [x] :=
  h.trans (List.prefix_append l [x])

/-- One step. -/
theorem step_inv {s : St} {es : List Event} {fs : List Eff} {e : Event} (h : Inv s es fs)
    (he : Enabled s es e) :
    (∃ t gs, step s e = .ok (t, gs) ∧ Inv t (es ++ [e]) (fs ++ gs)) ∨
    (step s e = .error .abort ∧ ∃ sa : SA, e = .rxDone (.ok sa) ∧ 32 < sa.key.length) := by
  cases h with
  | idle n1 n2 n3 n4 n5 n6 n7 n8 n9 n10 n11 n12 n13 =>
    cases e with
    | start to =>
      left
      by_cases hfd : s.fd = true
      · simp only [step, n2, Bool.false_eq_true, if_false, resume, n4, hfd, not_true]
        refine ⟨_, _, rfl, .going ⟨to, by simp⟩ ?_ rfl rfl n5 (.rx rfl rfl rfl n9 n12 n6 n7 ?_)⟩
        · have := he.2; simp [this]
        · rw [received_snoc, n13]; rfl
      · have hgoal : step s (.start to) = fail
            { s with awaiter := true, async := true, reading := false, sa := none, tx := none }
            "psp upgrade failure: invalid socket" (some 0) := by
          rw [step, if_neg (by simp [n2]), resume]
          simp only [n4]
          rw [if_pos (by simpa using hfd)]
        rw [hgoal]
        obtain ⟨t, sent, h1, h2, h3, h4, h5, h6, h7, h8⟩ := fail_ok
          (s := { s with awaiter := true, async := true, reading := false, sa := none, tx := none })
          (msg := "psp upgrade failure: invalid socket") (c := some 0) rfl n5
        refine ⟨t, _, h1, ?_⟩
        exact .lost (s' := s) (es' := es) (done := []) ⟨to, by simp⟩ h2 h3 h4 h5 h6 h7 (Or.inl rfl)
          (Or.inr ⟨Or.inl rfl, 0, h8⟩)
    | destroy =>
      left
      refine ⟨s, [], by simp [step, n2], .idle ?_ n2 n3 n4 n5 n6 n7 n8 n9 n10 n11 n12 ?_⟩
      · intro t ht; simp at ht; exact n1 t ht
      · rw [received_snoc, n13]; rfl
    | rxDone _ => rw [Enabled, n11] at he; cases he
    | txDone _ => rw [Enabled, n12] at he; cases he
    | wrote => rw [Enabled, n9] at he; cases he
    | writeErr _ => rw [Enabled, n9] at he; cases he
    | data _ => rw [Enabled, n8] at he; cases he
    | eof => rw [Enabled, n8] at he; cases he
    | readErr _ => rw [Enabled, n8] at he; cases he
    | timeout => rw [Enabled, n10] at he; cases he
  | going g1 g2 g3 g4 g5 hg =>
    have hnd : ∀ x : Event, x ≠ .destroy → .destroy ∉ es ++ [x] := by
      intro x hx hm; simp at hm; rcases hm with hm | hm
      · exact g2 hm
      · exact hx hm.symm
    cases e with
    | start t => exact (he.1 _ g1.choose_spec).elim
    | destroy =>
      left
      simp only [step, g3, if_true]
      exact lost_of_fail g1 g3 g5 hg (Or.inl rfl)
    | timeout =>
      left
      simp only [step]
      exact lost_of_fail g1 g3 g5 hg (Or.inl rfl)
    | rxDone r =>
      cases hg with
      | rx p1 p2 p3 p4 p5 p6 p7 p8 =>
        simp only [step, g4, if_true, resume, p1, not_true, if_false]
        cases r with
        | error m =>
          left
          exact lost_of_fail g1 g3 g5 (.rx p1 p2 p3 p4 p5 p6 p7 p8) (Or.inr rfl)
        | ok sa =>
          by_cases hk : 32 < sa.key.length
          · right
            exact ⟨by simp [encodeTLV, hk], sa, rfl, hk⟩
          · left
            have henc : encodeTLV sa = .ok (Spec.message sa) := encodeTLV_eq_ok.mpr ⟨by omega, rfl⟩
            simp only [henc]
            refine ⟨_, _, rfl, .going (started_snoc g1) (hnd _ (by simp)) g3 rfl g5
              (.writing (sa := sa) rfl rfl p3 rfl p5 p6 p7 ?_ (by omega) (by simp))⟩
            rw [received_snoc, p8]; rfl
      | writing _ _ _ p4 => rw [Enabled, p4] at he; cases he
      | reading _ _ _ p4 => rw [Enabled, p4] at he; cases he
      | tx _ _ _ _ p4 => rw [Enabled, p4] at he; cases he
    | txDone r =>
      cases hg with
      | rx _ _ _ _ p => rw [Enabled, p] at he; cases he
      | writing _ _ _ _ p => rw [Enabled, p] at he; cases he
      | reading _ _ _ _ p => rw [Enabled, p] at he; cases he
      | @tx sa peer p1 p2 p3 p4 p5 p6 p7 p8 p9 =>
        left
        simp only [step, g4, if_true, resume, p1, not_true, if_false]
        cases r with
        | error m => exact lost_of_fail g1 g3 g5 (.tx p1 p2 p3 p4 p5 p6 p7 p8 p9) (Or.inl rfl)
        | ok u =>
          simp only [g3, if_true]
          refine ⟨_, _, rfl, .won (started_snoc g1) rfl rfl rfl p3 p4 rfl rfl p6 (mem_snoc p7) (mem_snoc p8)
            ?_ (by simp)⟩
          rw [received_snoc]
          exact begins_mono p9
    | wrote =>
      cases hg with
      | rx _ _ _ p => rw [Enabled, p] at he; cases he
      | @writing sa p1 p2 p3 p4 p5 p6 p7 p8 p9 p10 =>
        left
        simp only [step, g3, if_true, resume, p1, p6, Option.isSome_none, Bool.false_eq_true, if_false]
        refine ⟨_, [], rfl, .going (started_snoc g1) (hnd _ (by simp)) rfl g4 g5 ?_⟩
        rw [List.append_nil]
        exact .reading (sa := sa) rfl rfl rfl p4 p5 rfl (by rw [received_snoc, p8]; exact p7) p9
          (mem_snoc p10) (by simp)
      | reading _ _ p => rw [Enabled, p] at he; cases he
      | tx _ _ _ p => rw [Enabled, p] at he; cases he
    | writeErr m =>
      cases hg with
      | rx _ _ _ p => rw [Enabled, p] at he; cases he
      | @writing sa p1 p2 p3 p4 p5 p6 p7 p8 p9 p10 =>
        left
        simp only [step, g3, if_true, resume, p1, Option.isSome_some]
        exact lost_of_fail g1 rfl g5 (.writing p1 p2 p3 p4 p5 p6 p7 p8 p9 p10) (Or.inl rfl)
      | reading _ _ p => rw [Enabled, p] at he; cases he
      | tx _ _ _ p => rw [Enabled, p] at he; cases he
    | eof =>
      cases hg with
      | rx _ _ p => rw [Enabled, p] at he; cases he
      | writing _ _ p => rw [Enabled, p] at he; cases he
      | @reading sa p1 p2 p3 p4 p5 p6 p7 p8 p9 p10 =>
        left
        simp only [step, resume, p1, Option.isSome_some, if_true]
        exact lost_of_fail g1 g3 g5 (.reading p1 p2 p3 p4 p5 p6 p7 p8 p9 p10) (Or.inl rfl)
      | tx _ _ p => rw [Enabled, p] at he; cases he
    | readErr m =>
      cases hg with
      | rx _ _ p => rw [Enabled, p] at he; cases he
      | writing _ _ p => rw [Enabled, p] at he; cases he
      | @reading sa p1 p2 p3 p4 p5 p6 p7 p8 p9 p10 =>
        left
        simp only [step, resume, p1, Option.isSome_some, if_true]
        exact lost_of_fail g1 g3 g5 (.reading p1 p2 p3 p4 p5 p6 p7 p8 p9 p10) (Or.inl rfl)
      | tx _ _ p => rw [Enabled, p] at he; cases he
    | data b =>
      cases hg with
      | rx _ _ p => rw [Enabled, p] at he; cases he
      | writing _ _ p => rw [Enabled, p] at he; cases he
      | @reading sa p1 p2 p3 p4 p5 p6 p7 p8 p9 p10 =>
        left
        have hrec : Spec.received (es ++ [.data b]) = s.readBuf ++ b := by
          rw [received_snoc, p7]; simp [Spec.received]
        have hgo := Going.reading (s := s) (es := es) p1 p2 p3 p4 p5 p6 p7 p8 p9 p10
        simp only [step, resume, p1, p6, Option.isSome_none, Bool.false_eq_true, if_false]
        cases ht : readTLV (s.readBuf ++ b) with
        | none =>
          refine ⟨_, [], rfl, .going (started_snoc g1) (hnd _ (by simp)) g3 g4 g5 ?_⟩
          rw [List.append_nil]
          exact .reading (sa := sa) rfl p2 p3 p4 p5 rfl hrec.symm p8 (mem_snoc p9) (mem_snoc p10)
        | some x =>
          obtain ⟨tag, msg, rest⟩ := x
          simp only [onTLV]
          split
          next htag =>
            subst htag
            cases hd : decodeSA msg with
            | error f => exact lost_of_fail g1 g3 g5 hgo (Or.inl rfl)
            | ok peer =>
              refine ⟨_, _, rfl, .going (started_snoc g1) (hnd _ (by simp)) g3 g4 g5
                (.tx (sa := sa) rfl rfl rfl p3 p4 p8 (mem_snoc p9) (mem_snoc p10) ?_)⟩
              rw [hrec]
              exact begins_iff.mp ⟨msg, rest, ht, hd⟩
          next =>
            split
            · split
              · exact lost_of_fail g1 g3 g5 hgo (Or.inl rfl)
              · exact lost_of_fail g1 g3 g5 hgo (Or.inl rfl)
            · exact lost_of_fail g1 g3 g5 hgo (Or.inl rfl)
      | tx _ _ p => rw [Enabled, p] at he; cases he
  | @won sa peer w1 w2 w3 w4 w5 w6 w7 w8 w9 w10 w11 w12 w13 =>
    have stay : ∀ (t : St) (e : Event), t.awaiter = false → t.async = false → t.transport = false →
        t.reading = false → t.writing = false → t.timer = false → t.phase = .txAssocCompleted →
        Inv t (es ++ [e]) ([.rxAssoc, .write (Spec.message sa), .txAssoc peer, .success] ++ []) := by
      intro t e a1 a2 a3 a4 a5 a6 a7
      rw [List.append_nil]
      refine .won (started_snoc w1) a1 a2 a3 a4 a5 a6 a7 w9 (mem_snoc w10) (mem_snoc w11) ?_
        (mem_snoc w13)
      rw [received_snoc]; exact begins_mono w12
    left
    cases e with
    | start t => exact (he.1 _ w1.choose_spec).elim
    | destroy => exact ⟨s, [], by simp [step, w2], stay s _ w2 w3 w4 w5 w6 w7 w8⟩
    | rxDone r => exact ⟨{ s with rxPending := false }, [], by rw [step, if_neg (by simp [w3])], stay _ _ w2 w3 w4 w5 w6 w7 w8⟩
    | txDone r => exact ⟨{ s with txPending := false }, [], by rw [step, if_neg (by simp [w3])], stay _ _ w2 w3 w4 w5 w6 w7 w8⟩
    | wrote => rw [Enabled, w6] at he; cases he
    | writeErr _ => rw [Enabled, w6] at he; cases he
    | data _ => rw [Enabled, w5] at he; cases he
    | eof => rw [Enabled, w5] at he; cases he
    | readErr _ => rw [Enabled, w5] at he; cases he
    | timeout => rw [Enabled, w7] at he; cases he
  | @lost s' es' done sent msg w1 w2 w3 w4 w5 w6 w7 w8 w9 =>
    have stay : ∀ (t : St) (e : Event), t.awaiter = false → t.async = false → t.transport = true →
        t.reading = false → t.writing = false → t.timer = false →
        Inv t (es ++ [e]) (done ++ sent ++ [.close, .failure msg] ++ []) := by
      intro t e a1 a2 a3 a4 a5 a6
      rw [List.append_nil]
      refine .lost (s' := s') (es' := es') (started_snoc w1) a1 a2 a3 a4 a5 a6 ?_ w9
      rcases w8 with w8 | ⟨w8, w8'⟩
      · exact Or.inl w8
      · exact Or.inr ⟨prefix_snoc w8, w8'⟩
    left
    cases e with
    | start t => exact (he.1 _ w1.choose_spec).elim
    | destroy => exact ⟨s, [], by simp [step, w2], stay s _ w2 w3 w4 w5 w6 w7⟩
    | rxDone r => exact ⟨{ s with rxPending := false }, [], by rw [step, if_neg (by simp [w3])], stay _ _ w2 w3 w4 w5 w6 w7⟩
    | txDone r => exact ⟨{ s with txPending := false }, [], by rw [step, if_neg (by simp [w3])], stay _ _ w2 w3 w4 w5 w6 w7⟩
    | wrote => rw [Enabled, w6] at he; cases he
    | writeErr _ => rw [Enabled, w6] at he; cases he
    | data _ => rw [Enabled, w5] at he; cases he
    | eof => rw [Enabled, w5] at he; cases he
    | readErr _ => rw [Enabled, w5] at he; cases he
    | timeout => rw [Enabled, w7] at he; cases he

theorem run_inv {fd : Bool} {s : St} {es : List Event} {fs : List Eff} (h : Run (Spec.new fd) s es fs) :
    Inv s es fs := by
  induction h with
  | nil => exact .idle (by simp) rfl rfl rfl rfl rfl rfl rfl rfl rfl rfl rfl rfl
  | snoc _ he hs ih =>
    rcases step_inv ih he with ⟨t, gs, h1, h2⟩ | ⟨h1, -⟩
    · rw [hs] at h1; cases h1; exact h2
    · rw [hs] at h1; cases h1

/-! ## Claims -/

/-- **C83** The SA message: decoding what an end encodes gives back its SA when the key has the version's
length — also with bytes behind it; what is taken for an SA is exactly what begins with a whole SA message;
and an encoding fails only for a key longer than 32 bytes. -/
theorem C83_codec (sa : SA) :
    (∀ b, encodeTLV sa = .ok b ↔ sa.key.length ≤ 32 ∧ b = Spec.message sa) ∧
    (∀ b, (∃ msg rest, readTLV b = some (1, msg, rest) ∧ decodeSA msg = .ok sa) ↔ Spec.Begins b sa) ∧
    (Spec.Valid sa → ∀ rest, Spec.Begins (Spec.message sa ++ rest) sa) ∧
    (∀ b other, Spec.Begins b sa → Spec.Begins b other → other = sa) :=
  ⟨fun _ => encodeTLV_eq_ok, fun _ => begins_iff, begins_message, fun _ _ h h' => begins_unique h' h⟩

/-- **C83** Nothing goes wrong inside: whatever the surroundings do within their contract, no member is
used after it was given up, no callback is missing, and the only way to abort is a kernel that returns a
key of more than 32 bytes. -/
theorem C83_safe {fd : Bool} {s : St} {es : List Event} {fs : List Eff}
    (h : Run (Spec.new fd) s es fs) {e : Event} (he : Enabled s es e) :
    (∃ r, step s e = .ok r) ∨
    (step s e = .error .abort ∧ ∃ sa : SA, e = .rxDone (.ok sa) ∧ 32 < sa.key.length) := by
  rcases step_inv (run_inv h) he with ⟨t, gs, h1, -⟩ | h
  · exact Or.inl ⟨_, h1⟩
  · exact Or.inr h

theorem going_called {s : St} {es : List Event} {fs : List Eff} (h : Going s es fs) :
    Spec.called fs = [] := by
  cases h <;> rfl

/-- **C83** The callback is called once: never before `start`, at most once ever, and exactly once by the
time the object is destroyed. -/
theorem C83_once {fd : Bool} {s : St} {es : List Event} {fs : List Eff}
    (h : Run (Spec.new fd) s es fs) :
    (Spec.called fs).length ≤ 1 ∧ ((∀ t, Event.start t ∉ es) → fs = []) ∧
    ((∃ t, Event.start t ∈ es) → .destroy ∈ es → (Spec.called fs).length = 1) := by
  cases run_inv h with
  | idle n1 => exact ⟨by decide, fun _ => rfl, fun ⟨t, ht⟩ => (n1 t ht).elim⟩
  | going g1 g2 g3 g4 g5 hg =>
    rw [going_called hg]
    exact ⟨by decide, fun hn => (hn _ g1.choose_spec).elim, fun _ hd => (g2 hd).elim⟩
  | won w1 => exact ⟨Nat.le_refl 1, fun hn => (hn _ w1.choose_spec).elim, fun _ _ => rfl⟩
  | @lost s' es' done sent msg w1 w2 w3 w4 w5 w6 w7 w8 w9 =>
    have hd : Spec.called done = [] := by
      rcases w8 with rfl | ⟨-, w8⟩
      · rfl
      · exact going_called w8
    have hs : Spec.called sent = [] := by
      rcases w9 with rfl | ⟨-, c, rfl⟩ <;> rfl
    have : Spec.called (done ++ sent ++ [.close, .failure msg]) = [.failure msg] := by
      simp only [Spec.called, List.filter_append] at hd hs ⊢
      rw [hd, hs]; rfl
    rw [this]
    exact ⟨Nat.le_refl 1, fun hn => (hn _ w1.choose_spec).elim, fun _ _ => rfl⟩

/-- **C83** What success means: this end's association was made by the kernel, its SA message — and nothing
else — was written, the peer's whole SA message arrived, that SA was installed, and the kernel said so;
the transport was not closed. -/
theorem C83_success {fd : Bool} {s : St} {es : List Event} {fs : List Eff}
    (h : Run (Spec.new fd) s es fs) (hs : .success ∈ fs) :
    ∃ own peer : SA, fs = [.rxAssoc, .write (Spec.message own), .txAssoc peer, .success] ∧
      .rxDone (.ok own) ∈ es ∧ .wrote ∈ es ∧ Spec.Begins (Spec.received es) peer ∧
      .txDone (.ok ()) ∈ es := by
  cases run_inv h with
  | idle => cases hs
  | going g1 g2 g3 g4 g5 hg => cases hg <;> simp at hs
  | @won sa peer w1 w2 w3 w4 w5 w6 w7 w8 w9 w10 w11 w12 w13 => exact ⟨sa, peer, rfl, w10, w11, w12, w13⟩
  | @lost s' es' done sent msg w1 w2 w3 w4 w5 w6 w7 w8 w9 =>
    exfalso
    have hd : Eff.success ∉ done := by
      rcases w8 with rfl | ⟨-, w8⟩
      · simp
      · cases w8 <;> simp
    have hn : Eff.success ∉ sent := by
      rcases w9 with rfl | ⟨-, c, rfl⟩ <;> simp
    simp [hd, hn] at hs

/-- **C83** An SA is installed only if it is what the peer's bytes say, after this end has sent its own. -/
theorem C83_installed {fd : Bool} {s : St} {es : List Event} {fs : List Eff}
    (h : Run (Spec.new fd) s es fs) {peer : SA} (hs : .txAssoc peer ∈ fs) :
    ∃ own : SA, [.rxAssoc, .write (Spec.message own), .txAssoc peer] <+: fs ∧
      .rxDone (.ok own) ∈ es ∧ .wrote ∈ es ∧ Spec.Begins (Spec.received es) peer := by
  cases run_inv h with
  | idle => cases hs
  | going g1 g2 g3 g4 g5 hg =>
    cases hg with
    | rx => simp at hs
    | writing => simp at hs
    | reading => simp at hs
    | @tx sa p p1 p2 p3 p4 p5 p6 p7 p8 p9 =>
      simp at hs; subst hs
      exact ⟨sa, List.prefix_refl _, p7, p8, p9⟩
  | @won sa p w1 w2 w3 w4 w5 w6 w7 w8 w9 w10 w11 w12 w13 =>
    simp at hs; subst hs
    exact ⟨sa, ⟨[.success], rfl⟩, w10, w11, w12⟩
  | @lost s' es' done sent msg w1 w2 w3 w4 w5 w6 w7 w8 w9 =>
    have hn : Eff.txAssoc peer ∉ sent := by
      rcases w9 with rfl | ⟨-, c, rfl⟩ <;> simp
    have hd : Eff.txAssoc peer ∈ done := by simpa [hn] using hs
    rcases w8 with rfl | ⟨⟨more, rfl⟩, w8⟩
    · cases hd
    · cases w8 with
      | rx => simp at hd
      | writing => simp at hd
      | reading => simp at hd
      | @tx sa p p1 p2 p3 p4 p5 p6 p7 p8 p9 =>
        simp at hd; subst hd
        refine ⟨sa, ⟨_, List.append_assoc _ _ _ |>.symm⟩, by simp [p7], by simp [p8], ?_⟩
        have : Spec.received (es' ++ more) = Spec.received es' ++ Spec.received more := by
          simp [Spec.received, List.flatMap_append]
        rw [this]
        exact begins_mono p9

/-- **C83** After a failure was reported the transport has been closed, and this was the last thing done to
it. -/
theorem C83_closed {fd : Bool} {s : St} {es : List Event} {fs : List Eff}
    (h : Run (Spec.new fd) s es fs) {msg : String} (hf : .failure msg ∈ fs) :
    ∃ before, fs = before ++ [.close, .failure msg] ∧ .close ∉ before := by
  cases run_inv h with
  | idle => cases hf
  | going g1 g2 g3 g4 g5 hg => cases hg <;> simp at hf
  | won => simp at hf
  | @lost s' es' done sent m w1 w2 w3 w4 w5 w6 w7 w8 w9 =>
    have hd : ∀ f ∈ done, f ≠ .close ∧ f ≠ .failure msg := by
      rcases w8 with rfl | ⟨-, w8⟩
      · simp
      · cases w8 <;> simp
    have hn : ∀ f ∈ sent, f ≠ .close ∧ f ≠ .failure msg := by
      rcases w9 with rfl | ⟨-, c, rfl⟩ <;> simp
    have hm : msg = m := by
      simp only [List.mem_append, List.mem_cons, List.not_mem_nil, or_false, reduceCtorEq, false_or,
        Eff.failure.injEq] at hf
      rcases hf with (hf | hf) | hf
      · exact ((hd _ hf).2 rfl).elim
      · exact ((hn _ hf).2 rfl).elim
      · exact hf
    subst hm
    refine ⟨done ++ sent, rfl, fun hc => ?_⟩
    rcases List.mem_append.mp hc with hc | hc
    · exact (hd _ hc).1 rfl
    · exact (hn _ hc).1 rfl

/-- **C83** Once the callback was called, or the object destroyed, nothing is outstanding that could call
into it — no read, no write, no timer — and what the kernel still answers has no effect. -/
theorem C83_quiet {fd : Bool} {s : St} {es : List Event} {fs : List Eff}
    (h : Run (Spec.new fd) s es fs) (hend : Spec.called fs ≠ [] ∨ .destroy ∈ es) :
    s.reading = false ∧ s.writing = false ∧ s.timer = false ∧
    ∀ e t gs, Enabled s es e → step s e = .ok (t, gs) → gs = [] := by
  have hinv := run_inv h
  have key : s.reading = false ∧ s.writing = false ∧ s.timer = false ∧ s.async = false ∧
      s.awaiter = false ∧ (.destroy ∈ es ∨ ∃ t, .start t ∈ es) := by
    cases hinv with
    | idle n1 n2 n3 n4 n5 n6 n7 n8 n9 n10 n11 n12 n13 =>
      rcases hend with hend | hend
      · exact (hend rfl).elim
      · exact ⟨n8, n9, n10, n3, n2, Or.inl hend⟩
    | going g1 g2 g3 g4 g5 hg =>
      rcases hend with hend | hend
      · exact (hend (going_called hg)).elim
      · exact (g2 hend).elim
    | won w1 w2 w3 w4 w5 w6 w7 => exact ⟨w5, w6, w7, w3, w2, Or.inr w1⟩
    | lost w1 w2 w3 w4 w5 w6 w7 => exact ⟨w5, w6, w7, w3, w2, Or.inr w1⟩
  obtain ⟨k1, k2, k3, k4, k5, k6⟩ := key
  refine ⟨k1, k2, k3, fun e t gs he hs => ?_⟩
  cases e with
  | start to =>
    rcases k6 with k6 | ⟨t', k6⟩
    · exact (he.2 k6).elim
    · exact (he.1 t' k6).elim
  | destroy => simp only [step, k5, Bool.false_eq_true, if_false, Except.ok.injEq, Prod.mk.injEq] at hs; exact hs.2.symm
  | rxDone r => simp only [step, k4, Bool.false_eq_true, if_false, Except.ok.injEq, Prod.mk.injEq] at hs; exact hs.2.symm
  | txDone r => simp only [step, k4, Bool.false_eq_true, if_false, Except.ok.injEq, Prod.mk.injEq] at hs; exact hs.2.symm
  | wrote => rw [Enabled, k2] at he; cases he
  | writeErr _ => rw [Enabled, k2] at he; cases he
  | data _ => rw [Enabled, k1] at he; cases he
  | eof => rw [Enabled, k1] at he; cases he
  | readErr _ => rw [Enabled, k1] at he; cases he
  | timeout => rw [Enabled, k3] at he; cases he

/-- What an end has written begins with its SA message, or is an error message, or nothing. -/
theorem written_cases {s : St} {es : List Event} {fs : List Eff} (h : Inv s es fs) :
    Spec.written fs = [] ∨ (∃ c, Spec.written fs = errorTLV c) ∨
    ∃ own : SA, .rxDone (.ok own) ∈ es ∧ own.key.length ≤ 32 ∧ Spec.written fs = Spec.message own := by
  have wg : ∀ {s : St} {es : List Event} {fs : List Eff}, Going s es fs → Spec.written fs = [] ∨
      ∃ own : SA, .rxDone (.ok own) ∈ es ∧ own.key.length ≤ 32 ∧ Spec.written fs = Spec.message own := by
    intro s es fs h
    cases h with
    | rx => exact Or.inl rfl
    | @writing sa _ _ _ _ _ _ _ _ p9 p10 => exact Or.inr ⟨sa, p10, p9, by simp [Spec.written]⟩
    | @reading sa _ _ _ _ _ _ _ p8 p9 => exact Or.inr ⟨sa, p9, p8, by simp [Spec.written]⟩
    | @tx sa _ _ _ _ _ _ p6 p7 => exact Or.inr ⟨sa, p7, p6, by simp [Spec.written]⟩
  cases h with
  | idle => exact Or.inl rfl
  | going g1 g2 g3 g4 g5 hg =>
    rcases wg hg with h | h
    · exact Or.inl h
    · exact Or.inr (Or.inr h)
  | @won sa peer _ _ _ _ _ _ _ _ w9 w10 => exact Or.inr (Or.inr ⟨sa, w10, w9, by simp [Spec.written]⟩)
  | @lost s' es' done sent msg w1 w2 w3 w4 w5 w6 w7 w8 w9 =>
    have split : Spec.written (done ++ sent ++ [.close, .failure msg]) =
        Spec.written done ++ Spec.written sent := by
      simp [Spec.written]
    rw [split]
    rcases w9 with rfl | ⟨hd, c, rfl⟩
    · have e : Spec.written ([] : List Eff) = [] := rfl
      rw [e, List.append_nil]
      rcases w8 with rfl | ⟨hp, w8⟩
      · exact Or.inl rfl
      · rcases wg w8 with h | ⟨own, h1, h2⟩
        · exact Or.inl h
        · exact Or.inr (Or.inr ⟨own, hp.subset h1, h2⟩)
    · right; left
      refine ⟨c, ?_⟩
      rcases hd with rfl | rfl <;> simp [Spec.written]

/-- **C83** Between two ends, over a transport that delivers a prefix of what was written: an SA that one end
installs is the SA the other end's kernel made, if that one is valid.  In particular when both report
success, each sends with what the other receives with. -/
theorem C83_agree {fd fd' : Bool} {s s' : St} {es es' : List Event} {fs fs' : List Eff}
    (h : Run (Spec.new fd) s es fs) (h' : Run (Spec.new fd') s' es' fs')
    (net : Spec.received es <+: Spec.written fs')
    (kernel : ∀ sa : SA, .rxDone (.ok sa) ∈ es' → Spec.Valid sa)
    {peer : SA} (hp : .txAssoc peer ∈ fs) : .rxDone (.ok peer) ∈ es' := by
  obtain ⟨own, -, -, -, hb⟩ := C83_installed h hp
  obtain ⟨more, hm⟩ := net
  have hb' : Spec.Begins (Spec.written fs') peer := by rw [← hm]; exact begins_mono hb
  rcases written_cases (run_inv h') with e | ⟨c, e⟩ | ⟨own', h1, h2, e⟩
  · rw [e] at hb'
    obtain ⟨len, res, tail, rest, -, -, -, -, x⟩ := hb'
    simp at x
  · rw [e] at hb'
    obtain ⟨len, res, tail, rest, -, -, -, -, x⟩ := hb'
    simp only [errorTLV, tagError, List.cons_append, List.cons.injEq] at x
    exact absurd x.1 (by decide)
  · rw [e] at hb'
    have := begins_message (kernel own' h1) []
    rw [List.append_nil] at this
    rw [begins_unique hb' this]
    exact h1

/-- **C83** (a limit of the code) `start` may not be called a second time: after a success its check passes
and it uses the state it has given up. -/
theorem C83_restart {fd : Bool} {s : St} {es : List Event} {fs : List Eff}
    (h : Run (Spec.new fd) s es fs) (hs : .success ∈ fs) (t : Bool) :
    step s (.start t) = .error (.ub "null asyncState_") := by
  cases run_inv h with
  | idle => cases hs
  | going g1 g2 g3 g4 g5 hg => cases hg <;> simp at hs
  | won w1 w2 w3 w4 w5 w6 w7 w8 => simp [step, w2, resume, w8, w3]
  | @lost s' es' done sent msg w1 w2 w3 w4 w5 w6 w7 w8 w9 =>
    exfalso
    have hd : Eff.success ∉ done := by
      rcases w8 with rfl | ⟨-, w8⟩
      · simp
      · cases w8 <;> simp
    have hn : Eff.success ∉ sent := by
      rcases w9 with rfl | ⟨-, c, rfl⟩ <;> simp
    simp [hd, hn] at hs

theorem snoc_rec {α : Type} {motive : List α → Prop} (nil : motive [])
    (snoc : ∀ l a, motive l → motive (l ++ [a])) (l : List α) : motive l := by
  have : ∀ r : List α, motive r.reverse := by
    intro r
    induction r with
    | nil => exact nil
    | cons a r ih => rw [List.reverse_cons]; exact snoc _ _ ih
  rw [← List.reverse_reverse l]
  exact this _

/-- The state in which the peer's message is read. -/
def readingState (timeout : Bool) (own : SA) (buf : Bytes) : St :=
  { awaiter := true, async := true, phase := .readData, readBuf := buf, sa := some (.ok own),
    reading := true, timer := timeout }

theorem message_head (sa : SA) : ∃ body, Spec.message sa = 1 :: 40 :: body ∧
    (sa.key.length ≤ 32 → body.length = 40) := by
  refine ⟨_, rfl, fun h => ?_⟩
  simp [beEnc_length]
  omega

/-- Less than the message is not yet a message. -/
theorem readTLV_short {sa : SA} {buf : Bytes} (hk : sa.key.length ≤ 32) (hp : buf <+: Spec.message sa)
    (hl : buf ≠ Spec.message sa) : readTLV buf = none := by
  obtain ⟨body, hb, hlen⟩ := message_head sa
  obtain ⟨more, hm⟩ := hp
  rw [hb] at hm
  match buf, hm with
  | [], _ => rfl
  | [_], _ => rfl
  | a :: b :: r, hm =>
    simp only [List.cons_append, List.cons.injEq] at hm
    obtain ⟨rfl, rfl, hm⟩ := hm
    have : more ≠ [] := by
      rintro rfl
      rw [List.append_nil] at hm
      exact hl (by rw [hb, hm])
    have h1 := hlen hk
    have h2 : 0 < more.length := List.length_pos_iff.mpr this
    rw [← hm, List.length_append] at h1
    rw [readTLV, if_pos]
    show r.length < 40
    omega

/-- **C83** The upgrade completes: if the kernel makes this end's association and accepts the peer's, and the
peer's message arrives, in pieces of any size and with anything behind it, success is reported. -/
theorem C83_completes (timeout : Bool) {own peer : SA} (hown : own.key.length ≤ 32)
    (hpeer : Spec.Valid peer) (pieces : List Bytes) (last : Bytes)
    (hpart : pieces.flatten <+: Spec.message peer) (hshort : pieces.flatten ≠ Spec.message peer)
    (hall : Spec.message peer <+: pieces.flatten ++ last) :
    ∃ s, Run (Spec.new true) s
      (([.start timeout, .rxDone (.ok own), .wrote] ++ pieces.map .data) ++ [.data last] ++
        [.txDone (.ok ())])
      [.rxAssoc, .write (Spec.message own), .txAssoc peer, .success] := by
  have hpk : peer.key.length ≤ 32 := by
    rcases hpeer with h | h | h | h <;> omega
  have henc : encodeTLV own = .ok (Spec.message own) := encodeTLV_eq_ok.mpr ⟨hown, rfl⟩
  have h0 : Run (Spec.new true) (Spec.new true) [] [] := .nil
  have h1 : Run (Spec.new true) _ [.start timeout] [.rxAssoc] :=
    .snoc h0 (e := .start timeout) ⟨by simp, by simp⟩ rfl
  have h2 : Run (Spec.new true)
      { awaiter := true, async := true, phase := .writeSACompleted, sa := some (.ok own),
        writing := true, timer := timeout } [.start timeout, .rxDone (.ok own)]
      [.rxAssoc, .write (Spec.message own)] := by
    refine .snoc h1 (e := .rxDone (.ok own)) rfl ?_
    simp [step, resume, Spec.new, henc]
  have h3 : Run (Spec.new true) (readingState timeout own [])
      [.start timeout, .rxDone (.ok own), .wrote] ([.rxAssoc, .write (Spec.message own)] ++ []) :=
    .snoc h2 (e := .wrote) rfl rfl
  rw [List.append_nil] at h3
  have h4 : ∀ ps : List Bytes, ps.flatten <+: Spec.message peer → ps.flatten ≠ Spec.message peer →
      Run (Spec.new true) (readingState timeout own ps.flatten)
        ([.start timeout, .rxDone (.ok own), .wrote] ++ ps.map .data)
        [.rxAssoc, .write (Spec.message own)] := by
    intro ps
    induction ps using snoc_rec with
    | nil => intro _ _; exact h3
    | snoc ps b ih =>
      intro hp hs
      have e : (ps ++ [b]).flatten = ps.flatten ++ b := by simp
      have hp' : ps.flatten <+: Spec.message peer := (e ▸ List.prefix_append _ _ : ps.flatten <+: (ps ++ [b]).flatten).trans hp
      have hs' : ps.flatten ≠ Spec.message peer := by
        intro he
        have hl := hp.length_le
        rw [e, he, List.length_append] at hl
        have : b = [] := List.length_eq_zero_iff.mp (by omega)
        exact hs (by rw [e, he, this, List.append_nil])
      have := Run.snoc (ih hp' hs') (e := .data b) (t := readingState timeout own (ps ++ [b]).flatten)
        (gs := []) rfl (by
          have ht := readTLV_short hpk hp hs
          rw [e] at ht
          simp [step, resume, readingState, ht])
      simpa using this
  have h5 := h4 pieces hpart hshort
  obtain ⟨more, hm⟩ := hall
  obtain ⟨msg, rest, ht, hd⟩ := begins_iff.mpr (hm ▸ begins_message hpeer more)
  have h6 := Run.snoc h5 (e := .data last) (gs := [.txAssoc peer])
    (t := { readingState timeout own rest with reading := false, phase := .txAssocCompleted,
                                               txPending := true }) rfl (by
      simp only [step, resume, readingState, ht, onTLV, Option.isSome_none, Bool.false_eq_true, if_false,
        hd]
      rfl)
  exact ⟨_, .snoc h6 (e := .txDone (.ok ())) rfl rfl⟩

/-- **C83** All an end ever writes is its one SA message, or one error message: tag 0, length 1, a code. -/
theorem C83_written {fd : Bool} {s : St} {es : List Event} {fs : List Eff}
    (h : Run (Spec.new fd) s es fs) :
    Spec.written fs = [] ∨ (∃ code, Spec.written fs = [0, 1, code]) ∨
    ∃ own : SA, .rxDone (.ok own) ∈ es ∧ own.key.length ≤ 32 ∧ Spec.written fs = Spec.message own :=
  written_cases (run_inv h)

/-- **C83** A peer that gives up is heard: when its error message arrives at an end that waits for the peer's
association, in pieces of any size and with anything behind it, the connection is closed and the failure names the
peer as its cause. -/
theorem C83_signals (timeout : Bool) {own : SA} (hown : own.key.length ≤ 32) (code : UInt8)
    (pieces : List Bytes) (last : Bytes) (hpart : pieces.flatten <+: [0, 1, code])
    (hshort : pieces.flatten ≠ [0, 1, code]) (hall : [0, 1, code] <+: pieces.flatten ++ last) :
    ∃ s, Run (Spec.new true) s
      (([.start timeout, .rxDone (.ok own), .wrote] ++ pieces.map .data) ++ [.data last])
      [.rxAssoc, .write (Spec.message own), .close, .failure "psp upgrade failure: peer signaled error"] := by
  have henc : encodeTLV own = .ok (Spec.message own) := encodeTLV_eq_ok.mpr ⟨hown, rfl⟩
  have h0 : Run (Spec.new true) (Spec.new true) [] [] := .nil
  have h1 : Run (Spec.new true) _ [.start timeout] [.rxAssoc] :=
    .snoc h0 (e := .start timeout) ⟨by simp, by simp⟩ rfl
  have h2 : Run (Spec.new true)
      { awaiter := true, async := true, phase := .writeSACompleted, sa := some (.ok own),
        writing := true, timer := timeout } [.start timeout, .rxDone (.ok own)]
      [.rxAssoc, .write (Spec.message own)] := by
    refine .snoc h1 (e := .rxDone (.ok own)) rfl ?_
    simp [step, resume, Spec.new, henc]
  have h3 : Run (Spec.new true) (readingState timeout own [])
      [.start timeout, .rxDone (.ok own), .wrote] ([.rxAssoc, .write (Spec.message own)] ++ []) :=
    .snoc h2 (e := .wrote) rfl rfl
  rw [List.append_nil] at h3
  have short : ∀ b : Bytes, b <+: [0, 1, code] → b ≠ [0, 1, code] → readTLV b = none := by
    intro b hb hn
    obtain ⟨more, hm⟩ := hb
    match b, hm with
    | [], _ => rfl
    | [_], _ => rfl
    | [a, b], hm =>
      simp only [List.cons_append, List.nil_append, List.cons.injEq] at hm
      obtain ⟨rfl, rfl, _⟩ := hm
      rfl
    | a :: b :: c :: r, hm =>
      simp only [List.cons_append, List.cons.injEq, List.append_eq_nil_iff] at hm
      obtain ⟨rfl, rfl, rfl, rfl, rfl⟩ := hm
      exact absurd rfl hn
  have h4 : ∀ ps : List Bytes, ps.flatten <+: [0, 1, code] → ps.flatten ≠ [0, 1, code] →
      Run (Spec.new true) (readingState timeout own ps.flatten)
        ([.start timeout, .rxDone (.ok own), .wrote] ++ ps.map .data)
        [.rxAssoc, .write (Spec.message own)] := by
    intro ps
    induction ps using snoc_rec with
    | nil => intro _ _; exact h3
    | snoc ps b ih =>
      intro hp hs
      have e : (ps ++ [b]).flatten = ps.flatten ++ b := by simp
      have hp' : ps.flatten <+: [0, 1, code] :=
        (e ▸ List.prefix_append _ _ : ps.flatten <+: (ps ++ [b]).flatten).trans hp
      have hs' : ps.flatten ≠ [0, 1, code] := by
        intro he
        have hl := hp.length_le
        rw [e, he, List.length_append] at hl
        have : b = [] := List.length_eq_zero_iff.mp (by simp only [List.length_cons, List.length_nil] at hl; omega)
        exact hs (by rw [e, he, this, List.append_nil])
      have := Run.snoc (ih hp' hs') (e := .data b) (t := readingState timeout own (ps ++ [b]).flatten)
        (gs := []) rfl (by
          have ht := short _ hp hs
          rw [e] at ht
          simp [step, resume, readingState, ht])
      simpa using this
  have h5 := h4 pieces hpart hshort
  obtain ⟨more, hm⟩ := hall
  have ht : readTLV (pieces.flatten ++ last) = some (0, [code], more) := by
    rw [← hm]
    show readTLV (0 :: 1 :: code :: more) = _
    rw [readTLV, if_neg (by show ¬ (code :: more).length < 1; simp)]
    rfl
  have hs : ∃ t, step (readingState timeout own pieces.flatten) (.data last) =
      .ok (t, [.close, .failure "psp upgrade failure: peer signaled error"]) := by
    simp [step, resume, readingState, ht, onTLV, tagSA, tagError, fail, prepare]
  obtain ⟨t, hs⟩ := hs
  exact ⟨_, .snoc h5 (e := .data last) rfl hs⟩

/-- An error message in two pieces, with something behind it. -/
example : [[0, 1]].flatten <+: ([0, 1, 1] : Bytes) ∧ ([[0, 1]].flatten : Bytes) ≠ [0, 1, 1] ∧
    ([0, 1, 1] : Bytes) <+: [[0, 1]].flatten ++ [1, 9] := by decide

end Fizz.Psp

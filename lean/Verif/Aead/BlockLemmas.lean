import Verif.Aead.BufLemmas
import Verif.Aead.Spec

/-! The loop invariant of `transformBufferBlocks` (nothing here is a claim). -/

namespace Fizz.Aead

open Spec

variable {σ : Type}

/-- After `K` bytes of the input have been taken and `outs` put out. -/
structure BInv (func : σ → Bytes → Res (Bytes × σ)) (s0 : σ) (src : Option Chain) (out0 : Chain)
    (bs : Nat) (held : σ → Nat) (t : TBB σ) (K : Nat) (outs : Bytes) : Prop where
  lens : lens t.out = lens out0
  flat : t.out.flatten = outs ++ out0.flatten.drop outs.length
  inv : t.input.Valid (Fizz.Aead.lens (source src out0))
  inpos : t.input.pos (Fizz.Aead.lens (source src out0)) = K
  outv : t.output.Valid (Fizz.Aead.lens out0)
  outpos : t.output.pos (Fizz.Aead.lens out0) = outs.length
  count : outs.length + t.buffered = K
  held : held t.st = t.buffered
  small : t.buffered < bs
  block : t.block.length = kMaxBlock
  reach : Reach func s0 t.st

theorem source_lens {src : Option Chain} {out out0 : Chain} (h : lens out = lens out0) :
    lens (source src out) = lens (source src out0) := by
  cases src <;> simp [source, h]

theorem source_drop {src : Option Chain} {out out0 : Chain} {outs : Bytes} {K : Nat}
    (hf : out.flatten = outs ++ out0.flatten.drop outs.length) (hK : outs.length ≤ K) :
    (source src out).flatten.drop K = (source src out0).flatten.drop K := by
  cases src with
  | some c => rfl
  | none =>
    simp only [source, Option.getD_none, hf]
    rw [List.drop_append, List.drop_eq_nil_of_le hK, List.drop_drop, List.nil_append]
    congr 1; omega

theorem put_end {a b o : Bytes} (h : a.length + o.length ≤ b.length) :
    put (a ++ b.drop a.length) a.length o = (a ++ o) ++ b.drop (a ++ o).length := by
  simp only [put, List.take_left', List.length_append, List.append_assoc]
  congr 2
  rw [List.drop_append, List.drop_eq_nil_of_le (by omega), List.drop_drop, List.nil_append]
  congr 1; omega

theorem intoBlock_ok {block o : Bytes} (hb : block.length = kMaxBlock) (h : o.length ≤ kMaxBlock) :
    ∃ b', intoBlock block o = .ok b' ∧ b'.length = kMaxBlock ∧ b'.take o.length = o := by
  refine ⟨o ++ block.drop o.length, ?_, ?_, ?_⟩
  · simp [intoBlock, hb, h]
  · simp; omega
  · simp

theorem dvd_small {bs n : Nat} (h : bs ∣ n) (hn : n < bs) : n = 0 := by
  obtain ⟨k, rfl⟩ := h
  cases k with
  | zero => rfl
  | succ k => rw [Nat.mul_succ] at hn; omega

theorem block_count {bs n l h : Nat} (e : n + h = l) (hh : h < bs) (d : bs ∣ n) :
    n = l - l % bs ∧ h = l % bs := by
  obtain ⟨k, rfl⟩ := d
  subst e
  have hm : (bs * k + h) % bs = h := by
    rw [Nat.mul_add_mod, Nat.mod_eq_of_lt hh]
  rw [hm]; omega

theorem blockStep_spec {src : Option Chain} {out0 : Chain} {bs : Nat} {held : σ → Nat} {s0 : σ}
    {func : σ → Bytes → Res (Bytes × σ)} (hw : WholeBlocks bs held func s0)
    (h2 : bs ≤ kMaxBlock)
    (hroom : (source src out0).flatten.length ≤ out0.flatten.length)
    {t : TBB σ} {K : Nat} {outs : Bytes} (hi : BInv func s0 src out0 bs held t K outs)
    (hend : K < (source src out0).flatten.length) :
    ∃ d : Bytes, d ≠ [] ∧ d = ((source src out0).flatten.drop K).take d.length ∧
      (∀ e, func t.st d = .error e → blockStep src func bs t = .error e) ∧
      (∀ o s, func t.st d = .ok (o, s) → ∃ t', blockStep src func bs t = .ok t' ∧
        BInv func s0 src out0 bs held t' (K + d.length) (outs ++ o) ∧ t'.st = s) := by
  have hls : lens (source src t.out) = lens (source src out0) := source_lens hi.lens
  obtain ⟨pv, ppos, pne⟩ := peek_spec hi.inv
  obtain ⟨qv, qpos, qne⟩ := peek_spec hi.outv
  rw [hi.inpos] at ppos pne
  rw [hi.outpos] at qpos qne
  have hsum : (lens (source src out0)).sum = (source src out0).flatten.length := lens_sum _
  have hosum : (lens out0).sum = out0.flatten.length := lens_sum _
  have hroomP := pv.room
  have hroomQ := qv.room
  rw [ppos, hsum] at hroomP
  rw [qpos, hosum] at hroomQ
  have hpos : (t.input.peek (lens (source src out0))).length (lens (source src out0)) ≠ 0 := by
    intro h; have := pne h; omega
  have hcount := hi.count
  have hsmall := hi.small
  have hpi : (t.input.peek (lens (source src out0))).i < (source src t.out).length := by
    have e : (lens (source src out0)).length = (source src t.out).length := by
      rw [← hls, lens_length]
    rw [← e]; exact pv.1
  have hpo : (t.input.peek (lens (source src out0))).o + 
      (t.input.peek (lens (source src out0))).length (lens (source src out0)) ≤
      (lens (source src out0)).getD (t.input.peek (lens (source src out0))).i 0 := by
    have := pv.2; simp only [Cur.length]; omega
  have hqo : (t.output.peek (lens out0)).o + (t.output.peek (lens out0)).length (lens out0) ≤
      (lens out0).getD (t.output.peek (lens out0)).i 0 := by
    have := qv.2; simp only [Cur.length]; omega
  have hqi : (t.output.peek (lens out0)).i < t.out.length := by
    have e : (lens out0).length = t.out.length := by rw [← hi.lens, lens_length]
    rw [← e]; exact qv.1
  -- reading `n` bytes
  have hread : ∀ n, n ≤ (t.input.peek (lens (source src out0))).length (lens (source src out0)) →
      readAt (source src t.out) (t.input.peek (lens (source src out0))).i
        (t.input.peek (lens (source src out0))).o n =
        .ok (((source src out0).flatten.drop K).take n) := by
    intro n hn
    rw [readAt_flat hpi (by rw [hls]; omega), hls]
    have : ((lens (source src out0)).take (t.input.peek (lens (source src out0))).i).sum +
      (t.input.peek (lens (source src out0))).o = K := ppos
    rw [this, source_drop hi.flat (by omega)]
  have hlen : ∀ n, n ≤ (t.input.peek (lens (source src out0))).length (lens (source src out0)) →
      (((source src out0).flatten.drop K).take n).length = n := by
    intro n hn
    rw [List.length_take, List.length_drop]; omega
  have hskip : ∀ n, n ≤ (t.input.peek (lens (source src out0))).length (lens (source src out0)) →
      ∃ c', (t.input.peek (lens (source src out0))).skip (lens (source src out0)) n = .ok c' ∧
        c'.Valid (lens (source src out0)) ∧ c'.pos (lens (source src out0)) = K + n := by
    intro n hn
    have := skip_spec (n := n) pv (by rw [ppos, hsum]; omega)
    rwa [ppos] at this
  generalize hP : t.input.peek (lens (source src out0)) = P at *
  generalize hQ : t.output.peek (lens out0) = Q at *
  generalize hL : P.length (lens (source src out0)) = L at *
  generalize hM : Q.length (lens out0) = M at *
  unfold blockStep
  simp only [hls, hi.lens, hP, hQ, hL, hM]
  by_cases c1 : L + t.buffered < bs
  · -- buffered only
    refine ⟨((source src out0).flatten.drop K).take L, ?_, ?_, ?_, ?_⟩
    · intro h; have := hlen L (Nat.le_refl _); rw [h] at this; simp at this; omega
    · rw [hlen L (Nat.le_refl _)]
    · intro e he
      simp only [c1, if_true, hread L (Nat.le_refl _), Res.ok_bind, he, Res.error_bind]
    · intro o s ho
      obtain ⟨h1, h2', h3⟩ := hw _ _ _ _ hi.reach ho
      rw [hi.held, hlen L (Nat.le_refl _)] at h1
      have ho0 : o.length = 0 := dvd_small h3 (by omega)
      have : o = [] := List.eq_nil_of_length_eq_zero ho0
      subst this
      obtain ⟨b', hb1, hb2, -⟩ := intoBlock_ok (o := []) hi.block (by simp)
      obtain ⟨c', hc1, hc2, hc3⟩ := hskip L (Nat.le_refl _)
      simp only [c1, if_true, hread L (Nat.le_refl _), Res.ok_bind, ho, hb1, hc1]
      refine ⟨_, rfl, ?_, rfl⟩
      rw [List.append_nil]
      simp at h1
      exact ⟨hi.lens, hi.flat, hc2, by rw [hc3, hlen L (Nat.le_refl _)], qv, qpos,
        by rw [hlen L (Nat.le_refl _)]; simp only; omega, by simp only; omega,
        by simp only; omega, hb2, hi.reach.call ho⟩
  · by_cases c2 : M < bs
    · -- one block over the boundary
      have hn : bs - t.buffered ≤ L := by omega
      refine ⟨((source src out0).flatten.drop K).take (bs - t.buffered), ?_, ?_, ?_, ?_⟩
      · intro h; have := hlen _ hn; rw [h] at this; simp at this; omega
      · rw [hlen _ hn]
      · intro e he
        simp only [c1, c2, if_true, if_false, hread _ hn, Res.ok_bind, he, Res.error_bind]
      · intro o s ho
        obtain ⟨h1, h2', h3⟩ := hw _ _ _ _ hi.reach ho
        rw [hi.held, hlen _ hn] at h1
        have hb := block_count (l := bs) (by omega) h2' h3
        rw [Nat.mod_self] at hb
        have hob : o.length = bs := by omega
        obtain ⟨b', hb1, hb2, hb3⟩ := intoBlock_ok (o := o) hi.block (by omega)
        rw [hob] at hb3
        obtain ⟨c', hc1, hc2, hc3⟩ := hskip _ hn
        obtain ⟨m', q', hq1, hq2, hq3, hq4, hq5⟩ := push_spec (m := t.out) (c := Q) (d := o)
          (by rw [hi.lens]; exact qv) (by rw [hi.lens, qpos, hosum]; omega)
        rw [hi.lens] at hq2 hq3 hq4 hq5
        rw [qpos] at hq4 hq5
        simp only [c1, c2, if_true, if_false, hread _ hn, Res.ok_bind, ho, hb1, hc1, hb3, hq1]
        refine ⟨_, rfl, ?_, rfl⟩
        refine ⟨hq2, ?_, hc2, by rw [hc3, hlen _ hn], hq3, by rw [hq4, List.length_append],
          by rw [hlen _ hn, List.length_append]; simp only; omega, by simp only; omega,
          by simp only; omega, hb2, hi.reach.call ho⟩
        rw [hq5, hi.flat, put_end (by omega)]
    · -- whole blocks straight into the output
      have hns : min M (L + t.buffered) ≥ bs := by omega
      generalize hS : min M (L + t.buffered) = S at *
      have hmod : S % bs < bs := Nat.mod_lt _ (by omega)
      have hdiv : S % bs ≤ S - bs := by
        have h := Nat.mod_add_div S bs
        have : 1 ≤ S / bs := (Nat.one_le_div_iff (by omega)).mpr hns
        have : bs * 1 ≤ bs * (S / bs) := Nat.mul_le_mul_left _ this
        omega
      generalize hB : S - S % bs = B at *
      generalize hT : min L (B - t.buffered + (bs - 1)) = T at *
      have hn : T ≤ L := by omega
      refine ⟨((source src out0).flatten.drop K).take T, ?_, ?_, ?_, ?_⟩
      · intro h; have := hlen _ hn; rw [h] at this; simp at this; omega
      · rw [hlen _ hn]
      · intro e he
        simp only [c1, c2, if_false, hread _ hn, Res.ok_bind, he, Res.error_bind]
      · intro o s ho
        obtain ⟨h1, h2', h3⟩ := hw _ _ _ _ hi.reach ho
        rw [hi.held, hlen _ hn] at h1
        have hb := block_count (l := t.buffered + T) (by omega) h2' h3
        -- exactly `B` bytes come out
        have hdB : bs ∣ B := by
          rw [← hB]; exact Nat.dvd_sub_mod S
        have hoB : o.length = B := by
          obtain ⟨j, hj⟩ := h3
          obtain ⟨k, hk⟩ := hdB
          have hle : o.length ≤ t.buffered + T := by omega
          have hge : t.buffered + T < o.length + bs := by omega
          have hBT : B ≤ t.buffered + T := by omega
          have hTB : t.buffered + T < B + bs := by omega
          have h1' : bs * j < bs * (k + 1) := by rw [Nat.mul_succ]; omega
          have h2'' : bs * k < bs * (j + 1) := by rw [Nat.mul_succ]; omega
          have := Nat.lt_of_mul_lt_mul_left h1'
          have := Nat.lt_of_mul_lt_mul_left h2''
          have : j = k := by omega
          subst this; omega
        obtain ⟨c', hc1, hc2, hc3⟩ := hskip _ hn
        obtain ⟨m', hm1, hm2, hm3⟩ := writeAt_flat (c := t.out) (i := Q.i) (o := Q.o) (d := o) hqi
          (by rw [hi.lens]; omega)
        rw [hi.lens] at hm2 hm3
        have hQp : ((lens out0).take Q.i).sum + Q.o = outs.length := qpos
        rw [hQp] at hm3
        obtain ⟨q', hq1, hq2, hq3⟩ := skip_spec (c := Q) (n := o.length) qv
          (by rw [qpos, hosum]; omega)
        rw [qpos] at hq3
        simp only [c1, c2, if_false, hread _ hn, Res.ok_bind, ho, hc1, hm1, hm2, hq1]
        refine ⟨_, rfl, ?_, rfl⟩
        refine ⟨hm2, ?_, hc2, by rw [hc3, hlen _ hn], hq2, by rw [hq3, List.length_append],
          by rw [hlen _ hn, List.length_append]; simp only; omega, by simp only; omega,
          by simp only; omega, hi.block, hi.reach.call ho⟩
        rw [hm3, hi.flat, put_end (by omega)]

theorem blockLoop_spec {src : Option Chain} {out0 : Chain} {bs : Nat} {held : σ → Nat} {s0 : σ}
    {func : σ → Bytes → Res (Bytes × σ)} (hw : WholeBlocks bs held func s0)
    (h2 : bs ≤ kMaxBlock)
    (hroom : (source src out0).flatten.length ≤ out0.flatten.length) :
    ∀ (fuel : Nat) (t : TBB σ) (K : Nat) (outs : Bytes), BInv func s0 src out0 bs held t K outs →
    (source src out0).flatten.length < K + fuel →
    ∃ pieces : List Bytes, pieces.flatten = (source src out0).flatten.drop K ∧
      (∀ e, feed func t.st pieces = .error e → blockLoop src func bs fuel t = .error e) ∧
      (∀ os s, feed func t.st pieces = .ok (os, s) → ∃ t', blockLoop src func bs fuel t = .ok t' ∧
        BInv func s0 src out0 bs held t' (source src out0).flatten.length (outs ++ os.flatten) ∧ t'.st = s)
  | 0, t, K, outs, hi, hf => by
    have := hi.inv.pos_le
    rw [hi.inpos, lens_sum] at this; omega
  | fuel+1, t, K, outs, hi, hf => by
    have hle := hi.inv.pos_le
    rw [hi.inpos, lens_sum] at hle
    have hat := isAtEnd_iff hi.inv
    rw [hi.inpos, lens_sum] at hat
    by_cases hend : K = (source src out0).flatten.length
    · refine ⟨[], by rw [hend]; simp, fun e he => by simp [feed] at he, ?_⟩
      intro os s h
      simp only [feed, Except.ok.injEq, Prod.mk.injEq] at h
      obtain ⟨rfl, rfl⟩ := h
      refine ⟨t, ?_, ?_, rfl⟩
      · simp only [blockLoop, source_lens hi.lens]
        rw [if_pos (hat.mpr hend)]
      · simp only [List.flatten_nil, List.append_nil]
        rw [← hend]; exact hi
    · have hna : t.input.isAtEnd (lens (source src t.out)) = false := by
        rw [source_lens hi.lens]
        cases h : t.input.isAtEnd (lens (source src out0)) with
        | false => rfl
        | true => exact absurd (hat.mp h) hend
      obtain ⟨d, hd0, hd, herr, hok⟩ := blockStep_spec hw h2 hroom hi (by omega)
      have hdl : 0 < d.length := List.length_pos_iff.mpr hd0
      cases hs : func t.st d with
      | error e =>
        refine ⟨d :: [(source src out0).flatten.drop (K + d.length)], ?_, ?_, ?_⟩
        · simp only [List.flatten_cons, List.flatten_nil, List.append_nil]
          rw [← List.drop_drop]
          conv => lhs; lhs; rw [hd]
          exact List.take_append_drop _ _
        · intro e' he'
          simp only [feed, hs] at he'
          simp only [blockLoop, hna, herr e hs]
          simpa using he'
        · intro os s h
          simp [feed, hs] at h
      | ok p =>
        obtain ⟨o, s1⟩ := p
        obtain ⟨t', ht', hi', hst⟩ := hok o s1 hs
        obtain ⟨ps, hp, perr, pok⟩ := blockLoop_spec hw h2 hroom fuel t' (K + d.length) (outs ++ o)
          hi' (by omega)
        rw [hst] at perr pok
        refine ⟨d :: ps, ?_, ?_, ?_⟩
        · rw [List.flatten_cons, hp, ← List.drop_drop]
          conv => lhs; lhs; rw [hd]
          exact List.take_append_drop _ _
        · intro e he
          simp only [feed, hs] at he
          cases hf2 : feed func s1 ps with
          | error e2 =>
            rw [hf2] at he
            simp only [blockLoop, hna, ht', Res.ok_bind]
            simp only [Except.error.injEq] at he
            subst he
            simpa using perr _ hf2
          | ok q => rw [hf2] at he; simp at he
        · intro os s h
          simp only [feed, hs] at h
          cases hf2 : feed func s1 ps with
          | error e2 => rw [hf2] at h; simp at h
          | ok q =>
            obtain ⟨os2, s2⟩ := q
            rw [hf2] at h
            simp only [Except.ok.injEq, Prod.mk.injEq] at h
            obtain ⟨rfl, rfl⟩ := h
            obtain ⟨t2, e2, i2, st2⟩ := pok _ _ hf2
            refine ⟨t2, ?_, ?_, st2⟩
            · simp only [blockLoop, hna, ht', Res.ok_bind]
              simpa using e2
            · rw [List.flatten_cons, ← List.append_assoc]; exact i2

end Fizz.Aead

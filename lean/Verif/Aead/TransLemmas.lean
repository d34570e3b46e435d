import Verif.Aead.BlockLemmas

/-! The loop invariant of `transformBuffer` (nothing here is a claim). -/

namespace Fizz.Aead

open Spec

variable {σ : Type}

/-- After `outs` has been written (as many bytes as have been read). -/
structure TInv (func : σ → Bytes → Res (Bytes × σ)) (s0 : σ) (out0 : Chain) (t : TB σ) (outs : Bytes) : Prop where
  lens : lens t.out = lens out0
  flat : t.out.flatten = outs ++ out0.flatten.drop outs.length
  le : outs.length ≤ out0.flatten.length
  pos : outs.length < out0.flatten.length →
    Cur.Valid (Fizz.Aead.lens out0) ⟨t.cur, t.off⟩ ∧
    Cur.pos (Fizz.Aead.lens out0) ⟨t.cur, t.off⟩ = outs.length
  reach : Reach func s0 t.st

theorem feed_append {func : σ → Bytes → Res (Bytes × σ)} (ps qs : List Bytes) (s : σ) :
    feed func s (ps ++ qs) =
      match feed func s ps with
      | .error e => .error e
      | .ok (os, s1) =>
        match feed func s1 qs with
        | .error e => .error e
        | .ok (os2, s2) => .ok (os ++ os2, s2) := by
  induction ps generalizing s with
  | nil =>
    simp only [List.nil_append, feed]
    cases feed func s qs with
    | error e => rfl
    | ok p => rfl
  | cons p ps ih =>
    simp only [List.cons_append, feed]
    cases func s p with
    | error e => rfl
    | ok q =>
      obtain ⟨o, s1⟩ := q
      simp only [ih]
      cases feed func s1 ps with
      | error e => rfl
      | ok q2 =>
        obtain ⟨os, s2⟩ := q2
        simp only
        cases feed func s2 qs with
        | error e => rfl
        | ok q3 => rfl

theorem innerLoop_spec {src : Option Chain} {out0 : Chain}
    {s0 : σ}
    {func : σ → Bytes → Res (Bytes × σ)} (hw : SameLength func s0)
    (hroom : (source src out0).flatten.length ≤ out0.flatten.length)
    {k : Nat} (hk : k < (source src out0).length) :
    ∀ (fuel remaining : Nat) (t : TB σ) (outs : Bytes), TInv func s0 out0 t outs →
    remaining ≤ (lens (source src out0)).getD k 0 →
    ((lens (source src out0)).take k).sum + ((lens (source src out0)).getD k 0 - remaining)
      = outs.length →
    0 < fuel → (remaining ≠ 0 → remaining + (out0.length - t.cur) < fuel) →
    ∃ pieces : List Bytes,
      pieces.flatten = ((source src out0).flatten.drop outs.length).take remaining ∧
      (∀ e, feed func t.st pieces = .error e → innerLoop src func k fuel remaining t = .error e) ∧
      (∀ os s, feed func t.st pieces = .ok (os, s) →
        ∃ t', innerLoop src func k fuel remaining t = .ok t' ∧
        TInv func s0 out0 t' (outs ++ os.flatten) ∧ t'.st = s ∧ os.flatten.length = remaining)
  | 0, _, _, _, _, _, _, hf, _ => absurd hf (by omega)
  | fuel+1, remaining, t, outs, hi, hr, hp, hf, hf2 => by
    by_cases h0 : remaining = 0
    · subst h0
      refine ⟨[], by simp, fun e he => by simp [feed] at he, ?_⟩
      intro os s h
      simp only [feed, Except.ok.injEq, Prod.mk.injEq] at h
      obtain ⟨rfl, rfl⟩ := h
      exact ⟨t, by simp [innerLoop], by simpa using hi, rfl, rfl⟩
    · have hls : lens (source src t.out) = lens (source src out0) := source_lens hi.lens
      have hkl : k < (lens (source src out0)).length := by rw [lens_length]; exact hk
      have hk' : k < (source src t.out).length := by
        rw [← lens_length, hls]; exact hkl
      have htot : outs.length + remaining ≤ (source src out0).flatten.length := by
        have h1 := @sum_le (lens (source src out0)) (k+1)
        rw [sum_take_succ hkl, lens_sum] at h1
        omega
      obtain ⟨hv, hpos⟩ := hi.pos (by omega)
      have hv1 : t.cur < (lens out0).length := hv.1
      have hv2 : t.off ≤ (lens out0).getD t.cur 0 := hv.2
      have hn : (lens out0).length = out0.length := lens_length _
      have hcur : t.cur < t.out.length := by
        have e : (lens out0).length = t.out.length := by rw [← hi.lens, lens_length]
        rw [← e]; exact hv1
      have hosum : (lens out0).sum = out0.flatten.length := lens_sum _
      generalize hsel : min ((lens out0).getD t.cur 0 - t.off) remaining = sel
      have hread : readAt (source src t.out) k ((lens (source src out0)).getD k 0 - remaining) sel =
          .ok (((source src out0).flatten.drop outs.length).take sel) := by
        rw [readAt_flat hk' (by rw [hls]; omega), hls, hp, source_drop hi.flat (Nat.le_refl _)]
      have hlen : (((source src out0).flatten.drop outs.length).take sel).length = sel := by
        rw [List.length_take, List.length_drop]; omega
      generalize hd : ((source src out0).flatten.drop outs.length).take sel = d at *
      have hpl : ((lens out0).take t.cur).sum + t.off = outs.length := hpos
      cases hs : func t.st d with
      | error e =>
        refine ⟨d :: [((source src out0).flatten.drop (outs.length + sel)).take (remaining - sel)],
          ?_, ?_, ?_⟩
        · simp only [List.flatten_cons, List.flatten_nil, List.append_nil]
          rw [← hd, ← List.drop_drop, ← List.drop_take]
          conv => rhs; rw [← List.take_append_drop sel (List.take remaining _)]
          rw [List.take_take, Nat.min_eq_left (by omega)]
        · intro e' he'
          simp only [feed, hs, Except.error.injEq] at he'
          subst he'
          simp only [innerLoop, h0, if_false, hls, hi.lens, hsel, hread, Res.ok_bind, hs,
            Res.error_bind]
        · intro os s h
          simp [feed, hs] at h
      | ok q =>
        obtain ⟨o, s1⟩ := q
        have hol := hw _ _ _ _ hi.reach hs
        rw [hlen] at hol
        obtain ⟨m', hm1, hm2, hm3⟩ := writeAt_flat (c := t.out) (i := t.cur) (o := t.off) (d := o)
          hcur (by rw [hi.lens]; omega)
        rw [hi.lens] at hm2 hm3
        rw [hpl, hi.flat, put_end (by omega)] at hm3
        have hml : m'.length = out0.length := by rw [← lens_length, hm2, lens_length]
        -- the next iteration
        have key : ∀ t2 : TB σ, t2.st = s1 → TInv func s0 out0 t2 (outs ++ o) →
            (remaining - sel ≠ 0 → remaining - sel + (out0.length - t2.cur) < fuel) → 0 < fuel →
            innerLoop src func k (fuel+1) remaining t =
              innerLoop src func k fuel (remaining - sel) t2 →
            ∃ pieces : List Bytes,
              pieces.flatten = ((source src out0).flatten.drop outs.length).take remaining ∧
              (∀ e, feed func t.st pieces = .error e →
                innerLoop src func k (fuel+1) remaining t = .error e) ∧
              (∀ os s, feed func t.st pieces = .ok (os, s) →
                ∃ t', innerLoop src func k (fuel+1) remaining t = .ok t' ∧
                TInv func s0 out0 t' (outs ++ os.flatten) ∧ t'.st = s ∧ os.flatten.length = remaining) := by
          intro t2 ht2 hi2 hfu hfu0 heq
          obtain ⟨ps, hps, perr, pok⟩ := innerLoop_spec hw hroom hk fuel (remaining - sel) t2
            (outs ++ o) hi2 (by omega) (by rw [List.length_append]; omega) hfu0 hfu
          rw [ht2] at perr pok
          refine ⟨d :: ps, ?_, ?_, ?_⟩
          · rw [List.flatten_cons, hps, ← hd, List.length_append, hol, ← List.drop_drop,
              ← List.drop_take]
            conv => rhs; rw [← List.take_append_drop sel (List.take remaining _)]
            rw [List.take_take, Nat.min_eq_left (by omega)]
          · intro e he
            rw [heq]
            simp only [feed, hs] at he
            cases hf2 : feed func s1 ps with
            | error e2 =>
              rw [hf2] at he
              simp only [Except.error.injEq] at he
              subst he
              exact perr _ hf2
            | ok q => rw [hf2] at he; simp at he
          · intro os s h
            rw [heq]
            simp only [feed, hs] at h
            cases hf2 : feed func s1 ps with
            | error e2 => rw [hf2] at h; simp at h
            | ok q =>
              obtain ⟨os2, s2⟩ := q
              rw [hf2] at h
              simp only [Except.ok.injEq, Prod.mk.injEq] at h
              obtain ⟨rfl, rfl⟩ := h
              obtain ⟨t3, e3, i3, st3, l3⟩ := pok _ _ hf2
              refine ⟨t3, e3, ?_, st3, ?_⟩
              · rw [List.flatten_cons, ← List.append_assoc]; exact i3
              · rw [List.flatten_cons, List.length_append, l3]; omega
        have hf3 := hf2 h0
        by_cases hfull : t.off + sel = (lens out0).getD t.cur 0
        · have hpn : Cur.pos (lens out0) ⟨t.cur, t.off⟩ + Cur.length (lens out0) ⟨t.cur, t.off⟩ =
              outs.length + sel := by
            rw [hpos]; simp only [Cur.length]; omega
          apply key ⟨m', (t.cur + 1) % m'.length, 0, s1⟩ rfl
          · refine ⟨hm2, hm3, by rw [List.length_append]; omega, ?_, hi.reach.call hs⟩
            rw [List.length_append]
            intro hlt
            by_cases hc : t.cur + 1 < (lens out0).length
            · have hmod : (t.cur + 1) % m'.length = t.cur + 1 := Nat.mod_eq_of_lt (by omega)
              simp only [hmod]
              refine ⟨Cur.advance_valid (c := ⟨t.cur, t.off⟩) hc, ?_⟩
              have := Cur.advance_pos hv hc
              rw [hpn] at this
              simp only at this
              omega
            · have := hv.last hc
              rw [hpn] at this; omega
          · intro hne
            by_cases hc : t.cur + 1 < (lens out0).length
            · have hmod : (t.cur + 1) % m'.length = t.cur + 1 := Nat.mod_eq_of_lt (by omega)
              simp only [hmod]; omega
            · have := hv.last hc
              rw [hpn] at this; omega
          · omega
          · simp only [innerLoop, h0, if_false, hls, hi.lens, hsel, hread, Res.ok_bind, hs, hm1,
              hfull, if_true]
        · apply key ⟨m', t.cur, t.off + sel, s1⟩ rfl
          · refine ⟨hm2, hm3, by rw [List.length_append]; omega, ?_, hi.reach.call hs⟩
            rw [List.length_append]
            intro _
            refine ⟨⟨hv1, by simp only; omega⟩, ?_⟩
            simp only [Cur.pos]; omega
          · intro hne; simp only; omega
          · omega
          · simp only [innerLoop, h0, if_false, hls, hi.lens, hsel, hread, Res.ok_bind, hs, hm1,
              hfull]

theorem outerLoop_spec {src : Option Chain} {out0 : Chain}
    {s0 : σ}
    {func : σ → Bytes → Res (Bytes × σ)} (hw : SameLength func s0)
    (hroom : (source src out0).flatten.length ≤ out0.flatten.length) :
    ∀ (n k : Nat) (t : TB σ) (outs : Bytes), TInv func s0 out0 t outs →
    k + n = (source src out0).length → ((lens (source src out0)).take k).sum = outs.length →
    ∃ pieces : List Bytes, pieces.flatten = (source src out0).flatten.drop outs.length ∧
      (∀ e, feed func t.st pieces = .error e → outerLoop src func n k t = .error e) ∧
      (∀ os s, feed func t.st pieces = .ok (os, s) → ∃ t', outerLoop src func n k t = .ok t' ∧
        TInv func s0 out0 t' (outs ++ os.flatten) ∧ t'.st = s)
  | 0, k, t, outs, hi, hk, hp => by
    refine ⟨[], ?_, fun e he => by simp [feed] at he, ?_⟩
    · rw [List.take_of_length_le (by rw [lens_length]; omega), lens_sum] at hp
      rw [← hp]; simp
    · intro os s h
      simp only [feed, Except.ok.injEq, Prod.mk.injEq] at h
      obtain ⟨rfl, rfl⟩ := h
      exact ⟨t, rfl, by simpa using hi, rfl⟩
  | n+1, k, t, outs, hi, hk, hp => by
    have hls : lens (source src t.out) = lens (source src out0) := source_lens hi.lens
    have hkl : k < (lens (source src out0)).length := by rw [lens_length]; omega
    have hol : t.out.length = out0.length := by rw [← lens_length, hi.lens, lens_length]
    generalize hL : (lens (source src out0)).getD k 0 = L
    obtain ⟨ps, hps, perr, pok⟩ := innerLoop_spec hw hroom (k := k) (by omega)
      (L + t.out.length + 1) L t outs hi (by omega) (by omega) (by omega)
      (by intro _; omega)
    cases hf : feed func t.st ps with
    | error e =>
      have hsum := @sum_le (lens (source src out0)) (k+1)
      refine ⟨ps ++ [(source src out0).flatten.drop (outs.length + L)], ?_, ?_, ?_⟩
      · rw [List.flatten_append, hps, ← List.drop_drop, List.flatten_cons, List.flatten_nil,
          List.append_nil]
        exact List.take_append_drop _ _
      · intro e' he'
        rw [feed_append, hf] at he'
        simp only [Except.error.injEq] at he'
        subst he'
        simp only [outerLoop, hls, hL, perr _ hf, Res.error_bind]
      · intro os s h
        rw [feed_append, hf] at h; simp at h
    | ok q =>
      obtain ⟨os1, s1⟩ := q
      obtain ⟨t1, e1, i1, st1, l1⟩ := pok _ _ hf
      obtain ⟨qs, hqs, qerr, qok⟩ := outerLoop_spec hw hroom n (k+1) t1 (outs ++ os1.flatten) i1
        (by omega) (by rw [sum_take_succ hkl, List.length_append, hL]; omega)
      rw [st1] at qerr qok
      refine ⟨ps ++ qs, ?_, ?_, ?_⟩
      · rw [List.flatten_append, hps, hqs, List.length_append, l1, ← List.drop_drop]
        exact List.take_append_drop _ _
      · intro e he
        rw [feed_append, hf] at he
        simp only at he
        simp only [outerLoop, hls, hL, e1, Res.ok_bind]
        cases hf2 : feed func s1 qs with
        | error e2 =>
          rw [hf2] at he
          simp only [Except.error.injEq] at he
          subst he
          exact qerr _ hf2
        | ok q => rw [hf2] at he; simp at he
      · intro os s h
        rw [feed_append, hf] at h
        simp only at h
        simp only [outerLoop, hls, hL, e1, Res.ok_bind]
        cases hf2 : feed func s1 qs with
        | error e2 => rw [hf2] at h; simp at h
        | ok q =>
          obtain ⟨os2, s2⟩ := q
          rw [hf2] at h
          simp only [Except.ok.injEq, Prod.mk.injEq] at h
          obtain ⟨rfl, rfl⟩ := h
          obtain ⟨t3, e3, i3, st3⟩ := qok _ _ hf2
          refine ⟨t3, e3, ?_, st3⟩
          rw [List.flatten_append, ← List.append_assoc]; exact i3

end Fizz.Aead

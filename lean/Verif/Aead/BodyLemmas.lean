import Verif.Aead.EvpLemmas

/-! `encBody` and `decBody` compute the ideal AEAD (nothing here is a claim). -/

namespace Fizz.Aead

open Spec

variable {σ : Type}

theorem encFn_wraps {evp : Evp σ} {bs : Nat} {A : Ideal} (I : Implements evp bs A) (n a : Bytes) :
    Wraps (encFn evp) (fun p => (I.e n a p, (I.eo n a p).length)) (I.eo n a) intMax := by
  intro p x
  obtain ⟨o, h1, h2⟩ := I.encUpdate n a p x
  have hl := congrArg List.length h2
  rw [List.length_append] at hl
  refine ⟨?_, ?_⟩
  · intro o' s' h
    simp only [encFn, h1] at h
    split at h
    · simp at h
    · split at h
      next h0 =>
        have : x = [] := List.eq_nil_of_length_eq_zero h0
        subst this
        simp only [Except.ok.injEq, Prod.mk.injEq] at h
        obtain ⟨rfl, rfl⟩ := h
        simp
      next =>
        split at h
        · simp at h
        · simp only [Except.ok.injEq, Prod.mk.injEq] at h
          obtain ⟨rfl, rfl⟩ := h
          exact ⟨by rw [hl], h2⟩
  · intro hb
    have he := I.eoLen n a (p ++ x)
    rw [List.length_append] at hb he
    simp only [encFn, h1]
    rw [if_neg (by omega)]
    split
    · exact ⟨_, rfl⟩
    · rw [if_neg (by omega)]
      exact ⟨_, rfl⟩

theorem decFn_wraps {evp : Evp σ} {bs : Nat} {A : Ideal} (I : Implements evp bs A) (n a : Bytes) :
    Wraps (decFn evp) (fun p => (I.d n a p, (I.po n a p).length)) (I.po n a) intMax := by
  intro p x
  obtain ⟨o, h1, h2⟩ := I.decUpdate n a p x
  have hl := congrArg List.length h2
  rw [List.length_append] at hl
  refine ⟨?_, ?_⟩
  · intro o' s' h
    simp only [decFn, h1] at h
    split at h
    · simp at h
    · split at h
      · simp at h
      · simp only [Except.ok.injEq, Prod.mk.injEq] at h
        obtain ⟨rfl, rfl⟩ := h
        exact ⟨by rw [hl], h2⟩
  · intro hb
    have he := I.poLen n a (p ++ x)
    rw [List.length_append] at hb he
    simp only [decFn, h1]
    rw [if_neg (by omega), if_neg (by omega)]
    exact ⟨_, rfl⟩

theorem encBlk_wraps {evp : Evp σ} {bs : Nat} {A : Ideal} (I : Implements evp bs A) (n a : Bytes) :
    Wraps (encBlk evp) (fun p => ⟨I.e n a p, (I.eo n a p).length, p.length⟩) (I.eo n a) intMax := by
  intro p x
  obtain ⟨o, h1, h2⟩ := I.encUpdate n a p x
  have hl := congrArg List.length h2
  rw [List.length_append] at hl
  refine ⟨?_, ?_⟩
  · intro o' s' h
    simp only [encBlk, h1] at h
    split at h
    · simp at h
    · split at h
      next h0 =>
        have : x = [] := List.eq_nil_of_length_eq_zero h0
        subst this
        simp only [Except.ok.injEq, Prod.mk.injEq] at h
        obtain ⟨rfl, rfl⟩ := h
        simp
      next =>
        simp only [Except.ok.injEq, Prod.mk.injEq] at h
        obtain ⟨rfl, rfl⟩ := h
        exact ⟨by simp only [hl, List.length_append], h2⟩
  · intro hb
    rw [List.length_append] at hb
    simp only [encBlk, h1]
    rw [if_neg (by omega)]
    split
    · exact ⟨_, rfl⟩
    · exact ⟨_, rfl⟩

theorem decBlk_wraps {evp : Evp σ} {bs : Nat} {A : Ideal} (I : Implements evp bs A) (n a : Bytes) :
    Wraps (decBlk evp) (fun p => ⟨I.d n a p, (I.po n a p).length, p.length⟩) (I.po n a) intMax := by
  intro p x
  obtain ⟨o, h1, h2⟩ := I.decUpdate n a p x
  have hl := congrArg List.length h2
  rw [List.length_append] at hl
  refine ⟨?_, ?_⟩
  · intro o' s' h
    simp only [decBlk, h1] at h
    split at h
    · simp at h
    · simp only [Except.ok.injEq, Prod.mk.injEq] at h
      obtain ⟨rfl, rfl⟩ := h
      exact ⟨by simp only [hl, List.length_append], h2⟩
  · intro hb
    rw [List.length_append] at hb
    simp only [decBlk, h1]
    rw [if_neg (by omega)]
    exact ⟨_, rfl⟩

theorem encFunc_spec {evp : Evp σ} {A : Ideal} (hA : A.Ok) (I : Implements evp 1 A) (n a : Bytes)
    {src : Option Chain} {out : Chain} (hne : out ≠ [])
    (hroom : (source src out).flatten.length = out.flatten.length)
    (hmax : (source src out).flatten.length ≤ intMax) :
    ∃ out' s, encFunc evp (I.e n a []) src out = .ok (out', s) ∧ lens out' = lens out ∧
      out'.flatten = (A.sealing n a (source src out).flatten).1 ∧
      evp.getTag s A.tagLen = some (A.sealing n a (source src out).flatten).2 := by
  have hw := encFn_wraps I n a
  have hem := (I.enc n a).em_nil
  have hl1 : ∀ p, (I.eo n a p).length = p.length := fun p => by
    rw [I.eoLen, Nat.mod_one, Nat.sub_zero]
  obtain ⟨ps, hp, -, hok⟩ := transformBuffer_spec (hw.sameLength hl1) hne (Nat.le_of_eq hroom)
  obtain ⟨os, hf, ho⟩ := hw.feed ps [] (by rw [List.nil_append, hp]; exact hmax)
  simp only [List.nil_append, hem, hp, List.length_nil] at hf ho
  simp only [hem, List.length_nil] at hok
  obtain ⟨out', h1, h2, h3⟩ := hok os _ hf
  obtain ⟨o, s, f1, f2, f3⟩ := I.encFinal n a (source src out).flatten
  have hol : o = [] := by
    have := congrArg List.length f2
    rw [List.length_append, hl1, hA.cipherLen] at this
    exact List.eq_nil_of_length_eq_zero (by omega)
  subst hol
  refine ⟨out', s, ?_, h2, ?_, f3⟩
  · simp only [encFunc, h1, Res.ok_bind, f1, writeAt]
  · rw [h3, ho, ← f2, List.append_nil, hl1, List.drop_eq_nil_of_le (by omega), List.append_nil]

theorem decFunc_spec {evp : Evp σ} {A : Ideal} (hA : A.Ok) (I : Implements evp 1 A) (n a tag : Bytes)
    (htag : tag.length = A.tagLen) {src : Option Chain} {out : Chain} (hne : out ≠ [])
    (hroom : (source src out).flatten.length = out.flatten.length)
    (hmax : (source src out).flatten.length ≤ intMax) :
    ∃ out' b, decFunc evp (I.d n a []) src out tag = .ok (out', b) ∧ lens out' = lens out ∧
      (if b then some out'.flatten else none) = A.opening n a (source src out).flatten tag := by
  have hw := decFn_wraps I n a
  have hem := (I.dec n a).em_nil
  have hl1 : ∀ p, (I.po n a p).length = p.length := fun p => by
    rw [I.poLen, Nat.mod_one, Nat.sub_zero]
  obtain ⟨ps, hp, -, hok⟩ := transformBuffer_spec (hw.sameLength hl1) hne (Nat.le_of_eq hroom)
  obtain ⟨os, hf, ho⟩ := hw.feed ps [] (by rw [List.nil_append, hp]; exact hmax)
  simp only [List.nil_append, hem, hp, List.length_nil] at hf ho
  simp only [hem, List.length_nil] at hok
  obtain ⟨out', h1, h2, h3⟩ := hok os _ hf
  have hst := I.setTag n a (source src out).flatten tag htag
  cases hop : A.opening n a (source src out).flatten tag with
  | none =>
    refine ⟨out', false, ?_, h2, by simp⟩
    simp only [decFunc, h1, Res.ok_bind, hst, I.decBad _ _ _ _ hop]
  | some p =>
    obtain ⟨o, f1, f2⟩ := I.decGood _ _ _ _ _ hop
    have hol : o = [] := by
      have := congrArg List.length f2
      rw [List.length_append, hl1, hA.plainLen _ _ _ _ _ hop] at this
      exact List.eq_nil_of_length_eq_zero (by omega)
    subst hol
    refine ⟨out', true, ?_, h2, ?_⟩
    · simp only [decFunc, h1, Res.ok_bind, hst, f1, writeAt]
    · rw [if_pos rfl, h3, ho, ← f2, List.append_nil, hl1, List.drop_eq_nil_of_le (by omega),
        List.append_nil]

/-- The last block: directly into the current buffer or over the boundary. -/
theorem finish_spec {out m : Chain} {cur : Cur} {outs o : Bytes} (hl : lens m = lens out)
    (hf : m.flatten = outs ++ out.flatten.drop outs.length) (hv : cur.Valid (lens out))
    (hp : cur.pos (lens out) = outs.length) (ht : outs.length + o.length = out.flatten.length) :
    (o.length ≤ cur.length (lens m) → ∃ m', writeAt m cur.i cur.o o = .ok m' ∧ lens m' = lens out ∧
      m'.flatten = outs ++ o) ∧
    (∃ m' c', push m cur o = .ok (m', c') ∧ lens m' = lens out ∧ m'.flatten = outs ++ o) := by
  have hput : put m.flatten outs.length o = outs ++ o := by
    rw [hf, put_end (by omega), List.drop_eq_nil_of_le (by rw [List.length_append]; omega),
      List.append_nil]
  refine ⟨?_, ?_⟩
  · intro hle
    have hv1 := hv.1
    have hv2 := hv.2
    rw [hl] at hle
    obtain ⟨m', h1, h2, h3⟩ := writeAt_flat (c := m) (i := cur.i) (o := cur.o) (d := o)
      (by rw [← lens_length, hl]; exact hv1)
      (by rw [hl]; simp only [Cur.length] at hle; omega)
    rw [hl] at h2 h3
    have : ((lens out).take cur.i).sum + cur.o = outs.length := hp
    rw [this, hput] at h3
    exact ⟨m', h1, h2, h3⟩
  · obtain ⟨m', c', h1, h2, -, -, h5⟩ := push_spec (m := m) (c := cur) (d := o)
      (by rw [hl]; exact hv) (by rw [hl, hp, lens_sum]; omega)
    rw [hl] at h2 h5
    rw [hp, hput] at h5
    exact ⟨m', c', h1, h2, h5⟩

theorem encFuncBlocks_spec {evp : Evp σ} {A : Ideal} {bs : Nat} (hA : A.Ok) (I : Implements evp bs A)
    (hbs : 0 < bs) (hbs2 : bs ≤ 128) (n a : Bytes)
    {src : Option Chain} {out : Chain} (hne : out ≠ []) (hin : source src out ≠ [])
    (hroom : (source src out).flatten.length = out.flatten.length)
    (hmax : (source src out).flatten.length ≤ intMax) :
    ∃ out' s, encFuncBlocks evp (I.e n a []) src out bs = .ok (out', s) ∧ lens out' = lens out ∧
      out'.flatten = (A.sealing n a (source src out).flatten).1 ∧
      evp.getTag s A.tagLen = some (A.sealing n a (source src out).flatten).2 := by
  have hw := encBlk_wraps I n a
  have hem := (I.enc n a).em_nil
  have hmod : ∀ p : Bytes, p.length % bs ≤ p.length := fun p => Nat.mod_le _ _
  have hwb := hw.wholeBlocks (held := fun s => s.input - s.written) hbs (I.eoLen n a)
    (by intro p; have := I.eoLen n a p; have := hmod p; simp only; omega)
  obtain ⟨ps, hp, -, hok⟩ := transformBufferBlocks_spec hwb (by simp) hbs hbs2
    hne hin (Nat.le_of_eq hroom)
  obtain ⟨os, hf, ho⟩ := hw.feed ps [] (by rw [List.nil_append, hp]; exact hmax)
  simp only [List.nil_append, hem, hp, List.length_nil] at hf ho
  simp only [hem, List.length_nil] at hok
  obtain ⟨m, cur, h1, h2, h3, h4, h5⟩ := hok os _ hf
  obtain ⟨o, s, f1, f2, f3⟩ := I.encFinal n a (source src out).flatten
  have hol : os.flatten.length + o.length = (source src out).flatten.length := by
    have := congrArg List.length f2
    rw [List.length_append, hA.cipherLen] at this
    rw [ho]; exact this
  have hob : o.length = (source src out).flatten.length % bs := by
    have e1 := I.eoLen n a (source src out).flatten
    have e2 := hmod (source src out).flatten
    rw [ho] at hol
    omega
  have hlt := Nat.mod_lt (source src out).flatten.length hbs
  obtain ⟨g1, m2, c2, g2, g3, g4⟩ := finish_spec h2 h3 h4 h5 (o := o) (by omega)
  have hnb : (source src out).flatten.length - (I.eo n a (source src out).flatten).length
      = o.length := by
    rw [← ho]; omega
  have hres : os.flatten ++ o = (A.sealing n a (source src out).flatten).1 := by rw [ho, f2]
  simp only [encFuncBlocks, h1, Res.ok_bind, f1, hnb]
  by_cases hle : o.length ≤ cur.length (lens m)
  · obtain ⟨m', w1, w2, w3⟩ := g1 hle
    simp only [hle, if_true, w1, Res.ok_bind]
    exact ⟨m', s, rfl, w2, by rw [w3, hres], f3⟩
  · simp only [hle, if_false, g2, Res.ok_bind]
    rw [if_neg (by simp only [kMaxBlock]; omega)]
    exact ⟨m2, s, rfl, g3, by rw [g4, hres], f3⟩

theorem decFuncBlocks_spec {evp : Evp σ} {A : Ideal} {bs : Nat} (hA : A.Ok) (I : Implements evp bs A)
    (hbs : 0 < bs) (hbs2 : bs ≤ 128) (n a tag : Bytes) (htag : tag.length = A.tagLen)
    {src : Option Chain} {out : Chain} (hne : out ≠ []) (hin : source src out ≠ [])
    (hroom : (source src out).flatten.length = out.flatten.length)
    (hmax : (source src out).flatten.length ≤ intMax) :
    ∃ out' b, decFuncBlocks evp (I.d n a []) src out tag bs = .ok (out', b) ∧
      lens out' = lens out ∧
      (if b then some out'.flatten else none) = A.opening n a (source src out).flatten tag := by
  have hw := decBlk_wraps I n a
  have hem := (I.dec n a).em_nil
  have hmod : ∀ p : Bytes, p.length % bs ≤ p.length := fun p => Nat.mod_le _ _
  have hwb := hw.wholeBlocks (held := fun s => s.input - s.written) hbs (I.poLen n a)
    (by intro p; have := I.poLen n a p; have := hmod p; simp only; omega)
  obtain ⟨ps, hp, -, hok⟩ := transformBufferBlocks_spec hwb (by simp) hbs hbs2
    hne hin (Nat.le_of_eq hroom)
  obtain ⟨os, hf, ho⟩ := hw.feed ps [] (by rw [List.nil_append, hp]; exact hmax)
  simp only [List.nil_append, hem, hp, List.length_nil] at hf ho
  simp only [hem, List.length_nil] at hok
  obtain ⟨m, cur, h1, h2, h3, h4, h5⟩ := hok os _ hf
  have hst := I.setTag n a (source src out).flatten tag htag
  cases hop : A.opening n a (source src out).flatten tag with
  | none =>
    refine ⟨m, false, ?_, h2, by simp⟩
    simp only [decFuncBlocks, h1, Res.ok_bind, hst, I.decBad _ _ _ _ hop]
  | some p =>
    obtain ⟨o, f1, f2⟩ := I.decGood _ _ _ _ _ hop
    have hol : os.flatten.length + o.length = (source src out).flatten.length := by
      have := congrArg List.length f2
      rw [List.length_append, hA.plainLen _ _ _ _ _ hop] at this
      rw [ho]; exact this
    have hob : o.length = (source src out).flatten.length % bs := by
      have e1 := I.poLen n a (source src out).flatten
      have e2 := hmod (source src out).flatten
      rw [ho] at hol
      omega
    have hlt := Nat.mod_lt (source src out).flatten.length hbs
    obtain ⟨g1, m2, c2, g2, g3, g4⟩ := finish_spec h2 h3 h4 h5 (o := o) (by omega)
    have hnb : (source src out).flatten.length - (I.po n a (source src out).flatten).length
        = o.length := by
      rw [← ho]; omega
    have hres : os.flatten ++ o = p := by rw [ho, f2]
    simp only [decFuncBlocks, h1, Res.ok_bind, hst, f1, hnb]
    by_cases hle : o.length ≤ cur.length (lens m)
    · obtain ⟨m', w1, w2, w3⟩ := g1 hle
      simp only [hle, if_true, w1, Res.ok_bind]
      exact ⟨m', true, rfl, w2, by rw [if_pos rfl, w3, hres]⟩
    · simp only [hle, if_false, g2, Res.ok_bind]
      rw [if_neg (by simp only [kMaxBlock]; omega)]
      exact ⟨m2, true, rfl, g3, by rw [if_pos rfl, g4, hres]⟩

/-- Block size of the two modes of operation. -/
def modeBlock (blocks : Bool) : Nat := if blocks then 16 else 1

theorem encBody_spec {evp : Evp σ} {A : Ideal} {blocks : Bool} (hA : A.Ok)
    (I : Implements evp (modeBlock blocks) A) (n a : Bytes)
    {src : Option Chain} {out : Chain} (hne : out ≠ []) (hin : source src out ≠ [])
    (hroom : (source src out).flatten.length = out.flatten.length)
    (hmax : (source src out).flatten.length ≤ intMax) :
    ∃ out' s, encBody evp blocks (I.e n a []) src out = .ok (out', s) ∧ lens out' = lens out ∧
      out'.flatten = (A.sealing n a (source src out).flatten).1 ∧
      evp.getTag s A.tagLen = some (A.sealing n a (source src out).flatten).2 := by
  cases blocks with
  | false => exact encFunc_spec hA I n a hne hroom hmax
  | true => exact encFuncBlocks_spec hA I (by decide) (by decide) n a hne hin hroom hmax

theorem decBody_spec {evp : Evp σ} {A : Ideal} {blocks : Bool} (hA : A.Ok)
    (I : Implements evp (modeBlock blocks) A) (n a tag : Bytes) (htag : tag.length = A.tagLen)
    {src : Option Chain} {out : Chain} (hne : out ≠ []) (hin : source src out ≠ [])
    (hroom : (source src out).flatten.length = out.flatten.length)
    (hmax : (source src out).flatten.length ≤ intMax) :
    ∃ out' b, decBody evp blocks (I.d n a []) src out tag = .ok (out', b) ∧ lens out' = lens out ∧
      (if b then some out'.flatten else none) = A.opening n a (source src out).flatten tag := by
  cases blocks with
  | false => exact decFunc_spec hA I n a tag htag hne hroom hmax
  | true => exact decFuncBlocks_spec hA I (by decide) (by decide) n a tag htag hne hin hroom hmax

theorem aad_spec {upd : σ → Bytes → Option σ} {st : Bytes → σ} {msg : String}
    (h : ∀ a x, upd (st a) x = some (st (a ++ x))) : ∀ (c : Chain) (a : Bytes),
    c.flatten.length ≤ intMax → aadLoop upd msg (st a) c = .ok (st (a ++ c.flatten))
  | [], a, _ => by simp [aadLoop]
  | b :: bs, a, hb => by
    rw [List.flatten_cons, List.length_append] at hb
    simp only [aadLoop, h]
    rw [if_neg (by omega), aad_spec h bs (a ++ b) (by omega), List.flatten_cons, List.append_assoc]

end Fizz.Aead

import Verif.Aead.BodyLemmas
import Verif.Aead.Place

/-! Chains of buffers with tailroom (nothing here is a claim). -/

namespace Fizz.Aead

variable {σ : Type}

theorem datas_setDatas {c : List Buf} {m : Chain} (h : m.length = c.length) :
    datas (setDatas c m) = m := by
  induction c generalizing m with
  | nil => cases m with
    | nil => rfl
    | cons a m => simp at h
  | cons b c ih =>
    cases m with
    | nil => simp at h
    | cons a m =>
      have := ih (m := m) (by simpa using h)
      simp only [datas, setDatas] at this ⊢
      simp [this]

theorem setDatas_length {c : List Buf} {m : Chain} (h : m.length = c.length) :
    (setDatas c m).length = c.length := by
  simp [setDatas, h]

theorem lastTailroom_cons {b : Buf} {c : List Buf} (h : c ≠ []) :
    lastTailroom (b :: c) = lastTailroom c := by
  simp [lastTailroom, List.getLast?_cons_of_ne_nil h]

theorem lastTailroom_setDatas {c : List Buf} {m : Chain} (h : m.length = c.length) :
    lastTailroom (setDatas c m) = lastTailroom c := by
  induction c generalizing m with
  | nil => cases m with
    | nil => rfl
    | cons a m => simp at h
  | cons b c ih =>
    cases m with
    | nil => simp at h
    | cons a m =>
      have hm : m.length = c.length := by simpa using h
      by_cases hc : c = []
      · subst hc
        have : m = [] := List.eq_nil_of_length_eq_zero (by simpa using hm)
        subst this; rfl
      · have hs : setDatas c m ≠ [] := by
          intro h0
          have := setDatas_length hm
          rw [h0] at this
          exact hc (List.eq_nil_of_length_eq_zero this.symm)
        have e : setDatas (b :: c) (a :: m) = { b with data := a } :: setDatas c m := rfl
        rw [e, lastTailroom_cons hs, lastTailroom_cons hc, ih hm]

theorem growLast_flat {c : List Buf} {t : Bytes} (h : c ≠ []) :
    (datas (growLast c t)).flatten = (datas c).flatten ++ t := by
  induction c with
  | nil => exact absurd rfl h
  | cons b c ih =>
    cases c with
    | nil => simp [growLast, datas]
    | cons b' c =>
      have := ih (by simp)
      simp only [growLast, datas, List.map_cons, List.flatten_cons] at this ⊢
      rw [this]; simp

theorem cutLast_spec {c : List Buf} {n : Nat} (h : c ≠ []) (hl : n ≤ lastLength c) :
    (cutLast c n).1 ≠ [] ∧
    (datas (cutLast c n).1).flatten = (datas c).flatten.take ((datas c).flatten.length - n) ∧
    (cutLast c n).2 = (datas c).flatten.drop ((datas c).flatten.length - n) ∧
    n ≤ (datas c).flatten.length := by
  induction c with
  | nil => exact absurd rfl h
  | cons b c ih =>
    cases c with
    | nil =>
      simp [lastLength] at hl
      simp [cutLast, datas, hl]
    | cons b' c =>
      obtain ⟨h1, h2, h3, h4⟩ := ih (by simp) (by simpa [lastLength] using hl)
      have e : cutLast (b :: b' :: c) n = (b :: (cutLast (b' :: c) n).1, (cutLast (b' :: c) n).2) := rfl
      have ed : ∀ x : List Buf, (datas (b :: x)).flatten = b.data ++ (datas x).flatten := by
        intro x; simp [datas]
      rw [e]
      simp only [ed, List.length_append]
      refine ⟨by simp, ?_, ?_, by omega⟩
      · rw [h2, List.take_append, List.take_of_length_le (l := b.data) (by omega)]
        congr 2; omega
      · rw [h3, List.drop_append, List.drop_eq_nil_of_le (as := b.data) (by omega), List.nil_append]
        congr 1; omega

theorem trimBytesRev_spec : ∀ (c : Chain) (n : Nat), c ≠ [] → n ≤ (c.reverse.flatten).length →
    ∃ r t, trimBytesRev c n = some (r, t) ∧ r.length = c.length ∧ t.length = n ∧
      r.reverse.flatten ++ t = c.reverse.flatten
  | [], _, h, _ => absurd rfl h
  | b :: bs, n, _, hn => by
    simp only [List.reverse_cons, List.flatten_append, List.flatten_cons, List.flatten_nil,
      List.append_nil, List.length_append] at hn
    simp only [trimBytesRev]
    by_cases h0 : n - min n b.length = 0
    · rw [if_pos h0]
      refine ⟨_, _, rfl, by simp, by simp; omega, ?_⟩
      simp
    · rw [if_neg h0]
      have hne : bs ≠ [] := by
        rintro rfl
        simp at hn; omega
      obtain ⟨r, t, h1, h2, h3, h4⟩ := trimBytesRev_spec bs (n - min n b.length) hne (by omega)
      simp only [h1]
      refine ⟨_, _, rfl, by simp [h2], by simp [h3]; omega, ?_⟩
      have hm : min n b.length = b.length := by omega
      simp only [hm, Nat.sub_self, List.take_zero, List.drop_zero, List.reverse_cons,
        List.flatten_append, List.flatten_cons, List.flatten_nil, List.append_nil]
      rw [← List.append_assoc, h4]

theorem trimBytes_spec {c : Chain} {n : Nat} (hc : c ≠ []) (h : n ≤ c.flatten.length) :
    ∃ r, trimBytes c n = .ok (r, c.flatten.drop (c.flatten.length - n)) ∧ r.length = c.length ∧
      r.flatten = c.flatten.take (c.flatten.length - n) := by
  obtain ⟨r, t, h1, h2, h3, h4⟩ := trimBytesRev_spec c.reverse n (by simpa using hc)
    (by simpa using h)
  rw [List.reverse_reverse] at h4
  have hl : r.reverse.flatten.length = c.flatten.length - n := by
    have := congrArg List.length h4
    rw [List.length_append] at this; omega
  refine ⟨r.reverse, ?_, by simpa using h2, ?_⟩
  · simp only [trimBytes, h1]
    rw [← hl, ← h4]
    simp
  · rw [← hl, ← h4]
    simp

variable {τ : Type}

/-- `encryptHelper` over any implementation that puts `cipher` in the place of the plaintext and then
gives `tag`. -/
theorem encryptWith_spec {s0 : σ} {body : σ → Option Chain → Chain → Res (Chain × τ)}
    {final : τ → Nat → Res Bytes} {slack tagLen headroom : Nat} {opts : AeadOptions}
    {cipher tag : Bytes} {plainBytes : Bytes}
    (hbody : ∀ src out, out ≠ [] → source src out ≠ [] →
      (source src out).flatten.length = out.flatten.length → (source src out).flatten = plainBytes →
      ∃ m s, body s0 src out = .ok (m, s) ∧ lens m = lens out ∧ m.flatten = cipher ∧
        final s tagLen = .ok tag)
    (plain : List Buf) (hne : plain ≠ [])
    (hsize : headroom + (datas plain).flatten.length + tagLen < 2^64)
    (hpl : (datas plain).flatten = plainBytes := by rfl) :
    (¬ InPlace plain opts → opts.allocOpt = .deny →
      encryptWith (.ok s0) body final slack plain tagLen headroom opts =
        .error (.rt "Cannot encrypt (must be in-place or allow allocation)")) ∧
    (InPlace plain opts → ¬ TagFits plain opts tagLen → opts.allocOpt = .deny →
      encryptWith (.ok s0) body final slack plain tagLen headroom opts =
        .error (.rt "Cannot encrypt (insufficient space for tag)")) ∧
    (opts.allocOpt = .allow ∨ (InPlace plain opts ∧ TagFits plain opts tagLen) →
      ∃ r, encryptWith (.ok s0) body final slack plain tagLen headroom opts = .ok r ∧
        (datas r).flatten = cipher ++ tag) := by
  have hip : (!isShared plain || opts.bufferOpt != .respectSharedPolicy) = true ↔
      InPlace plain opts := by
    simp [InPlace]
  have hdl : (datas plain) ≠ [] := by simpa [datas] using hne
  by_cases hin : InPlace plain opts
  · have hb := hip.mpr hin
    obtain ⟨m, s, e1, e2, e3, e4⟩ := hbody none (datas plain) hdl hdl rfl hpl
    have hml : m.length = plain.length := by
      rw [← lens_length, e2, lens_length]; simp [datas]
    have hsd : datas (setDatas plain m) = m := datas_setDatas hml
    have hst : lastTailroom (setDatas plain m) = lastTailroom plain := lastTailroom_setDatas hml
    have hsne : setDatas plain m ≠ [] := by
      intro h
      have := setDatas_length hml
      rw [h] at this
      exact hne (List.eq_nil_of_length_eq_zero this.symm)
    have hfit : (decide (lastTailroom plain < tagLen) ||
        !(opts.bufferOpt == .allowFullModification || !isShared plain)) = false ↔
        TagFits plain opts tagLen := by
      simp only [TagFits]
      cases opts.bufferOpt <;> cases hs : isShared plain <;> simp [InPlace] at hin ⊢ <;>
        simp_all
    refine ⟨fun h => absurd hin h, ?_, ?_⟩
    · intro _ hnf hd
      have hf := mt hfit.mp hnf
      rw [Bool.not_eq_false] at hf
      simp only [encryptWith, Res.ok_bind, hb, Bool.not_true, Bool.false_and,
        Bool.or_false, if_true, e1, hst, hf, hd]
      rfl
    · intro hor
      by_cases hf : TagFits plain opts tagLen
      · have hf' := hfit.mpr hf
        refine ⟨growLast (setDatas plain m) tag, ?_, ?_⟩
        · simp only [encryptWith, Res.ok_bind, hb, Bool.not_true,
            Bool.false_and, Bool.or_false, if_true, e1, hst, hf', e4]
          rfl
        · rw [growLast_flat hsne, hsd, e3]
      · have hd : opts.allocOpt = .allow := by
          rcases hor with h | h
          · exact h
          · exact absurd h.2 hf
        have hf' := mt hfit.mp hf
        rw [Bool.not_eq_false] at hf'
        refine ⟨setDatas plain m ++ [⟨tag, slack, false⟩], ?_, ?_⟩
        · simp only [encryptWith, Res.ok_bind, hb, Bool.not_true,
            Bool.false_and, Bool.or_false, if_true, e1, hst, hf', e4, hd]
          rfl
        · have : datas (setDatas plain m ++ [⟨tag, slack, false⟩]) = datas (setDatas plain m) ++
              [tag] := by simp [datas]
          rw [this, hsd, List.flatten_append, e3]; simp
  · have hb : (!isShared plain || opts.bufferOpt != .respectSharedPolicy) = false := by
      rw [← Bool.not_eq_true]; exact mt hip.mp hin
    refine ⟨?_, fun h => absurd h hin, ?_⟩
    · intro _ hd
      simp only [encryptWith, Res.ok_bind, hb, hd]
      rfl
    · intro hor
      have hd : opts.allocOpt = .allow := by
        rcases hor with h | h
        · exact h
        · exact absurd h.1 hin
      obtain ⟨m, s, e1, e2, e3, e4⟩ := hbody (some (datas plain))
        [List.replicate (datas plain).flatten.length 0] (by simp) hdl
        (by simp [source]) hpl
      have hml : m.length = 1 := by rw [← lens_length, e2, lens_length]; rfl
      obtain ⟨x, rfl⟩ := List.length_eq_one_iff.mp hml
      refine ⟨growLast [⟨x, tagLen + slack, false⟩] tag, ?_, ?_⟩
      · simp only [encryptWith, Res.ok_bind, hb, hd]
        have hsz : decide (2^64 ≤ headroom + (datas plain).flatten.length + tagLen) = false := by
          simpa using hsize
        simp only [hsz, Bool.and_false, Bool.false_eq_true, if_false]
        have : datas [(⟨List.replicate (datas plain).flatten.length 0, tagLen + slack, false⟩ :
          Buf)] = [List.replicate (datas plain).flatten.length 0] := rfl
        simp only [this, e1, Res.ok_bind, e4]
        have h2 : setDatas [(⟨List.replicate (datas plain).flatten.length 0, tagLen + slack,
          false⟩ : Buf)] [x] = [⟨x, tagLen + slack, false⟩] := rfl
        simp only [h2]
        have h3 : lastTailroom [(⟨x, tagLen + slack, false⟩ : Buf)] = tagLen + slack := rfl
        simp [h3]
        intro h; omega
      · rw [growLast_flat (by simp)]
        simp only [List.flatten_cons, List.flatten_nil, List.append_nil] at e3
        simp [datas, e3]

/-- `decryptHelper` over any implementation that finds `result`. -/
theorem decryptWith_spec {s0 : σ} {body : σ → Option Chain → Chain → Res (Chain × Bool)}
    {slack : Nat} {ct : List Buf} {inPlace : Bool} {result : Option Bytes}
    (hbody : ∀ src out, out ≠ [] → source src out ≠ [] →
      (source src out).flatten.length = out.flatten.length →
      (source src out).flatten = (datas ct).flatten →
      ∃ m b, body s0 src out = .ok (m, b) ∧ lens m = lens out ∧
        (if b then some m.flatten else none) = result)
    (hne : ct ≠ []) :
    ∃ r, decryptWith (.ok s0) body slack ct inPlace = .ok r ∧
      r.map (fun b => (datas b).flatten) = result := by
  have hdl : (datas ct) ≠ [] := by simpa [datas] using hne
  cases inPlace with
  | true =>
    obtain ⟨m, b, e1, e2, e3⟩ := hbody none (datas ct) hdl hdl rfl rfl
    have hml : m.length = ct.length := by
      rw [← lens_length, e2, lens_length]; simp [datas]
    simp only [decryptWith, Res.ok_bind, if_true, e1]
    cases b with
    | true => exact ⟨some (setDatas ct m), rfl, by simpa [datas_setDatas hml] using e3⟩
    | false => exact ⟨none, rfl, by simpa using e3⟩
  | false =>
    obtain ⟨m, b, e1, e2, e3⟩ := hbody (some (datas ct))
      [List.replicate (datas ct).flatten.length 0] (by simp) hdl (by simp [source]) rfl
    have hml : m.length = 1 := by rw [← lens_length, e2, lens_length]; rfl
    have hd : datas [(⟨List.replicate (datas ct).flatten.length 0, slack, false⟩ : Buf)] =
      [List.replicate (datas ct).flatten.length 0] := rfl
    simp only [decryptWith, Res.ok_bind, Bool.false_eq_true, if_false, hd, e1]
    cases b with
    | true =>
      refine ⟨_, rfl, ?_⟩
      rw [if_pos rfl] at e3
      rw [Option.map_some, datas_setDatas hml, e3]
    | false => exact ⟨none, rfl, by simpa using e3⟩

/-- `tryDecrypt` over any implementation that opens body and tag. -/
theorem tryDecryptWith_spec {dec : List Buf → Bytes → Bool → Res (Option (List Buf))}
    {tagLength maxTag : Nat} (hmax : tagLength ≤ maxTag) (ct : List Buf) (hne : ct ≠ [])
    (opts : AeadOptions) {opening : Bytes → Bytes → Option Bytes}
    (hdec : ∀ ct' tag inPlace, ct' ≠ [] → (datas ct').flatten.length ≤ (datas ct).flatten.length →
      tag.length = tagLength → ∃ r, dec ct' tag inPlace = .ok r ∧
        r.map (fun b => (datas b).flatten) = opening (datas ct').flatten tag) :
    ((datas ct).flatten.length < tagLength →
      tryDecryptWith dec tagLength maxTag ct opts = .ok none) ∧
    (tagLength ≤ (datas ct).flatten.length → ¬ InPlace ct opts → opts.allocOpt = .deny →
      tryDecryptWith dec tagLength maxTag ct opts =
        .error (.rt "Unable to decrypt (no-alloc requires in-place)")) ∧
    (tagLength ≤ (datas ct).flatten.length → InPlace ct opts → opts.allocOpt = .deny →
      lastLength ct < tagLength →
      tryDecryptWith dec tagLength maxTag ct opts =
        .error (.rt "Unable to decrypt (tag is fragmented and no allocation allowed)")) ∧
    (opts.allocOpt = .allow ∨ (InPlace ct opts ∧ tagLength ≤ lastLength ct) →
      ∀ body tag, (datas ct).flatten = body ++ tag → tag.length = tagLength →
      ∃ r, tryDecryptWith dec tagLength maxTag ct opts = .ok r ∧
        r.map (fun b => (datas b).flatten) = opening body tag) := by
  have hip : (!isShared ct || opts.bufferOpt != .respectSharedPolicy) = true ↔ InPlace ct opts := by
    simp [InPlace]
  refine ⟨?_, ?_, ?_, ?_⟩
  · intro h
    simp only [tryDecryptWith, h, if_true]
  · intro h hin hd
    have hb : (!isShared ct || opts.bufferOpt != .respectSharedPolicy) = false := by
      rw [← Bool.not_eq_true]; exact mt hip.mp hin
    simp only [tryDecryptWith, hb, hd]
    rw [if_neg (by omega)]
    rfl
  · intro h hin hd hl
    simp only [tryDecryptWith, hip.mpr hin, hd]
    rw [if_neg (by omega)]
    simp only [Bool.not_true, Bool.false_and, Bool.false_eq_true, if_false]
    rw [if_neg (by omega)]
    rfl
  · intro hor body tag hsplit htl
    have hlen : (datas ct).flatten.length = body.length + tag.length := by
      rw [hsplit, List.length_append]
    have hbody : (datas ct).flatten.take ((datas ct).flatten.length - tagLength) = body := by
      rw [hlen, ← htl, hsplit]; simp
    have htag' : (datas ct).flatten.drop ((datas ct).flatten.length - tagLength) = tag := by
      rw [hlen, ← htl, hsplit]; simp
    have hc1 : (!(!isShared ct || opts.bufferOpt != .respectSharedPolicy) &&
        opts.allocOpt == .deny) = false := by
      rcases hor with h | h
      · rw [h]; simp
      · rw [hip.mpr h.1]; rfl
    simp only [tryDecryptWith, hc1]
    rw [if_neg (by omega)]
    simp only [Bool.false_eq_true, if_false]
    by_cases hl : tagLength ≤ lastLength ct
    · rw [if_pos hl]
      obtain ⟨k1, k2, k3, -⟩ := cutLast_spec hne hl
      rw [hbody] at k2
      rw [htag'] at k3
      have := hdec (cutLast ct tagLength).1 (cutLast ct tagLength).2
        (!isShared ct || opts.bufferOpt != .respectSharedPolicy) k1 (by rw [k2]; omega)
        (by rw [k3, htl])
      rw [k2, k3] at this
      rw [k3]
      exact this
    · have hal : opts.allocOpt = .allow := by
        rcases hor with h | h
        · exact h
        · exact absurd h.2 hl
      rw [if_neg hl, if_neg (by rw [hal]; decide), if_neg (by omega)]
      obtain ⟨m, t1, t2, t3⟩ := trimBytes_spec (c := datas ct) (n := tagLength)
        (by simpa [datas] using hne) (by omega)
      rw [htag'] at t1
      rw [hbody] at t3
      have hml : m.length = ct.length := by rw [t2]; simp [datas]
      have hsne : setDatas ct m ≠ [] := by
        intro h
        have := setDatas_length hml
        rw [h] at this
        exact hne (List.eq_nil_of_length_eq_zero this.symm)
      have := hdec (setDatas ct m) tag
        (!isShared ct || opts.bufferOpt != .respectSharedPolicy) hsne
        (by rw [datas_setDatas hml, t3]; omega) htl
      rw [datas_setDatas hml, t3] at this
      simp only [t1, Res.ok_bind]
      exact this

end Fizz.Aead

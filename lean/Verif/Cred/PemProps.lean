import Verif.Cred.Pem
import Verif.Cred.Props

/-! # C91: delegated credentials as PEM text -/

namespace Fizz.Cred.Pem
open Fizz Fizz.Codec Fizz.Cred Fizz.KS

/-! ## Specification -/

/-- Text that is empty or ends with a newline. -/
def Lines (t : Bytes) : Prop := t = [] ∨ ∃ u, t = u ++ [10]

/-- Base64 as used here: decoding inverts encoding, and the encoding has no dashes and no white
space. -/
structure Lib.Ok {K} (l : Lib K) : Prop where
  decode : ∀ x, l.base64Decode (l.base64Encode x) = some x
  plain : ∀ x c, c ∈ l.base64Encode x → c ≠ 45 ∧ isspace c = false

/-- The four labels of a mode. -/
def labels (m : Mode) : List Bytes := [dcHeader m, dcFooter m, dcKeyHeader m, dcKeyFooter m]

/-- A private key in PEM text: the lines between header and footer have no dashes. -/
def keyText (body : Bytes) : Bytes := kPrivateKeyHeader ++ body ++ kPrivateKeyFooter

/-! ## Searching text -/

/-- A line: one newline, at its end. -/
structure IsLine (n : Bytes) : Prop where
  eq : n = n.dropLast ++ [10]
  no : 10 ∉ n.dropLast
  dash : 45 ∈ n

theorem labels_line (m : Mode) : ∀ n ∈ labels m, IsLine n := by
  intro n hn
  have : n = n.dropLast ++ [10] ∧ 10 ∉ n.dropLast ∧ 45 ∈ n := by
    revert n
    cases m <;> decide +kernel
  exact ⟨this.1, this.2.1, this.2.2⟩

theorem priv_line : IsLine kPrivateKeyHeader ∧ IsLine kPrivateKeyFooter :=
  ⟨⟨by decide +kernel, by decide +kernel, by decide +kernel⟩,
    ⟨by decide +kernel, by decide +kernel, by decide +kernel⟩⟩

theorem IsLine.ne_nil {n : Bytes} (h : IsLine n) : n ≠ [] := by
  rw [h.eq]; simp

theorem IsLine.lines {n : Bytes} (h : IsLine n) : Lines n := .inr ⟨_, h.eq⟩

theorem find_none {n : Bytes} (hn : n ≠ []) : ∀ {s : Bytes}, find n s = none ↔ ¬ n <:+: s := by
  intro s
  induction s with
  | nil => simp [find, hn]
  | cons c cs ih =>
    unfold find
    rw [List.infix_cons_iff]
    by_cases h : n.isPrefixOf (c :: cs) = true
    · rw [if_pos h]
      simp [List.isPrefixOf_iff_prefix.1 h]
    · rw [if_neg h]
      rw [List.isPrefixOf_iff_prefix] at h
      simp [h, ih]

theorem find_skip {n : Bytes} (hn : n ≠ []) : ∀ (pre rest : Bytes),
    (∀ q, q < pre.length → ¬ n <+: pre.drop q ++ rest) → n <+: rest →
    find n (pre ++ rest) = some pre.length := by
  intro pre
  induction pre with
  | nil =>
    intro rest _ h
    cases rest with
    | nil => exact absurd (List.prefix_nil.1 h) hn
    | cons c cs =>
      show find n (c :: cs) = some 0
      unfold find
      rw [if_pos (List.isPrefixOf_iff_prefix.2 h)]
  | cons c cs ih =>
    intro rest hq h
    show find n (c :: (cs ++ rest)) = some (cs.length + 1)
    unfold find
    rw [if_neg (by rw [List.isPrefixOf_iff_prefix]; exact hq 0 (by simp)),
      ih rest (fun q h' => hq (q + 1) (by simpa using h')) h]
    rfl

/-- A line that does not stand in the text before it is found where it is. -/
theorem find_line {n : Bytes} (hn : IsLine n) (pre post : Bytes) (h : ¬ n <:+: pre) :
    find n (pre ++ (n ++ post)) = some pre.length := by
  refine find_skip hn.ne_nil pre _ (fun q hq hp => ?_) (List.prefix_append _ _)
  obtain ⟨y, hy⟩ := hp
  by_cases hk : n.length ≤ (pre.drop q).length
  · have : n <+: pre.drop q := by
      have hp : n <+: pre.drop q ++ (n ++ post) := ⟨y, hy⟩
      exact List.prefix_of_prefix_length_le hp (List.prefix_append _ _) hk
    exact h (this.isInfix.trans (List.drop_suffix q pre).isInfix)
  · -- the newline of the first occurrence falls into the second one, before its newline
    have hkl : (pre.drop q).length = pre.length - q := List.length_drop ..
    have hnl : n.length = n.dropLast.length + 1 := by
      conv => lhs; rw [hn.eq]
      simp
    have e1 : (n ++ y)[n.length - 1]? = some 10 := by
      rw [List.getElem?_append_left (by omega)]
      conv => lhs; arg 1; rw [hn.eq]
      rw [List.getElem?_append_right (by omega)]
      rw [show n.length - 1 - n.dropLast.length = 0 by omega]
      rfl
    rw [hy, List.getElem?_append_right (by omega), List.getElem?_append_left (by omega)] at e1
    have e2 : n.dropLast[n.length - 1 - (pre.drop q).length]? = some 10 := by
      have hlt : n.length - 1 - (pre.drop q).length < n.dropLast.length := by omega
      rw [← e1]
      conv => rhs; arg 1; rw [hn.eq]
      rw [List.getElem?_append_left hlt]
    exact hn.no (List.mem_of_getElem? e2)

theorem infix_append {n a b : Bytes} (hn : IsLine n) (ha : Lines a) (h1 : ¬ n <:+: a)
    (h2 : ¬ n <:+: b) : ¬ n <:+: a ++ b := by
  rintro ⟨x, y, h⟩
  rw [List.append_assoc] at h
  rcases List.append_eq_append_iff.1 h with ⟨c, rfl, hc⟩ | ⟨c, rfl, hc⟩
  · rcases List.append_eq_append_iff.1 hc with ⟨d, rfl, -⟩ | ⟨d, hd, hb⟩
    · exact h1 ⟨x, d, by simp⟩
    · cases c with
      | nil =>
        apply h2
        rw [hb]
        simp only [List.nil_append] at hd
        rw [hd]
        exact ⟨[], y, rfl⟩
      | cons c0 cs =>
        cases d with
        | nil => exact h1 ⟨x, [], by simp [hd]⟩
        | cons d0 ds =>
          rcases ha with ha | ⟨u, hu⟩
          · simp at ha
          · have hlast : (10 : UInt8) ∈ c0 :: cs := by
              have : (x ++ c0 :: cs).getLast? = some 10 := by rw [hu]; simp
              have h2 : (x ++ c0 :: cs).getLast? = some ((c0 :: cs).getLast (by simp)) := by
                rw [List.getLast?_append, List.getLast?_eq_some_getLast (by simp)]; rfl
              rw [h2] at this
              rw [← Option.some.inj this]
              exact List.getLast_mem _
            apply hn.no
            rw [hd, List.dropLast_append_of_ne_nil (by simp)]
            exact List.mem_append_left _ hlast
  · exact h2 ⟨c, y, by rw [hc]; simp⟩

theorem no_dash {n b : Bytes} (hn : IsLine n) (h : 45 ∉ b) : ¬ n <:+: b :=
  fun hi => h (hi.subset hn.dash)

theorem Lines.append {a b : Bytes} (ha : Lines a) (hb : Lines b) : Lines (a ++ b) := by
  rcases hb with rfl | ⟨u, rfl⟩
  · simpa using ha
  · exact .inr ⟨a ++ u, by simp⟩

/-- No label stands in another one, nor in the labels of a plain private key. -/
theorem labels_distinct (m : Mode) : (∀ n ∈ labels m, ∀ k ∈ labels m, n ≠ k → ¬ n <:+: k) := by
  have key : ∀ n ∈ labels m, ∀ k ∈ labels m, n ≠ k → find n k = none := by
    cases m <;> decide +kernel
  intro n hn k hk h
  exact (find_none (labels_line m n hn).ne_nil).1 (key n hn k hk h)

theorem labels_modes (m m' : Mode) (h : m ≠ m') : ∀ n ∈ labels m, ∀ k ∈ labels m', ¬ n <:+: k := by
  have key : ∀ n ∈ labels m, ∀ k ∈ labels m', find n k = none := by
    cases m <;> cases m' <;> first | exact absurd rfl h | decide +kernel
  intro n hn k hk
  exact (find_none (labels_line m n hn).ne_nil).1 (key n hn k hk)

theorem priv_distinct : ¬ kPrivateKeyFooter <:+: kPrivateKeyHeader :=
  (find_none priv_line.2.ne_nil).1 (by decide +kernel)

/-! ## Making the text -/

theorem replace_at (a b c str : Bytes) : replace (a ++ (b ++ c)) a.length b.length str =
    .ok (a ++ str ++ c) := by
  unfold replace
  rw [if_neg (by simp)]
  congr 2
  · rw [List.take_left' rfl]
  · rw [← List.append_assoc, List.drop_left' (by simp)]

theorem relabel_eq (m : Mode) (body tail : Bytes) (hb : 45 ∉ body) :
    relabelKey m (keyText body ++ tail) = .ok (dcKeyHeader m ++ body ++ dcKeyFooter m ++ tail) := by
  have e : keyText body ++ tail =
      (kPrivateKeyHeader ++ body) ++ (kPrivateKeyFooter ++ tail) := by
    simp [keyText]
  have f1 : find kPrivateKeyHeader (keyText body ++ tail) = some 0 := by
    have := find_line priv_line.1 [] (body ++ (kPrivateKeyFooter ++ tail))
      (by intro h; exact priv_line.1.ne_nil (List.infix_nil.1 h))
    simpa [keyText] using this
  have f2 : find kPrivateKeyFooter (keyText body ++ tail) = some (kPrivateKeyHeader ++ body).length := by
    rw [e]
    exact find_line priv_line.2 _ _
      (infix_append priv_line.2 priv_line.1.lines priv_distinct (no_dash priv_line.2 hb))
  unfold relabelKey
  rw [f1, f2]
  simp only
  rw [e, replace_at]
  simp only [Res.ok_bind]
  have := replace_at [] kPrivateKeyHeader (body ++ dcKeyFooter m ++ tail) (dcKeyHeader m)
  simp only [List.nil_append, List.length_nil, List.append_assoc] at this ⊢
  exact this

/-- C91: the text made of a credential and a private key: the encoded credential between its labels and
the key's text between the labels of the mode. -/
theorem C91_generate {K} (l : Lib K) (m : Mode) (cred : DelegatedCredential) (body tail text : Bytes)
    (hb : 45 ∉ body) :
    generate l m cred (keyText body ++ tail) = .ok text ↔ Spec.Fits cred ∧
      text = dcHeader m ++ (l.base64Encode (Spec.wire cred) ++ [10]) ++ dcFooter m ++
        (dcKeyHeader m ++ body ++ dcKeyFooter m ++ tail) := by
  simp only [generate, relabel_eq m body tail hb, Res.bind_eq_ok, Res.ok_bind, Res.pure_eq,
    Except.ok.injEq, encodeDelegatedCredential_eq_ok]
  constructor
  · rintro ⟨_, ⟨h, rfl⟩, rfl⟩; exact ⟨h, by simp⟩
  · rintro ⟨h, rfl⟩; exact ⟨_, ⟨h, rfl⟩, by simp⟩

/-- C91: text without the labels of a private key is refused. -/
theorem C91_no_key {K} (l : Lib K) (m : Mode) (cred : DelegatedCredential) (key text : Bytes)
    (h : ¬ kPrivateKeyHeader <:+: key ∨ ¬ kPrivateKeyFooter <:+: key) :
    generate l m cred key ≠ .ok text := by
  have : relabelKey m key = .error (Failure.rt "Invalid key data") := by
    unfold relabelKey
    rcases h with h | h
    · rw [(find_none priv_line.1.ne_nil).2 h]
    · rw [(find_none priv_line.2.ne_nil).2 h]
      cases find kPrivateKeyHeader key <;> rfl
  simp only [generate, this, ne_eq, Res.bind_eq_ok, not_exists, not_and]
  rintro _ _ _ h
  cases h

/-! ## Reading it -/

/-- Text in the layout of `generate`, with something before and after it. -/
structure Layout (m : Mode) (pre b64 body post text : Bytes) : Prop where
  eq : text = pre ++ (dcHeader m ++ ((b64 ++ [10]) ++ (dcFooter m ++ (dcKeyHeader m ++ (body ++
    (dcKeyFooter m ++ post))))))
  pre_lines : Lines pre
  pre_free : ∀ n ∈ labels m, ¬ n <:+: pre
  b64_dash : 45 ∉ b64
  body_lines : Lines body
  body_dash : 45 ∉ body
  fits : text.length < 2 ^ 64

theorem layout_find {m pre b64 body post text} (h : Layout m pre b64 body post text) :
    find (dcHeader m) text = some pre.length ∧
    find (dcFooter m) text = some (pre ++ (dcHeader m ++ (b64 ++ [10]))).length ∧
    find (dcKeyHeader m) text =
      some (pre ++ (dcHeader m ++ (b64 ++ [10])) ++ dcFooter m).length ∧
    find (dcKeyFooter m) text =
      some (pre ++ (dcHeader m ++ (b64 ++ [10])) ++ dcFooter m ++ (dcKeyHeader m ++ body)).length := by
  have mem : dcHeader m ∈ labels m ∧ dcFooter m ∈ labels m ∧ dcKeyHeader m ∈ labels m ∧
      dcKeyFooter m ∈ labels m := by simp [labels]
  have dist : dcFooter m ≠ dcHeader m ∧ dcKeyHeader m ≠ dcHeader m ∧ dcKeyHeader m ≠ dcFooter m ∧
      dcKeyFooter m ≠ dcHeader m ∧ dcKeyFooter m ≠ dcFooter m ∧ dcKeyFooter m ≠ dcKeyHeader m := by
    cases m <;> decide +kernel
  have l1 := labels_line m _ mem.1
  have l2 := labels_line m _ mem.2.1
  have l3 := labels_line m _ mem.2.2.1
  have l4 := labels_line m _ mem.2.2.2
  have nb : ∀ n, IsLine n → ¬ n <:+: b64 ++ [10] := by
    intro n hn
    exact no_dash hn (by simp [h.b64_dash])
  have bl : Lines (b64 ++ [10]) := .inr ⟨_, rfl⟩
  have p2 : ∀ n, n ∈ labels m → n ≠ dcHeader m → ¬ n <:+: pre ++ (dcHeader m ++ (b64 ++ [10])) := by
    intro n hn hne
    have hl := labels_line m n hn
    exact infix_append hl h.pre_lines (h.pre_free n hn)
      (infix_append hl l1.lines (labels_distinct m n hn _ mem.1 hne) (nb n hl))
  have q2 : Lines (pre ++ (dcHeader m ++ (b64 ++ [10]))) := h.pre_lines.append (l1.lines.append bl)
  have p3 : ∀ n, n ∈ labels m → n ≠ dcHeader m → n ≠ dcFooter m →
      ¬ n <:+: pre ++ (dcHeader m ++ (b64 ++ [10])) ++ dcFooter m := by
    intro n hn h1 h2
    exact infix_append (labels_line m n hn) q2 (p2 n hn h1) (labels_distinct m n hn _ mem.2.1 h2)
  have q3 := q2.append l2.lines
  refine ⟨?_, ?_, ?_, ?_⟩
  · rw [h.eq]
    exact find_line l1 _ _ (h.pre_free _ mem.1)
  · have := find_line l2 (pre ++ (dcHeader m ++ (b64 ++ [10])))
      (dcKeyHeader m ++ (body ++ (dcKeyFooter m ++ post))) (p2 _ mem.2.1 dist.1)
    rw [← this, h.eq]
    simp only [List.append_assoc]
  · have := find_line l3 (pre ++ (dcHeader m ++ (b64 ++ [10])) ++ dcFooter m)
      (body ++ (dcKeyFooter m ++ post)) (p3 _ mem.2.2.1 dist.2.1 dist.2.2.1)
    rw [← this, h.eq]
    simp only [List.append_assoc]
  · have := find_line l4 (pre ++ (dcHeader m ++ (b64 ++ [10])) ++ dcFooter m ++ (dcKeyHeader m ++ body))
      post (infix_append l4 q3 (p3 _ mem.2.2.2 dist.2.2.2.1 dist.2.2.2.2.1)
        (infix_append l4 l3.lines (labels_distinct m _ mem.2.2.2 _ mem.2.2.1 dist.2.2.2.2.2)
          (no_dash l4 h.body_dash)))
    rw [← this, h.eq]
    simp only [List.append_assoc]

theorem w_key {a b c : Nat} (h : a + b + c < 2 ^ 64) : wadd (wsub (a + b) a) c = b + c := by
  unfold wadd wsub; omega

theorem w_tail {a b : Nat} (h : a + b < 2 ^ 64) : wsub (a + b) b = a := by
  unfold wsub; omega

theorem w_cred {a b c : Nat} (h : a + (b + (c + 1)) < 2 ^ 64) :
    wsub (wsub (wsub (a + (b + (c + 1))) a) b) 1 = c := by
  unfold wsub; omega

/-- The text between two labels, with the labels replaced. -/
theorem relabelled (P KH body KF post PH PF : Bytes) (hp : PH.length ≤ KH.length)
    (hlen : P.length + (KH ++ body).length + KF.length < 2 ^ 64) :
    (do
      let b ← substr (P ++ ((KH ++ (body ++ KF)) ++ post)) P.length
        (wadd (wsub (P ++ (KH ++ body)).length P.length) KF.length)
      let b ← replace b 0 KH.length PH
      replace b (wsub b.length KF.length) KF.length PF) = .ok (PH ++ body ++ PF) := by
  have hw : wadd (wsub (P ++ (KH ++ body)).length P.length) KF.length =
      (KH ++ (body ++ KF)).length := by
    rw [List.length_append, w_key hlen]; simp only [List.length_append]; omega
  have hsub : substr (P ++ ((KH ++ (body ++ KF)) ++ post)) P.length (KH ++ (body ++ KF)).length =
      .ok (KH ++ (body ++ KF)) := by
    unfold substr
    rw [if_neg (by simp), List.drop_left' rfl, List.take_left' rfl]
  rw [hw, hsub, Res.ok_bind]
  have r1 := replace_at [] KH (body ++ KF) PH
  simp only [List.nil_append, List.length_nil] at r1
  rw [r1, Res.ok_bind]
  have hw2 : wsub (PH ++ (body ++ KF)).length KF.length = (PH ++ body).length := by
    rw [← List.append_assoc, List.length_append, w_tail]
    simp only [List.length_append] at hlen ⊢
    omega
  rw [hw2]
  have r2 := replace_at (PH ++ body) KF [] PF
  simp only [List.append_nil, List.append_assoc] at r2 ⊢
  exact r2

theorem layout_key {m pre b64 body post text} (h : Layout m pre b64 body post text) :
    keyBuffer m text = .ok (keyText body) := by
  obtain ⟨-, -, f3, f4⟩ := layout_find h
  have hlen := h.fits
  have hpl : kPrivateKeyHeader.length ≤ (dcKeyHeader m).length := by cases m <;> decide +kernel
  have e : text = (pre ++ (dcHeader m ++ (b64 ++ [10])) ++ dcFooter m) ++
      ((dcKeyHeader m ++ (body ++ dcKeyFooter m)) ++ post) := by
    rw [h.eq]; simp only [List.append_assoc]
  unfold keyBuffer
  rw [f3, f4]
  simp only
  generalize hP : pre ++ (dcHeader m ++ (b64 ++ [10])) ++ dcFooter m = P at e ⊢
  have hl2 : P.length + (dcKeyHeader m ++ body).length + (dcKeyFooter m).length < 2 ^ 64 := by
    have := congrArg List.length e
    simp only [List.length_append] at this ⊢
    omega
  rw [e]
  exact relabelled P (dcKeyHeader m) body (dcKeyFooter m) post kPrivateKeyHeader kPrivateKeyFooter hpl hl2

theorem layout_cred {K} (l : Lib K) (hl : l.Ok) {m pre body post text}
    {cred : DelegatedCredential} (hf : Spec.Fits cred)
    (h : Layout m pre (l.base64Encode (Spec.wire cred)) body post text) :
    decodeCred l text pre.length (pre ++ (dcHeader m ++ (l.base64Encode (Spec.wire cred) ++ [10]))).length
      (dcHeader m).length = .ok cred := by
  have hlen := h.fits
  have e := congrArg List.length h.eq
  have hw : wsub (wsub (wsub (pre ++ (dcHeader m ++ (l.base64Encode (Spec.wire cred) ++ [10]))).length
      pre.length) (dcHeader m).length) 1 = (l.base64Encode (Spec.wire cred)).length := by
    rw [List.length_append, List.length_append, List.length_append, List.length_singleton]
    apply w_cred
    simp only [List.length_append, List.length_singleton] at e
    omega
  unfold decodeCred
  rw [hw]
  have hs : substr text (pre.length + (dcHeader m).length) (l.base64Encode (Spec.wire cred)).length =
      .ok (l.base64Encode (Spec.wire cred)) := by
    have e' : text = (pre ++ dcHeader m) ++ (l.base64Encode (Spec.wire cred) ++ ([10] ++ (dcFooter m ++
        (dcKeyHeader m ++ (body ++ (dcKeyFooter m ++ post)))))) := by
      rw [h.eq]; simp only [List.append_assoc]
    unfold substr
    rw [if_neg (by rw [e']; simp)]
    rw [e', List.drop_left' (by simp), List.take_left' rfl]
  rw [hs]
  simp only [Res.ok_bind]
  have hfil : (l.base64Encode (Spec.wire cred)).filter (fun c => ¬ isspace c) =
      l.base64Encode (Spec.wire cred) := by
    apply List.filter_eq_self.2
    intro c hc
    simp [(hl.plain _ c hc).2]
  rw [hfil, hl.decode]
  simp only
  have hg : getDelegatedCredential [⟨delegated_credential, Spec.wire cred⟩] = .ok (some cred) := by
    rw [(C39_lossless cred).2.1]
    exact ⟨⟨34, Spec.wire cred⟩, [], [], [], ((C39_lossless cred).1 _).2 ⟨hf, rfl⟩, by simp; rfl, by simp⟩
  rw [hg]
  rfl

/-- C91: reading the text back: between any other text (such as the certificates) that does not have
the labels, the loader takes exactly the private key and the credential that were written, and makes the
self credential of them and of the certificates in the text. -/
theorem C91_roundtrip {K} (o : Ossl K) (l : Lib K) (hl : l.Ok) (m : Mode)
    (cred : DelegatedCredential) (body tail pem pre post : Bytes) (hbody : Lines body)
    (hdash : 45 ∉ body) (hg : generate l m cred (keyText body ++ tail) = .ok pem)
    (hpre : Lines pre) (hfree : ∀ n ∈ labels m, ¬ n <:+: pre)
    (hlen : (pre ++ pem ++ post).length < 2 ^ 64) :
    load o l (pre ++ pem ++ post) m = (do
      let key ← l.readPrivateKey (keyText body)
      SelfDelegated.create o .p256 m (l.readCerts (pre ++ pem ++ post)) key cred) := by
  obtain ⟨hf, rfl⟩ := (C91_generate l m cred body tail pem hdash).1 hg
  have lay : Layout m pre (l.base64Encode (Spec.wire cred)) body (tail ++ post)
      (pre ++ (dcHeader m ++ (l.base64Encode (Spec.wire cred) ++ [10]) ++ dcFooter m ++
        (dcKeyHeader m ++ body ++ dcKeyFooter m ++ tail)) ++ post) :=
    { eq := by simp only [List.append_assoc]
      pre_lines := hpre
      pre_free := hfree
      b64_dash := fun h => (hl.plain _ _ h).1 rfl
      body_lines := hbody
      body_dash := hdash
      fits := hlen }
  obtain ⟨f1, f2, -, -⟩ := layout_find lay
  unfold load
  rw [layout_key lay]
  simp only [Res.ok_bind]
  cases l.readPrivateKey (keyText body) with
  | error f => rfl
  | ok key =>
    simp only [Res.ok_bind]
    rw [f1, f2]
    simp only
    rw [layout_cred l hl hf lay]
    rfl

/-- C91: text without the key labels of a mode is not loaded for this mode. -/
theorem C91_no_labels {K} (o : Ossl K) (l : Lib K) (m : Mode) (text : Bytes)
    (h : ¬ dcKeyHeader m <:+: text ∨ ¬ dcKeyFooter m <:+: text) :
    load o l text m = .error (Failure.rt "Failed to load delegated credential key from pem") := by
  have l3 := labels_line m (dcKeyHeader m) (by simp [labels])
  have l4 := labels_line m (dcKeyFooter m) (by simp [labels])
  have : keyBuffer m text = .error (Failure.rt "Failed to load delegated credential key from pem") := by
    unfold keyBuffer
    rcases h with h | h
    · rw [(find_none l3.ne_nil).2 h]
    · rw [(find_none l4.ne_nil).2 h]
      cases find (dcKeyHeader m) text <;> rfl
  unfold load
  rw [this]
  rfl

/-- C91: a credential written for one role is not loaded for the other. -/
theorem C91_mode {K} (o : Ossl K) (l : Lib K) (hl : l.Ok) (m m' : Mode) (hm : m' ≠ m)
    (cred : DelegatedCredential) (body pem : Bytes) (hbody : Lines body) (hdash : 45 ∉ body)
    (hg : generate l m cred (keyText body) = .ok pem) :
    load o l pem m' = .error (Failure.rt "Failed to load delegated credential key from pem") := by
  have hg' : generate l m cred (keyText body ++ []) = .ok pem := by simpa using hg
  obtain ⟨hf, rfl⟩ := (C91_generate l m cred body [] pem hdash).1 hg'
  refine C91_no_labels o l m' _ (.inl ?_)
  have mem : dcKeyHeader m' ∈ labels m' := by simp [labels]
  have ln := labels_line m' _ mem
  have lab : ∀ k ∈ labels m, ¬ dcKeyHeader m' <:+: k := labels_modes m' m hm _ mem
  have lk : ∀ k ∈ labels m, Lines k := fun k hk => (labels_line m k hk).lines
  have m1 : dcHeader m ∈ labels m := by simp [labels]
  have m2 : dcFooter m ∈ labels m := by simp [labels]
  have m3 : dcKeyHeader m ∈ labels m := by simp [labels]
  have m4 : dcKeyFooter m ∈ labels m := by simp [labels]
  have b1 : Lines (l.base64Encode (Spec.wire cred) ++ [10]) := .inr ⟨_, rfl⟩
  have b2 : ¬ dcKeyHeader m' <:+: l.base64Encode (Spec.wire cred) ++ [10] :=
    no_dash ln (by
      simp only [List.mem_append, List.mem_singleton, not_or]
      exact ⟨fun h => (hl.plain _ _ h).1 rfl, by decide⟩)
  rw [List.append_nil]
  refine infix_append ln (((lk _ m1).append b1).append (lk _ m2)) ?_ ?_
  · exact infix_append ln ((lk _ m1).append b1) (infix_append ln (lk _ m1) (lab _ m1) b2) (lab _ m2)
  · exact infix_append ln ((lk _ m3).append hbody)
      (infix_append ln (lk _ m3) (lab _ m3) (no_dash ln hdash)) (lab _ m4)

/-- C91 (what the code does): a key text with something before its header is damaged: the header's label
is written over the first 28 bytes of the text, not over the header. -/
theorem C91_prefix (m : Mode) (junk body : Bytes) (hj : Lines junk)
    (hd : 45 ∉ junk) (hb : 45 ∉ body) :
    relabelKey m (junk ++ keyText body) =
      .ok (dcKeyHeader m ++ (junk ++ kPrivateKeyHeader ++ body ++ dcKeyFooter m).drop 28) := by
  have f1 : ∃ p, find kPrivateKeyHeader (junk ++ keyText body) = some p := by
    cases h : find kPrivateKeyHeader (junk ++ keyText body) with
    | some p => exact ⟨p, rfl⟩
    | none =>
      exact absurd ⟨junk, body ++ kPrivateKeyFooter, by simp [keyText]⟩
        ((find_none priv_line.1.ne_nil).1 h)
  obtain ⟨p, f1⟩ := f1
  have e : junk ++ keyText body = (junk ++ kPrivateKeyHeader ++ body) ++ (kPrivateKeyFooter ++ []) := by
    simp [keyText]
  have f2 : find kPrivateKeyFooter (junk ++ keyText body) =
      some (junk ++ kPrivateKeyHeader ++ body).length := by
    rw [e]
    exact find_line priv_line.2 _ _
      (infix_append priv_line.2 (hj.append priv_line.1.lines)
        (infix_append priv_line.2 hj (no_dash priv_line.2 hd) priv_distinct) (no_dash priv_line.2 hb))
  unfold relabelKey
  rw [f1, f2]
  simp only
  rw [e, replace_at]
  simp only [Res.ok_bind, List.append_nil]
  unfold replace
  rw [if_neg (by omega), show 0 + kPrivateKeyHeader.length = 28 by decide +kernel]
  simp

theorem reversed (KF KH PH PF : Bytes) (hp : PH.length < KF.length) (h : KF.length < 2 ^ 64) :
    (do
      let b ← substr (KF ++ KH) KF.length (wadd (wsub 0 KF.length) KF.length)
      let b ← replace b 0 KH.length PH
      replace b (wsub b.length KF.length) KF.length PF) = .error Failure.outOfRange := by
  have w1 : ∀ a, a < 2 ^ 64 → wadd (wsub 0 a) a = 0 := by
    intro a ha; unfold wadd wsub; omega
  have w2 : ∀ p a, p < a → a < 2 ^ 64 → wsub p a > p := by
    intro p a h1 h2; unfold wsub; omega
  have s1 : substr (KF ++ KH) KF.length 0 = .ok [] := by
    unfold substr
    rw [if_neg (by simp)]
    simp
  have r1 : replace [] 0 KH.length PH = .ok PH := by simp [replace]
  rw [w1 _ h, s1, Res.ok_bind, r1, Res.ok_bind]
  unfold replace
  rw [if_pos (w2 _ _ hp h)]

/-- C91 (what the code does): text with the key's footer right before its header ends in an exception
(`std::out_of_range`) and not in an error. -/
theorem C91_reversed {K} (o : Ossl K) (l : Lib K) (m : Mode) :
    load o l (dcKeyFooter m ++ dcKeyHeader m) m = .error Failure.outOfRange := by
  have : keyBuffer m (dcKeyFooter m ++ dcKeyHeader m) = .error Failure.outOfRange := by
    have mem3 : dcKeyHeader m ∈ labels m := by simp [labels]
    have mem4 : dcKeyFooter m ∈ labels m := by simp [labels]
    have hne : dcKeyHeader m ≠ dcKeyFooter m := by cases m <;> decide +kernel
    have l3 := labels_line m _ mem3
    have l4 := labels_line m _ mem4
    have f3 : find (dcKeyHeader m) (dcKeyFooter m ++ dcKeyHeader m) = some (dcKeyFooter m).length := by
      have := find_line l3 (dcKeyFooter m) [] (labels_distinct m _ mem3 _ mem4 hne)
      simpa using this
    have f4 : find (dcKeyFooter m) (dcKeyFooter m ++ dcKeyHeader m) = some 0 :=
      find_line l4 [] (dcKeyHeader m) (fun h => l4.ne_nil (List.infix_nil.1 h))
    have hp : kPrivateKeyHeader.length < (dcKeyFooter m).length := by cases m <;> decide +kernel
    have h4 : (dcKeyFooter m).length < 2 ^ 64 := by cases m <;> decide +kernel
    unfold keyBuffer
    rw [f3, f4]
    exact reversed (dcKeyFooter m) (dcKeyHeader m) kPrivateKeyHeader kPrivateKeyFooter hp h4
  unfold load
  rw [this]
  rfl

/-! ## A concrete case -/

/-- Base64 replaced by two letters per byte. -/
def toyLib : Lib Nat where
  base64Encode x := x.flatMap fun b => [UInt8.ofNat (97 + b.toNat / 16), UInt8.ofNat (97 + b.toNat % 16)]
  base64Decode t := some (dec t)
  readPrivateKey t := if t = keyText [65, 10] then .ok 7 else .error (Failure.rt "no key")
  readCerts _ := []
where
  dec : Bytes → Bytes
    | h :: l :: r => UInt8.ofNat ((h.toNat - 97) * 16 + (l.toNat - 97)) :: dec r
    | _ => []

theorem toyLib_ok : toyLib.Ok where
  decode := by
    intro x
    show some (toyLib.dec _) = some x
    congr 1
    induction x with
    | nil => rfl
    | cons b bs ih =>
      have hb := b.toNat_lt
      show UInt8.ofNat (((UInt8.ofNat (97 + b.toNat / 16)).toNat - 97) * 16 +
        ((UInt8.ofNat (97 + b.toNat % 16)).toNat - 97)) :: toyLib.dec (toyLib.base64Encode bs) = _
      rw [ih, UInt8.toNat_ofNat', UInt8.toNat_ofNat',
        show ((97 + b.toNat / 16) % 2 ^ 8 - 97) * 16 + ((97 + b.toNat % 16) % 2 ^ 8 - 97) = b.toNat by
          omega]
      simp
  plain := by
    intro x c hc
    have fact : ∀ n, n < 16 → UInt8.ofNat (97 + n) ≠ 45 ∧ isspace (UInt8.ofNat (97 + n)) = false := by
      decide +kernel
    simp only [toyLib, List.mem_flatMap, List.mem_cons, List.not_mem_nil, or_false] at hc
    obtain ⟨b, -, rfl | rfl⟩ := hc
    · exact fact _ (by have := b.toNat_lt; omega)
    · exact fact _ (by omega)

/-- A credential, with a comment line before it. -/
example (o : Ossl Nat) : ∃ pem, generate toyLib .server ⟨100, 0x0403, [1, 2, 3], 0x0403, [4, 5]⟩
      (keyText [65, 10]) = .ok pem ∧
    load o toyLib ([35, 10] ++ pem ++ [35, 10]) .server =
      SelfDelegated.create o .p256 .server [] 7 ⟨100, 0x0403, [1, 2, 3], 0x0403, [4, 5]⟩ := by
  have hg := (C91_generate toyLib .server ⟨100, 0x0403, [1, 2, 3], 0x0403, [4, 5]⟩ [65, 10] [] _
    (by decide)).2 ⟨by simp [Spec.Fits], rfl⟩
  rw [List.append_nil] at hg
  refine ⟨_, hg, ?_⟩
  have hg' : generate toyLib .server ⟨100, 0x0403, [1, 2, 3], 0x0403, [4, 5]⟩ (keyText [65, 10] ++ []) =
    .ok _ := (congrArg (generate toyLib .server _) (List.append_nil _)).trans hg
  rw [C91_roundtrip o toyLib toyLib_ok .server _ [65, 10] [] _ [35, 10] [35, 10] (.inr ⟨[65], rfl⟩)
    (by decide) hg' (.inr ⟨[35], rfl⟩)
    (fun n hn => no_dash (labels_line _ n hn) (by decide)) (by decide +kernel)]
  have hk : toyLib.readPrivateKey (keyText [65, 10]) = .ok 7 := by
    show (if keyText [65, 10] = keyText [65, 10] then (.ok 7 : Res Nat)
      else .error (Failure.rt "no key")) = _
    exact if_pos rfl
  rw [hk, Res.ok_bind]
  rfl

end Fizz.Cred.Pem

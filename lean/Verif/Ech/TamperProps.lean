import Verif.Ech.CryptProps

/-!
# The outer hello cannot be changed (C66)
-/

namespace Fizz.Ech
open Fizz Fizz.Codec Fizz.Crypto Fizz.Kex Fizz.Hpke
open Fizz.Ech.Spec (types GoodAead SameButTrailing)
open Fizz.ClientSM (encryptHello)

theorem clientHello_inj {a b : ClientHello} (ha : Codec.Spec.ClientHelloFits a) (hb : Codec.Spec.ClientHelloFits b)
    (h : Codec.Spec.clientHello a = Codec.Spec.clientHello b) : a = b := by
  have h1 : readClientHello (Codec.Spec.clientHello a ++ []) = .ok (a, []) := readClientHello_eq_ok.2 ⟨ha, .inl rfl⟩
  have h2 : readClientHello (Codec.Spec.clientHello b ++ []) = .ok (b, []) := readClientHello_eq_ok.2 ⟨hb, .inl rfl⟩
  rw [h, h2] at h1
  simpa using h1.symm

theorem outerEchWire_inj {a b : OuterEch} (ha : Spec.OuterEchFits a) (hb : Spec.OuterEchFits b)
    (h : (Spec.outerEchWire a).extension_data = (Spec.outerEchWire b).extension_data) : a = b := by
  have h1 := (codec_outerEch.2.2 (Spec.outerEchWire a).extension_data a []).2 ⟨ha, by simp⟩
  have h2 := (codec_outerEch.2.2 (Spec.outerEchWire b).extension_data b []).2 ⟨hb, by simp⟩
  rw [h, h2] at h1
  simpa using h1.symm

/-- The first extension of a type splits a list in one way. -/
theorem split_inj {t : UInt16} {x y : Extension} : ∀ {pre pre' post post' : List Extension},
    pre ++ x :: post = pre' ++ y :: post' → t ∉ types pre → t ∉ types pre' → x.extension_type = t →
    y.extension_type = t → pre = pre' ∧ x = y ∧ post = post'
  | [], [], _, _, h, _, _, _, _ => by simpa using h
  | [], z :: zs, _, _, h, _, h2, hx, _ => by
    simp only [List.nil_append, List.cons_append, List.cons.injEq] at h
    exact absurd (by rw [types_cons, ← h.1, hx]; exact List.mem_cons_self) h2
  | z :: zs, [], _, _, h, h1, _, _, hy => by
    simp only [List.nil_append, List.cons_append, List.cons.injEq] at h
    exact absurd (by rw [types_cons, h.1, hy]; exact List.mem_cons_self) h1
  | z :: zs, w :: ws, _, _, h, h1, h2, hx, hy => by
    simp only [List.cons_append, List.cons.injEq] at h
    rw [types_cons, List.mem_cons] at h1 h2
    obtain ⟨a, b, c⟩ := split_inj h.2 (fun h => h1 (.inr h)) (fun h => h2 (.inr h)) hx hy
    exact ⟨by rw [h.1, a], b, c⟩

theorem outerAad_eq_ok {o a} : outerAad o = .ok a ↔ ∃ e trailing, Spec.Aad o e trailing a := by
  unfold outerAad Spec.Aad
  simp only [Res.bind_eq_ok, zeroPayload_eq_ok, encodeClientHello_eq_ok]
  constructor
  · rintro ⟨r, ⟨pre, e, t, post, h1, h2, h3, rfl⟩, h4, rfl⟩
    exact ⟨e, t, pre, post, _, h1, h2, h3, rfl, h4, rfl⟩
  · rintro ⟨e, t, pre, post, z, h1, h2, h3, rfl, h4, rfl⟩
    exact ⟨_, ⟨pre, e, t, post, h1, h2, h3, rfl⟩, h4, rfl⟩

/-- The ECH extension of an outer hello. -/
theorem aad_ext {o e t a} (h : Spec.Aad o e t a) :
    findExtension o.extensions tyEch = some ⟨0xfe0d, (Spec.outerEchWire e).extension_data ++ t⟩ ∧
    readOuterEch ((Spec.outerEchWire e).extension_data ++ t) = .ok (e, t) := by
  obtain ⟨pre, post, z, h1, h2, h3, -⟩ := h
  refine ⟨?_, (codec_outerEch.2.2 _ _ _).2 ⟨h3, rfl⟩⟩
  rw [findExtension_some]
  refine ⟨rfl, pre, post, h1, ?_⟩
  intro x hx ht
  exact h2 (List.mem_map.2 ⟨x, hx, ht⟩)

/-- The additional data determines the hello but for the payload. -/
theorem aad_inj {o o' e e' t t' a} (h : Spec.Aad o e t a) (h' : Spec.Aad o' e' t' a) (hp : e'.payload = e.payload) :
    SameButTrailing o o' ∧ e' = e := by
  obtain ⟨pre, post, z, h1, h2, h3, rfl, h4, rfl⟩ := h
  obtain ⟨pre', post', z', g1, g2, g3, rfl, g4, g5⟩ := h'
  have hz := clientHello_inj h4 g4 g5
  simp only [ClientHello.mk.injEq] at hz
  obtain ⟨z1, z2, z3, z4, z5, z6⟩ := hz
  obtain ⟨rfl, hx, rfl⟩ := split_inj z6 h2 g2 rfl rfl
  have he := outerEchWire_inj (a := { e with payload := List.replicate e.payload.length 0 })
    (b := { e' with payload := List.replicate e'.payload.length 0 }) ⟨h3.1, by simpa using h3.2⟩
    ⟨g3.1, by simpa using g3.2⟩ (congrArg Extension.extension_data hx)
  have hee : e' = e := by
    cases e; cases e'
    simp only [OuterEch.mk.injEq] at he hp ⊢
    exact ⟨he.1.symm, he.2.1.symm, he.2.2.1.symm, hp⟩
  subst hee
  refine ⟨⟨pre, post, e', t, t', h2, h1, ?_⟩, rfl⟩
  cases o; cases o'
  simp only at z1 z2 z3 z4 z5 g1
  simp only [ClientHello.mk.injEq]
  exact ⟨z1.symm, z2.symm, z3.symm, z4.symm, z5.symm, g1⟩

/-- C66: what the client sends is sealed with the whole outer hello as additional data, but for the payload. -/
theorem C66_sealed (P : Prims) (hP : ∀ s C, P.cipher s = .ok C → GoodAead C) {K : Kex}
    (kex : K.State) (gen use : K.Rand) (n : Negotiated) (enc : Bytes) (c0 : Context)
    (hs : setupSender P kex gen use n = .ok (enc, c0)) (c : Context) (hc : c = c0 ∨ c = { c0 with seq := 1 })
    (T : List UInt16) (inner : ClientHello) (hd : (types inner.extensions).Nodup)
    (first : Bool) (inp : ClientSM.Inp)
    (hinp : inp.echEncrypt = fun i o g => body (if first then encryptFirst n enc c T i o g else encryptRetry n c T i o g))
    (random : Random) (name : Bytes) (g : Option ClientPresharedKey) (o : ClientHello)
    (hsend : encryptHello inp first inner random name g = .ok o) :
    ∃ e a nonce pt, Spec.Aad o e [] a ∧ Record.createIV c.seq c.cipher.ivLength c.iv = .ok nonce ∧
      c.cipher.enc c.key nonce a pt = .ok e.payload ∧ encodeInner inner n.maxLen.toNat T = .ok pt ∧
      e.suite = n.suite ∧ e.configId = n.configId ∧ e.enc = (if first then enc else []) := by
  obtain ⟨outer, e, c', psk, hf, hpsk, hfit, rfl, hsid, hrest⟩ := encryptHello_ok hinp hsend
  obtain ⟨hne, -, -⟩ := hrest [] hd (by simp)
  obtain ⟨-, -, cs, -, hC⟩ := setupSender_ok hs
  have hC' : GoodAead c.cipher := by
    rcases hc with rfl | rfl
    · exact hP _ _ hC
    · exact hP _ _ hC
  have key : ∀ x, encryptImpl x inner outer c g n.maxLen.toNat T = .ok (e, c') →
      ∃ a nonce pt, Spec.Aad { outer with extensions := outer.extensions ++ [Spec.outerEchWire e] ++ psk } e [] a ∧
        Record.createIV c.seq c.cipher.ivLength c.iv = .ok nonce ∧ c.cipher.enc c.key nonce a pt = .ok e.payload ∧
        encodeInner inner n.maxLen.toNat T = .ok pt ∧ e.suite = x.suite ∧ e.configId = x.configId ∧ e.enc = x.enc := by
    intro x hx
    obtain ⟨padded, psk', aad, ct, nonce, h1, h2, h3, h4, h5, h6, h7, h8, rfl, rfl⟩ := encryptImpl_ok hx
    rw [hpsk] at h2
    simp only [Except.ok.injEq] at h2
    subst h2
    obtain ⟨-, hlen⟩ := hC' _ _ _ _ _ h7
    obtain ⟨h4a, rfl⟩ := encodeClientHello_eq_ok.1 h4
    refine ⟨_, nonce, padded, ⟨outer.extensions, psk, _, ?_, hne, hfit, ?_, h4a, rfl⟩, h6, h7, h1, rfl, rfl, rfl⟩
    · simp [Spec.outerEchWire]
    · rw [hlen]; simp only [List.append_assoc, List.singleton_append]
  cases first
  · exact ⟨e, key _ hf⟩
  · exact ⟨e, key _ hf⟩

/-- C66: if the AEAD, with the key and the nonce of this hello, opens nothing but what the client sealed, then a
hello that the server opens with the client's context is the one the client sent, but possibly for bytes after
the structure in the ECH extension; and none if it is checked, as `getExtension` does, that there are none. -/
theorem C66_tamper (o o' : ClientHello) (e e' : OuterEch) (t' a : Bytes) (c : Context)
    (hsent : Spec.Aad o e [] a)
    (hauth : ∀ nonce a' ct pt, Record.createIV c.seq c.cipher.ivLength c.iv = .ok nonce →
      c.cipher.dec c.key nonce a' ct = some pt → a' = a ∧ ct = e.payload)
    (x' : Extension) (hx : findExtension o'.extensions 0xfe0d = some x') (hr : readOuterEch x'.extension_data = .ok (e', t'))
    (r : Opened) (hopen : decryptWith o' e'.payload c = .ok r) :
    SameButTrailing o o' ∧ e' = e ∧
      ((∃ y, getExtension 0xfe0d readOuterEch o'.extensions = .ok (some y)) → o' = o) := by
  unfold decryptWith at hopen
  simp only [Res.bind_eq_ok, Prod.exists] at hopen
  obtain ⟨a', h1, pt, c', h2, -⟩ := hopen
  obtain ⟨e2, t2, h3⟩ := outerAad_eq_ok.1 h1
  obtain ⟨f1, f2⟩ := aad_ext h3
  rw [show (0xfe0d : UInt16) = tyEch from rfl, f1] at hx
  cases Option.some.inj hx
  rw [f2] at hr
  simp only [Except.ok.injEq, Prod.mk.injEq] at hr
  obtain ⟨rfl, rfl⟩ := hr
  obtain ⟨rfl, hp⟩ : a' = a ∧ e2.payload = e.payload := by
    simp only [sealed, Res.bind_eq_ok] at h2
    obtain ⟨pt', h2, -⟩ := h2
    unfold Context.openMsg at h2
    split at h2
    · simp at h2
    · split at h2
      · simp at h2
      · next pt2 hd =>
        simp only [Context.decrypt, Res.bind_eq_ok] at hd
        obtain ⟨nonce, d1, d2⟩ := hd
        split at d2
        · next pt3 d3 => exact hauth nonce _ _ _ d1 d3
        · simp at d2
  obtain ⟨s1, s2⟩ := aad_inj hsent h3 hp
  refine ⟨s1, s2, ?_⟩
  rintro ⟨y, hy⟩
  have hff : findExtension o'.extensions 0xfe0d = some ⟨0xfe0d, (Spec.outerEchWire e2).extension_data ++ t2⟩ := f1
  unfold getExtension at hy
  rw [hff] at hy
  simp only [f2] at hy
  have ht : t2 = [] := by
    split at hy
    · next h => simpa using h
    · simp at hy
  subst ht
  obtain ⟨pre, post, z, k1, k2, -⟩ := hsent
  obtain ⟨pre', post', z', l1, l2, -⟩ := h3
  obtain ⟨p1, p2, x1, u1, u2, m1, m2, m3⟩ := s1
  rw [m3] at l1 ⊢
  simp only at l1
  obtain ⟨rfl, q1, rfl⟩ := split_inj l1 m1 l2 rfl rfl
  rw [q1, s2]
  rw [k1] at m2
  obtain ⟨rfl, q2, rfl⟩ := split_inj m2 k2 m1 rfl rfl
  rw [← k1]

end Fizz.Ech

import Verif.Ech.Crypt
import Verif.Ech.CryptSpec
import Verif.Ech.TypesProps
import Verif.Ech.OuterProps
import Verif.Hpke.Props
import Verif.ClientSM.Hello

/-!
# The inner hello reaches the server (C65)
-/

namespace Fizz.Ech
open Fizz Fizz.Codec Fizz.Crypto Fizz.Kex Fizz.Hpke
open Fizz.Ech.Spec (types Contiguous GoodAead Compressible)

/-! ## The additional data -/

theorem zeroPayload_eq_ok : ∀ {exts r}, zeroPayload exts = .ok r ↔ ∃ pre e trailing post,
    exts = pre ++ ⟨0xfe0d, (Spec.outerEchWire e).extension_data ++ trailing⟩ :: post ∧ 0xfe0d ∉ types pre ∧
      Spec.OuterEchFits e ∧
      r = pre ++ Spec.outerEchWire { e with payload := List.replicate e.payload.length 0 } :: post
  | [], r => by simp [zeroPayload]
  | x :: xs, r => by
    unfold zeroPayload
    by_cases hx : x.extension_type = tyEch
    · rw [if_pos hx]
      simp only [Res.bind_eq_ok, Prod.exists, Res.pure_eq, Except.ok.injEq, codec_outerEch.2.2, codec_outerEch.2.1]
      constructor
      · rintro ⟨e, rest, ⟨hf, hd⟩, z, ⟨-, rfl⟩, rfl⟩
        refine ⟨[], e, rest, xs, ?_, by simp [types], hf, rfl⟩
        rw [List.nil_append, ← hd, show (0xfe0d : UInt16) = x.extension_type from hx.symm]
      · rintro ⟨pre, e, rest, post, h1, h2, h3, h4⟩
        cases pre with
        | nil =>
          simp only [List.nil_append, List.cons.injEq] at h1 h4
          obtain ⟨rfl, rfl⟩ := h1
          refine ⟨e, rest, ⟨h3, rfl⟩, _, ⟨⟨h3.1, by simpa using h3.2⟩, rfl⟩, h4.symm⟩
        | cons y ys =>
          simp only [List.cons_append, List.cons.injEq] at h1
          rw [← h1.1] at h2
          exact absurd (by rw [types_cons, hx]; exact List.mem_cons_self) h2
    · rw [if_neg hx]
      simp only [Res.bind_eq_ok, Res.pure_eq, Except.ok.injEq]
      constructor
      · rintro ⟨r', h, rfl⟩
        obtain ⟨pre, e, t, post, rfl, h2, h3, rfl⟩ := zeroPayload_eq_ok.1 h
        refine ⟨x :: pre, e, t, post, rfl, ?_, h3, rfl⟩
        rw [types_cons, List.mem_cons]
        rintro (h | h)
        · exact hx h.symm
        · exact h2 h
      · rintro ⟨pre, e, t, post, h1, h2, h3, h4⟩
        cases pre with
        | nil =>
          simp only [List.nil_append, List.cons.injEq] at h1
          exact absurd (by rw [h1.1]; rfl) hx
        | cons y ys =>
          simp only [List.cons_append, List.cons.injEq] at h1 h4
          obtain ⟨rfl, rfl⟩ := h1
          refine ⟨_, zeroPayload_eq_ok.2 ⟨ys, e, t, post, rfl, fun h => h2 (List.mem_cons_of_mem _ h), h3, rfl⟩, h4.symm⟩

/-! ## Sealing -/

theorem overhead_eq {a n} (h : cipherOverhead a = .ok n) : n = 16 := by
  unfold cipherOverhead at h
  split at h
  · simpa using h.symm
  · split at h
    · simpa using h.symm
    · split at h
      · simpa using h.symm
      · simp at h

theorem encryptImpl_ok {e inner outer ctx g m T e' ctx'} (h : encryptImpl e inner outer ctx g m T = .ok (e', ctx')) :
    ∃ padded psk aad ct nonce, encodeInner inner m T = .ok padded ∧ optPsk g = .ok psk ∧
      (Spec.OuterEchFits { e with payload := List.replicate (padded.length + 16) 0 }) ∧
      encodeClientHello { outer with extensions := outer.extensions ++
        [Spec.outerEchWire { e with payload := List.replicate (padded.length + 16) 0 }] ++ psk } = .ok aad ∧
      ctx.role = .sender ∧ Record.createIV ctx.seq ctx.cipher.ivLength ctx.iv = .ok nonce ∧
      ctx.cipher.enc ctx.key nonce aad padded = .ok ct ∧ ¬ ctx.seq ≥ 0xffffffffffffffff - 1 ∧
      e' = { e with payload := ct } ∧ ctx' = { ctx with seq := ctx.seq + 1 } := by
  unfold encryptImpl at h
  simp only [Res.bind_eq_ok, Prod.exists, Res.pure_eq, Except.ok.injEq, Prod.mk.injEq, codec_outerEch.2.1] at h
  obtain ⟨padded, h1, n, h2, x1, ⟨h3, rfl⟩, psk, h4, aad, h5, ct, c', h6, rfl, rfl⟩ := h
  have hn := overhead_eq h2
  subst hn
  simp only [sealed, Res.bind_eq_ok, Res.pure_eq, Except.ok.injEq, Prod.mk.injEq] at h6
  obtain ⟨ct', h6, rfl, rfl⟩ := h6
  unfold Context.sealMsg at h6 ⊢
  by_cases hr : ctx.role = .sender
  · rw [if_neg (by simpa using hr)] at h6 ⊢
    cases he : ctx.encrypt aad padded with
    | error f => rw [he] at h6; simp at h6
    | ok ct2 =>
      rw [he] at h6
      simp only at h6 ⊢
      unfold Context.incrementSeq at h6 ⊢
      by_cases hq : ctx.seq ≥ 0xffffffffffffffff - 1
      · rw [if_pos hq] at h6; simp at h6
      · rw [if_neg hq] at h6 ⊢
        simp only [Except.ok.injEq] at h6
        subst h6
        simp only [Context.encrypt, Res.bind_eq_ok] at he
        obtain ⟨nonce, e1, e2⟩ := he
        exact ⟨padded, psk, aad, ct2, nonce, h1, h4, h3, h5, hr, e1, e2, hq, rfl, rfl⟩
  · rw [if_pos hr] at h6; simp at h6

/-- What the server gets out of a sealed hello. -/
theorem decryptWith_of {e inner outer ctx g m T e' ctx' psk} (h : encryptImpl e inner outer ctx g m T = .ok (e', ctx'))
    (hpsk : optPsk g = .ok psk) (hC : GoodAead ctx.cipher) (hne : 0xfe0d ∉ types outer.extensions)
    (hsid : outer.legacy_session_id = inner.legacy_session_id)
    {bytes} (henc : encodeHandshake (.clientHello inner) = .ok bytes)
    (h0 : 0xfd00 ∉ types inner.extensions) (hd : (types inner.extensions).Nodup) (hech : 0xfe0d ∉ T)
    (hcont : Contiguous T inner.extensions)
    (hout : List.Sublist (inner.extensions.filter fun e => T.contains e.extension_type) outer.extensions)
    (ho : (types (outer.extensions ++ [Spec.outerEchWire e'] ++ psk)).Nodup) :
    decryptWith { outer with extensions := outer.extensions ++ [Spec.outerEchWire e'] ++ psk } e'.payload
      { ctx with role := .receiver } = .ok ⟨inner, bytes, { ctx' with role := .receiver }⟩ := by
  obtain ⟨padded, psk', aad, ct, nonce, h1, h2, h3, h4, h5, h6, h7, h8, rfl, rfl⟩ := encryptImpl_ok h
  rw [hpsk] at h2
  simp only [Except.ok.injEq] at h2
  subst h2
  obtain ⟨hdec, hlen⟩ := hC _ _ _ _ _ h7
  have haad : outerAad { outer with extensions := outer.extensions ++ [Spec.outerEchWire { e with payload := ct }] ++ psk } =
      .ok aad := by
    unfold outerAad
    rw [Res.bind_eq_ok]
    refine ⟨_, zeroPayload_eq_ok.2 ⟨outer.extensions, { e with payload := ct }, [], psk, ?_, hne, ?_, rfl⟩, ?_⟩
    · simp [Spec.outerEchWire]
    · refine ⟨h3.1, ?_⟩
      have := h3.2
      simp only [List.length_replicate] at this
      rw [hlen]; exact this
    · rw [← h4, hlen]
      simp only [List.append_assoc, List.singleton_append]
  unfold encodeInner at h1
  simp only [Res.bind_eq_ok, Res.pure_eq, Except.ok.injEq] at h1
  obtain ⟨c, hc, encd, hencd, pad, -, rfl⟩ := h1
  unfold decryptWith
  rw [haad]
  simp only [Res.ok_bind]
  have hopen : sealed (Context.openMsg { ctx with role := .receiver } aad ct) =
      .ok (encd ++ List.replicate pad 0, { ctx with seq := ctx.seq + 1, role := .receiver }) := by
    unfold sealed Context.openMsg Context.decrypt Context.incrementSeq
    rw [if_neg (by simp)]
    simp only [h6, Res.ok_bind, hdec, if_neg h8, Res.pure_eq]
  rw [hopen]
  simp only [Res.ok_bind]
  obtain ⟨hfit, rfl⟩ := encodeClientHello_eq_ok.1 hencd
  have hread : readClientHello (Codec.Spec.clientHello { inner with legacy_session_id := [], extensions := c } ++
      List.replicate pad 0) = .ok ({ inner with legacy_session_id := [], extensions := c }, List.replicate pad 0) :=
    readClientHello_eq_ok.2 ⟨hfit, .inl rfl⟩
  have hsub : substituteOuter c (outer.extensions ++ [Spec.outerEchWire { e with payload := ct }] ++ psk) =
      .ok inner.extensions := by
    obtain ⟨out, a, -, b⟩ := C34_roundtrip inner.extensions _ c T h0 hd (fun h => absurd h hech)
      (by rw [List.append_assoc]; exact hout.trans (List.sublist_append_left _ _)) ho hc
    rw [a, b.2 hcont]
  unfold decodeInner
  rw [hread]
  simp only [Res.ok_bind, checkPadding]
  rw [if_pos (by simp)]
  simp only [Res.ok_bind, hsub, hsid]
  rw [show ({ legacy_version := inner.legacy_version, random := inner.random, legacy_session_id := inner.legacy_session_id, cipher_suites := inner.cipher_suites, legacy_compression_methods := inner.legacy_compression_methods, extensions := inner.extensions } : ClientHello) = inner from rfl,
    henc]
  rfl

/-! ## The outer hello -/

open Fizz.ClientSM (removeExt replaceExt encryptHello echExt greaseExt)

theorem types_removeExt (t : UInt16) : ∀ l, List.Sublist (types (removeExt t l)) (types l)
  | [] => List.Sublist.slnil
  | e :: es => by
    unfold removeExt
    split
    · exact List.sublist_cons_self _ _
    · rw [types_cons, types_cons]; exact (types_removeExt t es).cons₂ _

theorem not_mem_removeExt (t : UInt16) : ∀ l, (types l).Nodup → t ∉ types (removeExt t l)
  | [], _ => by simp [removeExt, types]
  | e :: es, h => by
    rw [types_cons, List.nodup_cons] at h
    unfold removeExt
    split
    · next he => rw [← he]; exact h.1
    · next he =>
      rw [types_cons, List.mem_cons]
      rintro (h' | h')
      · exact he h'.symm
      · exact not_mem_removeExt t es h.2 h'

theorem filter_removeExt {T : List UInt16} {t : UInt16} (ht : t ∉ T) : ∀ l,
    (removeExt t l).filter (fun e => T.contains e.extension_type) = l.filter (fun e => T.contains e.extension_type)
  | [] => rfl
  | e :: es => by
    unfold removeExt
    split
    · next he =>
      rw [List.filter_cons, if_neg]
      rw [he]; simpa using ht
    · rw [List.filter_cons, List.filter_cons, filter_removeExt ht es]

theorem types_replaceExt (n : Extension) : ∀ l, n.extension_type ∈ types l ∧ types (replaceExt n l) = types l ∨
    n.extension_type ∉ types l ∧ types (replaceExt n l) = types l ++ [n.extension_type]
  | [] => by simp [replaceExt, types]
  | e :: es => by
    unfold replaceExt
    split
    · next he => left; simp [types_cons, he]
    · next he =>
      rcases types_replaceExt n es with ⟨h1, h2⟩ | ⟨h1, h2⟩
      · left; simp [types_cons, h1, h2]
      · right
        simp only [types_cons, h2, List.cons_append, and_true, List.mem_cons, h1, or_false]
        exact fun h => he h.symm

theorem filter_replaceExt {T : List UInt16} {n : Extension} (ht : n.extension_type ∉ T) : ∀ l,
    (replaceExt n l).filter (fun e => T.contains e.extension_type) = l.filter (fun e => T.contains e.extension_type)
  | [] => by simp [replaceExt, ht]
  | e :: es => by
    unfold replaceExt
    split
    · next he =>
      rw [List.filter_cons, List.filter_cons, if_neg, if_neg]
      · rw [he]; simpa using ht
      · simpa using ht
    · rw [List.filter_cons, List.filter_cons, filter_replaceExt ht es]

theorem optPsk_types {g l} (h : optPsk g = .ok l) : l = [] ∨ types l = [41] := by
  cases g with
  | none => left; simpa [optPsk] using h.symm
  | some g =>
    simp only [optPsk, Res.bind_eq_ok, Res.pure_eq, Except.ok.injEq, codec_clientPresharedKey.2.1] at h
    obtain ⟨e, ⟨-, rfl⟩, rfl⟩ := h
    right
    simp [types, codec_clientPresharedKey.1]

theorem greaseExt_eq (g) : greaseExt g = optPsk g := by
  cases g <;> rfl

/-- The body of the extension that was computed: what the client hands to `encodeExtension`. -/
def body (r : Res (OuterEch × Context)) : Res Bytes := do
  let (e, _) ← r
  let x ← encodeOuterEch e
  pure x.extension_data

/-- What the outer hello is made of. -/
theorem encryptHello_ok {inp : ClientSM.Inp} {first inner random name g o} {f : ClientHello → ClientHello → Option ClientPresharedKey → Res (OuterEch × Context)}
    (hi : inp.echEncrypt = fun i o g => body (f i o g))
    (h : encryptHello inp first inner random name g = .ok o) :
    ∃ outer e c psk, f inner outer g = .ok (e, c) ∧ optPsk g = .ok psk ∧ Spec.OuterEchFits e ∧
      o = { outer with extensions := outer.extensions ++ [Spec.outerEchWire e] ++ psk } ∧
      outer.legacy_session_id = inner.legacy_session_id ∧
      ∀ T : List UInt16, (types inner.extensions).Nodup → (∀ t ∈ [0, 41, 42, 0xfe0d], t ∉ T) →
        0xfe0d ∉ types outer.extensions ∧
        List.Sublist (inner.extensions.filter fun e => T.contains e.extension_type) outer.extensions ∧
        (types (outer.extensions ++ [Spec.outerEchWire e] ++ psk)).Nodup := by
  unfold encryptHello at h
  simp only [Res.bind_eq_ok, Res.pure_eq, Except.ok.injEq, codec_serverNameList.2.1, hi, echExt, body, Prod.exists,
    codec_outerEch.2.1, greaseExt_eq] at h
  obtain ⟨sni, ⟨-, rfl⟩, x, ⟨d, ⟨e, c, hf, x', ⟨hfit, rfl⟩, rfl⟩, rfl⟩, psk, hp, rfl⟩ := h
  refine ⟨_, e, c, psk, hf, hp, hfit, rfl, rfl, ?_⟩
  intro T hd hT
  have hd1 := (types_removeExt 0xfe0d inner.extensions).nodup hd
  have hd2 := (types_removeExt 41 (removeExt 0xfe0d inner.extensions)).nodup hd1
  have hn1 := not_mem_removeExt 0xfe0d _ hd
  have hn2 : 0xfe0d ∉ types (removeExt 41 (removeExt 0xfe0d inner.extensions)) :=
    fun h => hn1 ((types_removeExt 41 _).subset h)
  have hn3 := not_mem_removeExt 41 _ hd1
  have hf2 : (removeExt 41 (removeExt 0xfe0d inner.extensions)).filter (fun e => T.contains e.extension_type) =
      inner.extensions.filter (fun e => T.contains e.extension_type) := by
    rw [filter_removeExt (hT 41 (by simp)), filter_removeExt (hT 0xfe0d (by simp))]
  obtain ⟨l, hl, hd3, hn4, hn5, hf3⟩ : ∃ l, (if first = true then
      removeExt 42 (removeExt 41 (removeExt 0xfe0d inner.extensions)) else removeExt 41 (removeExt 0xfe0d inner.extensions)) = l ∧
      (types l).Nodup ∧ 0xfe0d ∉ types l ∧ 41 ∉ types l ∧ l.filter (fun e => T.contains e.extension_type) =
      inner.extensions.filter (fun e => T.contains e.extension_type) := by
    refine ⟨_, rfl, ?_⟩
    split
    · have hs := types_removeExt 42 (removeExt 41 (removeExt 0xfe0d inner.extensions))
      refine ⟨hs.nodup hd2, fun h => hn2 (hs.subset h), fun h => hn3 (hs.subset h), ?_⟩
      rw [filter_removeExt (hT 42 (by simp)), hf2]
    · exact ⟨hd2, hn2, hn3, hf2⟩
  rw [hl]
  have h0 : ∀ x, (Codec.Spec.serverNameListWire x).extension_type = 0 := fun x => codec_serverNameList.1 x
  generalize hsn : Codec.Spec.serverNameListWire _ = sni
  have hs0 : sni.extension_type = 0 := by rw [← hsn]; exact h0 _
  have hfl := filter_replaceExt (T := T) (n := sni) (by rw [hs0]; exact hT 0 (by simp)) l
  have hnot : ∀ t, t ≠ 0 → t ∉ types l → t ∉ types (replaceExt sni l) := by
    intro t ht hl
    rcases types_replaceExt sni l with ⟨-, h2⟩ | ⟨-, h2⟩
    · rw [h2]; exact hl
    · rw [h2, hs0]; simp [hl, ht]
  have hdn : (types (replaceExt sni l)).Nodup := by
    rcases types_replaceExt sni l with ⟨-, h2⟩ | ⟨h1, h2⟩
    · rw [h2]; exact hd3
    · rw [h2]
      rw [List.nodup_append]
      refine ⟨hd3, by simp, ?_⟩
      intro a ha b hb
      rw [List.mem_singleton] at hb
      rintro rfl
      subst hb
      exact h1 ha
  have hne := hnot 0xfe0d (by decide) hn4
  have hn41 := hnot 41 (by decide) hn5
  have hw : (Spec.outerEchWire e).extension_type = 0xfe0d := rfl
  refine ⟨hne, ?_, ?_⟩
  · rw [← hf3, ← hfl]; exact List.filter_sublist
  · rw [types_append, types_append, List.append_assoc, List.nodup_append]
    refine ⟨hdn, ?_, ?_⟩
    · rcases optPsk_types hp with rfl | h2
      · simp [types]
      · rw [h2]; simp [types, hw]
    · intro a ha b hb
      rintro rfl
      have hb' : a = 0xfe0d ∨ a = 41 := by
        rcases List.mem_append.1 hb with hb | hb
        · left; simpa [types, hw] using hb
        · rcases optPsk_types hp with rfl | h2
          · simp [types] at hb
          · right; rw [h2] at hb; simpa using hb
      rcases hb' with rfl | rfl
      · exact hne ha
      · exact hn41 ha

/-! ## Contexts -/

theorem keySchedule_facts {p : Params} {c} (h : keySchedule p = .ok c) :
    c.seq = p.seq ∧ c.role = p.role ∧ c.cipher = p.cipher := by
  unfold keySchedule at h
  simp only [Res.bind_eq_ok, Res.pure_eq, Except.ok.injEq] at h
  obtain ⟨_, _, _, _, _, _, _, _, _, _, _, _, rfl⟩ := h
  exact ⟨rfl, rfl, rfl⟩

theorem keySchedule_seq {p : Params} {c} (h : keySchedule p = .ok c) (s : UInt64) :
    keySchedule { p with seq := s } = .ok { c with seq := s } := by
  unfold keySchedule at h ⊢
  simp only [Res.bind_eq_ok, Res.pure_eq, Except.ok.injEq] at h ⊢
  obtain ⟨a, h1, b, h2, d, h3, e, h4, f, h5, g, h6, rfl⟩ := h
  exact ⟨a, h1, b, h2, d, h3, e, h4, f, h5, g, h6, rfl⟩

variable {K : Kex}

/-- The client's context. -/
theorem setupSender_ok {P : Prims} {kex : K.State} {gen use n enc c} (h : setupSender P kex gen use n = .ok (enc, c)) :
    c.seq = 0 ∧ c.role = .sender ∧ ∃ cs, cipherSuite n.suite.aead = .ok cs ∧ P.cipher cs = .ok c.cipher := by
  unfold setupSender getSetupParam setupWithEncap at h
  simp only [Res.bind_eq_ok, Res.pure_eq, Except.ok.injEq, Prod.exists, Prod.mk.injEq] at h
  obtain ⟨_, _, _, _, _, _, _, _, _, ⟨_, _, _, _, cs, hcs, _, _, _, _, C, hC, rfl⟩, _, _, _, c', hk, _, rfl⟩ := h
  obtain ⟨h1, h2, h3⟩ := keySchedule_facts hk
  exact ⟨h1, h2, cs, hcs, by rw [h3]; exact hC⟩

/-- The server's context is the client's. -/
theorem setupReceiver_of (dh : Dh K) {P : Prims} {kex : K.State} {gen use n enc c} (h : setupSender P kex gen use n = .ok (enc, c))
    {kexR : K.State} (hR : K.getKeyShare kexR = .ok n.config.key.publicKey) (u : K.Rand) (seq : UInt64) :
    setupReceiver P kexR u n.config n.suite enc seq = .ok { c with role := .receiver, seq := seq } := by
  unfold setupSender at h
  simp only [Res.bind_eq_ok] at h
  obtain ⟨hash, h1, H, h2, group, h3, info, h4, p, h5, h6⟩ := h
  unfold getSetupParam at h5
  simp only [Res.bind_eq_ok, Res.pure_eq, Except.ok.injEq] at h5
  obtain ⟨group', g1, hash', g2, cs, g3, sid, g4, H', g5, C, g6, rfl⟩ := h5
  rw [h3] at g1; cases g1
  rw [h1] at g2; cases g2
  rw [h2] at g5; cases g5
  have := C35_agree dh .base gen use use u u n.config.key.publicKey info none _
    ⟨⟨kexR, none, group, .v1 H⟩, C, .v1 H, sid, 0⟩ none enc c h6 hR
    (by intro a ha; simp at ha) rfl rfl rfl rfl rfl rfl
  unfold setupReceiver
  simp only [h1, h2, h3, h4, g3, g4, g6, Res.ok_bind]
  unfold setupWithDecap at this ⊢
  simp only [Res.bind_eq_ok] at this ⊢
  obtain ⟨ss, k1, k2⟩ := this
  exact ⟨ss, k1, keySchedule_seq k2 seq⟩

theorem find_outer {pre psk : List Extension} {e : OuterEch} (h : 0xfe0d ∉ types pre) :
    findExtension (pre ++ [Spec.outerEchWire e] ++ psk) tyEch = some (Spec.outerEchWire e) := by
  rw [findExtension_some]
  refine ⟨rfl, pre, psk, by simp, ?_⟩
  intro x hx ht
  exact h (List.mem_map.2 ⟨x, hx, ht⟩)

theorem lookup_outer {e : OuterEch} (hf : Spec.OuterEchFits e) (params : List (DecParam K)) :
    lookup (Spec.outerEchWire e) params =
      .ok ((params.find? fun p => e.configId == p.config.key.configId).map fun p => (e, p)) := by
  unfold lookup
  have : readOuterEch (Spec.outerEchWire e).extension_data = .ok (e, []) :=
    (codec_outerEch.2.2 _ _ _).2 ⟨hf, by simp⟩
  rw [this]
  rfl

/-- C65: what the client encrypts for a configuration the server opens, with the key of that configuration, to
exactly the inner hello, with exactly the bytes the client has in its transcript; and both contexts have moved
on by one.  Assumptions: the key exchange is Diffie-Hellman, the AEAD is correct, the configuration is the first
one the server has under its id, and the inner hello is `Compressible`. -/
theorem C65_first (dh : Dh K) (P : Prims) (hP : ∀ s C, P.cipher s = .ok C → GoodAead C)
    (kex : K.State) (gen use u : K.Rand) (n : Negotiated) (enc : Bytes) (c : Context)
    (hs : setupSender P kex gen use n = .ok (enc, c))
    (params : List (DecParam K)) (p : DecParam K)
    (hp : params.find? (fun p => n.configId == p.config.key.configId) = some p) (hcfg : p.config = n.config)
    (hkey : K.getKeyShare p.kex = .ok n.config.key.publicKey)
    (T : List UInt16) (inner : ClientHello) (hT : Compressible T inner)
    (bytes : Bytes) (henc : encodeHandshake (.clientHello inner) = .ok bytes)
    (inp : ClientSM.Inp) (hinp : inp.echEncrypt = fun i o g => body (encryptFirst n enc c T i o g))
    (random : Random) (name : Bytes) (g : Option ClientPresharedKey) (outer : ClientHello)
    (hsend : encryptHello inp true inner random name g = .ok outer) :
    decryptHello P params u outer =
      .ok (some ⟨⟨inner, bytes, { c with role := .receiver, seq := 1 }⟩, n.configId⟩) ∧
    ∀ i o g e c', encryptFirst n enc c T i o g = .ok (e, c') → c' = { c with seq := 1 } := by
  obtain ⟨hseq, hrole, cs, hcs, hC⟩ := setupSender_ok hs
  refine ⟨?_, ?_⟩
  · obtain ⟨o, e, c', psk, hf, hpsk, hfit, rfl, hsid, hrest⟩ := encryptHello_ok hinp hsend
    obtain ⟨hne, hout, hnd⟩ := hrest T hT.distinct hT.differ
    have hd := decryptWith_of hf hpsk (hP _ _ hC) hne hsid henc hT.noRef hT.distinct (hT.differ _ (by simp)) hT.contiguous hout hnd
    obtain ⟨padded, psk', aad, ct, nonce, -, -, -, -, -, -, -, -, rfl, rfl⟩ := encryptImpl_ok hf
    unfold decryptHello
    simp only [find_outer hne]
    unfold tryDecode
    rw [lookup_outer hfit]
    simp only [Res.ok_bind, hp, Option.map_some]
    unfold tryOpen
    rw [hcfg, setupReceiver_of dh hs hkey u 0]
    have e0 : ({ c with role := .receiver, seq := 0 } : Context) = { c with role := .receiver } := by rw [← hseq]
    rw [e0]
    rw [Res.ok_bind, hd, hseq]
    rfl
  · intro i o g e c' h
    obtain ⟨_, _, _, _, _, -, -, -, -, -, -, -, -, rfl, rfl⟩ := encryptImpl_ok h
    rw [hseq]
    rfl

/-- C65, after a HelloRetryRequest: the second inner hello is opened the same way, both by a server that has
kept its context and by one that makes it again from the encapsulated key of the first hello. -/
theorem C65_retry (dh : Dh K) (P : Prims) (hP : ∀ s C, P.cipher s = .ok C → GoodAead C)
    (kex : K.State) (gen use u : K.Rand) (n : Negotiated) (enc : Bytes) (c : Context)
    (hs : setupSender P kex gen use n = .ok (enc, c))
    (params : List (DecParam K)) (p : DecParam K)
    (hp : params.find? (fun p => n.configId == p.config.key.configId) = some p) (hcfg : p.config = n.config)
    (hkey : K.getKeyShare p.kex = .ok n.config.key.publicKey)
    (T : List UInt16) (inner : ClientHello) (hT : Compressible T inner)
    (bytes : Bytes) (henc : encodeHandshake (.clientHello inner) = .ok bytes)
    (inp : ClientSM.Inp) (hinp : inp.echEncrypt = fun i o g => body (encryptRetry n { c with seq := 1 } T i o g))
    (random : Random) (name : Bytes) (g : Option ClientPresharedKey) (outer : ClientHello)
    (hsend : encryptHello inp false inner random name g = .ok outer) :
    ∃ r : Opened, r.chlo = inner ∧ r.encoding = bytes ∧
      decryptHelloHrr P params u outer (some { c with role := .receiver, seq := 1 }) none = .ok r ∧
      decryptHelloHrr P params u outer none (some enc) = .ok r := by
  obtain ⟨hseq, hrole, cs, hcs, hC⟩ := setupSender_ok hs
  obtain ⟨o, e, c', psk, hf, hpsk, hfit, rfl, hsid, hrest⟩ := encryptHello_ok hinp hsend
  obtain ⟨hne, hout, hnd⟩ := hrest T hT.distinct hT.differ
  have hd := decryptWith_of hf hpsk (hP _ _ hC) hne hsid henc hT.noRef hT.distinct (hT.differ _ (by simp)) hT.contiguous hout hnd
  obtain ⟨padded, psk', aad, ct, nonce, -, -, -, -, -, -, -, -, rfl, rfl⟩ := encryptImpl_ok hf
  refine ⟨⟨inner, bytes, { c with role := .receiver, seq := 1 + 1 }⟩, rfl, rfl, ?_, ?_⟩
  · unfold decryptHelloHrr
    simp only [find_outer hne]
    rw [lookup_outer hfit]
    simp only [Res.ok_bind, hp, Option.map_some]
    unfold retryOpen retryContext
    simp only [Res.ok_bind]
    exact congrArg rethrown hd
  · unfold decryptHelloHrr
    simp only [find_outer hne]
    rw [lookup_outer hfit]
    simp only [Res.ok_bind, hp, Option.map_some]
    unfold retryOpen retryContext
    simp only
    rw [hcfg, setupReceiver_of dh hs hkey u 1]
    simp only [Res.ok_bind]
    exact congrArg rethrown hd

end Fizz.Ech

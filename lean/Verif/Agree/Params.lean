import Verif.Agree.Props

/-! # C58: the parameters agree, and the client's Finished -/

namespace Fizz.Agree
open Fizz Fizz.Codec Fizz.Crypto Fizz.Crypto.Spec Fizz.KS.Spec Fizz.Agree.Spec

/-- Every handshake message the client has received is what its bytes decode to. -/
def Spec.Decoded (h : List ClientSM.Step) : Prop :=
  ∀ y ∈ h, ∀ m orig, ClientSM.Spec.received y = some (m, orig) → Parses orig m

/-- The ECH confirmation changes nothing of a ServerHello but its random number. -/
def Spec.ConfirmsRandom (h : List Server.Step) : Prop :=
  ∀ x ∈ h, ∀ cr t a b, x.env.inp.echConfirm cr t a = .ok b → ∃ r, b = { a with random := r }

theorem serverHello_parsed {o : Bytes} {m sh : ServerHello} (h : Parses o (.serverHello m))
    (he : Codec.Spec.Encodable (.serverHello sh)) (hsid : sh.legacy_session_id_echo.isSome)
    (ho : o = Codec.Spec.handshake (.serverHello sh)) : m = sh := by
  have hp := h
  obtain ⟨t, b, h1, h2, h3⟩ := h
  obtain ⟨rfl, -, hmod, hb | ⟨c, hc, -⟩⟩ := C02_strict _ _ _ h3
  · rw [h2] at ho
    have hbb := (frame_parts h1 he.2 ho).2
    rw [hb] at hbb
    have hrand : m.random = sh.random := by
      obtain ⟨hm1, hm2⟩ := hmod
      obtain ⟨s1, e1⟩ := Option.isSome_iff_exists.1 hm1
      obtain ⟨s2, e2⟩ := Option.isSome_iff_exists.1 hsid
      simp only [Codec.Spec.body, Codec.Spec.serverHello, e1, e2, List.append_assoc] at hbb
      obtain ⟨-, k⟩ := List.append_inj hbb (by rfl)
      obtain ⟨k, -⟩ := List.append_inj k (by rw [m.random.len, sh.random.len])
      cases hm : m.random; cases hs : sh.random
      rw [hm, hs] at k
      simp only at k
      subst k
      rfl
    have := parses_encoded hp he ⟨hsid, by rw [← hrand]; exact hmod.2⟩ (by rw [h2]; exact ho)
    exact HsMsg.serverHello.inj this
  · cases hc

theorem u16_inj {a b : UInt16} (h : Codec.Spec.u16 a = Codec.Spec.u16 b) : a = b :=
  UInt16.toNat_inj.1 (beEnc_inj (by simpa using a.toNat_lt) (by simpa using b.toNat_lt) h)

theorem keyShareWire_inj {a b : ServerKeyShare}
    (h : Codec.Spec.serverKeyShareWire a = Codec.Spec.serverKeyShareWire b) : a = b := by
  obtain ⟨⟨g1, s1⟩⟩ := a
  obtain ⟨⟨g2, s2⟩⟩ := b
  simp only [Codec.Spec.serverKeyShareWire, Extension.mk.injEq, true_and, Codec.Spec.keyShareEntry, vec] at h
  obtain ⟨h1, h2⟩ := List.append_inj h (by rfl)
  obtain ⟨-, h3⟩ := List.append_inj h2 (by simp)
  have : g1 = g2 := u16_inj h1
  subst this h3
  rfl

/-- The first extension of a type is the same one. -/
theorem first_ext {t : UInt16} : ∀ {pre post pre' post' : List Extension} {x y : Extension},
    pre ++ x :: post = pre' ++ y :: post' → x.extension_type = t → y.extension_type = t →
    (∀ e ∈ pre, e.extension_type ≠ t) → (∀ e ∈ pre', e.extension_type ≠ t) → x = y
  | [], _, [], _, _, _, h, _, _, _, _ => by simp only [List.nil_append, List.cons.injEq] at h; exact h.1
  | [], _, e :: _, _, x, _, h, hx, _, _, h' => by
    simp only [List.nil_append, List.cons_append, List.cons.injEq] at h
    rw [h.1] at hx
    exact absurd hx (h' e (by simp))
  | e :: _, _, [], _, _, y, h, _, hy, h', _ => by
    simp only [List.nil_append, List.cons_append, List.cons.injEq] at h
    rw [← h.1] at hy
    exact absurd hy (h' e (by simp))
  | a :: p, _, b :: p', _, _, _, h, hx, hy, h1, h2 => by
    simp only [List.cons_append, List.cons.injEq] at h
    exact first_ext h.2 hx hy (fun e he => h1 e (by simp [he])) (fun e he => h2 e (by simp [he]))

/-- C58: a client and a server with the same messages through the ServerHello (`C58_client`, `C58_server`)
have exchanged the same ClientHello and the same ServerHello, had a retry before them only if the client was asked for one, and have
negotiated the same protocol version, the same cipher suite, the same group and server key share, and
either both use a PSK or neither. -/
theorem C58_parameters {cfgC : ClientSM.Cfg} {cfgS : Server.Cfg} {hC : List ClientSM.Step} {hS : List Server.Step}
    {gc : ClientSM.Spec.Neg} {gs : Server.Spec.Neg} (fc : ClientSM.Spec.Fixed cfgC hC gc)
    (fs : Server.Spec.Fixed cfgS hS gs) (same : clientHellos gc = serverHellos gs)
    (dec : Spec.Decoded hC) (used : Parses gs.used.2 (.clientHello gs.used.1)) (conf : Spec.ConfirmsRandom hS) :
    gc.serverHello = gs.serverHello ∧ gc.before = gs.before ++ gs.used.2 ∧
    (ClientSM.Spec.retries hC = [] → gs.before = []) ∧
    (gc.ech = true → gs.used.1 = gc.offer.hello cfgC) ∧
    (gc.ech = false → ∃ p older newer, hC = newer ++ older ∧ ClientSM.Spec.Offered cfgC older gc.first gc.offer p ∧
      ∃ y ∈ hC, ∃ first, ClientSM.Spec.Went cfgC y.env.inp first gc.offer p gs.used.1) ∧
    gc.version = gs.version ∧ gc.cipher = gs.cipher ∧
    gc.ecdhe.map (fun e => (e.1, e.2.2.1)) = gs.ecdhe.map (fun e => (e.1, e.2.2.1)) ∧
    gc.psk.isSome = gs.psk.isSome := by
  obtain ⟨nc, x, oc, rfl, nC⟩ := fc
  obtain ⟨ns, z, os, rfl, nS⟩ := fs
  obtain ⟨bc, c, w1, w2, w3, w4, w5⟩ := nC.answered
  obtain ⟨sh, s1, s2, s3, s4⟩ := nS.serverHello
  obtain ⟨m, m1, m2, -, -, m3, -, m4, -, -, m5, m6, m7, m8, -⟩ := nC.message
  have hne : x.acts ≠ [] := by
    intro h
    have := nC.secrets
    rw [ClientSM.Spec.announced, h] at this
    cases this
  have hrx : ClientSM.Spec.received x = some (.serverHello m, gc.serverHello) := by
    unfold ClientSM.Spec.received
    rw [m1, m2]
    cases hx : x.acts with
    | nil => exact absurd hx hne
    | cons => rfl
  have pm := dec x (by simp) _ _ hrx
  -- the messages are the same one by one
  have hch := framed_handshake w3
  have hkey : bc = gs.before ∧ Codec.Spec.handshake (.clientHello c) = gs.used.2 ∧ gc.serverHello = gs.serverHello ∧
      (ClientSM.Spec.retries (nc ++ x :: oc) = [] → gs.before = []) := by
    unfold clientHellos serverHellos at same
    rw [w2] at same
    have hret : ClientSM.Spec.retries (nc ++ x :: oc) = [] → ClientSM.Spec.retries oc = [] := by
      unfold ClientSM.Spec.retries
      rw [List.filterMap_append, List.append_eq_nil_iff, List.filterMap_cons]
      rintro ⟨-, h⟩
      split at h
      · exact h
      · cases h
    rcases w1 with ⟨hr, rfl⟩ | ⟨d, y, hm, o, hd, hy, hyr, rfl⟩
    · rcases nS.begins with hb | ⟨d, hrr, hd, he, hb⟩
      · rw [hb] at same ⊢
        simp only [List.nil_append] at same
        obtain ⟨k1, k2⟩ := framed_inj hch used.framed same
        exact ⟨rfl, k1, k2, fun _ => rfl⟩
      · rw [hb] at same
        simp only [List.nil_append, List.append_assoc] at same
        obtain ⟨k, -⟩ := framed_inj hch (framed_hash hd) same
        simp [Codec.Spec.handshake, Server.Spec.messageHash, Codec.Spec.typeByte] at k
    · have py := dec y (by simp [hy]) _ _ hyr
      rcases nS.begins with hb | ⟨d', hrr, hd', he, hb⟩
      · rw [hb] at same
        simp only [List.nil_append, List.append_assoc] at same
        obtain ⟨k, -⟩ := framed_inj (framed_hash hd) used.framed same
        obtain ⟨t, bb, -, e2, e3⟩ := used
        obtain ⟨rfl, -⟩ := C02_strict _ _ _ e3
        rw [e2] at k
        simp [Server.Spec.messageHash, Codec.Spec.typeByte] at k
      · rw [hb] at same ⊢
        simp only [List.append_assoc] at same
        obtain ⟨k1, same⟩ := framed_inj (framed_hash hd) (framed_hash hd') same
        obtain ⟨k2, same⟩ := framed_inj py.framed (framed_handshake he) same
        obtain ⟨k3, k4⟩ := framed_inj hch used.framed same
        refine ⟨by rw [k1, k2], k3, k4, ?_⟩
        intro hh
        exfalso
        have := hret hh
        unfold ClientSM.Spec.retries at this
        rw [List.filterMap_eq_nil_iff] at this
        have := this y hy
        simp [ClientSM.Spec.retryOf, hyr] at this
  obtain ⟨k1, k2, k3, k4⟩ := hkey
  have hc : gs.used.1 = c := HsMsg.clientHello.inj (parses_encoded used w3 trivial k2.symm)
  have hmsh : m = sh := by
    refine serverHello_parsed pm s2 ?_ (by rw [k3, s1])
    by_cases hacc : (Server.Spec.post z).echStatus = .accepted
    · obtain ⟨r, rfl⟩ := conf z (by simp) _ _ _ _ (s4 hacc)
      rfl
    · rw [s3 hacc]; rfl
  subst hmsh
  have hfields : m.cipher_suite = gs.cipher ∧ m.extensions = Codec.Spec.serverSupportedVersionsWire ⟨gs.version⟩ ::
      (Server.Spec.shareExt gs.ecdhe ++ (if gs.psk.isSome then [Codec.Spec.serverPresharedKeyWire ⟨0⟩] else [])) := by
    by_cases hacc : (Server.Spec.post z).echStatus = .accepted
    · obtain ⟨r, rfl⟩ := conf z (by simp) _ _ _ _ (s4 hacc)
      exact ⟨rfl, rfl⟩
    · rw [s3 hacc]; exact ⟨rfl, rfl⟩
  obtain ⟨f1, f2⟩ := hfields
  refine ⟨k3, by rw [w2, k1, k2], k4, (fun h => by rw [hc]; exact w4 h), (fun h => ?_), ?_, by rw [← m3, f1], ?_, ?_⟩
  · obtain ⟨p, hp, y, hy, r⟩ := w5 h
    exact ⟨p, oc, nc ++ [x], by simp, hp, y, by simp [hy], by rw [hc]; exact r⟩
  · obtain ⟨v, pre, post, v1, v2, v3⟩ := ((C03_serverSupportedVersions _).2.1 _).1 m4
    have v4 := (((C03_serverSupportedVersions _).1 _).1 v1).2
    rw [f2] at v2
    have := first_ext (t := 43) (pre := []) v2 rfl (by rw [v4]; rfl) (by simp) v3
    rw [v4] at this
    simp only [Codec.Spec.serverSupportedVersionsWire, Extension.mk.injEq, true_and] at this
    exact (u16_inj this).symm
  · cases hec : gc.ecdhe with
    | none =>
      have := ((C03_serverKeyShare ⟨⟨0, []⟩⟩).2.2 _).1 (m8 hec).1
      rw [f2] at this
      cases hes : gs.ecdhe with
      | none => rfl
      | some e =>
        exfalso
        refine this (Codec.Spec.serverKeyShareWire ⟨⟨e.1, e.2.2.1⟩⟩) ?_ rfl
        rw [hes]
        simp [Server.Spec.shareExt]
    | some e =>
      obtain ⟨v, pre, post, v1, v2, v3⟩ := ((C03_serverKeyShare _).2.1 _).1 (m7 e hec).selected
      have v4 := (((C03_serverKeyShare _).1 _).1 v1).2
      rw [f2] at v2
      cases hes : gs.ecdhe with
      | none =>
        exfalso
        have : v ∈ Codec.Spec.serverSupportedVersionsWire ⟨gs.version⟩ ::
          (Server.Spec.shareExt gs.ecdhe ++ (if gs.psk.isSome then [Codec.Spec.serverPresharedKeyWire ⟨0⟩] else [])) := by
          rw [v2]; simp
        rw [hes, v4] at this
        simp only [Server.Spec.shareExt, List.nil_append, List.mem_cons] at this
        rcases this with h | h
        · exact absurd (congrArg Extension.extension_type h) (by simp [Codec.Spec.serverKeyShareWire, Codec.Spec.serverSupportedVersionsWire, Codec.Spec.serverPresharedKeyWire])
        · split at h
          · exact absurd (congrArg Extension.extension_type (List.mem_singleton.1 h)) (by simp [Codec.Spec.serverKeyShareWire, Codec.Spec.serverPresharedKeyWire])
          · cases h
      | some e' =>
        rw [hes] at v2
        have := first_ext (t := 51) (pre := [Codec.Spec.serverSupportedVersionsWire ⟨gs.version⟩])
          (x := Codec.Spec.serverKeyShareWire ⟨⟨e'.1, e'.2.2.1⟩⟩)
          (post := if gs.psk.isSome then [Codec.Spec.serverPresharedKeyWire ⟨0⟩] else []) v2 rfl (by rw [v4]; rfl)
          (by simp [Codec.Spec.serverSupportedVersionsWire]) v3
        rw [v4] at this
        have := keyShareWire_inj this
        simp only [ServerKeyShare.mk.injEq, KeyShareEntry.mk.injEq] at this
        simp [this.1, this.2]
  · cases hpc : gc.psk with
    | none =>
      have := ((C03_serverPresharedKey ⟨0⟩).2.2 _).1 (m6 hpc)
      rw [f2] at this
      cases hps : gs.psk with
      | none => rfl
      | some e =>
        exfalso
        refine this (Codec.Spec.serverPresharedKeyWire ⟨0⟩) ?_ rfl
        rw [hps]
        simp
    | some e =>
      obtain ⟨v, pre, post, v1, v2, v3⟩ := ((C03_serverPresharedKey _).2.1 _).1 (m5 e hpc).selected
      have v4 := (((C03_serverPresharedKey _).1 _).1 v1).2
      cases hps : gs.psk with
      | some _ => rfl
      | none =>
        exfalso
        have : v ∈ m.extensions := by rw [v2]; simp
        rw [f2, hps, v4] at this
        simp only [Option.isSome_none, Bool.false_eq_true, if_false, List.append_nil, List.mem_cons] at this
        rcases this with h | h
        · exact absurd (congrArg Extension.extension_type h) (by simp [Codec.Spec.serverKeyShareWire, Codec.Spec.serverSupportedVersionsWire, Codec.Spec.serverPresharedKeyWire])
        · cases hes : gs.ecdhe with
          | none => rw [hes] at h; cases h
          | some e' =>
            rw [hes] at h
            exact absurd (congrArg Extension.extension_type (List.mem_singleton.1 h)) (by simp [Codec.Spec.serverKeyShareWire, Codec.Spec.serverPresharedKeyWire])

end Fizz.Agree

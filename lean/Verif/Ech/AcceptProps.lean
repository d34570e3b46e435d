import Verif.Ech.AcceptSpec
import Verif.Ech.TypesProps
import Verif.Crypto.KeyScheduleProps

/-!
# The server's acceptance confirmation is what the client checks (C69)
-/

namespace Fizz.Ech
open Fizz Fizz.Codec Fizz.Crypto

theorem acceptance_len {h : HashAlg} (ok : h.Ok) (r l m) : (Spec.acceptance h.spec r l m).length = 8 := by
  have := ok.pos
  exact Expand_length ok _ _ _

theorem scheduler_eq {h : HashAlg} (ok : h.Ok) (r : Random) :
    confirmScheduler h r = .ok { secret := some (.early (Crypto.Spec.Extract h.spec (List.replicate h.spec.L 0) r.val)) } := by
  unfold confirmScheduler KS.deriveEarlySecret
  simp only [extract_eq ok, Server.ksState]
  rfl

theorem getEarly_ech {h : HashAlg} (ok : h.Ok) (r : Random) (m : Bytes) :
    Server.ksSecret (KS.getEarly h { secret := some (.early (Crypto.Spec.Extract h.spec (List.replicate h.spec.L 0) r.val)) }
      .echAcceptConfirmation (h.digest m)) = .ok (Spec.acceptance h.spec r.val "ech accept confirmation" m) := by
  simp only [KS.getEarly, KS.earlyLabel]
  rw [KS.ds8_eq ok _ _ _ (KS.extract_len ok _ _) (ok.len _) (by decide)]
  rfl

theorem getEarly_hrr {h : HashAlg} (ok : h.Ok) (r : Random) (m : Bytes) :
    Server.ksSecret (KS.getEarly h { secret := some (.early (Crypto.Spec.Extract h.spec (List.replicate h.spec.L 0) r.val)) }
      .hrrEchAcceptConfirmation (h.digest m)) = .ok (Spec.acceptance h.spec r.val "hrr ech accept confirmation" m) := by
  simp only [KS.getEarly, KS.earlyLabel]
  rw [KS.ds8_eq ok _ _ _ (KS.extract_len ok _ _) (ok.len _) (by decide)]
  rfl

theorem dummy_eq {m : ServerHello} {d} :
    dummyServerHello m = .ok d ↔ m.legacy_session_id_echo ≠ none ∧ d = Spec.zeroed m := by
  unfold dummyServerHello
  split
  · next h => simp [h]
  · next h =>
    simp only [overwriteTail, Res.bind_eq_ok, Res.pure_eq, Except.ok.injEq]
    rw [dif_pos (by decide)]
    simp only [Except.ok.injEq, exists_eq_left']
    refine ⟨fun e => ⟨by simp [h], ?_⟩, fun e => ?_⟩
    · rw [← e]; simp [Spec.zeroed, h]
    · rw [e.2]; simp [Spec.zeroed, h]

theorem dummyHrr_eq (m : HelloRetryRequest) : dummyHrr m = Spec.zeroedHrr m := by
  unfold dummyHrr Spec.zeroedHrr
  congr 1
  apply List.map_congr_left
  intro x _
  unfold dummyExt
  by_cases h : x.extension_type = 0xfe0d
  · rw [if_neg (by simpa [tyEch] using h), if_pos h]; rfl
  · rw [if_pos (by simpa [tyEch] using h), if_neg h]

theorem confirmation_eq {h : HashAlg} (ok : h.Ok) {r : Random} {t m c} :
    confirmation h r t m = .ok c ↔ m.legacy_session_id_echo ≠ none ∧
      Codec.Spec.Fits (.serverHello (Spec.zeroed m)) ∧
      (Codec.Spec.body (.serverHello (Spec.zeroed m))).length < 16777216 ∧
      c = Spec.confirmation h.spec r t m := by
  unfold confirmation
  simp only [scheduler_eq ok, Res.ok_bind, Res.bind_eq_ok, dummy_eq, encodeHandshake_eq_ok]
  constructor
  · rintro ⟨d, ⟨h1, rfl⟩, e, ⟨h2, h3, rfl⟩, h4⟩
    rw [getEarly_ech ok] at h4
    exact ⟨h1, h2, h3, (Except.ok.inj h4).symm⟩
  · rintro ⟨h1, h2, h3, rfl⟩
    exact ⟨_, ⟨h1, rfl⟩, _, ⟨h2, h3, rfl⟩, getEarly_ech ok _ _⟩

theorem confirmationHrr_eq {h : HashAlg} (ok : h.Ok) {r : Random} {t m c} :
    confirmationHrr h r t m = .ok c ↔
      Codec.Spec.Fits (.helloRetryRequest (Spec.zeroedHrr m)) ∧
      (Codec.Spec.body (.helloRetryRequest (Spec.zeroedHrr m))).length < 16777216 ∧
      c = Spec.confirmationHrr h.spec r t m := by
  unfold confirmationHrr
  simp only [scheduler_eq ok, Res.ok_bind, Res.bind_eq_ok, dummyHrr_eq, encodeHandshake_eq_ok]
  constructor
  · rintro ⟨e, ⟨h2, h3, rfl⟩, s, h4, h5⟩
    rw [getEarly_hrr ok] at h4
    cases Except.ok.inj h4
    rw [if_neg (by rw [acceptance_len ok]; decide)] at h5
    exact ⟨h2, h3, (Except.ok.inj h5).symm⟩
  · rintro ⟨h2, h3, rfl⟩
    refine ⟨_, ⟨h2, h3, rfl⟩, _, getEarly_hrr ok _ _, ?_⟩
    rw [if_neg (by rw [acceptance_len ok]; decide)]
    rfl

theorem equal8_eq {a c : Bytes} (hc : c.length = 8) (b : Bool) : equal8 a c = .ok b ↔ (b = true ↔ a = c) := by
  unfold equal8
  rw [if_pos (by omega), List.take_of_length_le (by omega)]
  simp only [Except.ok.injEq]
  cases b <;> simp

/-- C69: the client takes ECH for accepted exactly when the last eight bytes of the random of the ServerHello are the
confirmation of the draft, computed from the random and the transcript of the inner hello. -/
theorem C69_check (h : HashAlg) (ok : h.Ok) (r : Random) (t : Bytes) (m : ServerHello) (b : Bool)
    (hb : checkAccepted h r t m = .ok b) :
    b = true ↔ m.random.val.drop 24 = Spec.confirmation h.spec r t m := by
  simp only [checkAccepted, Res.bind_eq_ok, confirmation_eq ok] at hb
  obtain ⟨c, ⟨-, -, -, rfl⟩, h2⟩ := hb
  exact (equal8_eq (acceptance_len ok _ _ _) b).1 h2

/-- C69: and the check gives an answer for every ServerHello that was read from the wire in the TLS 1.3 form. -/
theorem C69_answers (h : HashAlg) (ok : h.Ok) (r : Random) (t : Bytes) (m : ServerHello)
    (hs : m.legacy_session_id_echo ≠ none) (w : Bytes) (hw : encodeHandshake (.serverHello m) = .ok w) :
    ∃ b, checkAccepted h r t m = .ok b := by
  obtain ⟨h1, h2, -⟩ := encodeHandshake_eq_ok.1 hw
  have e1 : Codec.Spec.Fits (.serverHello (Spec.zeroed m)) := h1
  have e2 : (Codec.Spec.body (.serverHello (Spec.zeroed m))).length = (Codec.Spec.body (.serverHello m)).length := by
    cases hm : m.legacy_session_id_echo <;>
      simp [Codec.Spec.body, Codec.Spec.serverHello, Spec.zeroed, hm, m.random.len] <;> omega
  have hc := (confirmation_eq ok (r := r) (t := t)).2 ⟨hs, e1, by rw [e2]; exact h2, rfl⟩
  unfold checkAccepted equal8
  rw [hc, Res.ok_bind, if_pos (by rw [show (Spec.confirmation h.spec r t m).length = 8 from acceptance_len ok _ _ _]; omega)]
  exact ⟨_, rfl⟩

theorem zeroed_tail (m : ServerHello) (r : Random) (hr : r.val.take 24 = m.random.val.take 24) :
    Spec.zeroed { m with random := r } = Spec.zeroed m := by
  unfold Spec.zeroed
  simp only [hr]

/-- C69: the server's confirmation changes nothing but the last eight bytes of the random, and the client that has the
same inner random and transcript takes ECH for accepted. -/
theorem C69_agree (h : HashAlg) (ok : h.Ok) (r : Random) (t : Bytes) (m m' : ServerHello)
    (hm : setConfirmation h r t m = .ok m') :
    (∃ x : Random, m' = { m with random := x } ∧ x.val.take 24 = m.random.val.take 24) ∧
      checkAccepted h r t m' = .ok true := by
  simp only [setConfirmation, Res.bind_eq_ok, confirmation_eq ok, Res.pure_eq, Except.ok.injEq] at hm
  obtain ⟨c, ⟨h1, h2, h3, rfl⟩, x, hx, rfl⟩ := hm
  have hl : (Spec.confirmation h.spec r t m).length = 8 := acceptance_len ok _ _ _
  unfold overwriteTail at hx
  rw [dif_pos (by omega)] at hx
  have hx' := Except.ok.inj hx
  have hv : x.val = m.random.val.take 24 ++ Spec.confirmation h.spec r t m := by
    rw [← hx']; simp only; rw [List.take_of_length_le (l := Spec.confirmation h.spec r t m) (by omega)]
  have h24 : (m.random.val.take 24).length = 24 := by simp [m.random.len]
  have ht : x.val.take 24 = m.random.val.take 24 := by
    rw [hv, List.take_append_of_le_length (by omega), List.take_of_length_le (by omega)]
  have hd : x.val.drop 24 = Spec.confirmation h.spec r t m := by
    rw [hv]; exact List.drop_left' h24
  refine ⟨⟨x, rfl, ht⟩, ?_⟩
  have hz := zeroed_tail m x ht
  have hc : Spec.confirmation h.spec r t { m with random := x } = Spec.confirmation h.spec r t m := by
    unfold Spec.confirmation; rw [hz]
  unfold checkAccepted
  rw [(confirmation_eq ok (r := r) (t := t) (m := { m with random := x })).2
    ⟨h1, by rw [hz]; exact h2, by rw [hz]; exact h3, rfl⟩, Res.ok_bind, hc]
  exact (equal8_eq hl true).2 (by simp [hd])

/-- C69: after a HelloRetryRequest, ECH is taken for accepted exactly when the request has an ECH extension and the first
one is the confirmation of the draft. -/
theorem C69_check_retry (h : HashAlg) (ok : h.Ok) (r : Random) (t : Bytes) (m : HelloRetryRequest) (b : Bool)
    (hb : checkAcceptedHrr h r t m = .ok b) :
    b = true ↔ ∃ x, findExtension m.extensions 0xfe0d = some x ∧
      x.extension_data = Spec.confirmationHrr h.spec r t m := by
  simp only [checkAcceptedHrr, Res.bind_eq_ok, confirmationHrr_eq ok] at hb
  obtain ⟨c, ⟨-, -, rfl⟩, x, h1, h2⟩ := hb
  have hl : (Spec.confirmationHrr h.spec r t m).length = 8 := acceptance_len ok _ _ _
  unfold getExtension at h1
  cases hf : findExtension m.extensions 0xfe0d with
  | none =>
    rw [show tyEch = 0xfe0d from rfl, hf] at h1
    cases Except.ok.inj h1
    cases Except.ok.inj h2
    simp
  | some y =>
    rw [show tyEch = 0xfe0d from rfl, hf] at h1
    by_cases h8 : y.extension_data.length = 8
    · simp only [readEchHrr, h8, dite_true] at h1
      cases Except.ok.inj h1
      rw [(equal8_eq hl b).1 h2]
      simp
    · simp [readEchHrr, h8] at h1

/-- C69: the server's confirmation of a retry only appends an ECH extension of eight bytes, and if the request had none
the client that has the same inner random and transcript takes ECH for accepted. -/
theorem C69_agree_retry (h : HashAlg) (ok : h.Ok) (r : Random) (t : Bytes) (m m' : HelloRetryRequest)
    (hn : ∀ x ∈ m.extensions, x.extension_type ≠ 0xfe0d) (hm : setConfirmationHrr h r t m = .ok m') :
    (∃ c, c.length = 8 ∧ m' = { m with extensions := m.extensions ++ [⟨0xfe0d, c⟩] }) ∧
      checkAcceptedHrr h r t m' = .ok true := by
  simp only [setConfirmationHrr, encodeEchHrr, Res.pure_eq, Res.ok_bind, Res.bind_eq_ok, confirmationHrr_eq ok] at hm
  obtain ⟨c, ⟨h1, h2, rfl⟩, h3⟩ := hm
  generalize hm0 : ({ m with extensions := m.extensions ++ [⟨tyEch, List.replicate 8 0⟩] } : HelloRetryRequest) = m0 at *
  have hl : (Spec.confirmationHrr h.spec r t m0).length = 8 := acceptance_len ok _ _ _
  rw [if_pos (by omega), List.take_of_length_le (by omega)] at h3
  have h3' := Except.ok.inj h3
  subst h3'
  refine ⟨⟨_, hl, rfl⟩, ?_⟩
  have hz : Spec.zeroedHrr { m with extensions := m.extensions ++ [⟨tyEch, Spec.confirmationHrr h.spec r t m0⟩] } =
      Spec.zeroedHrr m0 := by
    rw [← hm0]
    simp [Spec.zeroedHrr, tyEch]
  unfold checkAcceptedHrr
  rw [(confirmationHrr_eq ok (r := r) (t := t)).2 ⟨by rw [hz]; exact h1, by rw [hz]; exact h2, rfl⟩, Res.ok_bind]
  have hf : findExtension (m.extensions ++ [⟨tyEch, Spec.confirmationHrr h.spec r t m0⟩]) 0xfe0d =
      some ⟨tyEch, Spec.confirmationHrr h.spec r t m0⟩ :=
    findExtension_some.2 ⟨rfl, _, _, rfl, hn⟩
  have hg : getExtension tyEch readEchHrr (m.extensions ++ [⟨tyEch, Spec.confirmationHrr h.spec r t m0⟩]) =
      .ok (some ⟨Spec.confirmationHrr h.spec r t m0, hl⟩) := by
    unfold getExtension
    rw [show findExtension (m.extensions ++ [⟨tyEch, Spec.confirmationHrr h.spec r t m0⟩]) tyEch = _ from hf]
    simp only [readEchHrr, hl, dite_true]
    rfl
  rw [hg, Res.ok_bind]
  have hc : Spec.confirmationHrr h.spec r t { m with extensions := m.extensions ++ [⟨tyEch, Spec.confirmationHrr h.spec r t m0⟩] } =
      Spec.confirmationHrr h.spec r t m0 := by
    unfold Spec.confirmationHrr at hz ⊢; rw [hz]
  exact (equal8_eq (by rw [hc]; exact hl) true).2 (by simp [hc])

end Fizz.Ech

import Verif.Server.HelloFacts

/-!
# What a successful ClientHello handler has established: the negotiation
-/

namespace Fizz.Server
open Fizz.Codec Fizz.Crypto
open Fizz.Ticket (CookieState ResumptionState)
open Fizz.Conn (Trig)
open Spec (Neg)

theorem frame_eq {t : UInt8} {b r : Bytes} (h : frameHandshake t b = .ok r) :
    r = t :: vec .u24 b := by
  simp only [frameHandshake, Res.bind_eq_ok, writeU8, writeLen_eq_ok, Res.pure_eq, Except.ok.injEq] at h
  obtain ⟨_, rfl, _, ⟨h2, rfl⟩, rfl⟩ := h
  rw [beEnc_one]
  rfl

theorem encode_eq {m : HsMsg} {b : Bytes} (h : encodeHandshake m = .ok b) : b = Codec.Spec.handshake m :=
  (encodeHandshake_eq_ok.1 h).2.2

theorem encodable {m : HsMsg} {b : Bytes} (h : encodeHandshake m = .ok b) : Codec.Spec.Encodable m :=
  ⟨(encodeHandshake_eq_ok.1 h).1, (encodeHandshake_eq_ok.1 h).2.1⟩

theorem frame_len {t : UInt8} {b r : Bytes} (h : frameHandshake t b = .ok r) : b.length < 2 ^ 24 := by
  simp only [frameHandshake, Res.bind_eq_ok, writeU8, writeLen_eq_ok, Res.pure_eq, Except.ok.injEq] at h
  obtain ⟨_, rfl, _, ⟨h2, rfl⟩, rfl⟩ := h
  exact h2

theorem statelessRetry_enc {ck : CookieState} {cookie b : Bytes}
    (h : Ticket.getStatelessHelloRetryRequest ck.version ck.cipher ck.group cookie = .ok b) :
    ∃ hrr, Codec.Spec.Encodable (.helloRetryRequest hrr) ∧ b = Codec.Spec.handshake (.helloRetryRequest hrr) := by
  unfold Ticket.getStatelessHelloRetryRequest at h
  cases hg : ck.group with
  | none =>
    rw [hg] at h
    simp only [Res.bind_eq_ok, Res.pure_eq, Except.ok.injEq] at h
    obtain ⟨e1, h1, _, rfl, e3, h3, h⟩ := h
    exact ⟨_, encodable h, encode_eq h⟩
  | some g =>
    rw [hg] at h
    simp only [Res.bind_eq_ok, Res.pure_eq, Except.ok.injEq] at h
    obtain ⟨e1, h1, e2, h2, _, rfl, e3, h3, h⟩ := h
    exact ⟨_, encodable h, encode_eq h⟩

theorem statelessRetry_eq {ck : CookieState} {cookie b : Bytes}
    (h : Ticket.getStatelessHelloRetryRequest ck.version ck.cipher ck.group cookie = .ok b) :
    b = Spec.statelessRetry ck cookie := by
  unfold Ticket.getStatelessHelloRetryRequest at h
  unfold Spec.statelessRetry
  cases hg : ck.group with
  | none =>
    rw [hg] at h
    simp only [Res.bind_eq_ok, Res.pure_eq, Except.ok.injEq] at h
    obtain ⟨e1, h1, _, rfl, e3, h3, h⟩ := h
    rw [encode_eq h, ((C03_serverSupportedVersions _).1 _ |>.1 h1).2, ((C03_cookie _).1 _ |>.1 h3).2]
    rfl
  | some g =>
    rw [hg] at h
    simp only [Res.bind_eq_ok, Res.pure_eq, Except.ok.injEq] at h
    obtain ⟨e1, h1, e2, h2, _, rfl, e3, h3, h⟩ := h
    rw [encode_eq h, ((C03_serverSupportedVersions _).1 _ |>.1 h1).2, ((C03_cookie _).1 _ |>.1 h3).2,
      ((C03_helloRetryRequestKeyShare _).1 _ |>.1 h2).2]
    rfl

/-- What the previous steps guarantee when a ClientHello arrives. -/
structure PreHello (cfg : Cfg) (h : List Step) (s : St) : Prop where
  fresh : s.hs = none → Spec.transcript cfg h = [] ∧ s.echStatus = .notRequested ∧ s.version = none ∧
    s.cipher = none ∧ s.group = none ∧ s.keyExchangeType = none ∧ s.earlyDataType = none
  retried : ∀ c, s.hs = some c → c.transcript = Spec.transcript cfg h ∧ s.cipher = some c.cipher ∧
    s.keyExchangeType = some .helloRetryRequest ∧ s.version ≠ none ∧ s.group ≠ none ∧
    (∃ newer r older v gr, h = newer ++ r :: older ∧ s.version = some v ∧ s.group = some gr ∧
      Spec.SentRetry cfg older r v c.cipher gr ∧
      (s.read = some ⟨.plaintext, [], true⟩ ↔ ∃ m orig e, Spec.received r = some (.clientHello m, orig) ∧
        getClientEarlyData (Spec.usedHello r m orig).1.extensions = .ok (some e))) ∧
    (s.earlyDataType = some .notAttempted ∨ s.earlyDataType = some .rejected)
  noCert : s.clientCert = none ∧ s.unverifiedCertChain = none
  noPending : s.handshakeRead = none
  begins : Spec.Begins (Spec.transcript cfg h)

theorem baseContext_begins {cfg : Cfg} {inp : Inp} {h : List Step} {s : St} (pre : PreHello cfg h s)
    {m used : ClientHello} {cookie : Option CookieState} {cipher : UInt16} {c : HsCtx}
    (hck : Spec.cookieState inp m = cookie) (hc : baseContext used cookie s.hs cipher = .ok c) :
    Spec.Begins (Spec.beforeHello inp m used (Spec.transcript cfg h)) := by
  unfold Spec.beforeHello
  rw [hck]
  cases cookie with
  | none => exact pre.begins
  | some ck =>
    unfold baseContext at hc
    simp only [Res.bind_eq_ok] at hc
    obtain ⟨mh, h1, ext, h2, ce, h3, hrr, h4, hc⟩ := hc
    obtain ⟨r, e1, e2⟩ := statelessRetry_enc h4
    refine .inr ⟨_, r, frame_len h1, e1, ?_⟩
    rw [← e2, statelessRetry_eq h4]
    simp only [Spec.cookieBytes, h2, deref_eq_ok.1 h3]

theorem baseContext_eq {cfg : Cfg} {inp : Inp} {h : List Step} {s : St} (pre : PreHello cfg h s)
    {m used : ClientHello} {cookie : Option CookieState} {cipher : UInt16} {c : HsCtx}
    (hck : Spec.cookieState inp m = cookie) (hb : s.hs = none ∨ cookie = none)
    (hsame : s.cipher = none ∨ s.cipher = some cipher)
    (hc : baseContext used cookie s.hs cipher = .ok c) :
    c = ⟨cipher, Spec.beforeHello inp m used (Spec.transcript cfg h)⟩ := by
  unfold baseContext at hc
  unfold Spec.beforeHello
  rw [hck]
  cases cookie with
  | some ck =>
    simp only [Res.bind_eq_ok] at hc
    obtain ⟨mh, h1, ext, h2, ce, h3, hrr, h4, hc⟩ := hc
    cases pure_eq_ok.1 hc
    rw [frame_eq h1, statelessRetry_eq h4]
    simp only [Spec.messageHash, Spec.cookieBytes, h2, deref_eq_ok.1 h3]
    rfl
  | none =>
    simp only at hc
    cases hs : s.hs with
    | none =>
      rw [hs] at hc
      cases hc
      rw [(pre.fresh hs).1]
    | some c' =>
      rw [hs] at hc
      cases hc
      obtain ⟨h1, h2, -⟩ := pre.retried _ hs
      rw [h2] at hsame
      simp only [reduceCtorEq, Option.some.injEq, false_or] at hsame
      subst hsame
      simp only [← h1]

/-- What part 2 has checked and computed. -/
structure Facts2 (cfg : Cfg) (inp : Inp) (h : List Step) (s : St) (m : ClientHello) (p : Part1)
    (q : Part2) : Prop where
  p1 : q.p1 = p
  hash : cfg.hashOf p.cipher = .ok q.hash
  ks : q.ks = KS.conc q.hash ⟨stage0 q.resState, none⟩
  ctx : q.ctx = ⟨p.cipher,
    Spec.beforeHello inp m p.hello.chlo (Spec.transcript cfg h) ++ p.hello.orig⟩
  psk : ∀ rs, q.resState = some rs → ∃ offer ident idents b binders n,
    getClientPresharedKey p.hello.chlo.extensions = .ok (some offer) ∧
    offer.identities = ident :: idents ∧ offer.binders = b :: binders ∧
    cfg.hasTicketCipher = true ∧ inp.ticketDecrypt ident.psk_identity = .ok (q.pskType, some rs) ∧
    rs.version = p.version ∧ sameHash cfg rs.cipher p.cipher = .ok true ∧
    getBinderLength p.hello.chlo = .ok n ∧
    b.binder = Spec.finishedMac q.hash.spec
      (KS.Spec.earlyValue q.hash.spec (some rs.resumptionSecret) (q.hash.digest [])
        (if q.pskType = .external then .externalPskBinder else .resumptionPskBinder))
      (q.hash.digest (Spec.beforeHello inp m p.hello.chlo (Spec.transcript cfg h) ++
        p.hello.orig.take (p.hello.orig.length - n))) ∧
    q.handshakeTime = rs.handshakeTime ∧
    q.clockSkew = some (((ident.obfuscated_ticket_age - rs.ticketAgeAdd).toNat : Int) -
      Client.toMillis (inp.now2 - rs.ticketIssueTime))
  noPsk : q.resState = none → q.pskMode = none ∧ q.handshakeTime = inp.now ∧ q.clockSkew = none
  mode : ∀ pm, q.pskMode = some pm → pm ∈ cfg.supportedPskModes ∧
    ∃ ms, getPskKeyExchangeModes p.hello.chlo.extensions = .ok (some ms) ∧ pm ∈ ms.modes
  alpn : negotiateAlpn cfg p.hello.chlo = .ok q.alpn
  early : negotiateEarlyDataType cfg inp p.version p.hello.chlo q.resState p.cipher s.keyExchangeType
    p.cookie q.alpn p.replay q.clockSkew = .ok q.earlyDataType
  token : q.appToken = getAppToken q.resState
  secrets : deriveEarly q.hash q.ks q.ctx q.earlyDataType = .ok q.early
  begins : Spec.Begins (Spec.beforeHello inp m p.hello.chlo (Spec.transcript cfg h))

theorem verifyBinder_facts {h : HashAlg} (ok : h.Ok) {chlo orig rs t ctx ks ctx'}
    (hv : verifyBinder h chlo orig rs t ctx = .ok (ks, ctx')) :
    ks = KS.conc h ⟨stage0 (some rs), none⟩ ∧ ctx' = ctx.append orig ∧
    ∃ offer b binders n, getClientPresharedKey chlo.extensions = .ok (some offer) ∧
      offer.binders = b :: binders ∧ getBinderLength chlo = .ok n ∧
      b.binder = Spec.finishedMac h.spec
        (KS.Spec.earlyValue h.spec (some rs.resumptionSecret) (h.digest [])
          (if t = .external then .externalPskBinder else .resumptionPskBinder))
        (h.digest (ctx.transcript ++ orig.take (orig.length - n))) := by
  unfold verifyBinder at hv
  simp only [Res.bind_eq_ok] at hv
  obtain ⟨k, h1, bk, h2, n, h3, psks, h4, hv⟩ := hv
  cases psks with
  | none => cases hv
  | some offer =>
    simp only at hv
    cases hb : offer.binders with
    | nil => rw [hb] at hv; cases hv
    | cons b bs =>
      rw [hb] at hv
      simp only [Res.bind_eq_ok, check_eq_ok, decide_eq_true_eq] at hv
      obtain ⟨ex, h5, _, h6, hv⟩ := hv
      cases pure_eq_ok.1 hv
      have e1 := ks_deriveEarly ok h1
      subst e1
      rw [ok.blank] at h2
      have e2 := ks_getEarly ok (ok.len _) h2
      subst e2
      refine ⟨rfl, ?_, offer, b, bs, n, h4, hb, h3, ?_⟩
      · simp only [HsCtx.append, List.append_assoc, List.take_append_drop]
      · rw [finishedData_eq ok] at h5
        · rw [← h6, ← Except.ok.inj h5]
          rfl
        · split_ifs <;> exact DeriveSecret_len ok _ _ _

theorem getResumptionState_facts {cfg inp chlo r rs} (h : getResumptionState cfg inp chlo = .ok r)
    (hr : r.resState = some rs) : ∃ offer ident idents ms,
      getClientPresharedKey chlo.extensions = .ok (some offer) ∧ offer.identities = ident :: idents ∧
      cfg.hasTicketCipher = true ∧ inp.ticketDecrypt ident.psk_identity = .ok (r.pskType, some rs) ∧
      r.obfuscatedAge = some ident.obfuscated_ticket_age ∧
      getPskKeyExchangeModes chlo.extensions = .ok (some ms) ∧
      r.pskMode = Negotiate.negotiateFlat cfg.supportedPskModes ms.modes := by
  unfold getResumptionState at h
  simp only [Res.bind_eq_ok] at h
  obtain ⟨psks, h1, modes, h2, _, h3, h⟩ := h
  cases psks with
  | none =>
    simp only at h
    split_ifs at h <;> (cases pure_eq_ok.1 h; cases hr)
  | some offer =>
    simp only at h
    cases hi : offer.identities with
    | nil => rw [hi] at h; cases pure_eq_ok.1 h; cases hr
    | cons ident idents =>
      rw [hi] at h
      simp only at h
      split_ifs at h with h4 h5
      · cases pure_eq_ok.1 h; cases hr
      · cases pure_eq_ok.1 h; cases hr
      · rw [Res.bind_eq_ok] at h
        obtain ⟨⟨t, r'⟩, h6, h⟩ := h
        cases pure_eq_ok.1 h
        simp only at hr
        subst hr
        cases modes with
        | none => simp [negotiatePskMode] at h5
        | some ms =>
          exact ⟨offer, ident, idents, ms, h1, hi, by simpa using h4, h6, rfl, h2, rfl⟩

theorem part2_facts {cfg : Cfg} {inp : Inp} {h : List Step} {s : St} {u m orig p q}
    (hok : ∀ c a, cfg.hashOf c = .ok a → a.Ok)
    (pre : PreHello cfg h s) (f1 : Facts1 cfg inp s u m orig p) (hq : part2 cfg inp s p = .ok q) :
    Facts2 cfg inp h s m p q := by
  unfold part2 at hq
  rw [Res.bind_eq_ok] at hq
  obtain ⟨⟨t, rs, md⟩, h1, hq⟩ := hq
  simp only [Res.bind_eq_ok] at hq
  obtain ⟨a, h2, ⟨ks, ctx⟩, h3, al, h4, sk, h5, ed, h6, es, h7, hq⟩ := hq
  cases pure_eq_ok.1 hq
  have ok := hok _ _ h2
  unfold setupSchedulerAndContext at h3
  rw [Res.bind_eq_ok] at h3
  obtain ⟨ctx0, h31, h3⟩ := h3
  have hbeg := baseContext_begins pre f1.cookie h31
  have e0 := baseContext_eq pre f1.cookie f1.noBoth f1.sameCipher h31
  subst e0
  unfold acceptPsk at h1
  cases hr : p.res.resState with
  | none =>
    rw [hr] at h1
    cases h1
    cases pure_eq_ok.1 h3
    refine ⟨rfl, h2, rfl, rfl, by simp, ?_, by simp, h4, h6, rfl, h7, hbeg⟩
    intro _
    cases h5
    exact ⟨rfl, rfl, rfl⟩
  | some rs0 =>
    rw [hr] at h1
    simp only [Res.bind_eq_ok] at h1
    obtain ⟨v, hv, h1⟩ := h1
    split_ifs at h1 with hvt
    · cases pure_eq_ok.1 h1
      subst hvt
      simp only at h3
      obtain ⟨e1, e2, offer', b, bs, n, e3, e4, e5, e6⟩ := verifyBinder_facts ok h3
      subst e1 e2
      obtain ⟨offer, ident, idents, ms, g1, g2, g3, g4, g5, g6, g7⟩ := getResumptionState_facts f1.res hr
      rw [g1] at e3
      obtain rfl : offer = offer' := Option.some.inj (Except.ok.inj e3)
      refine ⟨rfl, h2, rfl, rfl, ?_, by simp, ?_, h4, h6, rfl, h7, hbeg⟩
      · rintro rs' hrs
        cases hrs
        unfold validateResumptionState at hv
        split_ifs at hv with hvv
        · cases hv
        refine ⟨offer, ident, idents, b, bs, n, g1, g2, e4, g3, g4, not_ne_iff.1 hvv, hv, e5, e6, rfl, ?_⟩
        rw [g5] at h5
        simp only [getClockSkew, Res.bind_eq_ok] at h5
        obtain ⟨d, hd, h5⟩ := h5
        rw [← pure_eq_ok.1 h5]
        have : d = inp.now2 - rs0.ticketIssueTime := by
          unfold Time.checked at hd
          split_ifs at hd
          exact (Except.ok.inj hd).symm
        rw [this]
      · intro pm hpm
        simp only [g7] at hpm
        obtain ⟨hin, before, after, hl, -⟩ := ((Negotiate.C14_flat _ _).1 pm).1 hpm
        exact ⟨by rw [hl]; simp, ms, g6, hin⟩
    · cases pure_eq_ok.1 h1
      cases pure_eq_ok.1 h3
      refine ⟨rfl, h2, rfl, rfl, by simp, ?_, by simp, h4, h6, rfl, h7, hbeg⟩
      intro _
      cases h5
      exact ⟨rfl, rfl, rfl⟩

end Fizz.Server

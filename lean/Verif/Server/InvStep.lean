import Verif.Server.Inv

/-!
# Every step preserves the invariant
-/

namespace Fizz.Server
open Fizz.Codec Fizz.Crypto
open Fizz.Ticket (CookieState ResumptionState)
open Fizz.Conn (Trig)
open Spec (Neg)

/-! ## HelloRetryRequest -/

theorem getHelloRetryRequest_eq {v c gr m hrr}
    (h : getHelloRetryRequest v c gr (ClientHello.legacy_session_id m) = .ok hrr) :
    hrr = Spec.helloRetryRequest m v c gr := by
  unfold getHelloRetryRequest at h
  simp only [Res.bind_eq_ok] at h
  obtain ⟨e1, h1, e2, h2, h⟩ := h
  cases pure_eq_ok.1 h
  rw [((C03_serverSupportedVersions _).1 _ |>.1 h1).2, ((C03_helloRetryRequestKeyShare _).1 _ |>.1 h2).2]
  rfl

theorem retry_inv {cfg : Cfg} (hok : ∀ c a, cfg.hashOf c = .ok a → a.Ok) {h : List Step} {x : Step}
    (hi : Inv cfg h x.pre) {u m orig p q group}
    (ht : x.trig = .sock) (hs : x.env.sock = .event (.handshake (.clientHello m) orig) u)
    (hst : x.pre.state = .expectingClientHello)
    (h1 : part1 cfg x.env.inp x.pre u m orig = .ok (.inr p)) (h2 : part2 cfg x.env.inp x.pre p = .ok q)
    (hng : negotiateGroup cfg q.p1.hello.chlo = .ok (group, none))
    (h3 : sendRetry x.env.inp x.pre q group = .ok x.acts) :
    Inv cfg (x :: h) (Spec.post x) := by
  obtain ⟨pre, hwr, -, hks, quiet⟩ := hi.hello hst
  have f1 := part1_facts h1
  have f2 := part2_facts hok pre f1 h2
  have hp := f2.p1
  subst hp
  unfold sendRetry at h3
  simp only [Res.bind_eq_ok, check_eq_ok, Bool.and_eq_true, Option.isNone_iff_eq_none] at h3
  obtain ⟨_, ⟨hg, hck⟩, mh, h4, hrr, h5, hrr', h6, enc, h7, w, h8, h3⟩ := h3
  have hacts := (pure_eq_ok.1 h3).symm
  clear h3
  rw [hwr, derefPtr_eq_ok, Option.some.injEq] at h8
  subst h8
  have hfresh : x.pre.hs = none := by
    cases hh : x.pre.hs with
    | none => rfl
    | some c => exact absurd hg (pre.retried _ hh).2.2.2.2.1
  have hpost : Spec.post x = { saveRetry q group
      (if q.earlyDataType = .accepted then .rejected else q.earlyDataType)
      ⟨q.p1.cipher, mh ++ enc⟩ x.pre with state := .expectingClientHello } := by
    rw [Spec.post, hacts]; rfl
  have hused := usedHello_eq (by rw [hpost]; rfl) f1.cookie (fun hh => (pre.fresh hh).2.1) f1.ech
  have hr : Spec.received x = some (.clientHello m, orig) := by
    have := received_sock (s := x.pre) (acts := x.acts) hs (by rw [hacts]; simp)
    rw [← ht] at this
    exact this
  have hsent : Spec.sent x = enc := by
    unfold Spec.sent Spec.contents Spec.handshakeBytes Spec.writes
    rw [hacts]
    have : (ccs q.p1.hello.chlo.legacy_session_id).filter (·.type = 22) = [] := by
      rw [List.filter_eq_nil_iff]; intro k hk; rw [ccs_type k hk]; decide
    simp [transition, content, this]
  have htr : Spec.transcript cfg (x :: h) = mh ++ enc := by
    rw [Spec.transcript, hr]
    simp only
    rw [if_pos (by rw [hpost]), hused, hsent, frame_eq h4, f2.ctx]
    have : (Spec.post x).cipher = some q.p1.cipher := by rw [hpost]; rfl
    rw [this]
    simp only [Spec.digest, f2.hash, Spec.messageHash, transcriptHash]
    rfl
  have hst' : (Spec.post x).state = .expectingClientHello := by rw [hpost]
  refine ⟨fun hh => ?_, fun _ => ?_, fun hh => ?_, fun hh => ?_, fun hh => ?_⟩
  · rw [hst'] at hh; cases hh
  · rw [hpost]
    refine ⟨⟨by simp [saveRetry], ?_, pre.noCert, pre.noPending,
      .inr ⟨_, hrr', frame_len h4, encodable h7, by rw [htr, frame_eq h4, encode_eq h7]; rfl⟩⟩, hwr, ⟨_, rfl⟩, hks, ?_⟩
    · intro c hc
      simp only [saveRetry, Option.some.injEq] at hc
      subst hc
      refine ⟨htr.symm, rfl, rfl, by simp [saveRetry], by simp [saveRetry],
        ⟨[], x, h, q.p1.version, group, rfl, rfl, rfl, ?_, ?_⟩, ?_⟩
      · obtain ⟨groups, shares, g1, g2, g3, -, g4⟩ := group_facts hng
        refine ⟨m, orig, hr, hst', ?_⟩
        rw [hused]
        refine ⟨f1.valid, f1.version, f1.cipher, ⟨groups, shares, g1, g2, g3, g4 rfl⟩, hrr', ?_, ?_, ?_⟩
        · rw [hsent]; exact encode_eq h7
        · intro he
          rw [show (Spec.post x).echStatus = q.p1.hello.echStatus by rw [hpost]; rfl] at he
          unfold confirmHrr at h6
          rw [if_neg he] at h6
          rw [← Except.ok.inj h6]
          exact getHelloRetryRequest_eq h5
        · intro he
          rw [show (Spec.post x).echStatus = q.p1.hello.echStatus by rw [hpost]; rfl] at he
          unfold confirmHrr at h6
          rw [if_pos he, getHelloRetryRequest_eq h5, frame_eq h4] at h6
          refine ⟨_, f2.hash, ?_⟩
          rw [f2.ctx] at h6
          exact h6
      · have hneg := f2.early
        cases hed : q.earlyDataType with
        | notAttempted =>
          rw [hed] at hneg
          have hno := early_notAttempted hneg
          simp only [saveRetry, hed]
          refine ⟨fun hh => (by simp at hh), ?_⟩
          rintro ⟨m', o', e, h1, h2⟩
          rw [hr, Option.some.injEq, Prod.mk.injEq, HsMsg.clientHello.injEq] at h1
          obtain ⟨rfl, rfl⟩ := h1
          rw [hused] at h2
          rw [hno] at h2; cases h2
        | rejected =>
          obtain ⟨e, he⟩ := early_not_notAttempted hneg (by rw [hed]; simp)
          simp only [saveRetry, hed]
          exact ⟨fun _ => ⟨m, orig, e, hr, by rw [hused]; exact he⟩, fun _ => rfl⟩
        | accepted =>
          obtain ⟨e, he⟩ := early_not_notAttempted hneg (by rw [hed]; simp)
          simp only [saveRetry, hed]
          exact ⟨fun _ => ⟨m, orig, e, hr, by rw [hused]; exact he⟩, fun _ => rfl⟩
      cases hed : q.earlyDataType <;> simp [saveRetry]
    · refine ⟨?_, ?_, ?_, ?_⟩
      · rw [actions_cons, hacts]; simp [quiet.success, transition]
      · rw [actions_cons, hacts]; simp [quiet.early, transition]
      · rw [updatesReceived_other (by rw [hr]; simp)]; exact quiet.received
      · rw [updatesSent_other]
        · exact quiet.sent
        · rw [hsent, encode_eq h7, handshake_head]; simp [Codec.Spec.typeByte]
  · rw [hst'] at hh; simp [midState] at hh
  · rw [hst'] at hh; cases hh
  · rw [hst'] at hh; simp at hh

/-! ## The whole flight -/

theorem helloActions_ne {cfg q f w} : helloActions cfg q f w ≠ [] := by
  unfold helloActions
  cases q.early with
  | none => simp
  | some e => simp only; split_ifs <;> simp

theorem hello_inv {cfg : Cfg} (hok : ∀ c a, cfg.hashOf c = .ok a → a.Ok) {h : List Step} {x : Step}
    (hi : Inv cfg h x.pre) {u m orig}
    (ht : x.trig = .sock) (hs : x.env.sock = .event (.handshake (.clientHello m) orig) u)
    (hst : x.pre.state = .expectingClientHello)
    (hsh : HelloShape cfg x.env.inp x.pre u m orig x.acts) :
    (Inv cfg (x :: h) (Spec.post x)) ∧
    (.reportHandshakeSuccess ∉ x.acts) ∧
    (.reportEarlyHandshakeSuccess ∈ x.acts → ∃ g, Spec.Negotiated cfg h x g ∧ g.early = true) := by
  obtain ⟨pre, hwr, hrd, hks, quiet⟩ := hi.hello hst
  generalize hacts : x.acts = acts at hsh
  cases hsh with
  | fallback =>
    refine ⟨Inv.over (.inl ?_), by simp [transition], by simp [transition]⟩
    rw [Spec.post, hacts]; rfl
  | @retry p1 p2 group _ h1 h2 h3 h4 h5 =>
    refine ⟨retry_inv hok hi ht hs hst h1 h2 h4 (hacts ▸ h5), ?_⟩
    unfold sendRetry at h5
    simp only [Res.bind_eq_ok] at h5
    obtain ⟨_, -, mh, -, hrr, -, hrr', -, enc, -, w, -, h5⟩ := h5
    rw [← pure_eq_ok.1 h5]
    simp [transition]
  | @noKex p1 p2 k f w h1 h2 h3 h4 h5 h6 =>
    have f1 := part1_facts h1
    have f2 := part2_facts hok pre f1 h2
    have ok := hok _ _ f2.hash
    cases hr : p2.resState with
    | none => rw [(f2.noPsk hr).1] at h3; cases h3
    | some rs =>
      obtain ⟨g, hg, ha⟩ := flight_step hok pre ht hs hst h1 h2 (noKex_facts ok f2.ks hr h4) h5 h6 hacts
        (by simp) (fun _ => h3)
      obtain ⟨hm, hms⟩ := after_mid quiet hg ha (by rw [hacts]; exact helloActions_ne)
      refine ⟨⟨fun hh => ?_, fun hh => ?_, fun _ => ⟨g, hm⟩, fun hh => ?_, fun hh => ?_⟩, ?_, ?_⟩
      · rw [hh] at hms; simp [midState] at hms
      · rw [hh] at hms; simp [midState] at hms
      · rw [hh] at hms; simp [midState] at hms
      · rcases hh with hh | hh <;> (rw [hh] at hms; simp [midState] at hms)
      · rw [← hacts]; exact hg.report.1
      · rw [← hacts]; exact fun hh => ⟨g, hg, hg.report.2.1 hh⟩
  | @kex p1 p2 k f w group share h1 h2 h3 h4 h5 h6 h7 =>
    have f1 := part1_facts h1
    have f2 := part2_facts hok pre f1 h2
    have ok := hok _ _ f2.hash
    obtain ⟨sh, se, hk, kf⟩ := doKex_facts ok f2.ks h5
    obtain ⟨groups, shares, g1, g2, g3, g4, -⟩ := group_facts h4
    obtain ⟨g, hg, ha⟩ := flight_step hok pre ht hs hst h1 h2 kf h6 h7 hacts
      (by
        rintro e' he; cases he
        exact ⟨hk, groups, shares, g1, g2, g3, g4 _ rfl⟩) (by simp)
    obtain ⟨hm, hms⟩ := after_mid quiet hg ha (by rw [hacts]; exact helloActions_ne)
    refine ⟨⟨fun hh => ?_, fun hh => ?_, fun _ => ⟨g, hm⟩, fun hh => ?_, fun hh => ?_⟩, ?_, ?_⟩
    · rw [hh] at hms; simp [midState] at hms
    · rw [hh] at hms; simp [midState] at hms
    · rw [hh] at hms; simp [midState] at hms
    · rcases hh with hh | hh <;> (rw [hh] at hms; simp [midState] at hms)
    · rw [← hacts]; exact hg.report.1
    · rw [← hacts]; exact fun hh => ⟨g, hg, hg.report.2.1 hh⟩

/-! ## Tickets -/

/-- What a ticket carries. -/
theorem ticket_shape {cfg inp s rms tok acts} (h : generateTicket cfg inp s rms tok = .ok acts) :
    acts = [] ∨ ∃ w rs ticket lifetime exts, s.write = some w ∧
      ticketState cfg inp s rms tok = .ok rs ∧ inp.ticketEncrypt rs = .ok (some (ticket, lifetime)) ∧
      ticketExts cfg rs.version = .ok exts ∧
      acts = [.write none [content w 22 (Codec.Spec.handshake (.newSessionTicket
        ⟨UInt32.ofInt lifetime, inp.ticketAgeAdd, some [], ticket, exts⟩))] 0] := by
  unfold generateTicket at h
  split_ifs at h
  · cases h; exact .inl rfl
  · rw [Res.bind_eq_ok] at h
    obtain ⟨t, -, h⟩ := h
    split_ifs at h
    · cases pure_eq_ok.1 h; exact .inl rfl
    · rw [makeTicket, Res.bind_eq_ok] at h
      obtain ⟨rs, h1, h⟩ := h
      rw [Res.bind_eq_ok] at h
      obtain ⟨o, h2, h⟩ := h
      cases o with
      | none => cases pure_eq_ok.1 h; exact .inl rfl
      | some o =>
        obtain ⟨tk, lt⟩ := o
        simp only [Res.bind_eq_ok] at h
        obtain ⟨w, h3, a, h4, h⟩ := h
        cases pure_eq_ok.1 h
        rw [writeNewSessionTicket] at h4
        simp only [Res.bind_eq_ok] at h4
        obtain ⟨exts, h5, enc, h6, h4⟩ := h4
        cases pure_eq_ok.1 h4
        refine .inr ⟨w, rs, tk, lt, exts, derefPtr_eq_ok.1 h3, h1, h2, h5, ?_⟩
        rw [encode_eq h6]

theorem ticket_plain {cfg inp s rms tok acts} (h : generateTicket cfg inp s rms tok = .ok acts) :
    (∀ s', applyAll acts s' = s') ∧
    (.reportHandshakeSuccess ∉ acts ∧ .reportEarlyHandshakeSuccess ∉ acts ∧ ∀ d, .deliver d ∉ acts) ∧
    (Spec.handshakeBytes (Spec.writes acts)).head? ≠ some 24 := by
  rcases ticket_shape h with rfl | ⟨w, rs, tk, lt, exts, -, -, -, -, rfl⟩
  · simp [applyAll, Spec.writes, Spec.handshakeBytes]
  · refine ⟨fun _ => rfl, by simp, ?_⟩
    simp only [Spec.writes, Spec.handshakeBytes, content, List.flatMap_cons, List.flatMap_nil, List.append_nil, List.filter_cons,
      decide_true, if_true, List.filter_nil, List.flatten_cons, List.flatten_nil, handshake_head]
    simp [Codec.Spec.typeByte]

theorem finishedTicket_plain {cfg inp s rms acts} (h : finishedTicket cfg inp s rms = .ok acts) :
    (∀ s', applyAll acts s' = s') ∧
    (.reportHandshakeSuccess ∉ acts ∧ .reportEarlyHandshakeSuccess ∉ acts ∧ ∀ d, .deliver d ∉ acts) ∧
    (Spec.handshakeBytes (Spec.writes acts)).head? ≠ some 24 := by
  unfold finishedTicket at h
  split_ifs at h
  · exact ticket_plain h
  · cases h; simp [applyAll, Spec.writes, Spec.handshakeBytes]

end Fizz.Server

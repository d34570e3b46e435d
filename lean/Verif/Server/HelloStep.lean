import Verif.Server.HelloFlight

/-!
# The ClientHello step: `Negotiated` and the state after it
-/

namespace Fizz.Server
open Fizz.Codec Fizz.Crypto
open Fizz.Ticket (CookieState ResumptionState)
open Fizz.Conn (Trig)
open Spec (Neg)

/-- The client sent the early data extension. -/
def OfferedEarly (g : Neg) : Prop := ∃ e, getClientEarlyData g.used.1.extensions = .ok (some e)

/-- The state right after the server's flight. -/
structure After (cfg : Cfg) (inp : Inp) (g : Neg) (s : St) : Prop where
  ks : s.ks = some (KS.conc g.hash ⟨.master g.inputs, some (g.app 0 0)⟩)
  hs : s.hs = some ⟨g.cipher, g.before ++ g.used.2 ++ g.serverHello ++ g.rest⟩
  secret : s.clientHandshakeSecret = some g.clientHandshake
  write : s.write = some ⟨.appTraffic, g.serverApp 0⟩
  cipher : s.cipher = some g.cipher
  version : s.version = some g.version
  pskType : s.pskType = some g.pskType
  time : s.handshakeTime = some (match g.psk with | some rs => rs.handshakeTime | none => inp.now)
  group : s.group = g.ecdhe.map (·.1)
  alpn : s.alpn = g.alpn
  chain : s.unverifiedCertChain = none
  cert : s.clientCert = g.psk.bind (·.clientCert)
  saved : Spec.SavedCert inp g s.serverCert
  exporter : s.exporterMasterSecret =
    some (KS.Spec.masterValue g.hash.spec g.inputs g.thServerFinished .exporterMaster)
  info : Spec.Info g s
  phase :
    (g.early = true ∧ cfg.omitEarlyRecordLayer = false ∧ s.state = .acceptingEarlyData ∧
      s.read = some ⟨.earlyData, g.clientEarly, false⟩ ∧
      s.handshakeRead = some ⟨.handshake, g.clientHandshake, false⟩) ∨
    (s.handshakeRead = none ∧ ∃ skip, s.read = some ⟨.handshake, g.clientHandshake, skip⟩ ∧
      (skip = true ↔ g.early = false ∧ OfferedEarly g) ∧
      ((g.early = true ∧ cfg.omitEarlyRecordLayer = true ∧ s.state = .expectingFinished) ∨
       (g.early = false ∧ Spec.WantsCert cfg g ∧ s.state = .expectingCertificate) ∨
       (g.early = false ∧ ¬ Spec.WantsCert cfg g ∧ s.state = .expectingFinished)))

theorem early_notAttempted {cfg inp v chlo psk c kt ck al rp sk}
    (h : negotiateEarlyDataType cfg inp v chlo psk c kt ck al rp sk = .ok .notAttempted) :
    getClientEarlyData chlo.extensions = .ok none := by
  unfold negotiateEarlyDataType at h
  rw [Res.bind_eq_ok] at h
  obtain ⟨o, h1, h⟩ := h
  cases o with
  | none => exact h1
  | some e =>
    simp only at h
    repeat' split at h
    all_goals cases pure_eq_ok.1 h

theorem early_not_notAttempted {cfg inp v chlo psk c kt ck al rp sk t}
    (h : negotiateEarlyDataType cfg inp v chlo psk c kt ck al rp sk = .ok t) (ht : t ≠ .notAttempted) :
    ∃ e, getClientEarlyData chlo.extensions = .ok (some e) := by
  unfold negotiateEarlyDataType at h
  rw [Res.bind_eq_ok] at h
  obtain ⟨o, h1, h⟩ := h
  cases o with
  | none => exact absurd (pure_eq_ok.1 h).symm ht
  | some e => exact ⟨e, h1⟩

theorem early_accepted {cfg inp v chlo psk c kt ck al rp sk}
    (h : negotiateEarlyDataType cfg inp v chlo psk c kt ck al rp sk = .ok .accepted) :
    cfg.acceptEarlyData v = true ∧ kt ≠ some .helloRetryRequest ∧ ck = none ∧ rp = .notReplay ∧
    ∃ rs k, psk = some rs ∧ rs.cipher = c ∧ rs.alpn = al ∧ sk = some k ∧ cfg.skewBefore ≤ k ∧
      k ≤ cfg.skewAfter ∧ (cfg.hasAppTokenValidator = true → inp.validateToken rs = true) := by
  unfold negotiateEarlyDataType at h
  rw [Res.bind_eq_ok] at h
  obtain ⟨o, h1, h⟩ := h
  cases o with
  | none => cases pure_eq_ok.1 h
  | some e =>
    simp only at h
    split at h
    · cases pure_eq_ok.1 h
    rename_i a1
    cases psk with
    | none => cases pure_eq_ok.1 h
    | some rs =>
      simp only at h
      split at h
      · cases pure_eq_ok.1 h
      rename_i a2
      split at h
      · cases pure_eq_ok.1 h
      rename_i a3
      split at h
      · cases pure_eq_ok.1 h
      rename_i a4
      split at h
      · cases pure_eq_ok.1 h
      rename_i a5
      split at h
      · cases pure_eq_ok.1 h
      rename_i a6
      cases sk with
      | none => cases pure_eq_ok.1 h
      | some k =>
        simp only at h
        split at h
        · cases pure_eq_ok.1 h
        rename_i a7
        split at h
        · cases pure_eq_ok.1 h
        rename_i a8
        refine ⟨by simpa using a1, a4, by simpa using a5, not_ne_iff.1 a6, rs, k, rfl, not_ne_iff.1 a2,
          not_ne_iff.1 a3, rfl, by omega, by omega, ?_⟩
        intro hv
        cases hx : inp.validateToken rs with
        | true => rfl
        | false => exact absurd ⟨hv, hx⟩ a8

theorem replay_facts {cfg inp chlo v} (h : getReplayCacheResult cfg inp chlo v = .ok .notReplay) :
    cfg.hasReplayCache = true ∧ inp.replayCheck chlo.random.val = .ok .notReplay := by
  unfold getReplayCacheResult at h
  rw [Res.bind_eq_ok] at h
  obtain ⟨o, h1, h⟩ := h
  split_ifs at h with hc
  · cases pure_eq_ok.1 h
  · simp only [Bool.or_eq_true, not_or, beq_iff_eq, decide_eq_true_eq] at hc
    exact ⟨by simpa using hc.1.2, h⟩

theorem acceptEarlyData_facts {cfg : Cfg} {v} (h : cfg.acceptEarlyData v = true) :
    cfg.acceptEarlyData_ = true ∧ (cfg.earlyDataFbOnly = true → v = 0xfb17 ∨ v = 0xfb1a) := by
  unfold Cfg.acceptEarlyData at h
  split_ifs at h with hc
  refine ⟨h, fun hf => ?_⟩
  have := Classical.not_not.1 fun hn => hc ⟨hf, hn⟩
  simpa [fbVersions] using this

theorem alpn_facts {cfg chlo a} (h : negotiateAlpn cfg chlo = .ok a) :
    (∀ x, a = some x → ∃ l, getProtocolNameList chlo.extensions = .ok (some l) ∧
      Negotiate.FirstIn cfg.supportedAlpns (· ∈ l.protocol_name_list.map (·.name)) x) ∧
    (a = none → cfg.alpnMode ≠ .required ∧
      (cfg.alpnMode = .optional → getProtocolNameList chlo.extensions = .ok none)) := by
  unfold negotiateAlpn at h
  rw [Res.bind_eq_ok] at h
  obtain ⟨o, h1, h⟩ := h
  cases o with
  | none =>
    simp only at h
    split_ifs at h with hm
    cases pure_eq_ok.1 h
    exact ⟨by simp, fun _ => ⟨hm, fun _ => h1⟩⟩
  | some l =>
    simp only at h
    split at h
    · split_ifs at h with hm
      cases pure_eq_ok.1 h
      have hm := not_ne_iff.1 hm
      exact ⟨by simp, fun _ => by simp [hm]⟩
    · rename_i p hp
      cases pure_eq_ok.1 h
      refine ⟨?_, by simp⟩
      rintro x hx
      cases hx
      exact ⟨l, h1, ((Negotiate.C14_flat _ _).1 _).1 hp⟩

theorem group_facts {cfg chlo group share} (h : negotiateGroup cfg chlo = .ok (group, share)) :
    ∃ groups shares, getSupportedGroups chlo.extensions = .ok (some groups) ∧
      getClientKeyShare chlo.extensions = .ok (some shares) ∧
      Negotiate.FirstIn cfg.supportedGroups (· ∈ groups.named_group_list) group ∧
      (∀ sh, share = some sh → ⟨group, sh⟩ ∈ shares.client_shares ∧
        (shares.client_shares.map (·.group)).Nodup) ∧
      (share = none → ∀ e ∈ shares.client_shares, e.group ≠ group) := by
  unfold negotiateGroup at h
  rw [Res.bind_eq_ok] at h
  obtain ⟨o, h1, h⟩ := h
  cases o with
  | none => cases h
  | some groups =>
    simp only at h
    split at h
    · cases h
    · rename_i gr hg
      rw [Res.bind_eq_ok] at h
      obtain ⟨o, h2, h⟩ := h
      cases o with
      | none => cases h
      | some shares =>
        simp only [Res.bind_eq_ok] at h
        obtain ⟨_, h3, h⟩ := h
        cases pure_eq_ok.1 h
        refine ⟨groups, shares, h1, h2, ((Negotiate.C14_flat _ _).1 _).1 hg, ?_, ?_⟩
        · intro sh hsh
          rw [Option.map_eq_some_iff] at hsh
          obtain ⟨e, he, rfl⟩ := hsh
          have := List.find?_some he
          simp only [beq_iff_eq] at this
          subst this
          exact ⟨List.mem_of_find?_eq_some he, by simpa [check_eq_ok] using h3⟩
        · intro hn e he
          rw [Option.map_eq_none_iff, List.find?_eq_none] at hn
          simpa using hn e he

theorem splitFlight_flatten (b : Bytes) : (splitFlight b).flatten = b := by
  unfold splitFlight
  split_ifs with h
  · simp only [List.flatten_cons, List.flatten_nil, List.append_nil]
    rw [List.isEmpty_iff] at h
    have := List.take_append_drop 1000 b
    rw [h, List.append_nil] at this
    exact this
  · simp

theorem contents_helloActions (x : Step) {cfg q f w} (hx : x.acts = helloActions cfg q f w) :
    Spec.contents x = flightContents w q.p1.hello.chlo.legacy_session_id f := by
  unfold Spec.contents Spec.writes
  rw [hx]
  unfold helloActions
  cases q.early with
  | none => simp [transition]
  | some e => simp only; split_ifs <;> simp [transition]

theorem report_helloActions {cfg q f w} :
    .reportHandshakeSuccess ∉ helloActions cfg q f w ∧
    (.reportEarlyHandshakeSuccess ∈ helloActions cfg q f w ↔ q.early.isSome = true) := by
  unfold helloActions
  cases q.early with
  | none => simp [transition]
  | some e => simp only; split_ifs <;> simp [transition]

theorem announced_helloActions (x : Step) {cfg q f w} (hx : x.acts = helloActions cfg q f w) :
    Spec.announced x = (match q.early with | some e => [(.clientEarlyTraffic, e.read)] | none => []) ++
      [(.clientHandshakeTraffic, f.handshakeRead), (.serverHandshakeTraffic, f.handshakeWrite),
       (.serverAppTraffic, f.appWrite)] := by
  unfold Spec.announced
  rw [hx]
  unfold helloActions
  cases q.early with
  | none => simp [transition, Spec.announcement]
  | some e => simp only; split_ifs <;> simp [transition, Spec.announcement]

theorem ccs_type {sid : Bytes} : ∀ c ∈ ccs sid, c.type = 20 := by
  unfold ccs
  split_ifs <;> simp

theorem ccs_eq {sid : Bytes} : ∀ c ∈ ccs sid, c = ⟨⟨.plaintext, []⟩, 20, [[1]]⟩ := by
  unfold ccs
  split_ifs <;> simp

theorem deriveEarly_some {h ks ctx t o} (hd : deriveEarly h ks ctx t = .ok o) :
    (o.isSome = true ↔ t = .accepted) ∧
    ∀ e, o = some e → ksSecret (KS.getEarly h ks .clientEarlyTraffic (transcriptHash h ctx)) = .ok e.read ∧
      ksSecret (KS.getEarly h ks .earlyExporter (transcriptHash h ctx)) = .ok e.exporter := by
  unfold deriveEarly at hd
  split_ifs at hd with ht
  · simp only [Res.bind_eq_ok] at hd
    obtain ⟨r, h1, e, h2, hd⟩ := hd
    cases pure_eq_ok.1 hd
    refine ⟨by simp [ht], ?_⟩
    rintro _ h; cases h
    exact ⟨h1, h2⟩
  · cases hd
    simp [ht]

/-- The ClientHello step that answers with the whole flight. -/
theorem flight_step {cfg : Cfg} (hok : ∀ c a, cfg.hashOf c = .ok a → a.Ok) {h : List Step} {x : Step}
    (pre : PreHello cfg h x.pre) {u m orig p q k f w} {e : Ecdhe}
    (ht : x.trig = .sock) (hs : x.env.sock = .event (.handshake (.clientHello m) orig) u)
    (hst : x.pre.state = .expectingClientHello)
    (h1 : part1 cfg x.env.inp x.pre u m orig = .ok (.inr p)) (h2 : part2 cfg x.env.inp x.pre p = .ok q)
    (kf : KexFacts q e k) (h3 : buildFlight cfg x.env.inp x.pre q k = .ok f)
    (hw : x.pre.write = some w) (hx : x.acts = helloActions cfg q f w)
    (he : ∀ e', e = some e' → x.env.inp.kex e'.1 e'.2.1 = .ok (e'.2.2.1, e'.2.2.2) ∧
      ∃ groups shares, getSupportedGroups q.p1.hello.chlo.extensions = .ok (some groups) ∧
        getClientKeyShare q.p1.hello.chlo.extensions = .ok (some shares) ∧
        Negotiate.FirstIn cfg.supportedGroups (· ∈ groups.named_group_list) e'.1 ∧
        ⟨e'.1, e'.2.1⟩ ∈ shares.client_shares ∧ (shares.client_shares.map (·.group)).Nodup)
    (hn : e = none → q.pskMode = some psk_ke) :
    ∃ g, Spec.Negotiated cfg h x g ∧ After cfg x.env.inp g (Spec.post x) := by
  have f1 := part1_facts h1
  have f2 := part2_facts hok pre f1 h2
  have ok := hok _ _ f2.hash
  have ff := buildFlight_facts ok f2 kf h3
  have hp := f2.p1
  subst hp
  have hpost : Spec.post x = applyAll (helloActions cfg q f w) x.pre := by rw [Spec.post, hx]
  have hech : (Spec.post x).echStatus = q.p1.hello.echStatus := by
    rw [hpost]
    unfold helloActions applyAll
    cases q.early with
    | none => simp [Action.apply, transition, saveHello]
    | some e => simp only; split_ifs <;> simp [Action.apply, transition, saveHello]
  have hused := usedHello_eq hech f1.cookie (fun hh => (pre.fresh hh).2.1) f1.ech
  obtain ⟨d1, d2⟩ := deriveEarly_some f2.secrets
  have hal := alpn_facts f2.alpn
  have hsec : ∀ es, q.early = some es →
      es.read = (ghost x.env.inp h cfg m q e f).clientEarly ∧
      es.exporter = KS.Spec.earlyValue q.hash.spec (ghost x.env.inp h cfg m q e f).inputs.psk
        (ghost x.env.inp h cfg m q e f).thHello .earlyExporter := by
    intro es hq
    have hacc : q.earlyDataType = .accepted := d1.1 (by rw [hq]; rfl)
    obtain ⟨hes, hex⟩ := d2 _ hq
    have hneg := f2.early
    rw [hacc] at hneg
    obtain ⟨-, -, -, -, rs, sk, hrs, -⟩ := early_accepted hneg
    rw [f2.ks, hrs] at hes hex
    rw [ks_getEarly ok (ok.len _) hes, ks_getEarly ok (ok.len _) hex, f2.ctx]
    simp only [Neg.clientEarly, Neg.thHello, Neg.inputs, ghost, transcriptHash, hrs]
    exact ⟨rfl, rfl⟩
  have htype : x.pre.earlyDataType.getD q.earlyDataType = .accepted ↔ q.earlyDataType = .accepted := by
    cases hpe : x.pre.earlyDataType with
    | none => rfl
    | some t =>
      cases hhs : x.pre.hs with
      | none => rw [(pre.fresh hhs).2.2.2.2.2.2] at hpe; cases hpe
      | some c =>
        obtain ⟨-, -, hk, -, -, -, ht⟩ := pre.retried _ hhs
        constructor
        · intro ha
          rw [hpe] at ht
          simp only [Option.getD_some] at ha
          rw [ha] at ht
          rcases ht with ht | ht <;> cases ht
        · intro ha
          have hneg := f2.early
          rw [ha] at hneg
          exact absurd hk (early_accepted hneg).2.1
  have hinfo : ∀ s' : St, s'.earlyDataType = x.pre.earlyDataType →
      (∀ es, q.early = some es → s'.earlyExporterMasterSecret = some es.exporter) →
      ∀ st, Spec.Info (ghost x.env.inp h cfg m q e f) { saveHello q f s' with state := st } := by
    intro s' h1 h2 st
    refine
      { version := rfl, cipher := rfl, group := (show f.kex.group = e.map (·.1) by rw [ff.kex, kf.group])
        alpn := rfl, pskType := rfl, clientRandom := rfl, appToken := ?_, early := ?_
        exporter := by simp only [saveHello, ff.exporter], earlyExporter := ?_ }
    · show q.appToken = _
      rw [f2.token]; rfl
    · show some (s'.earlyDataType.getD q.earlyDataType) = some .accepted ↔ _
      rw [h1, Option.some.injEq, htype]
      simp [ghost]
    · intro he
      have ha : q.earlyDataType = .accepted := by simpa [ghost] using he
      obtain ⟨es, hes⟩ := Option.isSome_iff_exists.1 (d1.2 ha)
      show s'.earlyExporterMasterSecret = _
      rw [h2 _ hes, (hsec _ hes).2]
      rfl
  refine ⟨ghost x.env.inp h cfg m q e f, ?_, ?_⟩
  · refine
      { hello := ⟨m, orig, ht, by rw [hs, f1.parsed], hused.symm, rfl, ?_, ?_⟩
        begins := f2.begins, valid := f1.valid, state := hst, hash := f2.hash, version := f1.version, cipher := f1.cipher
        sameVersion := f1.sameVersion, sameCipher := f1.sameCipher, sameGroup := ff.sameGroup
        psk := ?_, ecdhe := he, noEcdhe := ?_, alpn := hal.1, noAlpn := hal.2, flight := ?_
        serverHello := by rw [hech]; exact ff.serverHello
        rest := by rw [hech]; exact ff.rest, secrets := ?_, report := ?_ }
    · intro hearly
      have ha : q.earlyDataType = .accepted := by simpa [ghost] using hearly
      have hneg := f2.early
      rw [ha] at hneg
      obtain ⟨a1, a2, a3, a4, rs, sk, a5, a6, a7, a8, a9, a10, a11⟩ := early_accepted hneg
      obtain ⟨offer, ident, idents, b, bs, n, c1, c2, c3, c4, c5, c6, c7, c8, c9, c10, c11⟩ := f2.psk _ a5
      have hrp := f1.replay
      rw [a4] at hrp
      obtain ⟨r1, r2⟩ := replay_facts hrp
      obtain ⟨ae1, ae2⟩ := acceptEarlyData_facts a1
      rw [c11, Option.some.injEq] at a8
      subst a8
      refine ⟨early_not_notAttempted hneg (by simp), ae1, ae2, ?_, a2, f1.cookie.trans a3, r1, r2, rs,
        offer, ident, idents, a5, a6, a7, a11, c1, c2, a9, a10⟩
      cases hhs : x.pre.hs with
      | none => rfl
      | some c => exact absurd (pre.retried _ hhs).2.2.1 a2
    · intro ck hck
      rw [f1.cookie] at hck
      refine ⟨?_, (f1.cookieVersion _ hck).1, (f1.cookieVersion _ hck).2, ff.cookieGroup _ hck⟩
      rcases f1.noBoth with hh | hh
      · exact hh
      · rw [hck] at hh; cases hh
    · intro rs hrs
      obtain ⟨offer, ident, idents, b, bs, n, c1, c2, c3, c4, c5, c6, c7, c8, c9, -⟩ := f2.psk _ hrs
      exact ⟨offer, ident, idents, b, bs, n, c1, c2, c3, c4, c5, c6, c7, c8, c9⟩
    · intro hen
      have hm := hn hen
      refine ⟨?_, f2.mode _ hm⟩
      intro hh
      rw [(f2.noPsk hh).1] at hm
      cases hm
    · refine ⟨w, ccs q.p1.hello.chlo.legacy_session_id, splitFlight f.encrypted, hw, ?_,
        splitFlight_flatten _, ccs_eq⟩
      rw [contents_helloActions x hx, flightContents, ff.hw]
      rfl
    · rw [announced_helloActions x hx, ff.hr, ff.hw, ff.appWrite]
      congr 1
      cases hq : q.early with
      | none =>
        rw [if_neg]
        intro he
        have ha : q.earlyDataType = .accepted := by simpa [ghost] using he
        have := d1.2 ha
        rw [hq] at this; cases this
      | some es =>
        have ha : q.earlyDataType = .accepted := d1.1 (by rw [hq]; rfl)
        rw [if_pos (by simp [ghost, ha])]
        simp only [(hsec _ hq).1]
    · rw [hx]
      refine ⟨report_helloActions.1, report_helloActions.2.trans (d1.trans ?_)⟩
      simp [ghost]
  · have htime : q.handshakeTime = (match q.resState with
        | some rs => rs.handshakeTime | none => x.env.inp.now) := by
      cases hq : q.resState with
      | none => exact (f2.noPsk hq).2.1
      | some rs =>
        obtain ⟨offer, ident, idents, b, bs, n, c1, c2, c3, c4, c5, c6, c7, c8, c9, c10, -⟩ := f2.psk _ hq
        exact c10
    have hkg : f.kex.group = e.map (·.1) := by rw [ff.kex, kf.group]
    have hskip : ∀ b : Bool, b = decide (q.earlyDataType = .rejected) → (b = true ↔
        (ghost x.env.inp h cfg m q e f).early = false ∧ OfferedEarly (ghost x.env.inp h cfg m q e f)) := by
      intro b hb
      subst hb
      rw [decide_eq_true_eq]
      constructor
      · intro hr
        refine ⟨by simp [ghost, hr], early_not_notAttempted f2.early (by rw [hr]; simp)⟩
      · rintro ⟨hr1, e', he'⟩
        have hr1 : q.earlyDataType ≠ .accepted := by simpa [ghost] using hr1
        have hneg := f2.early
        cases hq : q.earlyDataType with
        | rejected => rfl
        | accepted => exact absurd hq hr1
        | notAttempted =>
          rw [hq] at hneg
          have := early_notAttempted hneg
          rw [show getClientEarlyData q.p1.hello.chlo.extensions = .ok (some e') from he'] at this
          cases this
    rw [hpost]
    cases hq : q.early with
    | none =>
      have hna : q.earlyDataType ≠ .accepted := by
        intro hh
        have := d1.2 hh
        rw [hq] at this
        cases this
      have hacts : applyAll (helloActions cfg q f w) x.pre =
          { saveHello q f { x.pre with read := some ⟨.handshake, f.handshakeRead, q.earlyDataType = .rejected⟩ } with
            state := if f.requestClientAuth then .expectingCertificate else .expectingFinished } := by
        unfold helloActions applyAll
        rw [hq]
        rfl
      rw [hacts]
      refine
        { ks := by simp only [saveHello, ff.ks], hs := by simp only [saveHello, ff.ctx]
          secret := by simp only [saveHello, ff.hr], write := by simp only [saveHello, ff.appWrite]
          cipher := rfl, version := rfl, pskType := rfl
          time := by simp only [saveHello, htime]; rfl
          saved := ff.saved
          group := hkg, alpn := rfl, chain := pre.noCert.2
          cert := ff.cert, exporter := by simp only [saveHello, ff.exporter]
          info := by
            refine hinfo _ ?_ ?_ _
            · rfl
            · intro es h; rw [hq] at h; cases h
          phase := .inr ⟨pre.noPending, _, by simp only [saveHello, ff.hr]; rfl, hskip _ (by simp), .inr ?_⟩ }
      have hearly : (ghost x.env.inp h cfg m q e f).early = false := by simpa [ghost] using hna
      by_cases hwc : f.requestClientAuth = true
      · exact .inl ⟨hearly, ff.want.1 hwc, by simp [hwc]⟩
      · exact .inr ⟨hearly, fun hh => hwc (ff.want.2 hh), by simp [hwc]⟩
    | some es =>
      have hacc : q.earlyDataType = .accepted := d1.1 (by rw [hq]; rfl)
      have hearly : (ghost x.env.inp h cfg m q e f).early = true := by simpa [ghost] using hacc
      have hread := (hsec _ hq).1
      by_cases ho : cfg.omitEarlyRecordLayer = true
      · have hacts : applyAll (helloActions cfg q f w) x.pre =
            { saveHello q f (saveEarly ⟨.handshake, f.handshakeRead, q.earlyDataType = .rejected⟩ none
                es.exporter x.pre) with state := .expectingFinished } := by
          unfold helloActions applyAll
          rw [hq]
          simp only [ho]
          rfl
        rw [hacts]
        refine
          { ks := by simp only [saveHello, ff.ks], hs := by simp only [saveHello, ff.ctx]
            secret := by simp only [saveHello, ff.hr], write := by simp only [saveHello, ff.appWrite]
            cipher := rfl, version := rfl, pskType := rfl
            time := by simp only [saveHello, htime]; rfl
            saved := ff.saved
            group := hkg, alpn := rfl, chain := pre.noCert.2
            cert := ff.cert, exporter := by simp only [saveHello, ff.exporter]
            info := by
              refine hinfo _ ?_ ?_ _
              · rfl
              · intro es' h; rw [hq, Option.some.injEq] at h; subst h; rfl
            phase := .inr ⟨pre.noPending, _, by simp only [saveHello, saveEarly, ff.hr]; rfl,
              hskip _ (by simp), .inl ⟨hearly, ho, rfl⟩⟩ }
      · have ho := Bool.eq_false_iff.2 ho
        have hacts : applyAll (helloActions cfg q f w) x.pre =
            { saveHello q f (saveEarly ⟨.earlyData, es.read, false⟩
                (some ⟨.handshake, f.handshakeRead, q.earlyDataType = .rejected⟩)
                es.exporter x.pre) with state := .acceptingEarlyData } := by
          unfold helloActions applyAll
          rw [hq]
          simp only [ho]
          rfl
        rw [hacts]
        refine
          { ks := by simp only [saveHello, ff.ks], hs := by simp only [saveHello, ff.ctx]
            secret := by simp only [saveHello, ff.hr], write := by simp only [saveHello, ff.appWrite]
            cipher := rfl, version := rfl, pskType := rfl
            time := by simp only [saveHello, htime]; rfl
            saved := ff.saved
            group := hkg, alpn := rfl, chain := pre.noCert.2
            cert := ff.cert, exporter := by simp only [saveHello, ff.exporter]
            info := by
              refine hinfo _ ?_ ?_ _
              · rfl
              · intro es' h; rw [hq, Option.some.injEq] at h; subst h; rfl
            phase := .inl ⟨hearly, ho, rfl, by simp only [saveHello, saveEarly, hread], ?_⟩ }
        simp only [saveHello, saveEarly, ff.hr, hacc]
        rfl

end Fizz.Server

import Verif.Server.InvStep

/-!
# All histories satisfy the invariant
-/

namespace Fizz.Server
open Fizz.Codec Fizz.Crypto
open Fizz.Ticket (CookieState ResumptionState)
open Fizz.Conn (Trig)
open Spec (Neg)

theorem readChain_forall {inp allowed es cs}
    (h : readChain inp allowed false es = .ok cs) :
    List.Forall₂ (fun e c => inp.makePeerCert e false = .ok c) es cs ∧
    ∀ e ∈ es, (e.extensions.map (·.extension_type)).Nodup ∧
      ∀ t ∈ e.extensions.map (·.extension_type), t ∈ allowed := by
  induction es generalizing cs with
  | nil => cases h; exact ⟨.nil, by simp⟩
  | cons e es ih =>
    rw [readChain] at h
    simp only [Res.bind_eq_ok] at h
    obtain ⟨_, h1, c, h2, cs', h3, h⟩ := h
    cases pure_eq_ok.1 h
    obtain ⟨i1, i2⟩ := ih h3
    rw [checkCertExtensions] at h1
    simp only [Res.bind_eq_ok, check_eq_ok, decide_eq_true_eq, List.all_eq_true] at h1
    obtain ⟨_, h11, h12⟩ := h1
    refine ⟨.cons h2 i1, ?_⟩
    intro e' he'
    rcases List.mem_cons.1 he' with rfl | he'
    · refine ⟨h12, ?_⟩
      intro t ht
      obtain ⟨x, hx, rfl⟩ := List.mem_map.1 ht
      exact h11 x hx
    · exact i2 _ he'

theorem readChain_cons {inp allowed l chain} (h : readChain inp allowed true l = .ok chain)
    (hne : chain ≠ []) : ∃ e es leaf cs, l = e :: es ∧ chain = leaf :: cs ∧
      inp.makePeerCert e true = .ok leaf ∧
      List.Forall₂ (fun e c => inp.makePeerCert e false = .ok c) es cs ∧
      ∀ e ∈ l, (e.extensions.map (·.extension_type)).Nodup ∧
        ∀ t ∈ e.extensions.map (·.extension_type), t ∈ allowed := by
  cases l with
  | nil => cases h; exact absurd rfl hne
  | cons e es =>
    rw [readChain] at h
    simp only [Res.bind_eq_ok] at h
    obtain ⟨_, h1, c, h2, cs', h3, h⟩ := h
    cases pure_eq_ok.1 h
    obtain ⟨i1, i2⟩ := readChain_forall h3
    rw [checkCertExtensions] at h1
    simp only [Res.bind_eq_ok, check_eq_ok, decide_eq_true_eq, List.all_eq_true] at h1
    obtain ⟨_, h11, h12⟩ := h1
    refine ⟨e, es, c, cs', rfl, rfl, h2, i1, ?_⟩
    intro e' he'
    rcases List.mem_cons.1 he' with rfl | he'
    · refine ⟨h12, ?_⟩
      intro t ht
      obtain ⟨x, hx, rfl⟩ := List.mem_map.1 ht
      exact h11 x hx
    · exact i2 _ he'

theorem Inv.of_mid {cfg h g s} (hs : midState s.state) (hm : Mid cfg h g s) : Inv cfg h s := by
  refine ⟨fun hh => ?_, fun hh => ?_, fun _ => ⟨g, hm⟩, fun hh => ?_, fun hh => ?_⟩
  · rw [hh] at hs; simp [midState] at hs
  · rw [hh] at hs; simp [midState] at hs
  · rw [hh] at hs; simp [midState] at hs
  · rcases hh with hh | hh <;> (rw [hh] at hs; simp [midState] at hs)

theorem Inv.of_live {cfg h g s} (hs : s.state = .acceptingData) (hm : Live cfg h g s) : Inv cfg h s := by
  refine ⟨fun hh => ?_, fun hh => ?_, fun hh => ?_, fun _ => ⟨g, hm⟩, fun hh => ?_⟩
  · rw [hh] at hs; cases hs
  · rw [hh] at hs; cases hs
  · rw [hs] at hh; simp [midState] at hh
  · rcases hh with hh | hh <;> (rw [hh] at hs; cases hs)

/-- A step whose message is `m`, with no handshake message in its answer. -/
theorem transcript_msg {cfg : Cfg} {h : List Step} {x : Step} {m : HsMsg} {orig : Bytes}
    (hr : Spec.received x = some (m, orig)) (hm : ∀ c, m ≠ .clientHello c) (hs : Spec.sent x = []) :
    Spec.transcript cfg (x :: h) = Spec.transcript cfg h ++ orig := by
  rw [Spec.transcript, hr]
  cases m <;> simp_all

theorem eoed_mid {cfg h g s i orig} (hm : Mid cfg h g s) (hs : s.state = .acceptingEarlyData)
    (he : i.sock = .event (.handshake .endOfEarlyData orig) false) :
    Mid cfg (⟨.sock, i, s, [.mutate (saveEoed orig), transition .expectingFinished]⟩ :: h) g
      (applyAll [.mutate (saveEoed orig), transition .expectingFinished] s) := by
  generalize hx : (⟨.sock, i, s, [.mutate (saveEoed orig), transition .expectingFinished]⟩ : Step) = x
  have hr : Spec.received x = some (.endOfEarlyData, orig) := by
    rw [← hx]; exact received_sock he (by simp)
  have hst : Spec.sent x = [] := by rw [← hx]; rfl
  have htr := transcript_msg (cfg := cfg) (h := h) hr (by simp) hst
  obtain ⟨e1, e2, e3⟩ := hm.early hs
  have hnw : ¬ Spec.WantsCert cfg g := by
    obtain ⟨n, y, o, -, hn⟩ := hm.fixed
    obtain ⟨m', o', -, -, -, -, h5, -⟩ := hn.hello
    obtain ⟨-, -, -, -, -, -, -, -, rs, -, -, -, hrs, -⟩ := h5 e1
    intro hw
    rw [hw.2] at hrs; cases hrs
  refine
    { hm with
      info := { hm.info with }
      fixed := hm.fixed.cons x, origin := origin_cons hm.origin x, hs := ?_
      success := by rw [← hx]; simp [hm.success, transition]
      earlySuccess := by rw [← hx]; simp [hm.earlySuccess, transition]
      updates := by
        rw [updatesReceived_other (by rw [hr]; simp), updatesSent_other (by rw [hst]; simp)]
        exact hm.updates
      early := by simp [applyAll, Action.apply, transition]
      late := fun _ => ⟨false, by simp [applyAll, Action.apply, transition, saveEoed, e3], by simp [e1]⟩
      wants := by simp [applyAll, Action.apply, transition]
      chain := by simp [applyAll, Action.apply, transition]
      cert := by simp [applyAll, Action.apply, transition]
      auth := fun _ => ⟨fun _ => hm.cert (by rw [hs]; simp), fun hw => absurd hw hnw⟩ }
  rw [htr]
  simp [applyAll, Action.apply, transition, saveEoed, hm.hs, HsCtx.append]

theorem noCert_mid {cfg h g s i m orig u} (hm : Mid cfg h g s) (hs : s.state = .expectingCertificate)
    (he : i.sock = .event (.handshake (.certificate m) orig) u) (hn : m.certificate_list = [])
    (ho : cfg.clientAuthMode = .optional) :
    Mid cfg (⟨.sock, i, s, [.mutate (saveChain orig none), transition .expectingFinished]⟩ :: h) g
      (applyAll [.mutate (saveChain orig none), transition .expectingFinished] s) := by
  generalize hx : (⟨.sock, i, s, [.mutate (saveChain orig none), transition .expectingFinished]⟩ : Step) = x
  have hr : Spec.received x = some (.certificate m, orig) := by
    rw [← hx]; exact received_sock he (by simp)
  have hst : Spec.sent x = [] := by rw [← hx]; rfl
  have htr := transcript_msg (cfg := cfg) (h := h) hr (by simp) hst
  have hw := hm.wants (.inl hs)
  refine
    { hm with
      info := { hm.info with }
      fixed := hm.fixed.cons x, origin := origin_cons hm.origin x, hs := ?_
      success := by rw [← hx]; simp [hm.success, transition]
      earlySuccess := by rw [← hx]; simp [hm.earlySuccess, transition]
      updates := by
        rw [updatesReceived_other (by rw [hr]; simp), updatesSent_other (by rw [hst]; simp)]
        exact hm.updates
      early := by simp [applyAll, Action.apply, transition]
      late := fun _ => hm.late (by rw [hs]; simp)
      wants := by simp [applyAll, Action.apply, transition]
      chain := by simp [applyAll, Action.apply, transition]
      cert := by simp [applyAll, Action.apply, transition]
      auth := fun _ => ⟨fun hnw => absurd hw hnw, fun _ => .inl ⟨ho, ?_, ?_⟩⟩ }
  · rw [htr]
    simp [applyAll, Action.apply, transition, saveChain, hm.hs, HsCtx.append]
  · show s.clientCert = none
    rw [hm.cert (by rw [hs]; simp), hw.2]; rfl
  · exact ⟨[], x, h, m, orig, rfl, hr, hn⟩

theorem cert_mid {cfg h g s i m orig u chain} (hm : Mid cfg h g s) (hs : s.state = .expectingCertificate)
    (he : i.sock = .event (.handshake (.certificate m) orig) u)
    (hc : m.certificate_request_context = [])
    (hch : readChain i.inp s.certReqExtensions true m.certificate_list = .ok chain) (hne : chain ≠ []) :
    Mid cfg (⟨.sock, i, s, [.mutate (saveChain orig (some chain)),
        transition .expectingCertificateVerify]⟩ :: h) g
      (applyAll [.mutate (saveChain orig (some chain)), transition .expectingCertificateVerify] s) := by
  generalize hx : (⟨.sock, i, s, [.mutate (saveChain orig (some chain)),
    transition .expectingCertificateVerify]⟩ : Step) = x
  have hr : Spec.received x = some (.certificate m, orig) := by
    rw [← hx]; exact received_sock he (by simp)
  have hst : Spec.sent x = [] := by rw [← hx]; rfl
  have htr := transcript_msg (cfg := cfg) (h := h) hr (by simp) hst
  have hw := hm.wants (.inl hs)
  refine
    { hm with
      info := { hm.info with }
      fixed := hm.fixed.cons x, origin := origin_cons hm.origin x, hs := ?_
      success := by rw [← hx]; simp [hm.success, transition]
      earlySuccess := by rw [← hx]; simp [hm.earlySuccess, transition]
      updates := by
        rw [updatesReceived_other (by rw [hr]; simp), updatesSent_other (by rw [hst]; simp)]
        exact hm.updates
      early := by simp [applyAll, Action.apply, transition]
      late := fun _ => hm.late (by rw [hs]; simp)
      wants := fun _ => hw
      chain := fun _ => ?_
      cert := fun _ => hm.cert (by rw [hs]; simp)
      auth := by simp [applyAll, Action.apply, transition] }
  · rw [htr]
    simp [applyAll, Action.apply, transition, saveChain, hm.hs, HsCtx.append]
  · obtain ⟨e, es, leaf, cs, h1, rfl, h2, h3, h4⟩ := readChain_cons hch hne
    refine ⟨leaf, cs, rfl, [], x, h, m, orig, e, es, rfl, hr, hc, h1, ?_⟩
    rw [← hx]
    exact ⟨h2, h3, h4⟩

theorem certVerify_mid {cfg h g s i m orig u leaf chain cert ha} (hm : Mid cfg h g s)
    (hs : s.state = .expectingCertificateVerify)
    (he : i.sock = .event (.handshake (.certificateVerify m) orig) u)
    (hc : s.unverifiedCertChain = some (leaf :: chain)) (hal : m.algorithm ∈ cfg.supportedSigSchemes)
    (hh : cfg.hashOf g.cipher = .ok ha)
    (hv : i.inp.verifySig leaf m.algorithm (transcriptHash ha ⟨g.cipher, Spec.transcript cfg h⟩)
      m.signature = .ok ())
    (hvc : verifiedCert cfg i.inp leaf (leaf :: chain) = .ok cert) :
    Mid cfg (⟨.sock, i, s, [.mutate (saveClientCert orig cert), transition .expectingFinished]⟩ :: h) g
      (applyAll [.mutate (saveClientCert orig cert), transition .expectingFinished] s) := by
  generalize hx : (⟨.sock, i, s, [.mutate (saveClientCert orig cert),
    transition .expectingFinished]⟩ : Step) = x
  have hr : Spec.received x = some (.certificateVerify m, orig) := by
    rw [← hx]; exact received_sock he (by simp)
  have hst : Spec.sent x = [] := by rw [← hx]; rfl
  have htr := transcript_msg (cfg := cfg) (h := h) hr (by simp) hst
  have hw := hm.wants (.inr hs)
  refine
    { hm with
      info := { hm.info with }
      fixed := hm.fixed.cons x, origin := origin_cons hm.origin x, hs := ?_
      success := by rw [← hx]; simp [hm.success, transition]
      earlySuccess := by rw [← hx]; simp [hm.earlySuccess, transition]
      updates := by
        rw [updatesReceived_other (by rw [hr]; simp), updatesSent_other (by rw [hst]; simp)]
        exact hm.updates
      early := by simp [applyAll, Action.apply, transition]
      late := fun _ => hm.late (by rw [hs]; simp)
      wants := fun _ => hw
      chain := by simp [applyAll, Action.apply, transition]
      cert := by simp [applyAll, Action.apply, transition]
      auth := fun _ => ⟨fun hnw => absurd hw hnw, fun _ => .inr ⟨cert, rfl, ?_⟩⟩ }
  · rw [htr]
    simp [applyAll, Action.apply, transition, saveClientCert, hm.hs, HsCtx.append]
  · obtain ⟨l', c', h1, h2⟩ := hm.chain hs
    rw [hc] at h1
    cases h1
    have hgh : g.hash = ha := by
      obtain ⟨n, y, o, -, hn⟩ := hm.fixed
      have := hn.hash
      rw [hh] at this
      exact (Except.ok.inj this).symm
    refine ⟨[], x, h, m, orig, leaf, chain, rfl, hr, h2, hal, ?_, ?_, ?_⟩
    · rw [← hx, hgh]; exact hv
    · intro hf
      unfold verifiedCert at hvc
      rw [if_neg (by rw [hf]; simp)] at hvc
      exact (Except.ok.inj hvc).symm
    · intro hf
      unfold verifiedCert at hvc
      rw [if_pos hf] at hvc
      rw [← hx]
      show ∃ r, i.inp.verifyChain (leaf :: chain) = .ok r ∧ cert = r.getD leaf
      cases hq : i.inp.verifyChain (leaf :: chain) with
      | error f => rw [hq] at hvc; cases hvc
      | ok r =>
        rw [hq] at hvc
        refine ⟨r, rfl, ?_⟩
        cases r <;> exact (Except.ok.inj hvc).symm

theorem finishedActions_facts {cfg read rms ks nst} (hn : (∀ s', applyAll nst s' = s') ∧
    (.reportHandshakeSuccess ∉ nst ∧ .reportEarlyHandshakeSuccess ∉ nst ∧ ∀ d, .deliver d ∉ nst) ∧
    (Spec.handshakeBytes (Spec.writes nst)).head? ≠ some 24) :
    (∀ s, applyAll (finishedActions cfg read rms ks nst) s =
      { saveFinished read rms ks s with state := .acceptingData }) ∧
    finishedActions cfg read rms ks nst ≠ [] ∧
    .reportHandshakeSuccess ∈ finishedActions cfg read rms ks nst ∧
    .reportEarlyHandshakeSuccess ∉ finishedActions cfg read rms ks nst ∧
    (Spec.handshakeBytes (Spec.writes (finishedActions cfg read rms ks nst))).head? ≠ some 24 := by
  obtain ⟨h1, ⟨h2, h3, h4⟩, h5⟩ := hn
  unfold finishedActions
  split_ifs
  · refine ⟨fun s => ?_, by simp, by simp, by simp [transition, h3], ?_⟩
    · have := h1 { saveFinished read rms ks s with state := .acceptingData }
      unfold applyAll at this ⊢
      rw [List.foldl_append, List.foldl_append]
      show List.foldl _ (List.foldl _ { saveFinished read rms ks s with state := .acceptingData } nst) _ = _
      rw [this]
      rfl
    · simp only [Spec.writes, transition, List.flatMap_append, List.flatMap_cons, List.flatMap_nil,
        List.append_nil, List.nil_append] at h5 ⊢
      exact h5
  · refine ⟨fun s => rfl, by simp, by simp, by simp [transition], ?_⟩
    simp [Spec.writes, transition, Spec.handshakeBytes]

theorem finished_live {cfg : Cfg} (hok : ∀ c a, cfg.hashOf c = .ok a → a.Ok) {h g s i m orig ha hc ks ks' cipher read rms nst}
    (hm : Mid cfg h g s) (hs : s.state = .expectingFinished)
    (he : i.sock = .event (.handshake (.finished m) orig) false)
    (h1 : cfg.hashOf g.cipher = .ok ha)
    (h4 : s.ks = some ks) (h5 : s.cipher = some cipher) (h6 : cfg.hashOf cipher = .ok hc)
    (h7 : ksSecret (KS.getApp ks .clientAppTraffic) = .ok read)
    (h8 : ksSecret (KS.getMaster hc ks .resumptionMaster
      (transcriptHash ha (HsCtx.append ⟨g.cipher, Spec.transcript cfg h⟩ orig))) = .ok rms)
    (h9 : ksState (KS.clearMasterSecret ks) = .ok ks')
    (h10 : finishedTicket cfg i.inp s rms = .ok nst) :
    Live cfg (⟨.sock, i, s, finishedActions cfg read rms ks' nst⟩ :: h) g
      (applyAll (finishedActions cfg read rms ks' nst) s) := by
  obtain ⟨f1, f2, f3, f4, f5⟩ := finishedActions_facts (cfg := cfg) (read := read) (rms := rms) (ks := ks')
    (finishedTicket_plain h10)
  generalize hx : (⟨.sock, i, s, finishedActions cfg read rms ks' nst⟩ : Step) = x
  have hr : Spec.received x = some (.finished m, orig) := by
    rw [← hx]; exact received_sock he f2
  have hgh : g.hash = ha ∧ g.hash = hc := by
    obtain ⟨n, y, o, -, hn⟩ := hm.fixed
    have := hn.hash
    have hcc : cipher = g.cipher := by rw [hm.cipher] at h5; exact (Option.some.inj h5).symm
    subst hcc
    rw [h1] at this
    rw [h1] at h6
    exact ⟨(Except.ok.inj this).symm, (Except.ok.inj this).symm.trans (Except.ok.inj h6)⟩
  obtain ⟨rfl, e2⟩ := hgh
  subst e2
  have ok := hok _ _ h1
  rw [hm.ks, Option.some.injEq] at h4
  subst h4
  have e7 := ks_getClientApp ok h7
  have e8 := ks_getMaster ok (ok.len _) h8
  have e9 := ks_clearMaster ok h9
  rw [f1]
  have hu : Spec.updatesReceived (x :: h) = 0 ∧ Spec.updatesSent (x :: h) = 0 := by
    rw [updatesReceived_other (by rw [hr]; simp), updatesSent_other (by rw [← hx]; exact f5)]
    exact hm.updates
  refine
    { fixed := hm.fixed.cons x, ks := by rw [hu.1, hu.2]; simp only [saveFinished, e9], hs := rfl
      secret := rfl, write := by rw [hu.2]; exact hm.write
      read := by rw [hu.1]; simp only [saveFinished, e7]; rfl
      cipher := hm.cipher, version := hm.version, pskType := hm.pskType, origin := origin_cons hm.origin x
      alpn := hm.alpn, info := { hm.info with }, exporter := hm.exporter
      success := by rw [← hx]; simp [f3]
      earlySuccess := by rw [← hx]; simp [f4, hm.earlySuccess]
      rms := ⟨[], x, h, m, orig, rfl, hr, ?_⟩, auth := (hm.auth hs).cons x }
  simp only [saveFinished, e8, transcriptHash, HsCtx.append]

theorem schedule_facts {cfg h g s ha ks} (hl : Live cfg h g s) (hk : schedule cfg s = .ok (ha, ks)) :
    ha = g.hash ∧ cfg.hashOf g.cipher = .ok g.hash ∧
    ks = KS.conc g.hash ⟨.start, some (g.app (Spec.updatesReceived h) (Spec.updatesSent h))⟩ := by
  obtain ⟨n, y, o, -, hn⟩ := hl.fixed
  have hh := hn.hash
  unfold schedule at hk
  simp only [Res.bind_eq_ok] at hk
  obtain ⟨c, h1, a, h2, k, h3, hk⟩ := hk
  cases pure_eq_ok.1 hk
  rw [deref_eq_ok, hl.cipher, Option.some.injEq] at h1
  subst h1
  rw [hh] at h2
  cases h2
  rw [derefPtr_eq_ok, hl.ks, Option.some.injEq] at h3
  exact ⟨rfl, hh, h3.symm⟩

theorem nextWrite_facts {h : HashAlg} (ok : h.Ok) {a ks sec}
    (hk : nextWrite h (KS.conc h ⟨.start, some a⟩) = .ok (ks, sec)) :
    ks = KS.conc h ⟨.start, some { a with serverUpdates := a.serverUpdates + 1 }⟩ ∧
    sec = KS.Spec.serverTraffic h.spec { a with serverUpdates := a.serverUpdates + 1 } := by
  unfold nextWrite at hk
  simp only [Res.bind_eq_ok] at hk
  obtain ⟨k, h1, s, h2, hk⟩ := hk
  cases pure_eq_ok.1 hk
  have e1 := ks_serverUpdate ok h1
  subst e1
  exact ⟨rfl, ks_getServerApp ok h2⟩

theorem nextRead_facts {h : HashAlg} (ok : h.Ok) {a ks sec}
    (hk : nextRead h (KS.conc h ⟨.start, some a⟩) = .ok (ks, sec)) :
    ks = KS.conc h ⟨.start, some { a with clientUpdates := a.clientUpdates + 1 }⟩ ∧
    sec = KS.Spec.clientTraffic h.spec { a with clientUpdates := a.clientUpdates + 1 } := by
  unfold nextRead at hk
  simp only [Res.bind_eq_ok] at hk
  obtain ⟨k, h1, s, h2, hk⟩ := hk
  cases pure_eq_ok.1 hk
  have e1 := ks_clientUpdate ok h1
  subst e1
  exact ⟨rfl, ks_getClientApp ok h2⟩

theorem Live.rms_cons {cfg h g s} (hl : Live cfg h g s) (x : Step) :
    ∃ newer y older m orig, x :: h = newer ++ y :: older ∧
    Spec.received y = some (.finished m, orig) ∧
    s.resumptionMasterSecret = KS.Spec.masterValue g.hash.spec g.inputs
      (g.hash.digest (Spec.transcript cfg older ++ orig)) .resumptionMaster := by
  obtain ⟨n, y, o, mm, orig, rfl, a⟩ := hl.rms
  exact ⟨x :: n, y, o, mm, orig, rfl, a⟩

theorem init_live {cfg : Cfg} (hok : ∀ c a, cfg.hashOf c = .ok a → a.Ok) {h g s i r enc w ha ks ks' sec}
    (hl : Live cfg h g s) (he : encodeHandshake (.keyUpdate ⟨r⟩) = .ok enc)
    (hk : schedule cfg s = .ok (ha, ks)) (hn : nextWrite ha ks = .ok (ks', sec)) :
    Live cfg (⟨.app (.keyUpdate r), i, s, [.mutate (saveWrite ks' sec),
        .secretAvailable .serverAppTraffic sec, .write none [content w 22 enc] 0]⟩ :: h) g
      (applyAll [.mutate (saveWrite ks' sec), .secretAvailable .serverAppTraffic sec,
        .write none [content w 22 enc] 0] s) := by
  obtain ⟨rfl, hh, rfl⟩ := schedule_facts hl hk
  have ok := hok _ _ hh
  obtain ⟨rfl, rfl⟩ := nextWrite_facts ok hn
  generalize hx : (⟨.app (.keyUpdate r), i, s, _⟩ : Step) = x
  have hr : Spec.received x = none := by rw [← hx]; rfl
  have hst : (Spec.sent x).head? = some 24 := by
    rw [← hx, encode_eq he]
    simp [Spec.sent, Spec.contents, Spec.handshakeBytes, Spec.writes, content, Codec.Spec.handshake,
      Codec.Spec.typeByte]
  have u1 := updatesReceived_other (x := x) (h := h) (by rw [hr]; simp)
  have u2 := updatesSent_one (x := x) (h := h) hst
  exact
    { hl with
      info := { hl.info with }
      fixed := hl.fixed.cons x, origin := origin_cons hl.origin x
      success := by simp [hl.success]
      earlySuccess := by rw [← hx]; simp [hl.earlySuccess]
      ks := by rw [u1, u2]; rfl
      write := by rw [u2]; rfl
      read := by rw [u1]; exact hl.read
      rms := hl.rms_cons x, auth := hl.auth.cons x }

theorem update_live {cfg : Cfg} (hok : ∀ c a, cfg.hashOf c = .ok a → a.Ok) {h g s i m orig ha ks ks' sec}
    (hl : Live cfg h g s) (he : i.sock = .event (.handshake (.keyUpdate m) orig) false)
    (hk : schedule cfg s = .ok (ha, ks)) (hn : nextRead ha ks = .ok (ks', sec)) :
    Live cfg (⟨.sock, i, s, [.mutate (saveRead ks' sec), .secretAvailable .clientAppTraffic sec]⟩ :: h) g
      (applyAll [.mutate (saveRead ks' sec), .secretAvailable .clientAppTraffic sec] s) := by
  obtain ⟨rfl, hh, rfl⟩ := schedule_facts hl hk
  have ok := hok _ _ hh
  obtain ⟨rfl, rfl⟩ := nextRead_facts ok hn
  generalize hx : (⟨.sock, i, s, _⟩ : Step) = x
  have hr : Spec.received x = some (.keyUpdate m, orig) := by
    rw [← hx]; exact received_sock he (by simp)
  have u1 := updatesReceived_one (x := x) (h := h) hr
  have u2 := updatesSent_other (x := x) (h := h)
    (by rw [← hx]; simp [Spec.sent, Spec.contents, Spec.handshakeBytes, Spec.writes])
  exact
    { hl with
      info := { hl.info with }
      fixed := hl.fixed.cons x, origin := origin_cons hl.origin x
      success := by simp [hl.success]
      earlySuccess := by rw [← hx]; simp [hl.earlySuccess]
      ks := by rw [u1, u2]; rfl
      write := by rw [u2]; exact hl.write
      read := by rw [u1]; rfl
      rms := hl.rms_cons x, auth := hl.auth.cons x }

theorem answer_live {cfg : Cfg} (hok : ∀ c a, cfg.hashOf c = .ok a → a.Ok)
    {h g s i m orig ha ks ks' ks'' enc w read write}
    (hl : Live cfg h g s) (he : i.sock = .event (.handshake (.keyUpdate m) orig) false)
    (hk : schedule cfg s = .ok (ha, ks)) (hn : nextRead ha ks = .ok (ks', read))
    (hen : encodeHandshake (.keyUpdate ⟨0⟩) = .ok enc) (hn' : nextWrite ha ks' = .ok (ks'', write)) :
    Live cfg (⟨.sock, i, s, [.mutate (saveBoth ks'' read write), .secretAvailable .serverAppTraffic write,
        .secretAvailable .clientAppTraffic read, .write none [content w 22 enc] 0]⟩ :: h) g
      (applyAll [.mutate (saveBoth ks'' read write), .secretAvailable .serverAppTraffic write,
        .secretAvailable .clientAppTraffic read, .write none [content w 22 enc] 0] s) := by
  obtain ⟨rfl, hh, rfl⟩ := schedule_facts hl hk
  have ok := hok _ _ hh
  obtain ⟨rfl, rfl⟩ := nextRead_facts ok hn
  obtain ⟨rfl, rfl⟩ := nextWrite_facts ok hn'
  generalize hx : (⟨.sock, i, s, _⟩ : Step) = x
  have hr : Spec.received x = some (.keyUpdate m, orig) := by
    rw [← hx]; exact received_sock he (by simp)
  have hst : (Spec.sent x).head? = some 24 := by
    rw [← hx, encode_eq hen]
    simp [Spec.sent, Spec.contents, Spec.handshakeBytes, Spec.writes, content, Codec.Spec.handshake,
      Codec.Spec.typeByte]
  have u1 := updatesReceived_one (x := x) (h := h) hr
  have u2 := updatesSent_one (x := x) (h := h) hst
  exact
    { hl with
      info := { hl.info with }
      fixed := hl.fixed.cons x, origin := origin_cons hl.origin x
      success := by simp [hl.success]
      earlySuccess := by rw [← hx]; simp [hl.earlySuccess]
      ks := by rw [u1, u2]; rfl
      write := by rw [u2]; rfl
      read := by rw [u1]; rfl
      rms := hl.rms_cons x, auth := hl.auth.cons x }

/-- Every step preserves the invariant. -/
theorem inv_step {cfg : Cfg} (hok : ∀ c a, cfg.hashOf c = .ok a → a.Ok) {h s t i acts}
    (hi : Inv cfg h s) (hs : Shape cfg i s t acts) : Inv cfg (⟨t, i, s, acts⟩ :: h) (applyAll acts s) := by
  cases hs with
  | nothing => exact hi.cons ⟨rfl, by simp [Spec.sent, Spec.contents, Spec.handshakeBytes, Spec.writes],
      by simp, by simp⟩
  | @fail _ a hne =>
    refine Inv.over (.inl ?_)
    show (List.foldl _ (toError s) _).state = _
    rw [List.foldl_append]
    unfold alertWrites
    repeat' split
    all_goals rfl
  | wait hsock =>
    exact hi.cons ⟨by simp [Spec.received, hsock],
      by simp [Spec.sent, Spec.contents, Spec.handshakeBytes, Spec.writes], by simp, by simp⟩
  | closeNow _ => exact Inv.over (.inr ⟨.inl rfl, rfl⟩)
  | close _ => exact Inv.over (.inr ⟨.inr rfl, rfl⟩)
  | closed _ => exact Inv.over (.inr ⟨.inl rfl, rfl⟩)
  | accept hst =>
    obtain ⟨rfl, h2, h3⟩ := hi.uninit hst
    have p : Plain ⟨.accept, i, {}, onAccept⟩ :=
      ⟨rfl, by simp [Spec.sent, Spec.contents, Spec.handshakeBytes, Spec.writes, onAccept, transition],
        by simp [onAccept, transition], by simp [onAccept, transition]⟩
    refine ⟨fun hh => (by cases hh), fun _ => ?_, fun hh => (by
      rcases hh with hh | hh | hh | hh <;> cases hh), fun hh => (by cases hh),
      fun hh => (by rcases hh with hh | hh <;> cases hh)⟩
    refine ⟨⟨fun _ => ?_, fun c hc => (by cases hc), ⟨rfl, rfl⟩, rfl, .inl (by rw [transcript_skip p.received, h2])⟩, rfl, ⟨false, rfl⟩, rfl, h3.cons p⟩
    rw [transcript_skip p.received, h2]
    exact ⟨rfl, rfl, rfl, rfl, rfl, rfl, rfl⟩
  | v2 => exact Inv.over (.inl rfl)
  | @hello m orig u _ hst hsock hsh =>
    exact (hello_inv (x := ⟨.sock, i, s, acts⟩) hok hi rfl hsock hst hsh).1
  | earlyData hst hsock =>
    exact hi.cons ⟨by simp [Spec.received, hsock],
      by simp [Spec.sent, Spec.contents, Spec.handshakeBytes, Spec.writes], by simp, by simp⟩
  | data hst hsock =>
    exact hi.cons ⟨by simp [Spec.received, hsock],
      by simp [Spec.sent, Spec.contents, Spec.handshakeBytes, Spec.writes], by simp, by simp⟩
  | appWrite hst hw =>
    exact hi.cons ⟨rfl, by simp [Spec.sent, Spec.contents, Spec.handshakeBytes, Spec.writes, content],
      by simp, by simp⟩
  | endOfEarlyData hst hsock hc =>
    obtain ⟨g, hg⟩ := hi.mid (by rw [hst]; simp [midState])
    exact Inv.of_mid (.inr (.inr (.inr rfl))) (eoed_mid hg hst hsock)
  | noCertificate hst hsock hc hn ho =>
    obtain ⟨g, hg⟩ := hi.mid (by rw [hst]; simp [midState])
    exact Inv.of_mid (.inr (.inr (.inr rfl))) (noCert_mid hg hst hsock hn ho)
  | certificate hst hsock hc hctx hch hne =>
    obtain ⟨g, hg⟩ := hi.mid (by rw [hst]; simp [midState])
    exact Inv.of_mid (.inr (.inr (.inl rfl))) (cert_mid hg hst hsock hctx hch hne)
  | certificateVerify hst hsock hc hun hal hh hv hvc =>
    obtain ⟨g, hg⟩ := hi.mid (by rw [hst]; simp [midState])
    rw [hg.hs, Option.some.injEq] at hc
    subst hc
    exact Inv.of_mid (.inr (.inr (.inr rfl))) (certVerify_mid hg hst hsock hun hal hh hv hvc)
  | finished hst hsock hc hsec h1 hf hv h4 h5 h6 h7 h8 h9 h10 =>
    obtain ⟨g, hg⟩ := hi.mid (by rw [hst]; simp [midState])
    rw [hg.hs, Option.some.injEq] at hc
    subst hc
    refine Inv.of_live ?_ (finished_live hok hg hst hsock h1 h4 h5 h6 h7 h8 h9 h10)
    rw [(finishedActions_facts (finishedTicket_plain h10)).1]
  | ticket hst ht =>
    obtain ⟨p1, ⟨p2, p3, p4⟩, p5⟩ := ticket_plain ht
    rw [p1]
    exact hi.cons ⟨by simp [Spec.received], p5, p2, p3⟩
  | keyUpdateInitiation hst hu he hw hk hn =>
    obtain ⟨g, hg⟩ := hi.data hst
    exact Inv.of_live hst (init_live hok hg he hk hn)
  | keyUpdate hst hsock hr hk hn =>
    obtain ⟨g, hg⟩ := hi.data hst
    exact Inv.of_live hst (update_live hok hg hsock hk hn)
  | keyUpdateAnswered hst hsock hr hk hn he hw hn' =>
    obtain ⟨g, hg⟩ := hi.data hst
    exact Inv.of_live hst (answer_live hok hg hsock hk hn he hn')
  | closeNotify hst hsock hw => exact Inv.over (.inr ⟨.inl rfl, rfl⟩)
  | expectedCloseNotify hst hsock => exact Inv.over (.inr ⟨.inl rfl, rfl⟩)

/-- The invariant holds after every history. -/
theorem run_inv {cfg : Cfg} (hok : ∀ c a, cfg.hashOf c = .ok a → a.Ok) {h s} (hr : Run cfg h s) :
    Inv cfg h s := by
  induction hr with
  | nil =>
    refine ⟨fun _ => ⟨rfl, rfl, ⟨by simp, by simp, rfl, rfl⟩⟩, fun hh => (by cases hh), fun hh => (by
      rcases hh with hh | hh | hh | hh <;> cases hh), fun hh => (by cases hh),
      fun hh => (by rcases hh with hh | hh <;> cases hh)⟩
  | @step h s t i o hr ht hst ih =>
    have := step_shape cfg i s t
    rw [hst] at this
    exact inv_step hok ih this

end Fizz.Server

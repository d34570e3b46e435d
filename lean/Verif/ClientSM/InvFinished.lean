import Verif.ClientSM.InvStep

/-!
# The server's Finished
-/

namespace Fizz.ClientSM
open Fizz.Codec Fizz.Crypto
open Fizz.Server (Level RLayer WLayer Content KeyExchangeType HsCtx SockIn PeerCert content alertContent
  deref derefPtr check ksState ksSecret transcriptHash finishedData verifierFailure
  derefPtr_eq_ok deref_eq_ok check_eq_ok pure_eq_ok encode_eq finishedData_eq handshakeValue_len
  ks_deriveMaster ks_getMaster ks_deriveApp ks_getClientApp ks_getServerApp ks_clearMaster ks_clientUpdate
  ks_serverUpdate)
open Fizz.Server.Spec (messageHash finishedMac handshakeBytes)
open Fizz.Client (CachedPsk PskType)
open Fizz.Conn (Trig)
open Spec (Offer PskOffer Public Neg)

theorem masterStage_facts {h : HashAlg} (ok : h.Ok) {i : KS.Spec.Inputs} {th thAll exporter resumption read write ks}
    (ht : th.length = h.hashLen) (ht' : thAll.length = h.hashLen)
    (hm : masterStage h (KS.conc h ⟨.handshake i, none⟩) th thAll = .ok (exporter, resumption, read, write, ks)) :
    exporter = KS.Spec.masterValue h.spec i th .exporterMaster ∧
    resumption = KS.Spec.masterValue h.spec i thAll .resumptionMaster ∧
    read = KS.Spec.serverTraffic h.spec ⟨i, th, 0, 0⟩ ∧ write = KS.Spec.clientTraffic h.spec ⟨i, th, 0, 0⟩ ∧
    ks = KS.conc h ⟨.start, some ⟨i, th, 0, 0⟩⟩ := by
  unfold masterStage at hm
  simp only [Res.bind_eq_ok] at hm
  obtain ⟨k1, h1, e, h2, r, h3, k2, h4, k3, h5, w, h6, rd, h7, hm⟩ := hm
  cases pure_eq_ok.1 hm
  have e1 := ks_deriveMaster ok h1
  subst e1
  have e2 := ks_getMaster ok ht h2
  have e3 := ks_getMaster ok ht' h3
  have e4 := ks_deriveApp ok ht h4
  subst e4
  have e5 := ks_clearMaster ok h5
  subst e5
  exact ⟨e2, e3, ks_getServerApp ok h7, ks_getClientApp ok h6, rfl⟩

theorem endEarly_facts {cfg h g s ctx ctx' eoed early} (hm : Mid cfg h g s) (he : s.earlyDataType = some early)
    (hf : endEarly cfg s ctx = .ok (ctx', eoed)) :
    ctx' = ⟨ctx.cipher, ctx.transcript ++ handshakeBytes eoed⟩ ∧
    (early = .accepted ∧ cfg.omitEarlyRecordLayer = false →
      ∃ k, Spec.earlySecret cfg g.first .clientEarlyTraffic = some k ∧
        eoed = [⟨⟨.earlyData, k⟩, 22, [Codec.Spec.handshake .endOfEarlyData]⟩]) ∧
    (¬ (early = .accepted ∧ cfg.omitEarlyRecordLayer = false) → eoed = []) := by
  unfold endEarly at hf
  simp only [he, Option.some.injEq] at hf
  split_ifs at hf with hc
  · simp only [Res.bind_eq_ok] at hf
    obtain ⟨enc, h1, w, h2, hf⟩ := hf
    cases pure_eq_ok.1 hf
    have h2 := derefPtr_eq_ok.1 h2
    rw [hm.early.write] at h2
    have h1 := encode_eq h1
    subst h1
    refine ⟨?_, fun _ => ?_, fun hh => absurd hc hh⟩
    · simp [HsCtx.append, handshakeBytes, content]
    · split_ifs at h2 with hq
      rw [Option.map_eq_some_iff] at h2
      obtain ⟨k, h3, rfl⟩ := h2
      exact ⟨k, h3, rfl⟩
  · cases hf
    exact ⟨by simp [handshakeBytes], fun hh => absurd hh hc, fun _ => rfl⟩

theorem auth_facts {cfg h g s inp base a} {t : ClientAuthType} (hm : Mid cfg h g s) (hs : s.state = .expectingFinished)
    (ha : s.clientAuth = some t) (hc : clientAuth inp g.hash s ⟨g.cipher, base⟩ t = .ok a) :
    a.ctx = ⟨g.cipher, base ++ a.messages⟩ ∧ Spec.AuthOk cfg inp g h base a.messages a.cert := by
  by_cases hb : ByPsk g
  · obtain ⟨psk, h1, h2⟩ := hb
    obtain ⟨-, h3, h4⟩ := (hm.byPsk ⟨psk, h1, h2⟩).2 psk h1
    rw [ha, Option.some.injEq] at h4
    have key : a.ctx = ⟨g.cipher, base⟩ ∧ a.messages = [] ∧ a.cert = psk.clientCert := by
      cases hp : psk.clientCert with
      | none =>
        rw [hp] at h4
        simp only [Option.isSome_none, Bool.false_eq_true, if_false] at h4
        subst h4
        cases hc
        exact ⟨rfl, rfl, rfl⟩
      | some c =>
        rw [hp] at h4
        simp only [Option.isSome_some, if_true] at h4
        subst h4
        cases hc
        exact ⟨rfl, rfl, by rw [h3, hp]⟩
    obtain ⟨k1, k2, k3⟩ := key
    rw [k1, k2, k3]
    exact ⟨by simp, .resumed h1 h2⟩
  · have hn := not_byPsk hb
    rcases hm.ask hb with ⟨a1, a2⟩ | ⟨cert, a1, a2, a3, a4⟩
    · rw [ha] at a2
      have : t = .notRequested := by
        rcases a2 with a2 | a2
        · cases a2
        · exact Option.some.inj a2
      subst this
      cases hc
      exact ⟨by simp, .none hn a1⟩
    · rw [ha, Option.some.injEq] at a2
      cases cert with
      | none =>
        simp only [Option.isSome_none, Bool.false_eq_true, if_false] at a2
        subst a2
        simp only [clientAuth, Res.bind_eq_ok] at hc
        obtain ⟨msg, h1, hc⟩ := hc
        cases pure_eq_ok.1 hc
        have h1 := encode_eq h1
        subst h1
        exact ⟨rfl, .empty hn a1⟩
      | some c =>
        obtain ⟨c, scheme⟩ := c
        simp only [Option.isSome_some, if_true] at a2
        subst a2
        simp only [clientAuth, sendCert, Res.bind_eq_ok] at hc
        obtain ⟨c', h1, m, h2, msg, h3, sch, h4, sig, h5, ver, h6, hc⟩ := hc
        cases pure_eq_ok.1 hc
        rw [derefPtr_eq_ok, a3] at h1
        cases Option.some.inj h1
        rw [deref_eq_ok, a4] at h4
        cases Option.some.inj h4
        have h3 := encode_eq h3
        subst h3
        have h6 := encode_eq h6
        subst h6
        exact ⟨by simp [HsCtx.append], .cert hn a1 h2 h5⟩

theorem auth_head {cfg inp g h base b c} (a : Spec.AuthOk cfg inp g h base b c) : b = [] ∨ b.head? = some 11 := by
  cases a with
  | resumed => exact .inl rfl
  | none => exact .inl rfl
  | empty => exact .inr rfl
  | cert => exact .inr rfl

/-- What the server's Finished leads to. -/
structure DoneOk (cfg : Cfg) (inp : Inp) (g : Neg) (h : List Step) (early : EarlyDataType) (orig : Bytes) (d : Done) :
    Prop where
  flight : Spec.FlightOk cfg inp g h (Spec.transcript cfg h ++ orig) early d.flight d.cert
  head : (handshakeBytes d.flight).head? ≠ some 24
  exporter : d.exporter = KS.Spec.masterValue g.hash.spec g.inputs
    (g.hash.digest (Spec.transcript cfg h ++ orig)) .exporterMaster
  resumption : d.resumption = KS.Spec.masterValue g.hash.spec g.inputs
    (g.hash.digest (Spec.transcript cfg h ++ orig ++ handshakeBytes d.flight)) .resumptionMaster
  read : d.read = g.serverApp (g.hash.digest (Spec.transcript cfg h ++ orig)) 0
  write : d.write = g.clientApp (g.hash.digest (Spec.transcript cfg h ++ orig)) 0
  ks : d.ks = KS.conc g.hash ⟨.start, some (g.app (g.hash.digest (Spec.transcript cfg h ++ orig)) 0 0)⟩

theorem finished_facts {cfg : Cfg} (hok : ∀ c a, cfg.hashOf c = .ok a → a.Ok) {h g s inp u m orig d early}
    (hm : Mid cfg h g s) (hs : s.state = .expectingFinished) (he : s.earlyDataType = some early)
    (hp : processFinished cfg inp s u m orig = .ok d) :
    u = false ∧ m.verify_data = finishedMac g.hash.spec g.serverHandshake (g.hash.digest (Spec.transcript cfg h)) ∧
    DoneOk cfg inp g h early orig d := by
  have hh := Fixed.hash hm.fixed
  have ok := hok _ _ hh
  unfold processFinished at hp
  simp only [Res.bind_eq_ok, check_eq_ok, decide_eq_true_eq] at hp
  obtain ⟨_, h1, ctx, h2, ha, h3, secret, h4, expd, h5, _, h6, ⟨all, flight, cert⟩, h7, ks, h8, cipher, h9, hc, h10,
    _, _, ⟨exporter, resumption, read, write, ks'⟩, h11, hp⟩ := hp
  have hp := (pure_eq_ok.1 hp).symm
  rw [derefPtr_eq_ok, hm.hs] at h2
  cases Option.some.inj h2
  rw [hh] at h3
  cases Except.ok.inj h3
  rw [deref_eq_ok, hm.serverSecret] at h4
  cases Option.some.inj h4
  rw [finishedData_eq ok (show g.serverHandshake.length = _ from handshakeValue_len ok _ _ (by simp))] at h5
  cases Except.ok.inj h5
  rw [derefPtr_eq_ok, hm.ks] at h8
  cases Option.some.inj h8
  rw [deref_eq_ok, hm.info.cipher] at h9
  cases Option.some.inj h9
  rw [hh] at h10
  cases Except.ok.inj h10
  -- the flight
  unfold secondFlight at h7
  simp only [Res.bind_eq_ok] at h7
  obtain ⟨⟨ctx', eoed⟩, f1, auth, f2, a, f3, sec, f4, mac, f5, fin, f6, w, f7, h7⟩ := h7
  obtain ⟨e1, e2, e3⟩ := endEarly_facts hm he f1
  subst e1
  obtain ⟨k1, k2⟩ := auth_facts hm hs (deref_eq_ok.1 f2) f3
  simp only [HsCtx.append] at k1 k2
  rw [deref_eq_ok, hm.clientSecret] at f4
  cases Option.some.inj f4
  rw [finishedData_eq ok (show g.clientHandshake.length = _ from handshakeValue_len ok _ _ (by simp)), k1] at f5
  cases Except.ok.inj f5
  have f6 := encode_eq f6
  subst f6
  rw [derefPtr_eq_ok, hm.write] at f7
  cases Option.some.inj f7
  cases pure_eq_ok.1 h7
  have hsent : handshakeBytes d.flight = handshakeBytes eoed ++ a.messages ++ Codec.Spec.handshake (.finished
      ⟨finishedMac g.hash.spec g.clientHandshake (g.hash.digest (Spec.transcript cfg h ++ orig ++
        handshakeBytes eoed ++ a.messages))⟩) := by
    rw [hp]
    simp only
    rw [handshakeBytes_append, ccs_sent firstCcs_ccs, handshakeBytes_append]
    simp [handshakeBytes, content]
  have hall : a.ctx.append (Codec.Spec.handshake (.finished ⟨finishedMac g.hash.spec g.clientHandshake
      (g.hash.digest (Spec.transcript cfg h ++ orig ++ handshakeBytes eoed ++ a.messages))⟩)) =
      ⟨g.cipher, Spec.transcript cfg h ++ orig ++ handshakeBytes d.flight⟩ := by
    rw [hsent, k1]
    simp [HsCtx.append]
  rw [hall] at h11
  obtain ⟨m1, m2, m3, m4, m5⟩ := masterStage_facts ok (ok.len _) (ok.len _) h11
  refine ⟨by simpa using h1, h6.symm, ?_⟩
  refine
    { flight := ⟨firstCcs cfg s, eoed, a.messages, by rw [hp]; exact k2, firstCcs_ccs, e2, e3, by
        rw [hp]; simp [content]⟩
      head := ?_, exporter := by rw [hp]; exact m1, resumption := by rw [hp] at m2 ⊢; exact m2
      read := by rw [hp]; exact m3, write := by rw [hp]; exact m4, ks := by rw [hp]; exact m5 }
  rw [hsent]
  by_cases hq : early = .accepted ∧ cfg.omitEarlyRecordLayer = false
  · obtain ⟨k, -, rfl⟩ := e2 hq
    simp [handshakeBytes, Codec.Spec.handshake, Codec.Spec.typeByte]
  · rw [e3 hq]
    rcases auth_head k2 with hq | hq
    · rw [hq]; simp [handshakeBytes, Codec.Spec.handshake, Codec.Spec.typeByte]
    · cases hqq : a.messages with
      | nil => simp [handshakeBytes, Codec.Spec.handshake, Codec.Spec.typeByte]
      | cons b l =>
        rw [hqq] at hq
        simp only [List.head?_cons, Option.some.injEq] at hq
        subst hq
        simp [handshakeBytes]

theorem echRejected_iff {cfg h g s} (hm : Mid cfg h g s) : echRejected s = false ↔ (cfg.hasEchConfigs = true → g.ech = true) := by
  unfold echRejected
  cases hE : cfg.hasEchConfigs with
  | false => rw [(hm.noEch hE).1]; simp
  | true =>
    obtain ⟨e, h1, h2⟩ := hm.ech hE
    rw [h1]
    simp only [h2]
    cases g.ech <;> simp

/-- The actions of a successful Finished. -/
def doneActions (cfg : Cfg) (d : Done) (b : Bool) : List Action :=
  [.mutate (saveFinished cfg d), transition .established,
    .secretAvailable .serverAppTraffic d.read, .secretAvailable .clientAppTraffic d.write,
    .secretAvailable .exporterMaster d.exporter, .secretAvailable .resumptionMaster d.resumption,
    .write none d.flight 0, .reportHandshakeSuccess b]

theorem finished_live {cfg : Cfg} (hok : ∀ c a, cfg.hashOf c = .ok a → a.Ok) {h g s i u m orig d early}
    (hm : Mid cfg h g s) (hs : s.state = .expectingFinished) (he : s.earlyDataType = some early)
    (hen : Spec.Encrypted cfg h g s.alpn early)
    (hso : i.sock = .event (.handshake (.finished m) orig) u)
    (hp : processFinished cfg i.inp s u m orig = .ok d) (hech : echRejected s = false) :
    Live cfg (⟨.sock, i, s, doneActions cfg d (decide (early = .accepted))⟩ :: h) g
      (g.hash.digest (Spec.transcript cfg h ++ orig)) early
      (applyAll (doneActions cfg d (decide (early = .accepted))) s) := by
  obtain ⟨rfl, f1, f2⟩ := finished_facts hok hm hs he hp
  generalize hx : (⟨.sock, i, s, doneActions cfg d (decide (early = .accepted))⟩ : Step) = x
  have hr : Spec.received x = some (.finished m, orig) := by
    rw [← hx]; exact received_sock hso (by simp [doneActions])
  have hco : Spec.contents x = d.flight := by
    rw [← hx]; simp [Spec.contents, Spec.writes, doneActions, transition]
  have hst : Spec.sent x = handshakeBytes d.flight := by rw [Spec.sent, hco]
  have hcn : ¬ Spec.connects x := not_connects (.inl (by rw [← hx]; simp))
  have hro : Spec.retryOf x = none := by simp [Spec.retryOf, hr]
  have hu : Spec.updatesReceived (x :: h) = 0 ∧ Spec.updatesSent (x :: h) = 0 := by
    rw [updatesReceived_other (by rw [hr]; simp), updatesSent_other (by rw [hst]; exact f2.head)]
    exact ⟨hm.quiet.received, hm.quiet.sent⟩
  have hap : applyAll (doneActions cfg d (decide (early = .accepted))) s =
    { saveFinished cfg d s with state := .established } := rfl
  rw [hap]
  refine
    { fixed := hm.fixed.cons x
      confirmed := ⟨[], x, h, m, orig, rfl, by rw [← hx], by rw [← hx]; exact hso, hm.fixed, f1, rfl⟩
      ks := by rw [hu.1, hu.2]; simp only [saveFinished, f2.ks], hs := rfl
      secrets := ⟨rfl, rfl, rfl⟩
      write := by rw [hu.2]; simp only [saveFinished, f2.write]
      read := by rw [hu.1]; simp only [saveFinished, f2.read]
      server := ?_, info := ?_, since := ?_, status := he, encrypted := hen.cons x
      ech := (echRejected_iff hm).1 hech
      exporter := by simp only [saveFinished, f2.exporter]
      completed := ⟨[], x, h, m, orig, rfl, hr, rfl, ?_, ?_, ?_⟩
      success := fun b => ?_, reported := ?_, reports := ?_
      count := by rw [retries_cons_none hro]; exact hm.count
      same := by rw [retries_cons_none hro]; exact hm.same
      first := by rw [retries_cons_none hro]; exact hm.first }
  · show Spec.ServerIs cfg g (x :: h) s.serverCert
    by_cases hb : ByPsk g
    · obtain ⟨psk, k1, k2⟩ := hb
      exact .inl ⟨psk, k1, k2, ((hm.byPsk ⟨psk, k1, k2⟩).2 psk k1).1⟩
    · obtain ⟨c, k1, k2⟩ := hm.proved hs hb
      exact .inr ⟨not_byPsk hb, c, k1, k2.cons x⟩
  · have i := hm.info
    refine ⟨i.version, i.cipher, i.group, i.pskType, i.pskMode, by rw [retries_cons_none hro]; exact i.kex, ?_⟩
    obtain ⟨p, h1, h2, h3⟩ := i.sni
    exact ⟨p, .later hcn hro h1, h2, h3⟩
  · obtain ⟨t, h1, h2⟩ := hm.since
    exact ⟨t, h1, h2.cons x⟩
  · rw [hco, ← hx]; exact f2.flight
  · rw [hst]; simp only [saveFinished, f2.resumption]
  · rw [hst, ← f2.exporter, ← f2.resumption, ← f2.read, ← f2.write, ← hx]
    rfl
  · rw [actions_cons, List.mem_append, ← hx]
    constructor
    · rintro (hh | hh)
      · exact absurd hh (hm.quiet.success b)
      · simpa [doneActions, transition] using hh
    · rintro rfl
      exact .inr (by simp [doneActions])
  · intro n hn
    rw [actions_cons, List.mem_append] at hn
    rcases hn with hn | hn
    · exact hm.reported n hn
    · rw [← hx] at hn; simp [doneActions, transition] at hn
  · intro hh
    obtain ⟨n, hn⟩ := hm.reports hh
    exact ⟨n, by rw [actions_cons, List.mem_append]; exact .inl hn⟩

end Fizz.ClientSM

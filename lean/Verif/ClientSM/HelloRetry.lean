import Verif.ClientSM.HelloConnect

/-!
# The client between its ClientHello and the ServerHello
-/

namespace Fizz.ClientSM
open Fizz.Codec Fizz.Crypto
open Fizz.Server (Level RLayer WLayer Content KeyExchangeType HsCtx SockIn PeerCert content
  deref derefPtr check ksState ksSecret transcriptHash finishedData
  derefPtr_eq_ok deref_eq_ok check_eq_ok pure_eq_ok ks_deriveEarly ks_getEarly finishedData_eq
  DeriveSecret_len frame_eq encode_eq)
open Fizz.Server.Spec (messageHash finishedMac)
open Fizz.Client (CachedPsk PskType)
open Fizz.Conn (Trig)
open Spec (Offer PskOffer Public Neg)

/-- What the client remembers about early data: the session's parameters and the early secrets. -/
structure EarlyInv (cfg : Cfg) (o1 : Offer) (retried : Bool) (s : St) : Prop where
  none : o1.early = false → s.earlyDataParams = none
  some : o1.early = true → ∃ psk ex, o1.pskOf = some psk ∧ Spec.WantsEarly cfg psk ∧
    Spec.earlySecret cfg o1 .earlyExporter = some ex ∧
    s.earlyDataParams = some ⟨psk.version, psk.cipher, psk.serverCert, psk.clientCert, psk.alpn, ex⟩
  write : s.earlyWrite = if o1.early = true ∧ cfg.omitEarlyRecordLayer = false ∧ retried = false then
    (Spec.earlySecret cfg o1 .clientEarlyTraffic).map (WLayer.mk .earlyData) else .none

/-- What has become of early data before the server's answer. -/
def earlyStatus (o1 : Offer) (retried : Bool) : EarlyDataType :=
  if o1.early then (if retried then .rejected else .attempted) else .notAttempted

/-- Nothing has been reported yet and no keys have been updated. -/
structure Quiet (h : List Step) : Prop where
  success : ∀ b, .reportHandshakeSuccess b ∉ actions h
  received : Spec.updatesReceived h = 0
  sent : Spec.updatesSent h = 0

/-- The ECH part of the state before the ServerHello. -/
structure EchInv (cfg : Cfg) (h : List Step) (o : Offer) (p : Public) (e : EchState) (s : St) : Prop where
  sni : e.sni = o.sni
  random : e.random = o.random
  new : Spec.retries h = [] → e.status = .requested ∧ e.encodedInner = some (Spec.transcripts cfg h).2 ∧
    s.clientRandom = some p.random ∧ s.sni = some p.name
  retried : ∀ r, Spec.retries h = [r] → e.hs = some ⟨r.cipher_suite, (Spec.transcripts cfg h).2⟩ ∧
    e.status ≠ .requested
  consistent : ∀ y ∈ h, Spec.retryOf y ≠ none → (Spec.echAccepted (Spec.post y) = true ↔ e.status = .accepted)
  sniOf : s.sni = (if e.status = .accepted then o.sni else some p.name)
  randomOf : s.clientRandom = some (if e.status = .accepted then o.random else p.random)

/-- Before the ServerHello. -/
structure Before (cfg : Cfg) (h : List Step) (o1 o : Offer) (p : Public) (s : St) : Prop where
  offered : Spec.Offered cfg h o1 o p
  count : (Spec.retries h).length ≤ 1
  shares : s.keyExchangers = some o.shares
  psk : s.attemptedPsk = o.pskOf
  sessionId : s.legacySessionId = o.sessionId
  requested : ∃ r, s.requestedExtensions = some r ∧ ∀ t ∈ r, t ∈ (o.extensions cfg).map (·.extension_type) ∨
    (t = 0xfe0d ∧ cfg.greaseEch = some .computed)
  new : Spec.retries h = [] → o = o1 ∧ s.hs = none ∧ s.keyExchangeType = none ∧ s.version = none ∧
    s.cipher = none ∧ s.encodedClientHello = some (Spec.transcripts cfg h).1
  retried : ∀ r, Spec.retries h = [r] → o.early = false ∧
    s.hs = some ⟨r.cipher_suite, (Spec.transcripts cfg h).1⟩ ∧ s.keyExchangeType = some .helloRetryRequest ∧
    s.cipher = some r.cipher_suite ∧
    ∃ v, s.version = some v ∧ getServerSupportedVersions r.extensions = .ok (some ⟨v⟩)
  plain : cfg.hasEchConfigs = false → s.echState = none ∧ s.clientRandom = some o.random ∧ s.sni = o.sni
  ech : cfg.hasEchConfigs = true → ∃ e, s.echState = some e ∧ EchInv cfg h o p e s
  early : EarlyInv cfg o1 (!(Spec.retries h).isEmpty) s
  status : s.earlyDataType = some (earlyStatus o1 (!(Spec.retries h).isEmpty))
  reported : ∀ n, .reportEarlyHandshakeSuccess n ∈ actions h →
    ∃ psk, o1.early = true ∧ o1.pskOf = some psk ∧ n = psk.maxEarlyDataSize
  reports : o1.early = true → Spec.earlyOffered h
  write : s.write = some ⟨.plaintext, []⟩
  read : s.read = some ⟨.plaintext, [], false⟩
  ks : s.ks = none
  auth : s.clientAuth = none ∧ s.unverifiedCertChain = none ∧ s.selectedClientCert = none ∧
    s.clientAuthSigScheme = none
  unasked : ¬ Spec.asked h
  quiet : Quiet h
  ends : Spec.Ends cfg h o p

/-! ## Connect -/

theorem connectActions_cases {cfg : Cfg} {c : Connected} :
    (∃ p t e, c.params = some p ∧ c.early = some (t, e) ∧
      connectActions cfg c = [.mutate (saveConnect c), .mutate (saveEarly cfg p t e),
      .write none [content ⟨.plaintext, []⟩ 22 c.final.encoded] 0,
      .secretAvailable .clientEarlyTraffic t,
      .reportEarlyHandshakeSuccess ((c.psk.map (·.maxEarlyDataSize)).getD 0),
      .secretAvailable .earlyExporter e, transition .expectingServerHello]) ∨
    ((c.params = none ∨ c.early = none) ∧ connectActions cfg c = [.mutate (saveConnect c),
      .write none [content ⟨.plaintext, []⟩ 22 c.final.encoded] 0, transition .expectingServerHello]) := by
  unfold connectActions
  cases h1 : c.params with
  | none => exact .inr ⟨.inl rfl, rfl⟩
  | some p =>
    cases h2 : c.early with
    | none => exact .inr ⟨.inr rfl, rfl⟩
    | some e => exact .inl ⟨p, e.1, e.2, rfl, rfl, rfl⟩

/-- The state before Connect has done its work. -/
structure Start (cfg : Cfg) (h : List Step) (s : St) : Prop where
  state : s = {}
  transcripts : Spec.transcripts cfg h = ([], [])
  retries : Spec.retries h = []
  reported : ∀ n, .reportEarlyHandshakeSuccess n ∉ actions h
  unasked : ¬ Spec.asked h
  quiet : Quiet h

theorem received_accept {x : Step} (h : x.trig = .accept) : Spec.received x = none := by
  unfold Spec.received
  rw [h]
  split_ifs <;> rfl

theorem asked_cons {x : Step} {h} : Spec.asked (x :: h) ↔
    (∃ m orig, Spec.received x = some (.certificateRequest m, orig)) ∨ Spec.asked h := by
  simp [Spec.asked]

theorem retries_cons_none {x : Step} {h} (hr : Spec.retryOf x = none) : Spec.retries (x :: h) = Spec.retries h := by
  simp [Spec.retries, hr]

theorem retryOf_none {x : Step} (hr : Spec.received x = none) : Spec.retryOf x = none := by
  simp [Spec.retryOf, hr]

theorem updatesReceived_other {x : Step} {h} (hx : ∀ m o, Spec.received x ≠ some (.keyUpdate m, o)) :
    Spec.updatesReceived (x :: h) = Spec.updatesReceived h := by
  unfold Spec.updatesReceived
  rw [List.countP_cons_of_neg]
  split
  · rename_i he; exact absurd he (hx _ _)
  · simp

theorem updatesReceived_one {x : Step} {h m o} (hx : Spec.received x = some (.keyUpdate m, o)) :
    Spec.updatesReceived (x :: h) = Spec.updatesReceived h + 1 := by
  unfold Spec.updatesReceived
  rw [List.countP_cons_of_pos]
  rw [hx]

theorem updatesSent_other {x : Step} {h} (hx : (Spec.sent x).head? ≠ some 24) :
    Spec.updatesSent (x :: h) = Spec.updatesSent h := by
  unfold Spec.updatesSent
  rw [List.countP_cons_of_neg]
  simpa using hx

theorem updatesSent_one {x : Step} {h} (hx : (Spec.sent x).head? = some 24) :
    Spec.updatesSent (x :: h) = Spec.updatesSent h + 1 := by
  unfold Spec.updatesSent
  rw [List.countP_cons_of_pos]
  simpa using hx

theorem handshake_head (m : HsMsg) : (Codec.Spec.handshake m).head? = some (Codec.Spec.typeByte m) := rfl

theorem wire_head {cfg inp first o p sent inner} (h : Spec.Wire cfg inp first o p sent inner) :
    sent.head? ≠ some 24 := by
  unfold Spec.Wire at h
  replace h := h.2
  split_ifs at h
  · obtain ⟨-, outer, rfl, -⟩ := h
    rw [handshake_head]; simp [Codec.Spec.typeByte]
  · obtain ⟨-, b, -, -, rfl⟩ := h
    rw [handshake_head]; simp [Codec.Spec.typeByte]
  · obtain ⟨-, rfl⟩ := h
    unfold Offer.encoded
    rw [handshake_head]; simp [Codec.Spec.typeByte]

theorem wire_went {cfg inp first o p sent inner} (h : Spec.Wire cfg inp first o p sent inner) :
    Codec.Spec.Encodable (.clientHello (o.hello cfg)) ∧ (cfg.hasEchConfigs = true → inner = o.encoded cfg) ∧
    ∃ c, sent = Codec.Spec.handshake (.clientHello c) ∧ Codec.Spec.Encodable (.clientHello c) ∧
      Spec.Went cfg inp first o p c := by
  unfold Spec.Wire at h
  unfold Spec.Went
  obtain ⟨h0, h⟩ := h
  split_ifs at h ⊢
  · obtain ⟨h1, outer, h2, h3, h4⟩ := h
    exact ⟨h0, fun _ => h1, outer, h2, h3, h4⟩
  · obtain ⟨h1, b, h2, h3, h4⟩ := h
    exact ⟨h0, fun hc => absurd hc ‹_›, _, h4, h3, b, h2, rfl⟩
  · exact ⟨h0, fun hc => absurd hc ‹_›, _, h.2, h0, rfl⟩

theorem connect_before {cfg : Cfg} (hok : ∀ c a, cfg.hashOf c = .ok a → a.Ok) {h : List Step} {x : Step}
    (hs : Start cfg h x.pre) {c : Connected} (ht : x.trig = .accept)
    (hc : prepareConnect cfg x.env.inp = .ok c) (ha : x.acts = connectActions cfg c) :
    ∃ o p, Spec.First cfg x o p ∧ Before cfg (x :: h) o o p (Spec.post x) ∧
      (Spec.post x).state = .expectingServerHello ∧ Spec.ConnectShows cfg x o := by
  obtain ⟨o, p, hh, hr⟩ := connect_facts hok hc
  have hconn : Spec.connects x := ⟨ht, by rw [hs.state]⟩
  have hrec := received_accept ht
  have hro := retryOf_none hrec
  have hcon : Spec.contents x = [⟨⟨.plaintext, []⟩, 22, [c.final.encoded]⟩] := by
    unfold Spec.contents
    rw [ha]
    rcases connectActions_cases (cfg := cfg) (c := c) with ⟨pa, t, e, -, -, he⟩ | ⟨-, he⟩ <;> rw [he] <;> rfl
  have hsent : Spec.sent x = c.final.encoded := by
    unfold Spec.sent; rw [hcon]; simp [Server.Spec.handshakeBytes]
  have hpost : (Spec.post x).state = .expectingServerHello ∧ (Spec.post x).echState = c.final.ech ∧
      (Spec.post x).encodedClientHello = some c.final.encoded ∧ (Spec.post x).read = some ⟨.plaintext, [], false⟩ ∧
      (Spec.post x).write = some ⟨.plaintext, []⟩ ∧ (Spec.post x).keyExchangers = some c.shares ∧
      (Spec.post x).sni = c.final.sni ∧ (Spec.post x).clientRandom = some c.final.random ∧
      (Spec.post x).legacySessionId = c.sessionId ∧ (Spec.post x).attemptedPsk = c.psk ∧
      (Spec.post x).requestedExtensions = some c.requested ∧
      (Spec.post x).earlyDataType = some (if c.params.isSome then .attempted else .notAttempted) ∧
      (Spec.post x).hs = none ∧ (Spec.post x).keyExchangeType = none ∧ (Spec.post x).version = none ∧
      (Spec.post x).cipher = none ∧ (Spec.post x).ks = none ∧ (Spec.post x).clientAuth = none ∧
      (Spec.post x).unverifiedCertChain = none ∧ (Spec.post x).selectedClientCert = none ∧
      (Spec.post x).clientAuthSigScheme = none := by
    unfold Spec.post
    rw [ha, hs.state]
    rcases connectActions_cases (cfg := cfg) (c := c) with ⟨pa, t, e, -, -, he⟩ | ⟨-, he⟩ <;> rw [he] <;>
      refine ⟨rfl, rfl, rfl, rfl, rfl, rfl, rfl, rfl, rfl, rfl, rfl, rfl, rfl, rfl, rfl, rfl, rfl, rfl, rfl, rfl, rfl⟩
  obtain ⟨p1, p2, p3, p4, p5, p6, p7, p8, p9, p10, p11, p12, p13, p14, p15, p16, p17, p18, p19, p20, p21⟩ := hpost
  have hinner : Spec.innerSent x = (c.final.ech.bind (·.encodedInner)).getD [] := by
    unfold Spec.innerSent; rw [p2]
  have hf : Spec.First cfg x o p :=
    { hh with
      connects := hconn
      wire := by rw [hsent, hinner]; exact hh.wire
      layer := by rw [hcon, hsent] }
  have hret : Spec.retries (x :: h) = [] := by rw [retries_cons_none hro, hs.retries]
  have htr : Spec.transcripts cfg (x :: h) = (Spec.sent x, Spec.innerSent x) := by
    rw [Spec.transcripts, hrec]
    simp only
    rw [if_pos hconn]
  have hrep : ∀ n, .reportEarlyHandshakeSuccess n ∈ x.acts ↔
      o.early = true ∧ n = (c.psk.map (·.maxEarlyDataSize)).getD 0 := by
    intro n
    rw [ha]
    rcases connectActions_cases (cfg := cfg) (c := c) with ⟨pa, t, e, h1, h2, he⟩ | ⟨h1, he⟩
    · rw [he]
      have : o.early = true := by rw [← hr.early, h1]; rfl
      simp [transition, this]
    · rw [he]
      have : o.early = false := by
        rcases h1 with h1 | h1
        · rw [← hr.early, h1]; rfl
        · rw [← hr.secrets.1, h1]; rfl
      simp [transition, this]
  have hshow : Spec.ConnectShows cfg x o := by
    unfold Spec.ConnectShows
    rw [hcon, ha]
    rcases connectActions_cases (cfg := cfg) (c := c) with ⟨pa, t, e, h1, h2, he⟩ | ⟨h1, he⟩
    · rw [he]
      have hoe : o.early = true := by rw [← hr.early, h1]; rfl
      obtain ⟨e1, e2⟩ := hr.secrets.2 _ h2
      obtain ⟨psk, hp, -⟩ := hh.early.1 hoe
      refine .inr ⟨psk, t, e, hoe, hp, e1, e2, ?_⟩
      have hcp : c.psk = some psk := by rw [hr.psk, hp]
      rw [hcp]
      rfl
    · rw [he]
      refine .inl ⟨?_, rfl⟩
      rcases h1 with h1 | h1
      · rw [← hr.early, h1]; rfl
      · rw [← hr.secrets.1, h1]; rfl
  refine ⟨o, p, hf, ?_, p1, hshow⟩
  refine
    { offered := .first hf, count := by rw [hret]; simp, shares := by rw [p6, hr.shares]
      psk := by rw [p10, hr.psk], sessionId := by rw [p9, hr.sessionId]
      requested := ⟨_, p11, hr.requested⟩
      new := fun _ => ⟨rfl, p13, p14, p15, p16, by rw [p3, htr, hsent]⟩
      retried := fun r hr' => by rw [hret] at hr'; cases hr'
      plain := fun hc => ?_, ech := fun hc => ?_, early := ?_, status := ?_, reported := ?_, reports := ?_
      write := p5, read := p4, ks := p17, auth := ⟨p18, p19, p20, p21⟩
      unasked := by rw [asked_cons, hrec]; simpa using hs.unasked
      quiet := ?_, ends := ?_ }
  · obtain ⟨a, b, d⟩ := hr.plain hc
    exact ⟨by rw [p2, a], by rw [p8, b], by rw [p7, d]⟩
  · obtain ⟨a, b, grease, d⟩ := hr.ech hc
    refine ⟨_, p2.trans d, rfl, rfl, fun _ => ⟨rfl, ?_, by rw [p8, a], by rw [p7, b]⟩, ?_, ?_, ?_, ?_⟩
    · rw [htr, hinner, d]; rfl
    · intro r hr'; rw [hret] at hr'; cases hr'
    · intro y hy hne
      have : Spec.retryOf y = none := by
        have hall := hret
        unfold Spec.retries at hall
        rw [List.filterMap_eq_nil_iff] at hall
        exact hall y hy
      exact absurd this hne
    · rw [p7, b]; simp
    · rw [p8, a]; simp
  · rw [hret]
    rcases connectActions_cases (cfg := cfg) (c := c) with ⟨pa, t, e, h1, h2, he⟩ | ⟨h1, he⟩
    · have hoe : o.early = true := by rw [← hr.early, h1]; rfl
      obtain ⟨psk, k1, k2⟩ := hr.params _ h1
      obtain ⟨k3, k4⟩ := hr.secrets.2 _ h2
      have q1 : (Spec.post x).earlyDataParams = some { pa with earlyExporterSecret := e } := by
        unfold Spec.post; rw [ha, he]; rfl
      have q2 : (Spec.post x).earlyWrite = if cfg.omitEarlyRecordLayer then none else some ⟨.earlyData, t⟩ := by
        unfold Spec.post; rw [ha, he]; rfl
      refine ⟨fun hh => (by rw [hoe] at hh; cases hh), fun _ => ?_, ?_⟩
      · obtain ⟨psk', k5, k6⟩ := hh.early.1 hoe
        rw [k1] at k5
        cases Option.some.inj k5
        exact ⟨psk, e, k1, k6, k4, by rw [q1, k2]⟩
      · rw [q2, k3]
        cases cfg.omitEarlyRecordLayer <;> simp [hoe]
    · have hoe : o.early = false := by
        rcases h1 with h1 | h1
        · rw [← hr.early, h1]; rfl
        · rw [← hr.secrets.1, h1]; rfl
      have q1 : (Spec.post x).earlyDataParams = none := by
        unfold Spec.post; rw [ha, he, hs.state]; rfl
      have q2 : (Spec.post x).earlyWrite = none := by
        unfold Spec.post; rw [ha, he, hs.state]; rfl
      refine ⟨fun _ => q1, fun hh => (by rw [hoe] at hh; cases hh), ?_⟩
      rw [q2, if_neg (by simp [hoe])]
  · rw [p12, hret, hr.early]
    unfold earlyStatus
    cases o.early <;> rfl
  · intro n hn
    rw [actions_cons, List.mem_append] at hn
    rcases hn with hn | hn
    · exact absurd hn (hs.reported n)
    · obtain ⟨a, b⟩ := (hrep n).1 hn
      obtain ⟨psk, k1, -⟩ := hh.early.1 a
      exact ⟨psk, a, k1, by rw [b, hr.psk, k1]; rfl⟩
  · intro he
    exact ⟨_, by rw [actions_cons, List.mem_append]; exact .inr ((hrep _).2 ⟨he, rfl⟩)⟩
  · refine ⟨?_, ?_, ?_⟩
    · intro b hb
      rw [actions_cons, List.mem_append] at hb
      rcases hb with hb | hb
      · exact hs.quiet.success b hb
      · rw [ha] at hb
        rcases connectActions_cases (cfg := cfg) (c := c) with ⟨pa, t, e, -, -, he⟩ | ⟨-, he⟩ <;>
          rw [he] at hb <;> simp [transition] at hb
    · rw [updatesReceived_other (by rw [hrec]; simp)]; exact hs.quiet.received
    · rw [updatesSent_other (wire_head hf.wire)]; exact hs.quiet.sent
  · obtain ⟨w1, w2, c', w3, w4, w5⟩ := wire_went hf.wire
    exact ⟨⟨[], c', .inl ⟨hret, rfl⟩, by rw [htr, w3]; rfl, w4, x, by simp, true, w5⟩,
      fun hc => ⟨[], .inl ⟨hret, rfl⟩, by rw [htr, w2 hc]; rfl, w1⟩⟩

end Fizz.ClientSM

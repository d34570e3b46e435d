import Verif.ClientSM.Mid

/-!
# The invariant of all client histories
-/

namespace Fizz.ClientSM
open Fizz.Codec Fizz.Crypto
open Fizz.Server (Level RLayer WLayer Content KeyExchangeType HsCtx SockIn PeerCert content
  deref derefPtr check ksState ksSecret transcriptHash finishedData
  derefPtr_eq_ok deref_eq_ok check_eq_ok pure_eq_ok)
open Fizz.Server.Spec (messageHash finishedMac)
open Fizz.Client (CachedPsk PskType)
open Fizz.Conn (Trig)
open Spec (Offer PskOffer Public Neg)

/-- After the server's Finished; `th` is the transcript hash through it. -/
structure Live (cfg : Cfg) (h : List Step) (g : Neg) (th : Bytes) (early : EarlyDataType) (s : St) : Prop where
  fixed : Spec.Fixed cfg h g
  confirmed : Spec.Confirmed cfg h g th
  ks : s.ks = some (KS.conc g.hash ⟨.start, some (g.app th (Spec.updatesSent h) (Spec.updatesReceived h))⟩)
  hs : s.hs = none
  secrets : s.clientHandshakeSecret = none ∧ s.serverHandshakeSecret = none ∧ s.earlyWrite = none
  write : s.write = some ⟨.appTraffic, g.clientApp th (Spec.updatesSent h)⟩
  read : s.read = some ⟨.appTraffic, g.serverApp th (Spec.updatesReceived h), false⟩
  server : Spec.ServerIs cfg g h s.serverCert
  info : Spec.Info cfg h g s
  since : ∃ t, s.handshakeTime = some t ∧ Spec.Since cfg h g t
  status : s.earlyDataType = some early
  encrypted : Spec.Encrypted cfg h g s.alpn early
  ech : cfg.hasEchConfigs = true → g.ech = true
  exporter : s.exporterMasterSecret = some (KS.Spec.masterValue g.hash.spec g.inputs th .exporterMaster)
  completed : Spec.Completed cfg h g th early s.resumptionSecret s.clientCert
  success : ∀ b, .reportHandshakeSuccess b ∈ actions h ↔ b = decide (early = .accepted)
  reported : ∀ n, .reportEarlyHandshakeSuccess n ∈ actions h →
    ∃ psk, g.first.early = true ∧ g.first.pskOf = some psk ∧ n = psk.maxEarlyDataSize
  reports : g.first.early = true → Spec.earlyOffered h
  count : (Spec.retries h).length ≤ 1
  /-- the HelloRetryRequest had named the same version and cipher suite -/
  same : ∀ r ∈ Spec.retries h, r.cipher_suite = g.cipher ∧
    getServerSupportedVersions r.extensions = .ok (some ⟨g.version⟩)
  first : Spec.retries h = [] → g.offer = g.first

/-- The invariant. -/
structure Inv (cfg : Cfg) (h : List Step) (s : St) : Prop where
  uninit : s.state = .uninitialized → Start cfg h s
  before : s.state = .expectingServerHello → ∃ o1 o p, Before cfg h o1 o p s
  mid : midState s.state → ∃ g, Mid cfg h g s
  live : s.state = .established → ∃ g th early, Live cfg h g th early s
  closing : s.state = .writeSideClosed → s.write = none ∧
    ∃ newer y older, h = newer ++ y :: older ∧ y.trig = .app (.appClose false) ∧ s.read = y.pre.read ∧
      y.pre.state ≠ .uninitialized
  closed : s.state = .closed → s.write = none ∧ s.read = none

/-! ## Facts about the past stay true -/

theorem Spec.Fixed.cons {cfg h g} (hf : Spec.Fixed cfg h g) (x : Step) : Spec.Fixed cfg (x :: h) g := by
  obtain ⟨n, y, o, rfl, hn⟩ := hf
  exact ⟨x :: n, y, o, rfl, hn⟩

theorem Spec.Since.cons {cfg h g t} (hf : Spec.Since cfg h g t) (x : Step) : Spec.Since cfg (x :: h) g t := by
  obtain ⟨n, y, o, rfl, hn⟩ := hf
  exact ⟨x :: n, y, o, rfl, hn⟩

theorem Spec.SentChain.cons {cfg h l c} (hf : Spec.SentChain cfg h l c) (x : Step) :
    Spec.SentChain cfg (x :: h) l c := by
  obtain ⟨n, y, o, m, e, es, rfl, hn⟩ := hf
  exact ⟨x :: n, y, o, m, e, es, rfl, hn⟩

theorem Spec.ProvedIdentity.cons {cfg g h c} (hf : Spec.ProvedIdentity cfg g h c) (x : Step) :
    Spec.ProvedIdentity cfg g (x :: h) c := by
  obtain ⟨n, y, o, m, orig, l, ch, rfl, hn⟩ := hf
  exact ⟨x :: n, y, o, m, orig, l, ch, rfl, hn⟩

theorem Spec.ServerIs.cons {cfg g h c} (hf : Spec.ServerIs cfg g h c) (x : Step) :
    Spec.ServerIs cfg g (x :: h) c := by
  rcases hf with hf | ⟨a, c, b, d⟩
  · exact .inl hf
  · exact .inr ⟨a, c, b, d.cons x⟩

theorem Spec.Confirmed.cons {cfg g h c} (hf : Spec.Confirmed cfg h g c) (x : Step) :
    Spec.Confirmed cfg (x :: h) g c := by
  obtain ⟨n, y, o, m, orig, rfl, hn⟩ := hf
  exact ⟨x :: n, y, o, m, orig, rfl, hn⟩

theorem Spec.Completed.cons {cfg g h th e r c} (hf : Spec.Completed cfg h g th e r c) (x : Step) :
    Spec.Completed cfg (x :: h) g th e r c := by
  obtain ⟨n, y, o, m, orig, rfl, hn⟩ := hf
  exact ⟨x :: n, y, o, m, orig, rfl, hn⟩

theorem Spec.Encrypted.cons {cfg g h a e} (hf : Spec.Encrypted cfg h g a e) (x : Step) :
    Spec.Encrypted cfg (x :: h) g a e := by
  obtain ⟨n, y, o, m, orig, rfl, hn⟩ := hf
  exact ⟨x :: n, y, o, m, orig, rfl, hn⟩

theorem Spec.Asked.cons {cfg h c} (hf : Spec.Asked cfg h c) (x : Step) : Spec.Asked cfg (x :: h) c := by
  obtain ⟨n, y, o, m, orig, al, rfl, hn⟩ := hf
  exact ⟨x :: n, y, o, m, orig, al, rfl, hn⟩

/-- The step is neither the call of `connect` nor the receipt of a HelloRetryRequest, updates no keys
and reports nothing. -/
structure Calm (x : Step) : Prop where
  connects : ¬ Spec.connects x
  retry : Spec.retryOf x = none
  update : ∀ m o, Spec.received x ≠ some (.keyUpdate m, o)
  sent : (Spec.sent x).head? ≠ some 24
  success : ∀ b, .reportHandshakeSuccess b ∉ x.acts
  early : ∀ n, .reportEarlyHandshakeSuccess n ∉ x.acts

/-- The step receives no handshake message either. -/
structure Plain (x : Step) : Prop extends Calm x where
  received : Spec.received x = none

theorem Plain.of {x : Step} (h1 : ¬ Spec.connects x) (h2 : Spec.received x = none)
    (h3 : (Spec.sent x).head? ≠ some 24) (h4 : ∀ b, .reportHandshakeSuccess b ∉ x.acts)
    (h5 : ∀ n, .reportEarlyHandshakeSuccess n ∉ x.acts) : Plain x :=
  ⟨⟨h1, retryOf_none h2, by rw [h2]; simp, h3, h4, h5⟩, h2⟩

theorem not_connects {x : Step} (h : x.trig ≠ .accept ∨ x.pre.state ≠ .uninitialized) : ¬ Spec.connects x := by
  rintro ⟨h1, h2⟩
  rcases h with h | h
  · exact h h1
  · exact h h2

theorem transcripts_skip {cfg x h} (p : Plain x) : Spec.transcripts cfg (x :: h) = Spec.transcripts cfg h := by
  rw [Spec.transcripts, p.received]
  simp [p.connects]

theorem transcript_skip {cfg x h} (p : Plain x) : Spec.transcript cfg (x :: h) = Spec.transcript cfg h := by
  rw [Spec.transcript, Spec.transcript, transcripts_skip p]

theorem Calm.updates {x : Step} (c : Calm x) (h : List Step) :
    Spec.updatesReceived (x :: h) = Spec.updatesReceived h ∧ Spec.updatesSent (x :: h) = Spec.updatesSent h :=
  ⟨updatesReceived_other c.update, updatesSent_other c.sent⟩

theorem Quiet.cons {h} (q : Quiet h) {x : Step} (c : Calm x) : Quiet (x :: h) := by
  obtain ⟨u1, u2⟩ := c.updates h
  exact ⟨fun b => by simp [q.success, c.success], by rw [u1, q.received], by rw [u2, q.sent]⟩

theorem asked_same {x : Step} (c : ∀ m o, Spec.received x ≠ some (.certificateRequest m, o)) {h} :
    Spec.asked (x :: h) ↔ Spec.asked h := by
  rw [asked_cons]
  constructor
  · rintro (⟨m, o, hh⟩ | hh)
    · exact absurd hh (c m o)
    · exact hh
  · exact .inr

/-- The fields that matter from the ServerHello to the Finished are the same. -/
structure Same (s s' : St) : Prop where
  ks : s'.ks = s.ks
  clientSecret : s'.clientHandshakeSecret = s.clientHandshakeSecret
  serverSecret : s'.serverHandshakeSecret = s.serverHandshakeSecret
  write : s'.write = s.write
  read : s'.read = s.read
  version : s'.version = s.version
  cipher : s'.cipher = s.cipher
  group : s'.group = s.group
  pskType : s'.pskType = s.pskType
  pskMode : s'.pskMode = s.pskMode
  kex : s'.keyExchangeType = s.keyExchangeType
  sni : s'.sni = s.sni
  random : s'.clientRandom = s.clientRandom
  time : s'.handshakeTime = s.handshakeTime
  params : s'.earlyDataParams = s.earlyDataParams
  earlyWrite : s'.earlyWrite = s.earlyWrite
  ech : s'.echState.map (·.status) = s.echState.map (·.status)

theorem Same.refl (s : St) : Same s s :=
  ⟨rfl, rfl, rfl, rfl, rfl, rfl, rfl, rfl, rfl, rfl, rfl, rfl, rfl, rfl, rfl, rfl, rfl⟩

theorem info_next {cfg h g s s' x} (i : Spec.Info cfg h g s) (c : Calm x)
    (e : s'.version = s.version ∧ s'.cipher = s.cipher ∧ s'.group = s.group ∧ s'.pskType = s.pskType ∧
      s'.pskMode = s.pskMode ∧ s'.keyExchangeType = s.keyExchangeType ∧ s'.sni = s.sni ∧
      s'.clientRandom = s.clientRandom) : Spec.Info cfg (x :: h) g s' := by
  obtain ⟨e1, e2, e3, e4, e5, e6, e7, e8⟩ := e
  refine ⟨by rw [e1, i.version], by rw [e2, i.cipher], by rw [e3, i.group], by rw [e4]; exact i.pskType,
    by rw [e5, i.pskMode], by rw [e6, i.kex, retries_cons_none c.retry], ?_⟩
  obtain ⟨p, h1, h2, h3⟩ := i.sni
  exact ⟨p, .later c.connects c.retry h1, by rw [e7, h2], by rw [e8, h3]⟩

theorem Base.next {cfg h g s s' x} (b : Base cfg h g s) (c : Calm x) (e : Same s s') : Base cfg (x :: h) g s' := by
  refine
    { fixed := b.fixed.cons x, ks := by rw [e.ks, b.ks], clientSecret := by rw [e.clientSecret, b.clientSecret]
      serverSecret := by rw [e.serverSecret, b.serverSecret], write := by rw [e.write, b.write]
      read := by rw [e.read, b.read]
      info := info_next b.info c ⟨e.version, e.cipher, e.group, e.pskType, e.pskMode, e.kex, e.sni, e.random⟩
      since := ?_, early := ⟨?_, ?_, ?_⟩, first := ?_, second := ?_
      count := by rw [retries_cons_none c.retry]; exact b.count, same := by rw [retries_cons_none c.retry]; exact b.same, noEch := ?_, ech := ?_, reported := ?_
      reports := ?_, quiet := b.quiet.cons c }
  · obtain ⟨t, h1, h2⟩ := b.since
    exact ⟨t, by rw [e.time, h1], h2.cons x⟩
  · rw [e.params]; exact b.early.none
  · rw [e.params]; exact b.early.some
  · rw [e.earlyWrite, retries_cons_none c.retry]; exact b.early.write
  · rw [retries_cons_none c.retry]; exact b.first
  · rw [retries_cons_none c.retry]; exact b.second
  · intro hh
    obtain ⟨h1, h2⟩ := b.noEch hh
    refine ⟨?_, h2⟩
    have := e.ech
    rw [h1] at this
    simpa using this
  · intro hh
    obtain ⟨k, h1, h2⟩ := b.ech hh
    have := e.ech
    rw [h1, Option.map_some, Option.map_eq_some_iff] at this
    obtain ⟨k', h3, h4⟩ := this
    exact ⟨k', h3, by rw [h4, h2]⟩
  · intro n hn
    rw [actions_cons, List.mem_append] at hn
    rcases hn with hn | hn
    · exact b.reported n hn
    · exact absurd hn (c.early n)
  · intro hh
    obtain ⟨n, hn⟩ := b.reports hh
    exact ⟨n, by rw [actions_cons, List.mem_append]; exact .inl hn⟩

/-! ## Plain steps -/

theorem Start.cons {cfg h s x} (q : Start cfg h s) (p : Plain x) : Start cfg (x :: h) s :=
  { state := q.state, transcripts := by rw [transcripts_skip p, q.transcripts]
    retries := by rw [retries_cons_none p.retry, q.retries]
    reported := fun n => by simp [q.reported, p.early]
    unasked := by rw [asked_same (by rw [p.received]; simp)]; exact q.unasked
    quiet := q.quiet.cons p.toCalm }

/-- The step does nothing. -/
theorem Start.nothing {cfg h s t i} (q : Start cfg h s) : Start cfg (⟨t, i, s, []⟩ :: h) s := by
  have hr : Spec.received ⟨t, i, s, []⟩ = none := rfl
  refine
    { state := q.state, transcripts := ?_
      retries := by rw [retries_cons_none (retryOf_none hr), q.retries]
      reported := fun n => by simp [q.reported]
      unasked := by rw [asked_same (by rw [hr]; simp)]; exact q.unasked
      quiet := ⟨fun b => by simp [q.quiet.success], ?_, ?_⟩ }
  · rw [Spec.transcripts, hr, q.transcripts]
    simp only
    split_ifs
    · have hs := q.state
      subst hs
      rfl
    · rfl
  · rw [updatesReceived_other (by rw [hr]; simp), q.quiet.received]
  · rw [updatesSent_other (by simp [Spec.sent, Spec.contents, Spec.writes, Server.Spec.handshakeBytes]), q.quiet.sent]

theorem EchInv.cons {cfg h o p e s x} (q : EchInv cfg h o p e s) (c : Plain x) : EchInv cfg (x :: h) o p e s := by
  refine
    { sni := q.sni, random := q.random
      new := by rw [retries_cons_none c.retry, transcripts_skip c]; exact q.new
      retried := by rw [retries_cons_none c.retry, transcripts_skip c]; exact q.retried
      consistent := ?_, sniOf := q.sniOf, randomOf := q.randomOf }
  intro y hy hne
  rcases List.mem_cons.1 hy with rfl | hy
  · exact absurd c.retry hne
  · exact q.consistent y hy hne

theorem Spec.Begins.cons {h b x} (q : Spec.Begins h b) (c : Plain x) : Spec.Begins (x :: h) b := by
  rcases q with ⟨h1, h2⟩ | ⟨d, y, m, orig, h1, h2, h3⟩
  · exact .inl ⟨by rw [retries_cons_none c.retry]; exact h1, h2⟩
  · exact .inr ⟨d, y, m, orig, h1, List.mem_cons_of_mem _ h2, h3⟩

theorem Spec.Ends.cons {cfg h o p x} (q : Spec.Ends cfg h o p) (c : Plain x) : Spec.Ends cfg (x :: h) o p := by
  obtain ⟨⟨b, d, h1, h2, h3, y, h4, f, h5⟩, h6⟩ := q
  refine ⟨⟨b, d, Spec.Begins.cons h1 c, by rw [transcripts_skip c]; exact h2, h3, y, List.mem_cons_of_mem _ h4, f, h5⟩, fun hc => ?_⟩
  obtain ⟨b', k1, k2, k3⟩ := h6 hc
  exact ⟨b', Spec.Begins.cons k1 c, by rw [transcripts_skip c]; exact k2, k3⟩

theorem Before.cons {cfg h o1 o p s x} (b : Before cfg h o1 o p s) (c : Plain x) :
    Before cfg (x :: h) o1 o p s := by
  refine
    { b with
      offered := .later c.connects c.retry b.offered
      count := by rw [retries_cons_none c.retry]; exact b.count
      new := by rw [retries_cons_none c.retry, transcripts_skip c]; exact b.new
      retried := by rw [retries_cons_none c.retry, transcripts_skip c]; exact b.retried
      ech := ?_, early := by rw [retries_cons_none c.retry]; exact b.early
      status := by rw [retries_cons_none c.retry]; exact b.status
      reported := ?_, reports := ?_
      unasked := by rw [asked_same (by rw [c.received]; simp)]; exact b.unasked
      quiet := b.quiet.cons c.toCalm
      ends := b.ends.cons c }
  · intro hh
    obtain ⟨e, h1, h2⟩ := b.ech hh
    exact ⟨e, h1, h2.cons c⟩
  · intro n hn
    rw [actions_cons, List.mem_append] at hn
    rcases hn with hn | hn
    · exact b.reported n hn
    · exact absurd hn (c.early n)
  · intro hh
    obtain ⟨n, hn⟩ := b.reports hh
    exact ⟨n, by rw [actions_cons, List.mem_append]; exact .inl hn⟩

theorem AskInv.cons {cfg h s x} (a : AskInv cfg h s)
    (c : ∀ m o, Spec.received x ≠ some (.certificateRequest m, o)) : AskInv cfg (x :: h) s := by
  rcases a with ⟨a, b⟩ | ⟨k, a, b⟩
  · exact .inl ⟨by rw [asked_same c]; exact a, b⟩
  · exact .inr ⟨k, a.cons x, b⟩

theorem Mid.cons {cfg h g s x} (m : Mid cfg h g s) (c : Plain x) : Mid cfg (x :: h) g s := by
  refine
    { toBase := m.toBase.next c.toCalm (Same.refl s)
      hs := by rw [transcript_skip c]; exact m.hs
      opening := by rw [retries_cons_none c.retry]; exact m.opening
      encrypted := fun hh => ?_, byPsk := m.byPsk, ask := fun hh => (m.ask hh).cons (by rw [c.received]; simp)
      chain := fun hh => ?_, proved := fun h1 h2 => ?_ }
  · obtain ⟨e, h1, h2⟩ := m.encrypted hh
    exact ⟨e, h1, h2.cons x⟩
  · obtain ⟨l, k, h1, h2⟩ := m.chain hh
    exact ⟨l, k, h1, h2.cons x⟩
  · obtain ⟨k, h3, h4⟩ := m.proved h1 h2
    exact ⟨k, h3, h4.cons x⟩

theorem Live.cons {cfg h g th e s x} (m : Live cfg h g th e s) (c : Calm x) : Live cfg (x :: h) g th e s := by
  obtain ⟨u1, u2⟩ := c.updates h
  refine
    { m with
      fixed := m.fixed.cons x, confirmed := m.confirmed.cons x, ks := by rw [u1, u2]; exact m.ks
      write := by rw [u2]; exact m.write, read := by rw [u1]; exact m.read
      server := m.server.cons x, info := info_next m.info c ⟨rfl, rfl, rfl, rfl, rfl, rfl, rfl, rfl⟩
      since := ?_, encrypted := m.encrypted.cons x, completed := m.completed.cons x
      success := fun b => ?_, reported := ?_, reports := ?_
      count := by rw [retries_cons_none c.retry]; exact m.count
      same := by rw [retries_cons_none c.retry]; exact m.same
      first := by rw [retries_cons_none c.retry]; exact m.first }
  · obtain ⟨t, h1, h2⟩ := m.since
    exact ⟨t, h1, h2.cons x⟩
  · rw [actions_cons, List.mem_append]
    constructor
    · rintro (hh | hh)
      · exact (m.success b).1 hh
      · exact absurd hh (c.success b)
    · exact fun hh => .inl ((m.success b).2 hh)
  · intro n hn
    rw [actions_cons, List.mem_append] at hn
    rcases hn with hn | hn
    · exact m.reported n hn
    · exact absurd hn (c.early n)
  · intro hh
    obtain ⟨n, hn⟩ := m.reports hh
    exact ⟨n, by rw [actions_cons, List.mem_append]; exact .inl hn⟩

theorem Inv.cons {cfg h s x} (i : Inv cfg h s) (c : Plain x) : Inv cfg (x :: h) s := by
  refine ⟨fun hs => (i.uninit hs).cons c, fun hs => ?_, fun hs => ?_, fun hs => ?_, fun hs => ?_, i.closed⟩
  · obtain ⟨o1, o, p, hb⟩ := i.before hs; exact ⟨o1, o, p, hb.cons c⟩
  · obtain ⟨g, hb⟩ := i.mid hs; exact ⟨g, hb.cons c⟩
  · obtain ⟨g, th, e, hb⟩ := i.live hs; exact ⟨g, th, e, hb.cons c.toCalm⟩
  · obtain ⟨h1, n, y, o, rfl, h2⟩ := i.closing hs
    exact ⟨h1, x :: n, y, o, rfl, h2⟩

/-- Nothing but the record of a sent ChangeCipherSpec is different. -/
theorem Inv.ccs {cfg h s} (i : Inv cfg h s) (b : Bool) (hs : s.state ≠ .uninitialized) :
    Inv cfg h { s with sentCCS := b } := by
  refine ⟨fun hh => absurd hh hs, fun hh => ?_, fun hh => ?_, fun hh => ?_, i.closing, i.closed⟩
  · obtain ⟨o1, o, p, hb⟩ := i.before hh
    refine ⟨o1, o, p, { hb with ech := fun hh => ?_, early := { hb.early with } }⟩
    obtain ⟨e, h1, h2⟩ := hb.ech hh
    exact ⟨e, h1, { h2 with }⟩
  · obtain ⟨g, hb⟩ := i.mid hh
    exact ⟨g, { hb with info := { hb.info with }, early := { hb.early with } }⟩
  · obtain ⟨g, th, e, hb⟩ := i.live hh
    exact ⟨g, th, e, { hb with info := { hb.info with } }⟩

/-! ## The invariant of one kind of state -/

theorem Inv.error {cfg h s} (hs : s.state = .error) : Inv cfg h s := by
  refine ⟨?_, ?_, ?_, ?_, ?_, ?_⟩ <;> intro hh <;> rw [hs] at hh <;> simp [midState] at hh

theorem Inv.of_closed {cfg h s} (hs : s.state = .closed) (hw : s.write = none) (hr : s.read = none) :
    Inv cfg h s := by
  refine ⟨?_, ?_, ?_, ?_, ?_, fun _ => ⟨hw, hr⟩⟩ <;> intro hh <;> rw [hs] at hh <;>
    simp [midState] at hh

theorem Inv.of_closing {cfg h s} (hs : s.state = .writeSideClosed) (hw : s.write = none ∧
    ∃ newer y older, h = newer ++ y :: older ∧ y.trig = .app (.appClose false) ∧ s.read = y.pre.read ∧
      y.pre.state ≠ .uninitialized) :
    Inv cfg h s := by
  refine ⟨?_, ?_, ?_, ?_, fun _ => hw, ?_⟩ <;> intro hh <;> rw [hs] at hh <;>
    simp [midState] at hh

theorem Inv.of_before {cfg h s o1 o p} (hs : s.state = .expectingServerHello) (hb : Before cfg h o1 o p s) :
    Inv cfg h s := by
  refine ⟨?_, fun _ => ⟨o1, o, p, hb⟩, ?_, ?_, ?_, ?_⟩ <;> intro hh <;> rw [hs] at hh <;>
    simp [midState] at hh

theorem Inv.of_mid {cfg h s g} (hs : midState s.state) (hb : Mid cfg h g s) : Inv cfg h s := by
  refine ⟨?_, ?_, fun _ => ⟨g, hb⟩, ?_, ?_, ?_⟩ <;> intro hh <;> rw [hh] at hs <;> simp [midState] at hs

theorem Inv.of_live {cfg h s g th e} (hs : s.state = .established) (hb : Live cfg h g th e s) : Inv cfg h s := by
  refine ⟨?_, ?_, ?_, fun _ => ⟨g, th, e, hb⟩, ?_, ?_⟩ <;> intro hh <;> rw [hs] at hh <;>
    simp [midState] at hh

end Fizz.ClientSM

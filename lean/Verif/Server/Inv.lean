import Verif.Server.HelloStep

/-!
# The invariant of all server histories
-/

namespace Fizz.Server
open Fizz.Codec Fizz.Crypto
open Fizz.Ticket (CookieState ResumptionState)
open Fizz.Conn (Trig)
open Spec (Neg)

/-- Nothing has been reported yet and no keys have been updated. -/
structure Quiet (h : List Step) : Prop where
  success : .reportHandshakeSuccess ∉ actions h
  early : .reportEarlyHandshakeSuccess ∉ actions h
  received : Spec.updatesReceived h = 0
  sent : Spec.updatesSent h = 0

/-- From the server's flight to the client's Finished. -/
structure Mid (cfg : Cfg) (h : List Step) (g : Neg) (s : St) : Prop where
  fixed : Spec.Fixed cfg h g
  ks : s.ks = some (KS.conc g.hash ⟨.master g.inputs, some (g.app 0 0)⟩)
  hs : s.hs = some ⟨g.cipher, Spec.transcript cfg h⟩
  secret : s.clientHandshakeSecret = some g.clientHandshake
  write : s.write = some ⟨.appTraffic, g.serverApp 0⟩
  cipher : s.cipher = some g.cipher
  version : s.version = some g.version
  pskType : s.pskType = some g.pskType
  origin : ∃ t, s.handshakeTime = some t ∧ Spec.Origin cfg h g s.serverCert t
  alpn : s.alpn = g.alpn
  info : Spec.Info g s
  exporter : s.exporterMasterSecret =
    some (KS.Spec.masterValue g.hash.spec g.inputs g.thServerFinished .exporterMaster)
  success : .reportHandshakeSuccess ∉ actions h
  earlySuccess : .reportEarlyHandshakeSuccess ∈ actions h ↔ g.early = true
  updates : Spec.updatesReceived h = 0 ∧ Spec.updatesSent h = 0
  early : s.state = .acceptingEarlyData → g.early = true ∧
    s.read = some ⟨.earlyData, g.clientEarly, false⟩ ∧
    s.handshakeRead = some ⟨.handshake, g.clientHandshake, false⟩
  late : s.state ≠ .acceptingEarlyData → ∃ skip, s.read = some ⟨.handshake, g.clientHandshake, skip⟩ ∧
    (skip = true ↔ g.early = false ∧ OfferedEarly g)
  wants : s.state = .expectingCertificate ∨ s.state = .expectingCertificateVerify → Spec.WantsCert cfg g
  chain : s.state = .expectingCertificateVerify → ∃ leaf chain,
    s.unverifiedCertChain = some (leaf :: chain) ∧ Spec.SentChain h leaf chain
  cert : s.state ≠ .expectingFinished → s.clientCert = g.psk.bind (·.clientCert)
  auth : s.state = .expectingFinished → Spec.IdentityOk cfg g h s.clientCert

/-- After the client's Finished. -/
structure Live (cfg : Cfg) (h : List Step) (g : Neg) (s : St) : Prop where
  fixed : Spec.Fixed cfg h g
  ks : s.ks = some (KS.conc g.hash ⟨.start, some (g.app (Spec.updatesReceived h) (Spec.updatesSent h))⟩)
  hs : s.hs = none
  secret : s.clientHandshakeSecret = none
  write : s.write = some ⟨.appTraffic, g.serverApp (Spec.updatesSent h)⟩
  read : s.read = some ⟨.appTraffic, g.clientApp (Spec.updatesReceived h), false⟩
  cipher : s.cipher = some g.cipher
  version : s.version = some g.version
  pskType : s.pskType = some g.pskType
  origin : ∃ t, s.handshakeTime = some t ∧ Spec.Origin cfg h g s.serverCert t
  alpn : s.alpn = g.alpn
  info : Spec.Info g s
  exporter : s.exporterMasterSecret =
    some (KS.Spec.masterValue g.hash.spec g.inputs g.thServerFinished .exporterMaster)
  success : .reportHandshakeSuccess ∈ actions h
  earlySuccess : .reportEarlyHandshakeSuccess ∈ actions h ↔ g.early = true
  rms : ∃ newer y older m orig, h = newer ++ y :: older ∧
    Spec.received y = some (.finished m, orig) ∧
    s.resumptionMasterSecret = KS.Spec.masterValue g.hash.spec g.inputs
      (g.hash.digest (Spec.transcript cfg older ++ orig)) .resumptionMaster
  auth : Spec.IdentityOk cfg g h s.clientCert

/-- The states between the server's flight and the client's Finished. -/
def midState (e : StateEnum) : Prop :=
  e = .acceptingEarlyData ∨ e = .expectingCertificate ∨ e = .expectingCertificateVerify ∨
    e = .expectingFinished

/-- The invariant. -/
structure Inv (cfg : Cfg) (h : List Step) (s : St) : Prop where
  uninit : s.state = .uninitialized → s = {} ∧ Spec.transcript cfg h = [] ∧ Quiet h
  hello : s.state = .expectingClientHello → PreHello cfg h s ∧ s.write = some ⟨.plaintext, []⟩ ∧
    (∃ skip, s.read = some ⟨.plaintext, [], skip⟩) ∧ s.ks = none ∧ Quiet h
  mid : midState s.state → ∃ g, Mid cfg h g s
  data : s.state = .acceptingData → ∃ g, Live cfg h g s
  closing : s.state = .expectingCloseNotify ∨ s.state = .closed → s.write = none

/-! ## Steps that receive no handshake message -/

theorem transcript_skip {cfg x h} (hr : Spec.received x = none) :
    Spec.transcript cfg (x :: h) = Spec.transcript cfg h := by
  rw [Spec.transcript, hr]

theorem Spec.Fixed.cons {cfg h g} (hf : Spec.Fixed cfg h g) (x : Step) : Spec.Fixed cfg (x :: h) g := by
  obtain ⟨n, y, o, rfl, hn⟩ := hf
  exact ⟨x :: n, y, o, rfl, hn⟩

theorem Spec.SentChain.cons {h l c} (hf : Spec.SentChain h l c) (x : Step) :
    Spec.SentChain (x :: h) l c := by
  obtain ⟨n, y, o, m, orig, e, es, rfl, hn⟩ := hf
  exact ⟨x :: n, y, o, m, orig, e, es, rfl, hn⟩

theorem Spec.SentNoCert.cons {h} (hf : Spec.SentNoCert h) (x : Step) :
    Spec.SentNoCert (x :: h) := by
  obtain ⟨n, y, o, m, orig, rfl, hn⟩ := hf
  exact ⟨x :: n, y, o, m, orig, rfl, hn⟩

theorem Spec.ProvedIdentity.cons {cfg g h c} (hf : Spec.ProvedIdentity cfg g h c) (x : Step) :
    Spec.ProvedIdentity cfg g (x :: h) c := by
  obtain ⟨n, y, o, m, orig, l, ch, rfl, hn⟩ := hf
  exact ⟨x :: n, y, o, m, orig, l, ch, rfl, hn⟩

theorem Spec.IdentityOk.cons {cfg g h c} (hf : Spec.IdentityOk cfg g h c) (x : Step) :
    Spec.IdentityOk cfg g (x :: h) c := by
  refine ⟨hf.1, fun hw => ?_⟩
  rcases hf.2 hw with ⟨a, b, c⟩ | ⟨c', a, b⟩
  · exact .inl ⟨a, b, c.cons x⟩
  · exact .inr ⟨c', a, b.cons x⟩

/-- The step neither receives a handshake message, nor sends a KeyUpdate, nor reports success. -/
structure Plain (x : Step) : Prop where
  received : Spec.received x = none
  sent : (Spec.sent x).head? ≠ some 24
  success : .reportHandshakeSuccess ∉ x.acts
  early : .reportEarlyHandshakeSuccess ∉ x.acts

theorem updatesReceived_other {x : Step} {h} (hx : ∀ m o, Spec.received x ≠ some (.keyUpdate m, o)) :
    Spec.updatesReceived (x :: h) = Spec.updatesReceived h := by
  unfold Spec.updatesReceived
  rw [List.countP_cons_of_neg]
  split
  · rename_i he; exact absurd he (hx _ _)
  · simp

theorem updatesReceived_one {x : Step} {h m o} (hx : Spec.received x = some (.keyUpdate m, o)) :
    Spec.updatesReceived (x :: h) = Spec.updatesReceived h + 1 := by
  unfold Spec.updatesReceived
  rw [List.countP_cons_of_pos]
  rw [hx]

theorem updatesSent_other {x : Step} {h} (hx : (Spec.sent x).head? ≠ some 24) :
    Spec.updatesSent (x :: h) = Spec.updatesSent h := by
  unfold Spec.updatesSent
  rw [List.countP_cons_of_neg]
  simpa using hx

theorem updatesSent_one {x : Step} {h} (hx : (Spec.sent x).head? = some 24) :
    Spec.updatesSent (x :: h) = Spec.updatesSent h + 1 := by
  unfold Spec.updatesSent
  rw [List.countP_cons_of_pos]
  simpa using hx

theorem updates_plain {x : Step} (p : Plain x) (h : List Step) :
    Spec.updatesReceived (x :: h) = Spec.updatesReceived h ∧
    Spec.updatesSent (x :: h) = Spec.updatesSent h := by
  exact ⟨updatesReceived_other (by rw [p.received]; simp), updatesSent_other p.sent⟩

theorem Quiet.cons {h} (q : Quiet h) {x : Step} (p : Plain x) : Quiet (x :: h) := by
  obtain ⟨u1, u2⟩ := updates_plain p h
  exact ⟨by simp [q.success, p.success], by simp [q.early, p.early], by rw [u1, q.received],
    by rw [u2, q.sent]⟩

theorem PreHello.cons {cfg h s} (q : PreHello cfg h s) {x : Step} (p : Plain x) :
    PreHello cfg (x :: h) s := by
  refine ⟨?_, ?_, q.noCert, q.noPending, by rw [transcript_skip p.received]; exact q.begins⟩
  · rw [transcript_skip p.received]; exact q.fresh
  · rw [transcript_skip p.received]
    intro c hc
    obtain ⟨a1, a2, a3, a4, a5, ⟨n, r, o, v, gr, rfl, a6⟩, a7⟩ := q.retried c hc
    exact ⟨a1, a2, a3, a4, a5, ⟨x :: n, r, o, v, gr, rfl, a6⟩, a7⟩

theorem Spec.Origin.cons {cfg h g c t} (hf : Spec.Origin cfg h g c t) (x : Step) :
    Spec.Origin cfg (x :: h) g c t := by
  obtain ⟨n, y, o, rfl, hn⟩ := hf
  exact ⟨x :: n, y, o, rfl, hn⟩

/-- The same after one more step. -/
theorem origin_cons {cfg h g} {s : St} (ho : ∃ t, s.handshakeTime = some t ∧ Spec.Origin cfg h g s.serverCert t)
    (x : Step) : ∃ t, s.handshakeTime = some t ∧ Spec.Origin cfg (x :: h) g s.serverCert t := by
  obtain ⟨t, h1, h2⟩ := ho
  exact ⟨t, h1, h2.cons x⟩

theorem Mid.cons {cfg h g s} (m : Mid cfg h g s) {x : Step} (p : Plain x) : Mid cfg (x :: h) g s := by
  obtain ⟨u1, u2⟩ := updates_plain p h
  refine { m with
    fixed := m.fixed.cons x, origin := origin_cons m.origin x, hs := by rw [transcript_skip p.received]; exact m.hs
    success := by simp [m.success, p.success], earlySuccess := by simp [p.early, m.earlySuccess]
    updates := by rw [u1, u2]; exact m.updates
    chain := fun hs => ?_, auth := fun hs => (m.auth hs).cons x }
  obtain ⟨l, c, a, b⟩ := m.chain hs
  exact ⟨l, c, a, b.cons x⟩

theorem Live.cons {cfg h g s} (m : Live cfg h g s) {x : Step} (p : Plain x) : Live cfg (x :: h) g s := by
  obtain ⟨u1, u2⟩ := updates_plain p h
  refine { m with
    fixed := m.fixed.cons x, origin := origin_cons m.origin x
    success := by simp [m.success], earlySuccess := by simp [p.early, m.earlySuccess]
    ks := by rw [u1, u2]; exact m.ks
    write := by rw [u2]; exact m.write
    read := by rw [u1]; exact m.read
    rms := ?_, auth := m.auth.cons x }
  obtain ⟨n, y, o, mm, orig, rfl, a⟩ := m.rms
  exact ⟨x :: n, y, o, mm, orig, rfl, a⟩

theorem Inv.cons {cfg h s} (m : Inv cfg h s) {x : Step} (p : Plain x) : Inv cfg (x :: h) s := by
  refine ⟨fun hs => ?_, fun hs => ?_, fun hs => ?_, fun hs => ?_, m.closing⟩
  · obtain ⟨a, b, c⟩ := m.uninit hs
    exact ⟨a, by rw [transcript_skip p.received]; exact b, c.cons p⟩
  · obtain ⟨a, b, c, d, e⟩ := m.hello hs
    exact ⟨a.cons p, b, c, d, e.cons p⟩
  · obtain ⟨g, hg⟩ := m.mid hs; exact ⟨g, hg.cons p⟩
  · obtain ⟨g, hg⟩ := m.data hs; exact ⟨g, hg.cons p⟩

/-- In the other states there is nothing to show but that there is no write layer. -/
theorem Inv.over {cfg h s} (h1 : s.state = .error ∨
    ((s.state = .closed ∨ s.state = .expectingCloseNotify) ∧ s.write = none)) : Inv cfg h s := by
  have : s.state ≠ .uninitialized ∧ s.state ≠ .expectingClientHello ∧ ¬ midState s.state ∧
      s.state ≠ .acceptingData := by
    unfold midState
    rcases h1 with h1 | ⟨h1 | h1, -⟩ <;> rw [h1] <;> simp
  refine ⟨fun hs => absurd hs this.1, fun hs => absurd hs this.2.1, fun hs => absurd hs this.2.2.1,
    fun hs => absurd hs this.2.2.2, ?_⟩
  rcases h1 with h1 | h1
  · rw [h1]; simp
  · exact fun _ => h1.2

/-! ## The transcript of the two ClientHello answers -/

theorem received_sock {i s acts m orig u} (hs : i.sock = .event (.handshake m orig) u)
    (ha : acts ≠ []) : Spec.received ⟨.sock, i, s, acts⟩ = some (m, orig) := by
  cases acts with
  | nil => exact absurd rfl ha
  | cons a l => simp [Spec.received, hs]

theorem received_hello {cfg x m orig h g} (hn : Spec.Negotiated cfg h x g)
    (hs : ∃ u, x.env.sock = .event (.handshake (.clientHello m) orig) u) (ha : x.acts ≠ []) :
    Spec.received x = some (.clientHello m, orig) := by
  obtain ⟨m', o', h1, h2, -⟩ := hn.hello
  obtain ⟨u, hs⟩ := hs
  rw [hs] at h2
  unfold Spec.received
  rw [h1, hs]
  cases hx : x.acts with
  | nil => exact absurd hx ha
  | cons a l => rfl

theorem flight_sent {cfg h x g} (hn : Spec.Negotiated cfg h x g) :
    Spec.sent x = g.serverHello ++ g.rest := by
  obtain ⟨w, c, enc, h1, h2, h3, h4⟩ := hn.flight
  have hc : c.filter (·.type = 22) = [] := by
    rw [List.filter_eq_nil_iff]
    intro k hk
    rw [h4 k hk]; decide
  unfold Spec.sent Spec.handshakeBytes
  rw [h2]
  simp [hc, h3]

theorem flight_transcript {cfg h x g} (hn : Spec.Negotiated cfg h x g) (ha : x.acts ≠ [])
    (hst : (Spec.post x).state ≠ .expectingClientHello) :
    Spec.transcript cfg (x :: h) = g.before ++ g.used.2 ++ g.serverHello ++ g.rest := by
  obtain ⟨m, o, h1, h2, h3, h4, -⟩ := hn.hello
  rw [Spec.transcript, received_hello hn ⟨_, h2⟩ ha]
  simp only
  rw [if_neg hst, ← h3, ← h4, flight_sent hn]
  simp only [List.append_assoc]

theorem handshake_head (m : HsMsg) : (Codec.Spec.handshake m).head? = some (Codec.Spec.typeByte m) := rfl

theorem after_mid {cfg : Cfg} {h : List Step} {x : Step} {g : Neg} (q : Quiet h)
    (hn : Spec.Negotiated cfg h x g) (a : After cfg x.env.inp g (Spec.post x)) (ha : x.acts ≠ []) :
    Mid cfg (x :: h) g (Spec.post x) ∧ midState (Spec.post x).state := by
  have hph := a.phase
  have hms : midState (Spec.post x).state := by
    unfold midState
    rcases hph with ⟨-, -, h1, -⟩ | ⟨-, skip, -, -, ⟨-, -, h1⟩ | ⟨-, -, h1⟩ | ⟨-, -, h1⟩⟩ <;> rw [h1] <;> simp
  have htr := flight_transcript (cfg := cfg) hn ha (by
    intro hh; rw [hh] at hms; simp [midState] at hms)
  obtain ⟨m, o, h1, h2, -⟩ := hn.hello
  have hr := received_hello hn ⟨_, h2⟩ ha
  have hwant : g.early = true → ¬ Spec.WantsCert cfg g := by
    intro he hw
    obtain ⟨m', o', -, -, -, -, h5, -⟩ := hn.hello
    obtain ⟨-, -, -, -, -, -, -, -, rs, -, -, -, hrs, -⟩ := h5 he
    rw [hw.2] at hrs; cases hrs
  refine ⟨?_, hms⟩
  refine
    { fixed := ⟨[], x, h, rfl, hn⟩, ks := a.ks, hs := by rw [htr]; exact a.hs, secret := a.secret
      write := a.write, cipher := a.cipher, version := a.version, pskType := a.pskType
      origin := ⟨_, a.time, [], x, h, rfl, hn, a.saved, rfl⟩
      alpn := a.alpn, info := a.info, exporter := a.exporter
      success := by simp [q.success, hn.report.1]
      earlySuccess := by simp [q.early, hn.report.2]
      updates := ?_, early := ?_, late := ?_, wants := ?_, chain := ?_, cert := fun _ => a.cert
      auth := ?_ }
  · obtain ⟨sh, hsh, -⟩ := hn.serverHello
    rw [updatesReceived_other (by rw [hr]; simp), updatesSent_other]
    · exact ⟨q.received, q.sent⟩
    · rw [flight_sent hn, hsh, List.head?_append_of_ne_nil _ (by simp [Codec.Spec.handshake]),
        handshake_head]
      simp [Codec.Spec.typeByte]
  · intro hs
    rcases hph with ⟨h1, -, -, h3, h4⟩ | ⟨-, skip, -, -, ⟨-, -, h1⟩ | ⟨-, -, h1⟩ | ⟨-, -, h1⟩⟩
    · exact ⟨h1, h3, h4⟩
    all_goals (rw [h1] at hs; cases hs)
  · intro hs
    rcases hph with ⟨h1, -, h2, h3, h4⟩ | ⟨-, skip, h2, h3, -⟩
    · exact absurd h2 hs
    · exact ⟨skip, h2, h3⟩
  · intro hs
    rcases hph with ⟨-, -, h1, -⟩ | ⟨-, skip, -, -, ⟨-, -, h1⟩ | ⟨-, h0, h1⟩ | ⟨-, -, h1⟩⟩
    · rw [h1] at hs; simp at hs
    · rw [h1] at hs; simp at hs
    · exact h0
    · rw [h1] at hs; simp at hs
  · intro hs
    rcases hph with ⟨-, -, h1, -⟩ | ⟨-, skip, -, -, ⟨-, -, h1⟩ | ⟨-, h0, h1⟩ | ⟨-, -, h1⟩⟩ <;>
      (rw [h1] at hs; cases hs)
  · intro hs
    rcases hph with ⟨-, -, h1, -⟩ | ⟨-, skip, -, -, ⟨he, -, h1⟩ | ⟨-, h0, h1⟩ | ⟨-, h0, h1⟩⟩
    · rw [h1] at hs; cases hs
    · exact ⟨fun _ => a.cert, fun hw => absurd hw (hwant he)⟩
    · rw [h1] at hs; cases hs
    · exact ⟨fun _ => a.cert, fun hw => absurd hw h0⟩

end Fizz.Server

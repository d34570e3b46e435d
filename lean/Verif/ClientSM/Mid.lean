import Verif.ClientSM.HelloServer

/-!
# Between the ServerHello and the server's Finished
-/

namespace Fizz.ClientSM
open Fizz.Codec Fizz.Crypto
open Fizz.Server (Level RLayer WLayer Content KeyExchangeType HsCtx SockIn PeerCert content
  deref derefPtr check ksState ksSecret transcriptHash finishedData
  derefPtr_eq_ok deref_eq_ok check_eq_ok pure_eq_ok ks_deriveEarly ks_getEarly finishedData_eq
  DeriveSecret_len frame_eq encode_eq ks_getHandshake)
open Fizz.Server.Spec (messageHash finishedMac)
open Fizz.Client (CachedPsk PskType)
open Fizz.Conn (Trig)
open Spec (Offer PskOffer Public Neg)

/-- What is known about client authentication before the client's own flight. -/
def AskInv (cfg : Cfg) (h : List Step) (s : St) : Prop :=
  (¬ Spec.asked h ∧ (s.clientAuth = none ∨ s.clientAuth = some .notRequested)) ∨
  ∃ cert, Spec.Asked cfg h cert ∧ s.clientAuth = some (if cert.isSome then .sent else .requestedNoMatch) ∧
    s.selectedClientCert = cert.map (·.1) ∧ s.clientAuthSigScheme = cert.map (·.2)

/-- The server is authenticated by the PSK. -/
def ByPsk (g : Neg) : Prop := ∃ psk, g.psk = some psk ∧ Spec.PskAuth psk

theorem not_byPsk {g : Neg} (h : ¬ ByPsk g) : ∀ psk, g.psk = some psk → ¬ Spec.PskAuth psk :=
  fun psk h1 h2 => h ⟨psk, h1, h2⟩

/-- The states between the ServerHello and the server's Finished. -/
def midState (e : StateEnum) : Prop :=
  e = .expectingEncryptedExtensions ∨ e = .expectingCertificate ∨ e = .expectingCertificateVerify ∨
    e = .expectingFinished

/-- What holds from the ServerHello to the server's Finished, whatever has been received. -/
structure Base (cfg : Cfg) (h : List Step) (g : Neg) (s : St) : Prop where
  fixed : Spec.Fixed cfg h g
  ks : s.ks = some (KS.conc g.hash ⟨.handshake g.inputs, none⟩)
  clientSecret : s.clientHandshakeSecret = some g.clientHandshake
  serverSecret : s.serverHandshakeSecret = some g.serverHandshake
  write : s.write = some ⟨.handshake, g.clientHandshake⟩
  read : s.read = some ⟨.handshake, g.serverHandshake, false⟩
  info : Spec.Info cfg h g s
  since : ∃ t, s.handshakeTime = some t ∧ Spec.Since cfg h g t
  early : EarlyInv cfg g.first (!(Spec.retries h).isEmpty) s
  first : Spec.retries h = [] → g.offer = g.first
  second : Spec.retries h ≠ [] → g.offer.early = false
  count : (Spec.retries h).length ≤ 1
  /-- the HelloRetryRequest had named the same version and cipher suite -/
  same : ∀ r ∈ Spec.retries h, r.cipher_suite = g.cipher ∧
    getServerSupportedVersions r.extensions = .ok (some ⟨g.version⟩)
  noEch : cfg.hasEchConfigs = false → s.echState = none ∧ g.ech = false
  ech : cfg.hasEchConfigs = true → ∃ e, s.echState = some e ∧ e.status = if g.ech then .accepted else .rejected
  reported : ∀ n, .reportEarlyHandshakeSuccess n ∈ actions h →
    ∃ psk, g.first.early = true ∧ g.first.pskOf = some psk ∧ n = psk.maxEarlyDataSize
  reports : g.first.early = true → Spec.earlyOffered h
  quiet : Quiet h

/-- From the ServerHello to the server's Finished. -/
structure Mid (cfg : Cfg) (h : List Step) (g : Neg) (s : St) : Prop extends Base cfg h g s where
  hs : s.hs = some ⟨g.cipher, Spec.transcript cfg h⟩
  opening : s.state = .expectingEncryptedExtensions →
    s.earlyDataType = some (earlyStatus g.first (!(Spec.retries h).isEmpty)) ∧
    ∃ r, s.requestedExtensions = some r ∧ ∀ t ∈ r, t ∈ (g.offer.extensions cfg).map (·.extension_type) ∨
      (t = 0xfe0d ∧ cfg.greaseEch = some .computed)
  encrypted : s.state ≠ .expectingEncryptedExtensions → ∃ early, s.earlyDataType = some early ∧
    Spec.Encrypted cfg h g s.alpn early
  byPsk : ByPsk g → (s.state = .expectingEncryptedExtensions ∨ s.state = .expectingFinished) ∧
    ∀ psk, g.psk = some psk → s.serverCert = psk.serverCert ∧ s.clientCert = psk.clientCert ∧
      s.clientAuth = some (if psk.clientCert.isSome then .stored else .notRequested)
  ask : ¬ ByPsk g → AskInv cfg h s
  chain : s.state = .expectingCertificateVerify → ∃ leaf chain,
    s.unverifiedCertChain = some (leaf :: chain) ∧ Spec.SentChain cfg h leaf chain
  proved : s.state = .expectingFinished → ¬ ByPsk g →
    ∃ c, s.serverCert = some (.inr c) ∧ Spec.ProvedIdentity cfg g h c

theorem isPskAccepted_iff {psk : Psk} : isPskAccepted psk.type = true ↔ Spec.PskAuth psk := by
  unfold Spec.PskAuth isPskAccepted
  cases psk.type <;> simp

/-- What the step has fixed. -/
def negOf (cfg : Cfg) (h : List Step) (h0 : HashAlg) (o1 o : Offer) (orig : Bytes) (r : Shlo) (shared : Bytes) : Neg :=
  { hash := h0, version := r.version, cipher := r.cipher, first := o1, offer := o
    before := if r.ech = some .accepted then (Spec.transcripts cfg h).2 else (Spec.transcripts cfg h).1
    serverHello := orig, psk := if r.psk.mode.isSome then o.pskOf else none
    ecdhe := r.exchange.map fun e => (e.1, e.2.1, e.2.2, shared), ech := decide (r.ech = some .accepted) }

theorem shlo_mid {cfg : Cfg} (hok : ∀ c a, cfg.hashOf c = .ok a → a.Ok) {h : List Step} {x : Step}
    {o1 o : Offer} {p : Public} (hb : Before cfg h o1 o p x.pre) {m orig u r}
    (hst : x.pre.state = .expectingServerHello)
    (ht : x.trig = .sock) (hs : x.env.sock = .event (.handshake (.serverHello m) orig) u)
    (hr : processShlo cfg x.env.inp x.pre u m orig = .ok r)
    (ha : x.acts = [.mutate (saveShlo r), .secretAvailable .serverHandshakeTraffic r.serverSecret,
        .secretAvailable .clientHandshakeTraffic r.clientSecret,
        transition .expectingEncryptedExtensions]) :
    ∃ g, Spec.Negotiated cfg h x g ∧ Mid cfg (x :: h) g (Spec.post x) ∧
      (Spec.post x).state = .expectingEncryptedExtensions := by
  unfold processShlo at hr
  rw [Res.bind_eq_ok] at hr
  obtain ⟨⟨version, exchange, psk⟩, h1, hr⟩ := hr
  simp only [Res.bind_eq_ok, check_eq_ok] at hr
  obtain ⟨h0, h2, ks0, h3, ks, h4, ⟨ctx, ech⟩, h5, _, h6, _, h7, hc, h8, client, h9, server, h10, time, h11, hr⟩ := hr
  have hr := (pure_eq_ok.1 hr).symm
  obtain ⟨req, shares, f⟩ := negotiateShlo_facts h1
  have hech := resolveEch_facts hb f.sameCipher h5
  have ok := hok _ _ h2
  have hctx : ctx.cipher = m.cipher_suite ∧
      ctx.transcript = (if ech = some .accepted then (Spec.transcripts cfg h).2 else (Spec.transcripts cfg h).1) := by
    rcases hech with ⟨-, -, e1, e2⟩ | ⟨-, e, acc, -, -, e1, -, -, e2⟩
    · rw [e2, e1]; simp
    · rw [e2, e1]; cases acc <;> simp
  rw [hctx.1, h2] at h8
  have h8 := Except.ok.inj h8
  subst h8
  -- the key schedule
  have hpk : psk.mode = none ∨ ∃ k, o.pskOf = some k := by
    rcases f.psk with ⟨a, -⟩ | ⟨k, a, -⟩
    · exact .inl a
    · exact .inr ⟨k, by rw [← hb.psk]; exact a⟩
  have hks0 : ks0 = KS.conc h0 ⟨pskStage ((if psk.mode.isSome then o.pskOf else none).map (·.secret)), none⟩ := by
    unfold earlyStage at h3
    cases hm : psk.mode with
    | none =>
      rw [hm] at h3
      exact (Except.ok.inj h3).symm
    | some md =>
      rw [hm] at h3
      simp only [Res.bind_eq_ok] at h3
      obtain ⟨k, h31, h3⟩ := h3
      have h31 := deref_eq_ok.1 h31
      rw [hb.psk] at h31
      rw [h31]
      exact ks_deriveEarly ok h3
  obtain ⟨shared, hks, hkex⟩ : ∃ shared, ks = KS.conc h0 ⟨.handshake
      ⟨(if psk.mode.isSome then o.pskOf else none).map (·.secret), exchange.map fun _ => shared⟩, none⟩ ∧
      ∀ a b d, exchange = some (a, b, d) → x.env.inp.kex a b d = .ok shared := by
    subst hks0
    cases he : exchange with
    | none =>
      rw [he] at h4
      refine ⟨[], ?_, by simp⟩
      rcases f.either with e1 | e1
      · rw [he] at e1; cases e1
      · rcases hpk with e2 | ⟨k, e2⟩
        · rw [e2] at e1; cases e1
        · rw [e1] at h4 ⊢
          rw [e2] at h4 ⊢
          exact ks_noEcdhe' ok h4
    | some e =>
      rw [he] at h4
      obtain ⟨a, b, d⟩ := e
      rw [handshakeStage, Res.bind_eq_ok] at h4
      obtain ⟨shared, h41, h4⟩ := h4
      refine ⟨shared, ks_ecdhe' ok h4, ?_⟩
      intro a' b' d' hh
      cases Option.some.inj hh
      exact h41
  generalize hg : negOf cfg h h0 o1 o orig r shared = g
  have hrv : r.version = version := by rw [hr]
  have hrc : r.cipher = m.cipher_suite := by rw [hr]
  have hre : r.exchange = exchange := by rw [hr]
  have hrp : r.psk = psk := by rw [hr]
  have hrh : r.ech = ech := by rw [hr]
  have g1 : g.hash = h0 := by rw [← hg]; rfl
  have g2 : g.version = version := by rw [← hg]; exact hrv
  have g3 : g.cipher = m.cipher_suite := by rw [← hg]; exact hrc
  have g4 : g.first = o1 := by rw [← hg]; rfl
  have g5 : g.offer = o := by rw [← hg]; rfl
  have g6 : g.before = ctx.transcript := by rw [hctx.2, ← hg, ← hrh]; rfl
  have g7 : g.serverHello = orig := by rw [← hg]; rfl
  have g8 : g.psk = if psk.mode.isSome then o.pskOf else none := by rw [← hg, ← hrp]; rfl
  have g9 : g.ecdhe = exchange.map fun e => (e.1, e.2.1, e.2.2, shared) := by rw [← hg, ← hre]; rfl
  have g10 : g.ech = decide (ech = some .accepted) := by rw [← hg, ← hrh]; rfl
  have hin : g.inputs = ⟨(if psk.mode.isSome then o.pskOf else none).map (·.secret), exchange.map fun _ => shared⟩ := by
    unfold Neg.inputs
    rw [g8, g9]
    congr 1
    rw [Option.map_map]; rfl
  have hth : g.thServerHello = transcriptHash h0 (ctx.append orig) := by
    unfold Neg.thServerHello transcriptHash HsCtx.append
    rw [g1, g6, g7]
  rw [hks] at h9 h10
  have hcl : client = g.clientHandshake := by
    unfold Neg.clientHandshake
    rw [hin, hth, g1]
    exact ks_getHandshake ok (ok.len _) h9
  have hse : server = g.serverHandshake := by
    unfold Neg.serverHandshake
    rw [hin, hth, g1]
    exact ks_getHandshake ok (ok.len _) h10
  have hunp : u = false := by simpa using h7
  subst hunp
  have hrec := received_of ht hs (by rw [ha]; simp)
  have hro : Spec.retryOf x = none := by simp [Spec.retryOf, hrec]
  have hretx : Spec.retries (x :: h) = Spec.retries h := retries_cons_none hro
  have hncon : ¬ Spec.connects x := fun hh => by
    have := hh.1
    rw [ht] at this; cases this
  have hpost : Spec.post x = { saveShlo r x.pre with state := .expectingEncryptedExtensions } := by
    rw [Spec.post, ha]; rfl
  -- ECH in the state
  have hE : (cfg.hasEchConfigs = false → (Spec.post x).echState = none ∧ g.ech = false) ∧
      (cfg.hasEchConfigs = true → ∃ e, (Spec.post x).echState = some e ∧
        e.status = if g.ech then .accepted else .rejected) ∧
      (Spec.post x).sni = (if cfg.hasEchConfigs = true ∧ g.ech = false then some p.name else o.sni) ∧
      (Spec.post x).clientRandom = some (if cfg.hasEchConfigs = true ∧ g.ech = false then p.random else o.random) := by
    rcases hech with ⟨e1, e2, e3, -⟩ | ⟨e1, e, acc, e2, e3, e4, -, e5, -⟩
    · obtain ⟨-, k2, k3⟩ := hb.plain e1
      have hp1 : (Spec.post x).echState = x.pre.echState ∧ (Spec.post x).sni = x.pre.sni ∧
          (Spec.post x).clientRandom = x.pre.clientRandom := by
        rw [hpost]; unfold saveShlo shloEch; rw [hrh, e3]; exact ⟨rfl, rfl, rfl⟩
      obtain ⟨j1, j2, j3⟩ := hp1
      have hge : g.ech = false := by rw [g10, e3]; rfl
      refine ⟨fun _ => ⟨by rw [j1, e2], hge⟩, fun hh => (by rw [e1] at hh; cases hh), ?_, ?_⟩
      · rw [j2, k3, e1]; simp
      · rw [j3, k2, e1]; simp
    · have hge : g.ech = acc := by rw [g10, e4]; cases acc <;> rfl
      have hp1 : (Spec.post x).echState = some { e with
            status := if acc then .accepted else .rejected, encodedInner := none, hs := none } ∧
          (Spec.post x).sni = (if acc then e.sni else x.pre.sni) ∧
          (Spec.post x).clientRandom = (if acc then some e.random else x.pre.clientRandom) := by
        rw [hpost]; unfold saveShlo shloEch; rw [hrh, e4]
        simp only [e2]
        cases acc <;> simp
      obtain ⟨j1, j2, j3⟩ := hp1
      refine ⟨fun hh => (by rw [e1] at hh; cases hh), fun _ => ⟨_, j1, by rw [hge]⟩, ?_, ?_⟩
      · rw [j2, hge, e1, e3.sni, e3.sniOf]
        cases acc with
        | true => simp
        | false =>
          have : e.status ≠ .accepted := by
            rcases e5 with e5 | e5
            · rw [e5]; simp
            · intro hh; exact absurd (e5.2 hh) (by simp)
          simp [this]
      · rw [j3, hge, e1, e3.random, e3.randomOf]
        cases acc with
        | true => simp
        | false =>
          have : e.status ≠ .accepted := by
            rcases e5 with e5 | e5
            · rw [e5]; simp
            · intro hh; exact absurd (e5.2 hh) (by simp)
          simp [this]
  have hacc : Spec.echAccepted (Spec.post x) = g.ech := by
    unfold Spec.echAccepted
    by_cases hE' : cfg.hasEchConfigs = true
    · obtain ⟨e, k1, k2⟩ := hE.2.1 hE'
      rw [k1]
      simp only [k2]
      cases g.ech <;> rfl
    · obtain ⟨k1, k2⟩ := hE.1 (by simpa using hE')
      rw [k1, k2]
  have hpskc : ∀ k, g.psk = some k → o.pskOf = some k ∧ getServerPresharedKey m.extensions = .ok (some ⟨0⟩) ∧
      k.version = version ∧ sameHash cfg m.cipher_suite k.cipher = .ok true ∧
      pskMode exchange.isSome ∈ cfg.supportedPskModes ∧
      psk = ⟨k.type, some (pskMode exchange.isSome), k.serverCert, k.clientCert⟩ := by
    intro k hk
    rw [g8] at hk
    rcases f.psk with ⟨a, -⟩ | ⟨k', a, b⟩
    · rw [a] at hk; simp at hk
    · rw [hb.psk] at a
      rw [b.2.2.2.2] at hk
      simp only [Option.isSome_some, if_true] at hk
      rw [a] at hk
      cases Option.some.inj hk
      exact ⟨a, b⟩
  have hpskn : g.psk = none → psk.mode = none ∧ psk.serverCert = none ∧ psk.clientCert = none ∧
      getServerPresharedKey m.extensions = .ok none ∧
      psk.type = if o.pskOf.isSome then .rejected
        else if cfg.supportedPskModes = [] then .notSupported else .notAttempted := by
    intro hk
    rcases f.psk with a | ⟨k', a, b⟩
    · rw [hb.psk] at a; exact a
    · rw [hb.psk] at a
      rw [g8, b.2.2.2.2, a] at hk
      simp at hk
  have hecd : g.ecdhe.isSome = exchange.isSome := by rw [g9]; cases exchange <;> rfl
  have hbefore : g.before = if g.ech then (Spec.transcripts cfg h).2 else (Spec.transcripts cfg h).1 := by
    rw [g6, hctx.2, g10]; simp
  have hechC : g.ech = true → cfg.hasEchConfigs = true := by
    intro hge
    rw [g10] at hge
    rcases hech with ⟨-, -, e3, -⟩ | ⟨e1, -⟩
    · rw [e3] at hge; simp at hge
    · exact e1
  have hneg : Spec.Negotiated cfg h x g := by
    refine
      { offered := ⟨p, by rw [g4, g5]; exact hb.offered⟩
        message := ⟨m, ht, by rw [g7]; exact hs, f.versions.1, f.versions.2.1, g3.symm,
          by rw [g5, ← hb.sessionId]; exact f.sessionId, by rw [g2]; exact f.versions.2.2.1, f.nodup, ?_, ?_, ?_, ?_, ?_, ?_, ?_⟩
        state := hst, hash := by rw [g1, g3]; exact h2, version := by rw [g2]; exact f.versions.2.2.2.1
        cipher := by rw [g3]; exact f.versions.2.2.2.2, retried := ⟨hb.count, ?_⟩, consistent := ?_
        before := hbefore, answered := ?_, ech := hechC, status := hacc, secrets := ?_ }
    · intro t htt
      obtain ⟨k1, k2⟩ := f.allowed t htt
      refine ⟨k2, ?_⟩
      obtain ⟨req', l1, l2⟩ := hb.requested
      rw [f.requested] at l1
      cases Option.some.inj l1
      rw [g5]
      rcases l2 t k1 with l | l
      · exact l
      · rw [l.1] at k2
        exact absurd k2 (by decide)
    · intro k hk
      obtain ⟨k1, k2, k3, k4, k5, -⟩ := hpskc k hk
      refine ⟨by rw [g5]; exact k1, k2, by rw [g2]; exact k3, by rw [g3]; exact k4, ?_⟩
      rw [hecd]; exact k5
    · exact fun hk => (hpskn hk).2.2.2.1
    · intro e he
      rw [g9] at he
      rcases f.exchange with ⟨k1, -⟩ | ⟨a, b, d, k1, k2, k3⟩
      · rw [k1] at he; cases he
      · rw [k1] at he
        cases Option.some.inj he
        refine ⟨k2, ?_, hkex a b d k1⟩
        rw [g5]
        have := f.shares
        rw [hb.shares] at this
        cases Option.some.inj this
        exact k3
    · intro he
      have hx : exchange = none := by rw [g9] at he; simpa using he
      rcases f.exchange with ⟨-, k2⟩ | ⟨a, b, d, k1, -⟩
      · refine ⟨k2, ?_⟩
        rcases f.either with e1 | e1
        · rw [hx] at e1; cases e1
        · have : g.psk ≠ none := fun hk => by rw [(hpskn hk).1] at e1; cases e1
          refine ⟨this, ?_⟩
          obtain ⟨k, hk⟩ := Option.ne_none_iff_exists'.1 this
          have := (hpskc k hk).2.2.2.2.1
          rw [hx] at this
          exact this
      · rw [hx] at k1; cases k1
    · intro hge
      rw [g10] at hge
      rcases hech with ⟨-, -, e3, -⟩ | ⟨-, e, acc, -, -, e4, e5, -⟩
      · rw [e3] at hge; simp at hge
      · rw [g5, e5]
        rw [e4] at hge
        cases acc <;> simp at hge; rfl
    · intro hE' hge
      rw [g10] at hge
      rcases hech with ⟨e1, -⟩ | ⟨-, e, acc, -, -, e4, e5, -⟩
      · rw [e1] at hE'; cases hE'
      · rw [e4] at hge
        have hacc' : acc = false := by cases acc <;> simp at hge; rfl
        refine ⟨by rw [g5, e5, hacc'], ?_⟩
        intro k hk
        have hty := (hpskc k hk).2.2.2.2.2
        rw [e4, hacc', hty] at h6
        have h6' : isPskAccepted k.type = false := by simpa using h6
        unfold isPskAccepted at h6'
        cases hkt : k.type <;> rw [hkt] at h6' <;> simp at h6' <;> simp
    · intro r' hr'
      rcases hb.cases with e1 | ⟨r'', e1⟩
      · rw [e1] at hr'; cases hr'
      · rw [e1, List.mem_singleton] at hr'
        subst hr'
        obtain ⟨-, -, -, k1, v, k2, k3⟩ := hb.retried _ e1
        have hv := f.sameVersion
        have hc := f.sameCipher
        rw [k1] at hc; rw [k2] at hv
        rcases hc with hc | hc
        · cases hc
        rcases hv with hv | hv
        · cases hv
        rw [g3, g2, ← Option.some.inj hv]
        exact ⟨Option.some.inj hc, k3⟩
    · intro hE' y hy hne
      rcases hech with ⟨e1, -⟩ | ⟨-, e, acc, e2, e3, e4, -, e5, -⟩
      · rw [e1] at hE'; cases hE'
      · have hge : g.ech = acc := by rw [g10, e4]; cases acc <;> rfl
        have hcon := e3.consistent y hy hne
        have hrn : e.status ≠ .requested := by
          rcases hb.cases with e1 | ⟨r'', e1⟩
          · have hall := e1
            unfold Spec.retries at hall
            rw [List.filterMap_eq_nil_iff] at hall
            exact absurd (hall y hy) hne
          · exact (e3.retried _ e1).2
        rcases e5 with e5 | e5
        · exact absurd e5 hrn
        · rw [hge]
          cases hb1 : Spec.echAccepted (Spec.post y) with
          | true => exact (e5.2 (hcon.1 hb1)).symm
          | false =>
            cases acc with
            | false => rfl
            | true => rw [hcon.2 (e5.1 rfl)] at hb1; cases hb1
    · obtain ⟨⟨b, d, w1, w2, w3, y, w4, w5⟩, w6⟩ := hb.ends
      cases hge : g.ech with
      | true =>
        obtain ⟨b', k1, k2, k3⟩ := w6 (hechC hge)
        refine ⟨b', _, k1, ?_, k3, (fun _ => by rw [g5]), fun hh => by cases hh⟩
        rw [hbefore, hge, if_pos rfl, k2]
        rfl
      | false =>
        refine ⟨b, d, w1, ?_, w3, (fun hh => by cases hh), fun _ => ⟨p, by rw [g4, g5]; exact hb.offered, y, w4, by rw [g5]; exact w5⟩⟩
        rw [hbefore, hge, if_neg (by simp), w2]
    · rw [Spec.announced, ha]
      simp only [List.flatMap_cons, List.flatMap_nil, Spec.announcement, transition, List.nil_append,
        List.append_nil, List.cons_append]
      rw [hr]
      simp only [hcl, hse]
  refine ⟨g, hneg, ?_, by rw [hpost]⟩
  have htr : Spec.transcript cfg (x :: h) = g.before ++ orig := by
    unfold Spec.transcript
    rw [Spec.transcripts, hrec]
    simp only
    rw [hacc, hneg.before]
    cases g.ech <;> rfl
  have hsv : ∀ s, saveShlo r s = shloEch r.ech { s with
    ks := some r.ks, read := some ⟨.handshake, r.serverSecret, false⟩
    write := some ⟨.handshake, r.clientSecret⟩, hs := some r.hs, version := some r.version
    cipher := some r.cipher, group := r.exchange.map (·.1), encodedClientHello := none
    keyExchangers := none, attemptedPsk := none, clientHandshakeSecret := some r.clientSecret
    serverHandshakeSecret := some r.serverSecret, keyExchangeType := some (shloKexType s r.exchange)
    pskType := some r.psk.type, pskMode := r.psk.mode, serverCert := r.psk.serverCert
    clientCert := r.psk.clientCert, clientAuth := pskAuth r.psk, handshakeTime := some r.handshakeTime } := fun _ => rfl
  have hfields : ∀ s, (saveShlo r s).ks = some ks ∧ (saveShlo r s).hs = some (ctx.append orig) ∧
      (saveShlo r s).clientHandshakeSecret = some client ∧ (saveShlo r s).serverHandshakeSecret = some server ∧
      (saveShlo r s).write = some ⟨.handshake, client⟩ ∧ (saveShlo r s).read = some ⟨.handshake, server, false⟩ ∧
      (saveShlo r s).version = some version ∧ (saveShlo r s).cipher = some m.cipher_suite ∧
      (saveShlo r s).group = exchange.map (·.1) ∧ (saveShlo r s).pskType = some psk.type ∧
      (saveShlo r s).pskMode = psk.mode ∧ (saveShlo r s).keyExchangeType = some (shloKexType s exchange) ∧
      (saveShlo r s).handshakeTime = some time ∧ (saveShlo r s).earlyDataParams = s.earlyDataParams ∧
      (saveShlo r s).earlyWrite = s.earlyWrite ∧ (saveShlo r s).earlyDataType = s.earlyDataType ∧
      (saveShlo r s).requestedExtensions = s.requestedExtensions ∧ (saveShlo r s).serverCert = psk.serverCert ∧
      (saveShlo r s).clientCert = psk.clientCert ∧ (saveShlo r s).clientAuth = pskAuth psk := by
    intro s
    rw [hsv, hr]
    unfold shloEch
    split <;> exact ⟨rfl, rfl, rfl, rfl, rfl, rfl, rfl, rfl, rfl, rfl, rfl, rfl, rfl, rfl, rfl, rfl, rfl, rfl, rfl, rfl⟩
  obtain ⟨s1, s2, s3, s4, s5, s6, s7, s8, s9, s10, s11, s12, s13, s14, s15, s16, s17, s18, s19, s20⟩ := hfields x.pre
  have hinfo : Spec.Info cfg (x :: h) g (Spec.post x) := by
    refine
      { version := by rw [hpost]; simp only [s7, g2], cipher := by rw [hpost]; simp only [s8, g3]
        group := by rw [hpost]; simp only [s9, g9, Option.map_map]; rfl
        pskType := ⟨psk.type, by rw [hpost]; simp only [s10], ?_, ?_⟩
        pskMode := ?_, kex := ?_
        sni := ⟨p, by rw [g4, g5]; exact .later hncon hro hb.offered, by rw [g5]; exact hE.2.2.1, by rw [g5]; exact hE.2.2.2⟩ }
    · intro k hk; rw [(hpskc k hk).2.2.2.2.2]
    · intro hk
      rw [(hpskn hk).2.2.2.2, g5]
      unfold Offer.pskOf
      cases o.psk <;> rfl
    · rw [hpost]
      simp only [s11]
      cases hk : g.psk with
      | none => rw [(hpskn hk).1]; rfl
      | some k =>
        rw [(hpskc k hk).2.2.2.2.2, hecd]; rfl
    · rw [hpost]
      simp only [s12, hecd, hretx]
      unfold shloKexType
      cases exchange with
      | none => rfl
      | some e =>
        simp only [Option.isSome_some, if_true]
        rcases hb.cases with e1 | ⟨r'', e1⟩
        · rw [(hb.new e1).2.2.1, e1]; rfl
        · rw [(hb.retried _ e1).2.2.1, e1]; rfl
  refine
    { fixed := ⟨[], x, h, rfl, hneg⟩
      ks := by rw [hpost]; simp only [s1]; rw [hin, g1, hks]
      hs := by
        rw [hpost]; simp only [s2]
        rw [htr, g3, g6]
        unfold HsCtx.append
        rw [hctx.1]
      clientSecret := by rw [hpost]; simp only [s3, hcl]
      serverSecret := by rw [hpost]; simp only [s4, hse]
      write := by rw [hpost]; simp only [s5, hcl]
      read := by rw [hpost]; simp only [s6, hse]
      info := hinfo
      since := ⟨time, by rw [hpost]; simp only [s13], [], x, h, rfl, hneg, ?_⟩
      early := ?_, first := ?_, second := ?_, count := by rw [hretx]; exact hb.count, same := by rw [hretx]; exact hneg.retried.2, noEch := hE.1, ech := hE.2.1, reported := ?_, reports := ?_
      quiet := ?_, opening := ?_, encrypted := ?_, byPsk := ?_, ask := ?_, chain := ?_, proved := ?_ }
  · unfold shloTime at h11
    cases hk : g.psk with
    | none =>
      rw [(hpskn hk).1] at h11
      exact (Except.ok.inj h11).symm
    | some k =>
      rw [(hpskc k hk).2.2.2.2.2] at h11
      simp only [Res.bind_eq_ok] at h11
      obtain ⟨k', h12, h11⟩ := h11
      have h12 := deref_eq_ok.1 h12
      rw [hb.psk, (hpskc k hk).1] at h12
      cases Option.some.inj h12
      exact (pure_eq_ok.1 h11).symm
  · rw [hretx, g4]
    refine ⟨fun hh => ?_, fun hh => ?_, ?_⟩
    · rw [hpost]; simp only [s14]; exact hb.early.none hh
    · rw [hpost]; simp only [s14]; exact hb.early.some hh
    · rw [hpost]; simp only [s15]; exact hb.early.write
  · rw [hretx, g4, g5]; exact fun hh => (hb.new hh).1
  · rw [hretx, g5]
    intro hh
    rcases hb.cases with e1 | ⟨r'', e1⟩
    · exact absurd e1 hh
    · exact (hb.retried _ e1).1
  · intro n hn
    rw [actions_cons, List.mem_append] at hn
    rw [g4]
    rcases hn with hn | hn
    · exact hb.reported n hn
    · rw [ha] at hn; simp [transition] at hn
  · rw [g4]
    intro hh
    obtain ⟨n, hn⟩ := hb.reports hh
    exact ⟨n, by rw [actions_cons, List.mem_append]; exact .inl hn⟩
  · refine ⟨?_, ?_, ?_⟩
    · intro b hb'
      rw [actions_cons, List.mem_append] at hb'
      rcases hb' with hb' | hb'
      · exact hb.quiet.success b hb'
      · rw [ha] at hb'; simp [transition] at hb'
    · rw [updatesReceived_other (by rw [hrec]; simp)]; exact hb.quiet.received
    · rw [updatesSent_other]
      · exact hb.quiet.sent
      · simp [Spec.sent, Spec.contents, Spec.writes, ha, transition, Server.Spec.handshakeBytes]
  · intro _
    refine ⟨by rw [hpost, hretx, g4]; simp only [s16]; exact hb.status, ?_⟩
    rw [hpost, g5]
    simp only [s17]
    exact hb.requested
  · intro hh; rw [hpost] at hh; exact absurd rfl hh
  · rintro ⟨k, k1, k2⟩
    refine ⟨.inl (by rw [hpost]), ?_⟩
    intro k' hk'
    rw [k1] at hk'
    cases Option.some.inj hk'
    have hty := (hpskc k k1).2.2.2.2.2
    rw [hpost]
    simp only [s18, s19, s20, hty]
    refine ⟨trivial, trivial, ?_⟩
    unfold pskAuth
    rw [if_pos (isPskAccepted_iff.2 k2)]
  · intro hnb
    refine .inl ⟨?_, .inl ?_⟩
    · rw [asked_cons, hrec]; simpa using hb.unasked
    · rw [hpost]
      simp only [s20]
      unfold pskAuth
      rw [if_neg]
      intro hh
      cases hk : g.psk with
      | none =>
        rw [(hpskn hk).2.2.2.2] at hh
        split_ifs at hh <;> simp [isPskAccepted] at hh
      | some k =>
        rw [(hpskc k hk).2.2.2.2.2] at hh
        exact hnb ⟨k, hk, isPskAccepted_iff.1 hh⟩
  · intro hh; rw [hpost] at hh; cases hh
  · intro hh; rw [hpost] at hh; cases hh

end Fizz.ClientSM

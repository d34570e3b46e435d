import Verif.ClientSM.HelloRetry

/-!
# What the client answers to a HelloRetryRequest
-/

namespace Fizz.ClientSM
open Fizz.Codec Fizz.Crypto
open Fizz.Server (Level RLayer WLayer Content KeyExchangeType HsCtx SockIn PeerCert content
  deref derefPtr check ksState ksSecret transcriptHash finishedData
  derefPtr_eq_ok deref_eq_ok check_eq_ok pure_eq_ok ks_deriveEarly ks_getEarly finishedData_eq
  DeriveSecret_len frame_eq encode_eq encodable)
open Fizz.Server.Spec (messageHash finishedMac)
open Fizz.Client (CachedPsk PskType)
open Fizz.Conn (Trig)
open Spec (Offer PskOffer Public Neg)

theorem sameHash_len {cfg : Cfg} {a b : UInt16} {ha hb : HashAlg} (h : sameHash cfg a b = .ok true)
    (h1 : cfg.hashOf a = .ok ha) (h2 : cfg.hashOf b = .ok hb) : hb.hashLen = ha.hashLen := by
  unfold sameHash at h
  rw [h1, h2] at h
  simp only [Res.ok_bind, Res.pure_eq, Except.ok.injEq, Bool.and_eq_true, beq_iff_eq] at h
  exact h.1.1.symm

theorem hrrPsk_facts {cfg cipher} {a r : Option Psk} (h : hrrPsk cfg cipher a = .ok r) (psk : Psk) :
    r = some psk ↔ a = some psk ∧ sameHash cfg cipher psk.cipher = .ok true := by
  cases a with
  | none => cases h; simp
  | some p =>
    rw [hrrPsk, Res.bind_eq_ok] at h
    obtain ⟨b, h1, h⟩ := h
    cases pure_eq_ok.1 h
    cases b with
    | true =>
      simp only [if_true, Option.some.injEq]
      constructor
      · rintro rfl; exact ⟨rfl, h1⟩
      · exact fun h => h.1
    | false =>
      simp only [Bool.false_eq_true, if_false, Option.some.injEq, reduceCtorEq, false_iff, not_and]
      rintro rfl
      rw [h1]; simp

theorem findShare_mem {g l b} (h : findShare g l = some b) : (g, b) ∈ l := by
  induction l with
  | nil => cases h
  | cons x l ih =>
    obtain ⟨g', b'⟩ := x
    rw [findShare] at h
    split_ifs at h with hg
    · cases Option.some.inj h; subst hg; exact .head _
    · exact .tail _ (ih h)

theorem findShare_none {g} {l : List (UInt16 × Bytes)} (h : findShare g l = none) : g ∉ l.map (·.1) := by
  induction l with
  | nil => simp
  | cons x l ih =>
    obtain ⟨g', b'⟩ := x
    rw [findShare] at h
    split_ifs at h with hg
    simp only [List.map_cons, List.mem_cons, not_or]
    exact ⟨fun hh => hg hh.symm, ih h⟩

theorem getVersion_facts {cfg lv comp cipher exts v} (h : getVersionAndCipher cfg lv comp cipher exts = .ok v) :
    lv = 0x0303 ∧ comp = 0 ∧ getServerSupportedVersions exts = .ok (some ⟨v⟩) ∧ v ∈ cfg.supportedVersions ∧
      cipher ∈ cfg.supportedCiphers := by
  unfold getVersionAndCipher at h
  simp only [Res.bind_eq_ok, check_eq_ok, decide_eq_true_eq] at h
  obtain ⟨_, h1, _, h2, r, h3, h⟩ := h
  cases r with
  | none => cases h
  | some r =>
    simp only [Res.bind_eq_ok, check_eq_ok, decide_eq_true_eq] at h
    obtain ⟨_, h4, _, h5, h⟩ := h
    cases pure_eq_ok.1 h
    exact ⟨h1, h2, h3, h4, h5⟩

theorem noDuplicates_facts {exts} (h : noDuplicates exts = .ok ()) : (exts.map (·.extension_type)).Nodup := by
  unfold noDuplicates at h
  simpa [check_eq_ok] using h

/-- The checks of a HelloRetryRequest. -/
theorem negotiateHrr_facts {cfg s m v g c} (h : negotiateHrr cfg s m = .ok (v, g, c)) :
    ∃ req, s.requestedExtensions = some req ∧ s.keyExchangeType = none ∧
      (m.extensions.map (·.extension_type)).Nodup ∧
      (∀ t ∈ m.extensions.map (·.extension_type), t = 44 ∨ t = 51 ∨ t = 43 ∨ (t = 0xfe0d ∧ t ∈ req)) ∧
      m.legacy_version = 0x0303 ∧ m.legacy_compression_method = 0 ∧
      getServerSupportedVersions m.extensions = .ok (some ⟨v⟩) ∧ v ∈ cfg.supportedVersions ∧
      m.cipher_suite ∈ cfg.supportedCiphers ∧
      (g = none ∧ getHelloRetryRequestKeyShare m.extensions = .ok none ∨
        ∃ k, g = some k ∧ getHelloRetryRequestKeyShare m.extensions = .ok (some ⟨k⟩) ∧ k ∈ cfg.supportedGroups) ∧
      getCookie m.extensions = .ok (c.map fun c => ⟨c⟩) := by
  unfold negotiateHrr at h
  simp only [Res.bind_eq_ok, check_eq_ok, Option.isNone_iff_eq_none] at h
  obtain ⟨req, h1, _, h2, _, h3, v', h4, g', h5, c', h6, h⟩ := h
  cases pure_eq_ok.1 h
  obtain ⟨a1, a2, a3, a4, a5⟩ := getVersion_facts h4
  unfold checkHrrExtensions at h2
  simp only [Res.bind_eq_ok, check_eq_ok, List.all_eq_true, decide_eq_true_eq] at h2
  obtain ⟨_, h21, h22⟩ := h2
  refine ⟨req, deref_eq_ok.1 h1, h3, noDuplicates_facts h22, ?_, a1, a2, a3, a4, a5, ?_, ?_⟩
  · intro t ht
    rw [List.mem_map] at ht
    obtain ⟨e, he, rfl⟩ := ht
    exact h21 e he
  · unfold hrrGroup at h5
    rw [Res.bind_eq_ok] at h5
    obtain ⟨r, h51, h5⟩ := h5
    cases r with
    | none => cases pure_eq_ok.1 h5; exact .inl ⟨rfl, h51⟩
    | some r =>
      simp only [Res.bind_eq_ok, check_eq_ok, decide_eq_true_eq] at h5
      obtain ⟨_, h52, h5⟩ := h5
      cases pure_eq_ok.1 h5
      exact .inr ⟨_, rfl, h51, h52⟩
  · unfold hrrCookie at h6
    rw [Res.bind_eq_ok] at h6
    obtain ⟨r, h61, h6⟩ := h6
    cases r with
    | none => cases pure_eq_ok.1 h6; exact h61
    | some r => cases pure_eq_ok.1 h6; exact h61

theorem hrrContext_eq {h : HashAlg} {c b ctx} (hh : hrrContext h c b = .ok ctx) :
    ctx = ⟨c, messageHash (h.digest b)⟩ := by
  unfold hrrContext at hh
  rw [Res.bind_eq_ok] at hh
  obtain ⟨m, h1, hh⟩ := hh
  rw [← pure_eq_ok.1 hh, frame_eq h1]
  rfl

theorem retryOffer_facts {cfg : Cfg} {h : HashAlg} (hok : h.Ok) {cipher : UInt16} (hh : cfg.hashOf cipher = .ok h)
    {inp : Inp} {o : Offer} (hn : o.psk = none) {ctx psk chlo enc}
    (hsame : ∀ p : Psk, psk = some p → sameHash cfg cipher p.cipher = .ok true)
    (hp : retryOffer cfg inp h (o.hello cfg) ctx psk = .ok (chlo, enc)) :
    ∃ q : Option PskOffer, chlo = ({ o with psk := q } : Offer).hello cfg ∧
      enc = ({ o with psk := q } : Offer).encoded cfg ∧ ({ o with psk := q } : Offer).pskOf = psk ∧
      Spec.PskOk cfg h inp.now2 ctx.transcript { o with psk := q } ∧ Codec.Spec.Encodable (.clientHello chlo) := by
  cases psk with
  | none =>
    rw [retryOffer, Res.bind_eq_ok] at hp
    obtain ⟨e, h1, hp⟩ := hp
    cases pure_eq_ok.1 hp
    have ho : ({ o with psk := none } : Offer) = o := by rw [← hn]
    refine ⟨none, by rw [ho], by rw [ho]; exact encode_eq h1, rfl, ?_, encodable h1⟩
    intro p hp'; cases hp'
  | some psk =>
    rw [retryOffer, Res.bind_eq_ok] at hp
    obtain ⟨b, h1, hp⟩ := hp
    cases pure_eq_ok.1 hp
    have hs := hsame psk rfl
    have : ∃ hb, cfg.hashOf psk.cipher = .ok hb := by
      unfold sameHash at hs
      simp only [Res.bind_eq_ok] at hs
      obtain ⟨_, -, hb, h2, -⟩ := hs
      exact ⟨hb, h2⟩
    obtain ⟨hb, h2⟩ := this
    obtain ⟨p, e1, e2, e3, -, -, e6, e7⟩ := binders_facts hok hn h2 (sameHash_len hs hh h2) h1
    exact ⟨some p, e2, e3, by simp [Offer.pskOf, e1], e6, e7⟩

theorem firstCcs_ccs {cfg s} : ∀ k ∈ firstCcs cfg s, k = ccs := by
  intro k hk
  unfold firstCcs at hk
  split_ifs at hk <;> simp_all

theorem ccs_sent {c : List Content} (h : ∀ k ∈ c, k = ccs) : Server.Spec.handshakeBytes c = [] := by
  unfold Server.Spec.handshakeBytes
  have : c.filter (·.type = 22) = [] := by
    rw [List.filter_eq_nil_iff]; intro k hk; rw [h k hk]; decide
  rw [this]; rfl

theorem handshakeBytes_append (a b : List Content) :
    Server.Spec.handshakeBytes (a ++ b) = Server.Spec.handshakeBytes a ++ Server.Spec.handshakeBytes b := by
  simp [Server.Spec.handshakeBytes]

/-- The ECH part of a retry. -/
theorem echRetry_facts {inp : Inp} {h : HashAlg} {cipher m orig e r}
    (hr : echRetry inp h cipher m orig (some e) = .ok r) : ∃ b acc g, e.encodedInner = some b ∧
      inp.echAcceptedHrr e.random (messageHash (h.digest b)) m = .ok acc ∧
      r = some ⟨e, ⟨cipher, messageHash (h.digest b) ++ orig⟩, if acc then .accepted else .rejected, g⟩ := by
  unfold echRetry at hr
  simp only [Res.bind_eq_ok] at hr
  obtain ⟨b, h1, ctx, h2, acc, h3, g, -, hr⟩ := hr
  have e2 := hrrContext_eq h2
  subst e2
  exact ⟨b, acc, g, derefPtr_eq_ok.1 h1, h3, (pure_eq_ok.1 hr).symm⟩

theorem retries_cons_some {x : Step} {h m} (hr : Spec.retryOf x = some m) :
    Spec.retries (x :: h) = m :: Spec.retries h := by
  simp [Spec.retries, hr]

theorem received_sock {i s acts m orig u} (hs : i.sock = .event (.handshake m orig) u)
    (ha : acts ≠ []) : Spec.received ⟨.sock, i, s, acts⟩ = some (m, orig) := by
  cases acts with
  | nil => exact absurd rfl ha
  | cons a l => simp [Spec.received, hs]

theorem received_of {x : Step} {m orig u} (ht : x.trig = .sock)
    (hs : x.env.sock = .event (.handshake m orig) u) (ha : x.acts ≠ []) :
    Spec.received x = some (m, orig) := by
  have := received_sock (s := x.pre) (acts := x.acts) hs ha
  rw [← ht] at this
  exact this

theorem retryHello_facts {cfg inp s shares cookie chlo} (h : retryHello cfg inp s shares cookie = .ok chlo) :
    ∃ random extra, s.clientRandom = some random ∧ extraExt cfg inp = .ok extra ∧
      chlo = Offer.hello cfg ⟨(s.echState.map (·.random)).getD random, s.legacySessionId,
        (match s.echState with | some e => e.sni | none => s.sni), shares, false, cookie, extra, [], none⟩ := by
  unfold retryHello at h
  rw [Res.bind_eq_ok] at h
  obtain ⟨random, h1, h⟩ := h
  obtain ⟨extra, h2, h3⟩ := getClientHello_eq h
  exact ⟨random, extra, deref_eq_ok.1 h1, h2, h3⟩

theorem hrrShares_facts {inp prev g r} (h : hrrShares inp prev g = .ok r) :
    (g = none ∧ r = prev) ∨ ∃ k, g = some k ∧ k ∉ prev.map (·.1) ∧ Spec.SharesFor inp [k] r := by
  cases g with
  | none => exact .inl ⟨rfl, (Except.ok.inj h).symm⟩
  | some k =>
    rw [hrrShares] at h
    simp only [Res.bind_eq_ok, check_eq_ok, Option.isNone_iff_eq_none] at h
    obtain ⟨_, h1, h⟩ := h
    exact .inr ⟨k, rfl, findShare_none h1, makeShares_facts h⟩

/-- The second ClientHello. -/
theorem retry_before {cfg : Cfg} (hok : ∀ c a, cfg.hashOf c = .ok a → a.Ok) {h : List Step} {x : Step}
    {o1 o0 : Offer} {p : Public} (hb : Before cfg h o1 o0 p x.pre) {m orig u r}
    (hst : x.pre.state = .expectingServerHello)
    (ht : x.trig = .sock) (hs : x.env.sock = .event (.handshake (.helloRetryRequest m) orig) u)
    (hr : processHrr cfg x.env.inp x.pre m orig = .ok r)
    (ha : x.acts = [.mutate (saveRetry cfg r), .write none
      (firstCcs cfg x.pre ++ [content ⟨.plaintext, []⟩ 22 r.encoded]) 0, transition .expectingServerHello]) :
    ∃ o, Spec.Second cfg h x m orig o1 o p ∧ Before cfg (x :: h) o1 o p (Spec.post x) ∧
      (Spec.post x).state = .expectingServerHello := by
  unfold processHrr at hr
  simp only [Res.bind_eq_ok] at hr
  obtain ⟨⟨version, group, cookie⟩, h1, psk, h2, previous, h3, shares, h4, chlo, h5, ha', h6, hello, h7,
    ctx, h8, ech, h9, ⟨chlo', enc⟩, h10, ⟨sent, e⟩, h11, hr⟩ := hr
  have hr := (pure_eq_ok.1 hr).symm
  obtain ⟨req, n1, n2, n3, n4, n5, n6, n7, n8, n9, n10, n11⟩ := negotiateHrr_facts h1
  have hret : Spec.retries h = [] := by
    have hc := hb.count
    cases hh : Spec.retries h with
    | nil => rfl
    | cons a l =>
      cases l with
      | nil => rw [(hb.retried a hh).2.2.1] at n2; cases n2
      | cons b l => rw [hh] at hc; simp at hc
  obtain ⟨rfl, b1, b2, b3, b4, b5⟩ := hb.new hret
  have e7 := deref_eq_ok.1 h7
  rw [b5] at e7
  have e7 := (Option.some.inj e7).symm
  subst e7
  have e8 := hrrContext_eq h8
  subst e8
  have e3 := deref_eq_ok.1 h3
  rw [hb.shares] at e3
  have e3 := (Option.some.inj e3).symm
  subst e3
  obtain ⟨random, extra, r1, r2, r3⟩ := retryHello_facts h5
  have okh := hok _ _ h6
  have hrec := received_of ht hs (by rw [ha]; simp)
  have hro : Spec.retryOf x = some m := by simp [Spec.retryOf, hrec]
  have hretx : Spec.retries (x :: h) = [m] := by rw [retries_cons_some hro, hret]
  have hcon : Spec.contents x = firstCcs cfg x.pre ++ [⟨⟨.plaintext, []⟩, 22, [r.encoded]⟩] := by
    unfold Spec.contents; rw [ha]
    simp [Spec.writes, transition, content]
  have hsent : Spec.sent x = r.encoded := by
    unfold Spec.sent
    rw [hcon, handshakeBytes_append, ccs_sent firstCcs_ccs]
    simp [Server.Spec.handshakeBytes]
  have hpost : Spec.post x = { saveRetry cfg r x.pre with state := .expectingServerHello } := by
    rw [Spec.post, ha]; rfl
  have hpsk := hrrPsk_facts h2
  rw [hb.psk] at hpsk
  have hrandom : (x.pre.echState.map (·.random)).getD random = o0.random := by
    by_cases hc : cfg.hasEchConfigs = true
    · obtain ⟨e, k1, k2⟩ := hb.ech hc
      rw [k1]; exact k2.random
    · obtain ⟨k1, k2, -⟩ := hb.plain (by simpa using hc)
      rw [k1]
      rw [k2] at r1
      exact (Option.some.inj r1).symm
  have hsni : (match x.pre.echState with | some e => e.sni | none => x.pre.sni) = o0.sni := by
    by_cases hc : cfg.hasEchConfigs = true
    · obtain ⟨e, k1, k2⟩ := hb.ech hc
      rw [k1]; exact k2.sni
    · obtain ⟨k1, -, k2⟩ := hb.plain (by simpa using hc)
      rw [k1]; exact k2
  rw [hrandom, hb.sessionId, hsni] at r3
  have hme : retryEchExt x.pre = if cfg.hasEchConfigs then [⟨0xfe0d, [1]⟩] else [] := by
    unfold retryEchExt
    by_cases hc : cfg.hasEchConfigs = true
    · obtain ⟨e, k1, -⟩ := hb.ech hc
      rw [k1, hc]; rfl
    · have hc' : cfg.hasEchConfigs = false := by simpa using hc
      rw [(hb.plain hc').1, hc']; rfl
  generalize hme' : retryEchExt x.pre = mark at h10 hme
  have he : ({ chlo with extensions := chlo.extensions ++ mark } : ClientHello) =
      Offer.hello cfg ⟨o0.random, o0.sessionId, o0.sni, shares, false, cookie, extra, mark, none⟩ := by
    rw [r3]
    unfold Offer.hello
    simp only
    rw [extensions_ech mark rfl rfl]
  rw [he] at h10
  obtain ⟨q, q1, q2, q3, q4, hencb⟩ := retryOffer_facts okh h6 rfl (fun p hp => ((hpsk p).1 hp).2) h10
  rw [q1] at hencb
  simp only at q1 q2 q3 q4 hencb
  have hbase : Offer.extensions cfg ⟨o0.random, o0.sessionId, o0.sni, shares, false, cookie, extra, mark, q⟩ =
      chlo.extensions ++ mark ++ Spec.opt PskOffer.ext q := by
    rw [r3]
    unfold Offer.extensions Offer.hello
    simp [Spec.opt, Offer.extensions]
  generalize ho : (⟨o0.random, o0.sessionId, o0.sni, shares, false, cookie, extra, mark, q⟩ : Offer) = o
    at q1 q2 q3 q4 hbase hencb
  have o1' : o.random = o0.random := by rw [← ho]
  have o2 : o.sessionId = o0.sessionId := by rw [← ho]
  have o3 : o.sni = o0.sni := by rw [← ho]
  have o4 : o.shares = shares := by rw [← ho]
  have o5 : o.early = false := by rw [← ho]
  have o6 : o.cookie = cookie := by rw [← ho]
  have o7 : o.extra = extra := by rw [← ho]
  have o8 : o.ech = mark := by rw [← ho]
  have hreq : ∀ t ∈ retryRequested x.pre chlo psk, t ∈ (o.extensions cfg).map (·.extension_type) := by
    intro t ht
    rw [hbase]
    unfold retryRequested at ht
    simp only [List.map_append, List.mem_append] at ht ⊢
    rcases ht with (ht | ht) | ht
    · refine .inl (.inr ?_)
      rw [← hme']
      unfold retryEchExt
      split_ifs at ht ⊢ <;> simpa using ht
    · exact .inl (.inl ht)
    · refine .inr ?_
      split_ifs at ht with hp
      · rw [← q3, ← ho] at hp
        cases q with
        | none => simp [Offer.pskOf] at hp
        | some q =>
          simp only [List.mem_singleton] at ht
          subst ht
          simp only [Spec.opt, List.map_cons, List.map_nil, List.mem_singleton]
          rfl
      · simp at ht
  have hxo : Spec.ExtraOk cfg x.env.inp o := by
    unfold Spec.ExtraOk; rw [o7]; exact r2
  have htr : Spec.transcripts cfg (x :: h) =
      (messageHash (ha'.digest (Spec.transcripts cfg h).1) ++ orig ++ Spec.sent x,
       messageHash (ha'.digest (Spec.transcripts cfg h).2) ++ orig ++ Spec.innerSent x) := by
    rw [Spec.transcripts, hrec]
    simp only [Spec.digest, h6]
  have hsh : (getHelloRetryRequestKeyShare m.extensions = .ok none ∧ o.shares = o0.shares) ∨
      ∃ g, getHelloRetryRequestKeyShare m.extensions = .ok (some ⟨g⟩) ∧ g ∈ cfg.supportedGroups ∧
      g ∉ o0.shares.map (·.1) ∧ Spec.SharesFor x.env.inp [g] o.shares := by
    rw [o4]
    rcases n10 with ⟨g0, g1⟩ | ⟨k, g0, g1, g2⟩
    · rcases hrrShares_facts h4 with ⟨-, g3⟩ | ⟨k, g3, -⟩
      · exact .inl ⟨g1, g3⟩
      · rw [g0] at g3; cases g3
    · rcases hrrShares_facts h4 with ⟨g3, -⟩ | ⟨k', g3, g4, g5⟩
      · rw [g0] at g3; cases g3
      · rw [g0] at g3
        cases Option.some.inj g3
        exact .inr ⟨k, g1, g2, g4, g5⟩
  have hallow : ∀ t ∈ m.extensions.map (·.extension_type), t = 44 ∨ t = 51 ∨ t = 43 ∨
      (t = 0xfe0d ∧ (t ∈ (o0.extensions cfg).map (·.extension_type) ∨ cfg.greaseEch = some .computed)) := by
    intro t ht
    rcases n4 t ht with k | k | k | ⟨k, k'⟩
    · exact .inl k
    · exact .inr (.inl k)
    · exact .inr (.inr (.inl k))
    · refine .inr (.inr (.inr ⟨k, ?_⟩))
      obtain ⟨req', l1, l2⟩ := hb.requested
      rw [n1] at l1
      cases Option.some.inj l1
      rcases l2 t k' with l | l
      · exact .inl l
      · exact .inr l.2
  have henc : r.encoded = sent := by rw [hr]
  have hrech : r.ech = e := by rw [hr]
  -- the ECH part
  have hwire : Spec.Wire cfg x.env.inp false o p (Spec.sent x) (Spec.innerSent x) ∧
      (cfg.hasEchConfigs = true → ∃ acc e0 st, x.pre.echState = some e0 ∧ e = some st ∧
        x.env.inp.echAcceptedHrr o0.random (messageHash (ha'.digest (Spec.transcripts cfg h).2)) m = .ok acc ∧
        st.status = (if acc then .accepted else .rejected) ∧ st.sni = o0.sni ∧ st.random = o0.random ∧
        st.hs = some ⟨m.cipher_suite, (Spec.transcripts cfg (x :: h)).2⟩) ∧
      (cfg.hasEchConfigs = false → e = none) ∧
      ∃ ha, cfg.hashOf m.cipher_suite = .ok ha ∧ Spec.PskOk cfg ha x.env.inp.now2
        (messageHash (ha.digest (if cfg.hasEchConfigs then (Spec.transcripts cfg h).2 else (Spec.transcripts cfg h).1)) ++
          orig) o := by
    have hin : Spec.innerSent x = ((e.bind (·.encodedInner)).getD []) := by
      unfold Spec.innerSent; rw [hpost]; simp only [saveRetry]; rw [hrech]
    by_cases hc : cfg.hasEchConfigs = true
    · obtain ⟨e0, k1, k2⟩ := hb.ech hc
      obtain ⟨k3, k4, k5, k6⟩ := k2.new hret
      rw [k1] at h9
      obtain ⟨b, acc, gr, f1, f2, f3⟩ := echRetry_facts h9
      rw [k4] at f1
      have f1 := (Option.some.inj f1).symm
      subst f1
      subst f3
      rw [retryFinal] at h11
      simp only [Res.bind_eq_ok] at h11
      obtain ⟨rnd, g1, nm, g2, outer, g3, en, g4, h11⟩ := h11
      have h11 := pure_eq_ok.1 h11
      rw [Prod.mk.injEq] at h11
      obtain ⟨h12, h13⟩ := h11
      have g1 := deref_eq_ok.1 g1
      rw [k5] at g1
      have g1 := (Option.some.inj g1).symm
      subst g1
      have g2 := deref_eq_ok.1 g2
      rw [k6] at g2
      have g2 := (Option.some.inj g2).symm
      subst g2
      have hout := outer_facts (by rw [o8, hme, hc]; simp) (by rw [q1] at g3; exact g3)
      have hin' : Spec.innerSent x = o.encoded cfg := by
        rw [hin, ← h13, ← q2]; rfl
      refine ⟨?_, fun _ => ⟨acc, e0, _, k1, h13.symm, by rw [← k2.random]; exact f2, rfl, k2.sni, k2.random, ?_⟩,
        fun hf => (by rw [hc] at hf; cases hf), ha', h6, ?_⟩
      · unfold Spec.Wire
        rw [if_pos hc]
        refine ⟨hencb, hin', outer, ?_, encodable g4, hout⟩
        rw [hsent, henc, ← h12, encode_eq g4]
      · simp only
        rw [htr, hin', q2]
        simp [HsCtx.append]
      · rw [if_pos hc]; exact q4
    · have hc' : cfg.hasEchConfigs = false := by simpa using hc
      rw [(hb.plain hc').1] at h9
      have h9 := (Except.ok.inj h9).symm
      subst h9
      have h11 := Except.ok.inj h11
      rw [Prod.mk.injEq] at h11
      obtain ⟨h12, h13⟩ := h11
      refine ⟨?_, fun hf => absurd hf hc, fun _ => h13.symm, ha', h6, ?_⟩
      · unfold Spec.Wire
        rw [if_neg hc, if_neg (by simp)]
        refine ⟨hencb, by rw [hin, ← h13]; rfl, ?_⟩
        rw [hsent, henc, ← h12, q2]
      · rw [if_neg hc]; exact q4
  obtain ⟨hwire, hE, hN, hbind⟩ := hwire
  have hacc : cfg.hasEchConfigs = true → ∃ ha, cfg.hashOf m.cipher_suite = .ok ha ∧
      x.env.inp.echAcceptedHrr o0.random (messageHash (ha.digest (Spec.transcripts cfg h).2)) m =
      .ok (Spec.echAccepted (Spec.post x)) := by
    intro hc
    obtain ⟨acc, e0, st, -, k2, k3, k4, -⟩ := hE hc
    refine ⟨ha', h6, ?_⟩
    rw [k3]
    unfold Spec.echAccepted
    rw [hpost]
    simp only [saveRetry]
    rw [hrech, k2]
    simp only [k4]
    cases acc <;> rfl
  have hsec : Spec.Second cfg h x m orig o0 o p :=
    { received := hrec, first := hret, version := ⟨version, n7, n8⟩, cipher := n9, legacy := ⟨n5, n6⟩
      allowed := ⟨n3, hallow⟩, random := o1', sessionId := o2, sni := o3, shares := hsh, early := o5
      cookie := by rw [o6]; exact n11, extra := hxo, ech := by rw [o8, hme]
      psk := by intro ps; rw [q3]; exact hpsk ps
      binder := hbind, accepted := hacc, wire := hwire
      layer := ⟨_, by rw [hcon, hsent], firstCcs_ccs⟩ }
  refine ⟨o, hsec, ?_, by rw [hpost]⟩
  refine
    { offered := .second hb.offered hsec, count := by rw [hretx]; simp
      shares := by rw [hpost, hr]; simp only [saveRetry]; rw [o4]
      psk := by rw [hpost, hr]; simp only [saveRetry]; exact q3.symm
      sessionId := by rw [hpost, o2]; exact hb.sessionId
      requested := ⟨_, by rw [hpost, hr]; rfl, fun t ht => .inl (hreq t ht)⟩
      new := fun hh => (by rw [hretx] at hh; cases hh)
      retried := ?_, plain := ?_, ech := ?_, early := ?_, status := ?_, reported := ?_, reports := ?_
      write := by rw [hpost]; exact hb.write, read := by rw [hpost]; exact hb.read
      ks := by rw [hpost]; exact hb.ks, auth := by rw [hpost]; exact hb.auth
      unasked := by rw [asked_cons, hrec]; simpa using hb.unasked
      quiet := ?_, ends := ?_ }
  · intro r' hr'
    rw [hretx] at hr'
    cases hr'
    refine ⟨o5, ?_, by rw [hpost]; rfl, by rw [hpost, hr]; rfl, version, by rw [hpost, hr]; rfl, n7⟩
    rw [hpost, htr, hsent, hr]
    simp [saveRetry, HsCtx.append]
  · intro hc
    obtain ⟨k1, k2, k3⟩ := hb.plain hc
    have := hN hc
    rw [hpost]
    simp only [saveRetry]
    rw [hrech, this]
    exact ⟨rfl, by rw [o1']; exact k2, by rw [o3]; exact k3⟩
  · intro hc
    obtain ⟨acc, e0, st, k1, k2, k3, k4, k5, k6, k7⟩ := hE hc
    obtain ⟨e0', j1, j2⟩ := hb.ech hc
    obtain ⟨j3, j4, j5, j6⟩ := j2.new hret
    refine ⟨st, by rw [hpost]; simp only [saveRetry]; rw [hrech, k2], ?_⟩
    refine ⟨by rw [k5, o3], by rw [k6, o1'], fun hh => (by rw [hretx] at hh; cases hh), ?_, ?_, ?_, ?_⟩
    · intro r' hr'
      rw [hretx] at hr'
      cases hr'
      exact ⟨k7, by rw [k4]; cases acc <;> simp⟩
    · intro y hy hne
      rcases List.mem_cons.1 hy with rfl | hy
      · unfold Spec.echAccepted
        rw [hpost]
        simp only [saveRetry]
        rw [hrech, k2]
        simp
      · have hall := hret
        unfold Spec.retries at hall
        rw [List.filterMap_eq_nil_iff] at hall
        exact absurd (hall y hy) hne
    · rw [hpost]
      simp only [saveRetry]
      rw [hrech, k2]
      simp only [k5, o3]
      split_ifs
      · rfl
      · exact j6
    · rw [hpost]
      simp only [saveRetry]
      rw [hrech, k2]
      simp only [k6, o1']
      split_ifs
      · rfl
      · exact j5
  · rw [hretx]
    have := hb.early
    rw [hret] at this
    refine ⟨fun hh => by rw [hpost]; exact this.none hh, fun hh => by rw [hpost]; exact this.some hh, ?_⟩
    rw [hpost]
    simp [saveRetry]
  · rw [hpost, hretx]
    simp only [saveRetry]
    rw [hb.status, hret]
    unfold earlyStatus
    cases o0.early <;> rfl
  · intro n hn
    rw [actions_cons, List.mem_append] at hn
    rcases hn with hn | hn
    · exact hb.reported n hn
    · rw [ha] at hn; simp [transition] at hn
  · intro he
    obtain ⟨n, hn⟩ := hb.reports he
    exact ⟨n, by rw [actions_cons, List.mem_append]; exact .inl hn⟩
  · refine ⟨?_, ?_, ?_⟩
    · intro b hb'
      rw [actions_cons, List.mem_append] at hb'
      rcases hb' with hb' | hb'
      · exact hb.quiet.success b hb'
      · rw [ha] at hb'; simp [transition] at hb'
    · rw [updatesReceived_other (by rw [hrec]; simp)]; exact hb.quiet.received
    · rw [updatesSent_other (wire_head hwire)]; exact hb.quiet.sent
  · obtain ⟨w1, w2, c', w3, w4, w5⟩ := wire_went hwire
    have hlen : ∀ b, (Spec.digest cfg m.cipher_suite b).length < 2 ^ 24 := by
      intro b
      unfold Spec.digest
      rw [h6]
      have := okh.len b
      have := okh.le
      have := okh.max
      simp only
      omega
    have htr' : Spec.transcripts cfg (x :: h) =
        (messageHash (Spec.digest cfg m.cipher_suite (Spec.transcripts cfg h).1) ++ orig ++ Spec.sent x,
         messageHash (Spec.digest cfg m.cipher_suite (Spec.transcripts cfg h).2) ++ orig ++ Spec.innerSent x) := by
      rw [Spec.transcripts, hrec]
    exact ⟨⟨_, c', .inr ⟨_, x, m, orig, hlen _, by simp, hrec, rfl⟩, by rw [htr', w3], w4, x, by simp, false, w5⟩,
      fun hc => ⟨_, .inr ⟨_, x, m, orig, hlen _, by simp, hrec, rfl⟩, by rw [htr', w2 hc], w1⟩⟩

end Fizz.ClientSM

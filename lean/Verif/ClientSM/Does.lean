import Verif.ClientSM.DoesSpec
import Verif.ClientSM.Props

/-!
# The client does nothing else
-/

namespace Fizz.ClientSM
open Fizz.Codec Fizz.Crypto
open Fizz.Server (Level RLayer WLayer Content KeyExchangeType HsCtx SockIn PeerCert content alertContent
  deref derefPtr check ksState ksSecret transcriptHash finishedData
  derefPtr_eq_ok deref_eq_ok check_eq_ok pure_eq_ok encode_eq)
open Fizz.Server.Spec (messageHash finishedMac handshakeBytes)
open Fizz.Client (CachedPsk PskType)
open Fizz.Conn (Trig)
open Spec (Offer PskOffer Public Neg Does)

theorem visible_append (a b : List Action) : Spec.visible (a ++ b) = Spec.visible a ++ Spec.visible b := by
  simp [Spec.visible]

theorem alertWrites_farewell {s a f} : Spec.Farewell s.write a (alertWrites s a f) ∧
    Spec.visible (alertWrites s a f) = alertWrites s a f := by
  unfold alertWrites
  repeat' split
  · exact ⟨.silent, rfl⟩
  · rename_i a w hw _
    exact ⟨by rw [hw]; exact .alert rfl rfl, rfl⟩
  · exact ⟨.silent, rfl⟩

theorem Live.complete {cfg h g th e s} (l : Live cfg h g th e s) : Spec.Complete cfg h g th e :=
  ⟨l.fixed, l.confirmed, l.success⟩

/-- The resumption secret of a ticket. -/
theorem resumption_facts {h : HashAlg} (ok : h.Ok) {rms nonce secret : Bytes} (hl : rms.length = h.hashLen)
    (hh : ksSecret (KS.getResumptionSecret h rms nonce) = .ok secret) :
    secret = Crypto.Spec.ExpandLabel h.spec rms (KS.Spec.ascii "resumption") nonce (UInt16.ofNat h.hashLen) := by
  have hn : nonce.length ≤ 255 := by
    apply Nat.le_of_not_lt
    intro hlt
    have := mt (C22_refuses (UInt16.ofNat h.hashLen) KS.kResumption nonce kHkdfLabelPrefix).1
      (by rintro ⟨-, hb⟩; omega)
    unfold KS.getResumptionSecret expandLabel ksSecret at hh
    cases hb : encodeHkdfLabel (UInt16.ofNat h.hashLen) KS.kResumption nonce kHkdfLabelPrefix with
    | ok b => exact this ⟨b, hb⟩
    | error e => rw [hb] at hh; cases hh
  rw [(KS.C21_traffic_key h ok rms nonce 0 0 hl (by omega) (by omega) (by omega) (by omega) hn).2] at hh
  exact (Except.ok.inj hh).symm

theorem completed_len {cfg : Cfg} (hok : ∀ c a, cfg.hashOf c = .ok a → a.Ok) {h g th e r c}
    (hf : cfg.hashOf g.cipher = .ok g.hash) (hc : Spec.Completed cfg h g th e (some r) c) :
    r.length = g.hash.hashLen := by
  obtain ⟨_, _, _, _, _, -, -, -, -, hr, -⟩ := hc
  cases Option.some.inj hr
  exact Server.DeriveSecret_len (hok _ _ hf) _ _ _

theorem ticket_saved {cfg : Cfg} (hok : ∀ c a, cfg.hashOf c = .ok a → a.Ok) {h g th e s inp m acts}
    (hl : Live cfg h g th e s) (ha : onNewSessionTicket cfg inp s m = .ok acts) :
    ∃ psk, acts = [.newCachedPsk psk] ∧ Spec.SavedTicket cfg h inp m psk := by
  unfold onNewSessionTicket at ha
  simp only [Res.bind_eq_ok] at ha
  obtain ⟨_, -, c, h1, hh, h2, rms, h3, nonce, h4, sec, h5, v, h6, ex, h7, t, h8, early, h9, ha⟩ := ha
  refine ⟨_, (pure_eq_ok.1 ha).symm, ?_⟩
  have hf := Fixed.hash hl.fixed
  rw [deref_eq_ok, hl.info.cipher] at h1
  cases Option.some.inj h1
  rw [hf] at h2
  cases Except.ok.inj h2
  rw [deref_eq_ok] at h3 h6 h8
  rw [derefPtr_eq_ok] at h4
  rw [hl.info.version] at h6
  cases Option.some.inj h6
  have hcomp := hl.completed
  rw [h3] at hcomp
  have hrms := completed_len hok hf hcomp
  obtain ⟨t', ht, hsince⟩ := hl.since
  rw [ht] at h8
  cases Option.some.inj h8
  refine
    { ticket := rfl, type := rfl, ageAdd := rfl, issued := rfl, expires := ?_, earlyData := ?_
      session := ⟨g, th, e, rms, nonce, hl.complete, h4, hcomp, resumption_facts (hok _ _ hf) hrms h5, rfl, rfl,
        hl.info.group, hl.server, hl.encrypted, hsince⟩ }
  · unfold Time.checked at h7
    split_ifs at h7
    exact (Except.ok.inj h7).symm
  · unfold ticketEarly at h9
    rw [Res.bind_eq_ok] at h9
    obtain ⟨o, h10, h9⟩ := h9
    cases o with
    | none => cases h9; exact ⟨none, h10, rfl⟩
    | some o => cases h9; exact ⟨some o, h10, rfl⟩

theorem mid_offered {cfg h g s} (hm : Mid cfg h g s) : ∃ p, Spec.Offered cfg h g.first g.offer p := by
  obtain ⟨p, h1, -⟩ := hm.info.sni
  exact ⟨p, h1⟩

theorem earlyStatus_rejected {o b} (h : earlyStatus o b = .rejected) : o.early = true ∧ b = true := by
  unfold earlyStatus at h
  split_ifs at h with h1 h2
  exact ⟨h1, h2⟩

theorem rejected_facts {cfg h s} (hi : Inv cfg h s) (hr : s.earlyDataType = some .rejected)
    (hs : s.state = .expectingServerHello ∨ s.state = .expectingEncryptedExtensions ∨
        s.state = .expectingCertificate ∨ s.state = .expectingCertificateVerify ∨
        s.state = .expectingFinished ∨ s.state = .established) : Spec.EarlyRejected cfg h := by
  have hmid : ∀ g, Mid cfg h g s → s.state ≠ .expectingEncryptedExtensions → Spec.EarlyRejected cfg h := by
    intro g hm hne
    obtain ⟨e, h1, h2⟩ := hm.encrypted hne
    rw [hr] at h1
    cases Option.some.inj h1
    exact .inr ⟨g, _, hm.fixed, h2⟩
  rcases hs with hs | hs | hs | hs | hs | hs
  · obtain ⟨o1, o, p, hb⟩ := hi.before hs
    have := hb.status
    rw [hr] at this
    obtain ⟨h1, h2⟩ := earlyStatus_rejected (Option.some.inj this).symm
    exact .inl ⟨o1, o, p, hb.offered, h1, by simpa using h2⟩
  · obtain ⟨g, hm⟩ := hi.mid (.inl hs)
    have := (hm.opening hs).1
    rw [hr] at this
    obtain ⟨h1, h2⟩ := earlyStatus_rejected (Option.some.inj this).symm
    obtain ⟨p, ho⟩ := mid_offered hm
    exact .inl ⟨g.first, g.offer, p, ho, h1, by simpa using h2⟩
  · obtain ⟨g, hm⟩ := hi.mid (.inr (.inl hs))
    exact hmid g hm (by rw [hs]; simp)
  · obtain ⟨g, hm⟩ := hi.mid (.inr (.inr (.inl hs)))
    exact hmid g hm (by rw [hs]; simp)
  · obtain ⟨g, hm⟩ := hi.mid (.inr (.inr (.inr hs)))
    exact hmid g hm (by rw [hs]; simp)
  · obtain ⟨g, th, e, hl⟩ := hi.live hs
    have := hl.status
    rw [hr] at this
    cases Option.some.inj this
    exact .inr ⟨g, _, hl.fixed, hl.encrypted⟩

theorem earlyKey_facts {cfg h s w} (hi : Inv cfg h s)
    (hs : s.state = .expectingServerHello ∨ s.state = .expectingEncryptedExtensions ∨
        s.state = .expectingFinished)
    (he : s.earlyDataType = some .attempted ∨ s.earlyDataType = some .accepted) (hw : s.earlyWrite = some w) :
    ∃ k, w = ⟨.earlyData, k⟩ ∧ Spec.EarlyKey cfg h s k := by
  have key : ∀ {o : Offer}, EarlyInv cfg o (!(Spec.retries h).isEmpty) s → ∃ k, w = ⟨.earlyData, k⟩ ∧ o.early = true ∧
      Spec.retries h = [] ∧ Spec.earlySecret cfg o .clientEarlyTraffic = some k := by
    intro o ho
    have := ho.write
    rw [hw] at this
    split_ifs at this with hc
    rw [eq_comm, Option.map_eq_some_iff] at this
    obtain ⟨k, h1, rfl⟩ := this
    exact ⟨k, rfl, hc.1, by simpa using hc.2.2, h1⟩
  rcases hs with hs | hs | hs
  · obtain ⟨o1, o, p, hb⟩ := hi.before hs
    obtain ⟨k, rfl, h1, h2, h3⟩ := key hb.early
    obtain rfl := (hb.new h2).1
    exact ⟨k, rfl, ⟨_, p, hb.offered, h1, h2, h3⟩, .inl hs⟩
  · obtain ⟨g, hm⟩ := hi.mid (.inl hs)
    obtain ⟨k, rfl, h1, h2, h3⟩ := key hm.early
    obtain ⟨p, ho⟩ := mid_offered hm
    rw [hm.first h2] at ho
    exact ⟨k, rfl, ⟨_, p, ho, h1, h2, h3⟩, .inr (.inl hs)⟩
  · obtain ⟨g, hm⟩ := hi.mid (.inr (.inr (.inr hs)))
    obtain ⟨k, rfl, h1, h2, h3⟩ := key hm.early
    obtain ⟨p, ho⟩ := mid_offered hm
    rw [hm.first h2] at ho
    refine ⟨k, rfl, ⟨_, p, ho, h1, h2, h3⟩, .inr (.inr ?_)⟩
    obtain ⟨e, h4, h5⟩ := hm.encrypted (by rw [hs]; simp)
    rw [h4] at he
    have : e = .accepted := by
      rcases he with he | he
      · cases Option.some.inj he
        obtain ⟨_, _, _, _, _, -, -, -, -, -, -, -, h6⟩ := h5
        rcases h6 with ⟨h6, -⟩ | ⟨h6, -⟩ | ⟨h6, -⟩ <;> cases h6
      · exact Option.some.inj he
    subst this
    exact ⟨g, _, hm.fixed, h5⟩

theorem finished_answered {cfg : Cfg} (hok : ∀ c a, cfg.hashOf c = .ok a → a.Ok) {h g early} {x : Step} {m orig u d}
    (hm : Mid cfg h g x.pre) (hst : x.pre.state = .expectingFinished) (he : x.pre.earlyDataType = some early)
    (hen : Spec.Encrypted cfg h g x.pre.alpn early) (ht : x.trig = .sock)
    (hso : x.env.sock = .event (.handshake (.finished m) orig) u)
    (hp : processFinished cfg x.env.inp x.pre u m orig = .ok d) (hne : x.acts ≠ [])
    (hc : (Spec.post x).serverCert = x.pre.serverCert) (ha : (Spec.post x).alpn = x.pre.alpn) :
    ∃ th rms, Spec.Answered cfg h x g th early ∧ Spec.Finishes cfg h x g th rms early d.flight ∧
      d.read = g.serverApp th 0 ∧ d.write = g.clientApp th 0 ∧
      d.exporter = KS.Spec.masterValue g.hash.spec g.inputs th .exporterMaster ∧ d.resumption = rms := by
  obtain ⟨rfl, f1, f2⟩ := finished_facts hok hm hst he hp
  have hr : Spec.received x = some (.finished m, orig) := by
    have := received_sock (s := x.pre) hso hne
    rw [← ht] at this
    exact this
  refine ⟨g.hash.digest (Spec.transcript cfg h ++ orig), d.resumption, ?_, ⟨m, orig, d.cert, hr, rfl, f2.flight, f2.resumption⟩,
    f2.read, f2.write, f2.exporter, rfl⟩
  refine ⟨hm.fixed, ⟨m, orig, hr, hso, f1, rfl⟩, hm.read, ?_, by rw [ha]; exact hen, hm.quiet.success⟩
  rw [hc]
  by_cases hb : ByPsk g
  · obtain ⟨psk, k1, k2⟩ := hb
    exact .inl ⟨psk, k1, k2, ((hm.byPsk ⟨psk, k1, k2⟩).2 psk k1).1⟩
  · obtain ⟨c, k1, k2⟩ := hm.proved hst hb
    exact .inr ⟨not_byPsk hb, c, k1, k2⟩

theorem byPsk_not_here {cfg h g s} (hm : Mid cfg h g s)
    (h1 : s.state ≠ .expectingEncryptedExtensions) (h2 : s.state ≠ .expectingFinished) : ¬ ByPsk g := by
  intro hb
  rcases (hm.byPsk hb).1 with h | h
  · exact h1 h
  · exact h2 h

theorem Live.current {cfg h g th e s} (hl : Live cfg h g th e s) : Spec.Current cfg h s g th e :=
  ⟨hl.complete, hl.write, hl.read⟩

theorem does_shape {cfg : Cfg} (hok : ∀ c a, cfg.hashOf c = .ok a → a.Ok) {h x} (hi : Inv cfg h x.pre)
    (hsh : Shape cfg x.env x.pre x.trig x.acts) : Does cfg h x (Spec.visible x.acts) := by
  obtain ⟨t, i, s, acts⟩ := x
  simp only at hi hsh ⊢
  cases hsh with
  | nothing => exact .nothing rfl
  | @fail _ a b hne =>
    have : Spec.visible (.mutate toError :: (alertWrites s a b ++ [.reportError a])) =
        alertWrites s a b ++ [.reportError a] := by
      show Spec.visible (alertWrites s a b ++ [.reportError a]) = _
      rw [visible_append, (alertWrites_farewell).2]; rfl
    rw [this]
    exact .fail hne fail_state alertWrites_farewell.1
  | report hs => exact .again hs rfl
  | wait hs => exact .wait rfl hs rfl
  | closeNow hw => exact .close rfl hw rfl
  | close hw => exact .close rfl hw rfl
  | closed hw => exact .closed rfl hw rfl
  | @connect c hst hc =>
    obtain ⟨o, p, h1, -, -, h2⟩ := connect_before (x := ⟨.accept, i, s, connectActions cfg c⟩) hok (hi.uninit hst) rfl hc rfl
    exact .connect h1 h2 (hi.uninit hst).retries rfl
  | @retry m orig u r w hst hs hr hw =>
    obtain ⟨o1, o, p, hb⟩ := hi.before hst
    rw [hb.write] at hw
    cases Option.some.inj hw
    obtain ⟨o', h1, -, -⟩ := retry_before (x := ⟨.sock, i, s, [.mutate (saveRetry cfg r),
      .write none (firstCcs cfg s ++ [content ⟨.plaintext, []⟩ 22 r.encoded]) 0,
      transition .expectingServerHello]⟩) hok hb hst rfl hs hr rfl
    have hf := h1.first
    obtain rfl := (hb.new hf).1
    exact .retry hb.offered h1 (by simp [Spec.contents, Spec.writes, transition])
  | @serverHello m orig u r hst hs hr =>
    obtain ⟨o1, o, p, hb⟩ := hi.before hst
    obtain ⟨g, h1, -, -⟩ := shlo_mid (x := ⟨.sock, i, s, _⟩) hok hb hst rfl hs hr rfl
    have h2 := h1.secrets
    simp only [Spec.announced, List.flatMap_cons, List.flatMap_nil, Spec.announcement, transition, List.nil_append,
      List.cons_append, List.cons.injEq, Prod.mk.injEq, true_and, and_true] at h2
    obtain ⟨h2, h3⟩ := h2
    have : Spec.visible [Action.mutate (saveShlo r), .secretAvailable .serverHandshakeTraffic r.serverSecret,
        .secretAvailable .clientHandshakeTraffic r.clientSecret, transition .expectingEncryptedExtensions] =
        [.secretAvailable .serverHandshakeTraffic g.serverHandshake,
          .secretAvailable .clientHandshakeTraffic g.clientHandshake] := by
      rw [← h2, ← h3]; rfl
    rw [this]
    exact .serverHello h1
  | earlyFailed hst he => exact .earlyFailed rfl (rejected_facts hi he hst) rfl
  | earlyFirst hst ho he hw hc hcc =>
    obtain ⟨k, rfl, hk⟩ := earlyKey_facts hi hst he hw
    exact .earlyWrite (c := [ccs]) rfl hk ho (.inr rfl)
  | earlyWrite hst ho he hw =>
    obtain ⟨k, rfl, hk⟩ := earlyKey_facts hi hst he hw
    exact .earlyWrite (c := []) rfl hk ho (.inl rfl)
  | earlyLate hst he hw =>
    obtain ⟨g, th, e, hl⟩ := hi.live hst
    rw [hl.write] at hw
    cases Option.some.inj hw
    rw [hl.status] at he
    cases Option.some.inj he
    exact .earlyLate hl.current rfl rfl rfl
  | @encryptedExtensions m orig u rq ctx alpn early retry t hst hsock hq hc hctx hal hea hre hno ht =>
    obtain ⟨g, hg⟩ := hi.mid (by rw [hst]; simp [midState])
    obtain ⟨s', h1, h2, h3⟩ := ee_mid hg hst hsock hq hc hal hea ht hno (retry := retry)
    have hr := received_sock (s := s) (acts := .mutate (saveEe orig alpn early retry) ::
      (retryActions retry ++ [transition (afterEe t)])) hsock (by simp)
    have hstate : s'.state ≠ .expectingEncryptedExtensions := by
      rw [← h1]
      have : (applyAll (.mutate (saveEe orig alpn early retry) :: (retryActions retry ++ [transition (afterEe t)])) s).state =
        afterEe t := by cases retry <;> rfl
      rw [this]
      unfold afterEe
      split_ifs <;> simp
    obtain ⟨e, k1, k2⟩ := h3.encrypted hstate
    rw [← h1] at k1 k2
    cases retry with
    | none => exact .encryptedExtensions hg.fixed hr k2 k1
    | some r =>
      obtain ⟨n, cs⟩ := r
      cases hE : cfg.hasEchConfigs with
      | false =>
        unfold eeRetry at hre
        rw [(hg.noEch hE).1] at hre
        cases hre
      | true =>
        obtain ⟨e', h4, -⟩ := hg.ech hE
        unfold eeRetry at hre
        rw [h4] at hre
        simp only [Res.bind_eq_ok] at hre
        obtain ⟨o, h5, hre⟩ := hre
        cases o with
        | none => cases hre
        | some l =>
          cases l with
          | nil => cases hre
          | cons c cs' =>
            cases pure_eq_ok.1 hre
            exact .echRetry hg.fixed hr k2 k1 hE h5 (by simp)
  | @certificateRequest m orig u ctx algs cert hst hsock hau hctx hc hal hgc =>
    obtain ⟨g, hg⟩ := hi.mid (by rw [hst]; simp [midState])
    have hnb := byPsk_not_here hg (by rw [hst]; simp) (by rw [hst]; simp)
    have hr := received_sock (s := s) (acts := [.mutate (saveRequest orig cert), transition .expectingCertificate])
      hsock (by simp)
    have hna : ¬ Spec.asked h := by
      rcases hg.ask hnb with ⟨h1, -⟩ | ⟨_, -, h1, -⟩
      · exact h1
      · rw [hau] at h1; cases h1
    refine .certificateRequest (cert := cert) hg.fixed (not_byPsk hnb) hr ⟨[], _, h, m, orig, algs, rfl, hr, hc, hal, ?_, ?_⟩ hna
    · intro hh
      unfold getClientCert at hgc
      rw [hh] at hgc
      exact (Except.ok.inj hgc).symm
    · intro hh
      unfold getClientCert at hgc
      rw [hh] at hgc
      exact hgc
  | certificate hst hsock hctx hc =>
    obtain ⟨g, hg⟩ := hi.mid (by rw [hst]; simp [midState])
    have hm := chain_mid hg hst hsock (by simp) (by simp) (by simp) (by simp)
      (fun acts ha => .inl ⟨_, received_sock hsock ha⟩) hc (algo := none)
    obtain ⟨leaf, chain, -, h1⟩ := hm.chain rfl
    exact .certificate hg.fixed (not_byPsk (byPsk_not_here hg (by rw [hst]; simp) (by rw [hst]; simp))) (.inl ⟨_, received_sock hsock (by simp)⟩) h1
  | @compressedCertificate m orig u ctx cert chain hst hsock hctx hal hd hc =>
    obtain ⟨g, hg⟩ := hi.mid (by rw [hst]; simp [midState])
    have hm := chain_mid hg hst hsock (by simp) (by simp) (by simp) (by simp)
      (fun acts ha => .inr ⟨_, _, received_sock hsock ha, hal, hd⟩) hc (algo := some m.algorithm)
    obtain ⟨leaf, chain, -, h1⟩ := hm.chain rfl
    exact .certificate hg.fixed (not_byPsk (byPsk_not_here hg (by rw [hst]; simp) (by rw [hst]; simp))) (.inr ⟨_, _, received_sock hsock (by simp), hal, hd⟩) h1
  | certificateVerify hst hsock hctx hun hal hh hv hvc =>
    obtain ⟨g, hm⟩ := hi.mid (by rw [hst]; simp [midState])
    rw [hm.hs, Option.some.injEq] at hctx
    subst hctx
    have hnb := byPsk_not_here hm (by rw [hst]; simp) (by rw [hst]; simp)
    obtain ⟨c, h1, h2⟩ := (verify_mid hm hst hsock hun hal hh hv hvc).proved rfl hnb
    exact .certificateVerify hm.fixed (not_byPsk hnb) (received_sock hsock (by simp)) h2 h1
  | @finished m orig u d hst hsock hp =>
    obtain ⟨g, hm⟩ := hi.mid (by rw [hst]; simp [midState])
    obtain ⟨early, he, hen⟩ := hm.encrypted (by rw [hst]; simp)
    cases hech : echRejected s with
    | true =>
      have hfr : finalReport i.inp s = handleError s (some 121) i.inp.alertFails := by
        unfold finalReport; rw [if_pos hech]
      rw [hfr]
      have hhe : handleError s (some 121) i.inp.alertFails = .mutate toError ::
          (alertWrites s (some 121) i.inp.alertFails ++ [.reportError (some 121)]) := by
        unfold handleError; rw [if_neg (by rw [hst]; simp)]
      rw [hhe]
      have hpost : ∀ l, Spec.post ⟨.sock, i, s, [.mutate (saveFinished cfg d), transition .established,
          .secretAvailable .serverAppTraffic d.read, .secretAvailable .clientAppTraffic d.write,
          .secretAvailable .exporterMaster d.exporter, .secretAvailable .resumptionMaster d.resumption,
          .write none d.flight 0] ++ .mutate toError :: l⟩ = applyAll l (toError
            { saveFinished cfg d s with state := .established }) := fun l => rfl
      have hal : ∀ s', applyAll (alertWrites s (some 121) i.inp.alertFails ++ [.reportError (some 121)]) s' = s' := by
        intro s'
        unfold applyAll alertWrites
        repeat' split
        all_goals rfl
      obtain ⟨th, rms, k1, k2, k3, k4, k5, k6⟩ := finished_answered hok
        (x := ⟨.sock, i, s, _ ++ .mutate toError :: (alertWrites s (some 121) i.inp.alertFails ++
          [.reportError (some 121)])⟩) hm hst he hen rfl hsock hp (by simp)
        (by rw [hpost, hal]; rfl) (by rw [hpost, hal]; rfl)
      have hE : cfg.hasEchConfigs = true ∧ g.ech = false := by
        have := mt (echRejected_iff hm).2 (by rw [hech]; simp)
        constructor
        · cases hE : cfg.hasEchConfigs
          · exact absurd (fun hh => by rw [hE] at hh; cases hh) this
          · rfl
        · cases hg : g.ech
          · rfl
          · exact absurd (fun _ => hg) this
      have hv : Spec.visible ([.mutate (saveFinished cfg d), transition .established,
          .secretAvailable .serverAppTraffic d.read, .secretAvailable .clientAppTraffic d.write,
          .secretAvailable .exporterMaster d.exporter, .secretAvailable .resumptionMaster d.resumption,
          .write none d.flight 0] ++ .mutate toError :: (alertWrites s (some 121) i.inp.alertFails ++
          [.reportError (some 121)])) = Spec.finalActions g th rms d.flight ++
            (alertWrites s (some 121) i.inp.alertFails ++ [.reportError (some 121)]) := by
        have e1 : Spec.visible (.mutate toError :: (alertWrites s (some 121) i.inp.alertFails ++
          [.reportError (some 121)])) = alertWrites s (some 121) i.inp.alertFails ++ [.reportError (some 121)] := by
          show Spec.visible (alertWrites s _ _ ++ [.reportError _]) = _
          rw [visible_append, (alertWrites_farewell).2]; rfl
        rw [visible_append, e1, Spec.finalActions, ← k3, ← k4, ← k5, ← k6]
        rfl
      rw [hv]
      exact .echRejected k1 k2 hE.1 hE.2 alertWrites_farewell.1 (by rw [hpost, hal]; rfl)
    | false =>
      have hfr : finalReport i.inp s = [.reportHandshakeSuccess (decide (early = .accepted))] := by
        unfold finalReport
        rw [hech, he]
        simp
      rw [hfr]
      obtain ⟨th, rms, k1, k2, k3, k4, k5, k6⟩ := finished_answered hok
        (x := ⟨.sock, i, s, doneActions cfg d (decide (early = .accepted))⟩) hm hst he hen rfl hsock hp
        (by simp [doneActions]) rfl rfl
      have hv : Spec.visible (doneActions cfg d (decide (early = .accepted))) =
          Spec.finalActions g th rms d.flight ++ [.reportHandshakeSuccess (decide (early = .accepted))] := by
        rw [Spec.finalActions, ← k3, ← k4, ← k5, ← k6]
        rfl
      have hd : Does cfg h ⟨.sock, i, s, doneActions cfg d (decide (early = .accepted))⟩
          (Spec.visible (doneActions cfg d (decide (early = .accepted)))) := by
        rw [hv]
        exact .finished k1 k2 ((echRejected_iff hm).1 hech) rfl rfl
      exact hd
  | ticket hst hsock ht =>
    obtain ⟨g, th, e, hl⟩ := hi.live hst
    obtain ⟨psk, rfl, hp⟩ := ticket_saved hok hl ht
    exact .ticket (received_sock hsock (by simp)) hp rfl
  | data hst hsock =>
    rcases hst with hst | hst
    · obtain ⟨g, th, e, hl⟩ := hi.live hst
      exact .data hl.current rfl hsock rfl
    · obtain ⟨-, n, z, o, e1, e2, e3, -⟩ := hi.closing hst
      exact .lateData hst rfl hsock e1 e2 e3 rfl
  | appWrite hst hw =>
    obtain ⟨g, th, e, hl⟩ := hi.live hst
    rw [hl.write] at hw
    cases Option.some.inj hw
    exact .appWrite hl.current rfl rfl
  | @keyUpdateInitiation r enc w h' ks ks' secret hst hu he hw hk hn =>
    obtain ⟨g, th, e, hl⟩ := hi.live hst
    rw [hl.write] at hw
    cases Option.some.inj hw
    have hl' := init_live hok hl he hk hn (i := i) (w := ⟨.appTraffic, g.clientApp th (Spec.updatesSent h)⟩)
    obtain ⟨rfl, hh, rfl⟩ := schedule_facts hl hk
    obtain ⟨rfl, hsec⟩ := nextWrite_facts (hok _ _ hh) hn
    change secret = g.clientApp th (Spec.updatesSent h + 1) at hsec
    subst hsec
    have he := encode_eq he
    subst he
    exact .keyUpdateInitiated hl.current rfl hu rfl rfl hst
  | @keyUpdate m orig h' ks ks' secret hst hsock hr hk hn =>
    obtain ⟨g, th, e, hl⟩ := hi.live hst
    obtain ⟨rfl, hh, rfl⟩ := schedule_facts hl hk
    obtain ⟨rfl, hsec⟩ := nextRead_facts (hok _ _ hh) hn
    change secret = g.serverApp th (Spec.updatesReceived h + 1) at hsec
    subst hsec
    exact .keyUpdate hl.current (received_sock hsock (by simp)) hsock hr rfl rfl hst
  | @keyUpdateAnswered m orig h' ks ks' ks'' enc w read write hst hsock hr hk hn he hw hn' =>
    obtain ⟨g, th, e, hl⟩ := hi.live hst
    rw [hl.write] at hw
    cases Option.some.inj hw
    obtain ⟨rfl, hh, rfl⟩ := schedule_facts hl hk
    obtain ⟨rfl, hrd⟩ := nextRead_facts (hok _ _ hh) hn
    obtain ⟨rfl, hwr⟩ := nextWrite_facts (hok _ _ hh) hn'
    change read = g.serverApp th (Spec.updatesReceived h + 1) at hrd
    change write = g.clientApp th (Spec.updatesSent h + 1) at hwr
    subst hrd hwr
    have he := encode_eq he
    subst he
    exact .keyUpdateAnswered hl.current (received_sock hsock (by simp)) hsock hr rfl rfl hst
  | closeNotify hst hsock hw =>
    obtain ⟨g, th, e, hl⟩ := hi.live hst
    rw [hl.write] at hw
    cases Option.some.inj hw
    exact .closeNotify hl.current rfl hsock rfl
  | expectedCloseNotify hst hsock => exact .lateClose hst rfl hsock rfl

end Fizz.ClientSM

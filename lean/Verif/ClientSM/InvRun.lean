import Verif.ClientSM.InvFinished

/-!
# All client histories satisfy the invariant
-/

namespace Fizz.ClientSM
open Fizz.Codec Fizz.Crypto
open Fizz.Server (Level RLayer WLayer Content KeyExchangeType HsCtx SockIn PeerCert content alertContent
  deref derefPtr check ksState ksSecret transcriptHash finishedData verifierFailure
  derefPtr_eq_ok deref_eq_ok check_eq_ok pure_eq_ok encode_eq finishedData_eq handshakeValue_len
  ks_deriveMaster ks_getMaster ks_deriveApp ks_getClientApp ks_getServerApp ks_clearMaster ks_clientUpdate
  ks_serverUpdate)
open Fizz.Server.Spec (messageHash finishedMac handshakeBytes)
open Fizz.Client (CachedPsk PskType)
open Fizz.Conn (Trig)
open Spec (Offer PskOffer Public Neg)

theorem schedule_facts {cfg h g th e s ha ks} (hl : Live cfg h g th e s) (hk : schedule cfg s = .ok (ha, ks)) :
    ha = g.hash ∧ cfg.hashOf g.cipher = .ok g.hash ∧
    ks = KS.conc g.hash ⟨.start, some (g.app th (Spec.updatesSent h) (Spec.updatesReceived h))⟩ := by
  have hh := Fixed.hash hl.fixed
  unfold schedule at hk
  simp only [Res.bind_eq_ok] at hk
  obtain ⟨c, h1, a, h2, k, h3, hk⟩ := hk
  cases pure_eq_ok.1 hk
  rw [deref_eq_ok, hl.info.cipher, Option.some.injEq] at h1
  subst h1
  rw [hh] at h2
  cases h2
  rw [derefPtr_eq_ok, hl.ks, Option.some.injEq] at h3
  exact ⟨rfl, hh, h3.symm⟩

theorem nextWrite_facts {h : HashAlg} (ok : h.Ok) {a ks sec}
    (hk : nextWrite h (KS.conc h ⟨.start, some a⟩) = .ok (ks, sec)) :
    ks = KS.conc h ⟨.start, some { a with clientUpdates := a.clientUpdates + 1 }⟩ ∧
    sec = KS.Spec.clientTraffic h.spec { a with clientUpdates := a.clientUpdates + 1 } := by
  unfold nextWrite at hk
  simp only [Res.bind_eq_ok] at hk
  obtain ⟨k, h1, s, h2, hk⟩ := hk
  cases pure_eq_ok.1 hk
  have e1 := ks_clientUpdate ok h1
  subst e1
  exact ⟨rfl, ks_getClientApp ok h2⟩

theorem nextRead_facts {h : HashAlg} (ok : h.Ok) {a ks sec}
    (hk : nextRead h (KS.conc h ⟨.start, some a⟩) = .ok (ks, sec)) :
    ks = KS.conc h ⟨.start, some { a with serverUpdates := a.serverUpdates + 1 }⟩ ∧
    sec = KS.Spec.serverTraffic h.spec { a with serverUpdates := a.serverUpdates + 1 } := by
  unfold nextRead at hk
  simp only [Res.bind_eq_ok] at hk
  obtain ⟨k, h1, s, h2, hk⟩ := hk
  cases pure_eq_ok.1 hk
  have e1 := ks_serverUpdate ok h1
  subst e1
  exact ⟨rfl, ks_getServerApp ok h2⟩

/-- The step changes the traffic keys of an established connection and nothing else. -/
theorem update_live {cfg h g th e s s' x} (hl : Live cfg h g th e s) (hc : ¬ Spec.connects x)
    (hr : Spec.retryOf x = none)
    (h1 : ∀ b, .reportHandshakeSuccess b ∉ x.acts) (h2 : ∀ n, .reportEarlyHandshakeSuccess n ∉ x.acts)
    (hs : s' = { s with ks := s'.ks, read := s'.read, write := s'.write })
    (hk : s'.ks = some (KS.conc g.hash ⟨.start, some (g.app th (Spec.updatesSent (x :: h))
      (Spec.updatesReceived (x :: h)))⟩))
    (hw : s'.write = some ⟨.appTraffic, g.clientApp th (Spec.updatesSent (x :: h))⟩)
    (hrd : s'.read = some ⟨.appTraffic, g.serverApp th (Spec.updatesReceived (x :: h)), false⟩) :
    Live cfg (x :: h) g th e s' := by
  generalize s'.ks = a at *
  generalize s'.read = b at *
  generalize s'.write = c at *
  subst hs
  refine
    { fixed := hl.fixed.cons x, confirmed := hl.confirmed.cons x, ks := hk, hs := hl.hs
      secrets := hl.secrets, write := hw, read := hrd
      server := hl.server.cons x, info := ?_, since := ?_, status := hl.status
      encrypted := hl.encrypted.cons x, ech := hl.ech
      exporter := hl.exporter, completed := hl.completed.cons x, success := fun b => ?_, reported := ?_
      reports := ?_, count := by rw [retries_cons_none hr]; exact hl.count
      same := by rw [retries_cons_none hr]; exact hl.same
      first := by rw [retries_cons_none hr]; exact hl.first }
  · have i := hl.info
    refine ⟨i.version, i.cipher, i.group, i.pskType, i.pskMode, by rw [retries_cons_none hr]; exact i.kex, ?_⟩
    obtain ⟨p, h1, h2, h3⟩ := i.sni
    exact ⟨p, .later hc hr h1, h2, h3⟩
  · obtain ⟨t, h1, h2⟩ := hl.since
    exact ⟨t, h1, h2.cons x⟩
  · rw [actions_cons, List.mem_append]
    constructor
    · rintro (hh | hh)
      · exact (hl.success b).1 hh
      · exact absurd hh (h1 b)
    · exact fun hh => .inl ((hl.success b).2 hh)
  · intro n hn
    rw [actions_cons, List.mem_append] at hn
    rcases hn with hn | hn
    · exact hl.reported n hn
    · exact absurd hn (h2 n)
  · intro hh
    obtain ⟨n, hn⟩ := hl.reports hh
    exact ⟨n, by rw [actions_cons, List.mem_append]; exact .inl hn⟩

theorem keyUpdate_head {r : UInt8} {enc : Bytes} (he : encodeHandshake (.keyUpdate ⟨r⟩) = .ok enc) :
    enc.head? = some 24 := by
  rw [encode_eq he]; rfl

theorem init_live {cfg : Cfg} (hok : ∀ c a, cfg.hashOf c = .ok a → a.Ok) {h g th e s i r enc w ha ks ks' sec}
    (hl : Live cfg h g th e s) (he : encodeHandshake (.keyUpdate ⟨r⟩) = .ok enc)
    (hk : schedule cfg s = .ok (ha, ks)) (hn : nextWrite ha ks = .ok (ks', sec)) :
    Live cfg (⟨.app (.keyUpdate r), i, s, [.mutate (saveWrite ks' sec),
        .secretAvailable .clientAppTraffic sec, .write none [content w 22 enc] 0]⟩ :: h) g th e
      (applyAll [.mutate (saveWrite ks' sec), .secretAvailable .clientAppTraffic sec,
        .write none [content w 22 enc] 0] s) := by
  obtain ⟨rfl, hh, rfl⟩ := schedule_facts hl hk
  have ok := hok _ _ hh
  obtain ⟨rfl, rfl⟩ := nextWrite_facts ok hn
  generalize hx : (⟨.app (.keyUpdate r), i, s, _⟩ : Step) = x
  have hr : Spec.received x = none := by rw [← hx]; rfl
  have hst : (Spec.sent x).head? = some 24 := by
    rw [← hx, encode_eq he]
    simp [Spec.sent, Spec.contents, handshakeBytes, Spec.writes, content, Codec.Spec.handshake,
      Codec.Spec.typeByte]
  have u1 := updatesReceived_other (x := x) (h := h) (by rw [hr]; simp)
  have u2 := updatesSent_one (x := x) (h := h) hst
  refine update_live hl (not_connects (.inl (by rw [← hx]; simp))) (retryOf_none hr) (by rw [← hx]; simp)
    (by rw [← hx]; simp) rfl ?_ ?_ ?_
  · rw [u1, u2]; rfl
  · rw [u2]; rfl
  · rw [u1]; exact hl.read

theorem read_live {cfg : Cfg} (hok : ∀ c a, cfg.hashOf c = .ok a → a.Ok) {h g th e s i m orig ha ks ks' sec}
    (hl : Live cfg h g th e s) (he : i.sock = .event (.handshake (.keyUpdate m) orig) false)
    (hk : schedule cfg s = .ok (ha, ks)) (hn : nextRead ha ks = .ok (ks', sec)) :
    Live cfg (⟨.sock, i, s, [.mutate (saveRead ks' sec), .secretAvailable .serverAppTraffic sec]⟩ :: h) g th e
      (applyAll [.mutate (saveRead ks' sec), .secretAvailable .serverAppTraffic sec] s) := by
  obtain ⟨rfl, hh, rfl⟩ := schedule_facts hl hk
  have ok := hok _ _ hh
  obtain ⟨rfl, rfl⟩ := nextRead_facts ok hn
  generalize hx : (⟨.sock, i, s, _⟩ : Step) = x
  have hr : Spec.received x = some (.keyUpdate m, orig) := by
    rw [← hx]; exact received_sock he (by simp)
  have u1 := updatesReceived_one (x := x) (h := h) hr
  have u2 := updatesSent_other (x := x) (h := h)
    (by rw [← hx]; simp [Spec.sent, Spec.contents, handshakeBytes, Spec.writes])
  refine update_live hl (not_connects (.inl (by rw [← hx]; simp))) (by simp [Spec.retryOf, hr]) (by rw [← hx]; simp)
    (by rw [← hx]; simp) rfl ?_ ?_ ?_
  · rw [u1, u2]; rfl
  · rw [u2]; exact hl.write
  · rw [u1]; rfl

theorem answer_live {cfg : Cfg} (hok : ∀ c a, cfg.hashOf c = .ok a → a.Ok)
    {h g th e s i m orig ha ks ks' ks'' enc w read write}
    (hl : Live cfg h g th e s) (he : i.sock = .event (.handshake (.keyUpdate m) orig) false)
    (hk : schedule cfg s = .ok (ha, ks)) (hn : nextRead ha ks = .ok (ks', read))
    (hen : encodeHandshake (.keyUpdate ⟨0⟩) = .ok enc) (hn' : nextWrite ha ks' = .ok (ks'', write)) :
    Live cfg (⟨.sock, i, s, [.mutate (saveBoth ks'' read write), .secretAvailable .serverAppTraffic read,
        .secretAvailable .clientAppTraffic write, .write none [content w 22 enc] 0]⟩ :: h) g th e
      (applyAll [.mutate (saveBoth ks'' read write), .secretAvailable .serverAppTraffic read,
        .secretAvailable .clientAppTraffic write, .write none [content w 22 enc] 0] s) := by
  obtain ⟨rfl, hh, rfl⟩ := schedule_facts hl hk
  have ok := hok _ _ hh
  obtain ⟨rfl, rfl⟩ := nextRead_facts ok hn
  obtain ⟨rfl, rfl⟩ := nextWrite_facts ok hn'
  generalize hx : (⟨.sock, i, s, _⟩ : Step) = x
  have hr : Spec.received x = some (.keyUpdate m, orig) := by
    rw [← hx]; exact received_sock he (by simp)
  have hst : (Spec.sent x).head? = some 24 := by
    rw [← hx, encode_eq hen]
    simp [Spec.sent, Spec.contents, handshakeBytes, Spec.writes, content, Codec.Spec.handshake,
      Codec.Spec.typeByte]
  have u1 := updatesReceived_one (x := x) (h := h) hr
  have u2 := updatesSent_one (x := x) (h := h) hst
  refine update_live hl (not_connects (.inl (by rw [← hx]; simp))) (by simp [Spec.retryOf, hr]) (by rw [← hx]; simp)
    (by rw [← hx]; simp) rfl ?_ ?_ ?_
  · rw [u1, u2]; rfl
  · rw [u2]; rfl
  · rw [u1]; rfl

theorem ticket_shape {cfg inp s m acts} (h : onNewSessionTicket cfg inp s m = .ok acts) :
    ∃ psk, acts = [.newCachedPsk psk] := by
  unfold onNewSessionTicket at h
  simp only [Res.bind_eq_ok] at h
  obtain ⟨_, _, _, _, _, _, _, _, _, _, _, _, _, _, _, _, _, _, _, _, h⟩ := h
  exact ⟨_, (pure_eq_ok.1 h).symm⟩

/-- Only the state and the record layers matter. -/
theorem fail_state {s : St} {a b} :
    (applyAll (.mutate toError :: (alertWrites s a b ++ [.reportError a])) s).state = .error := by
  show (List.foldl _ (toError s) _).state = _
  rw [List.foldl_append]
  unfold alertWrites
  repeat' split
  all_goals rfl

theorem rejected_state {s s' : St} {a b} : s.state ≠ .error → (applyAll (handleError s a b) s').state = .error := by
  intro hs
  rw [handleError, if_neg hs]
  show (List.foldl _ (toError s') _).state = _
  rw [List.foldl_append]
  unfold alertWrites
  repeat' split
  all_goals rfl

/-- Every step preserves the invariant. -/
theorem inv_step {cfg : Cfg} (hok : ∀ c a, cfg.hashOf c = .ok a → a.Ok) {h s t i acts}
    (hi : Inv cfg h s) (hs : Shape cfg i s t acts) : Inv cfg (⟨t, i, s, acts⟩ :: h) (applyAll acts s) := by
  cases hs with
  | nothing =>
    by_cases hu : s.state = .uninitialized
    · refine ⟨fun _ => (hi.uninit hu).nothing, ?_, ?_, ?_, ?_, ?_⟩ <;> intro hh <;>
        simp [midState, applyAll, hu] at hh
    · exact hi.cons (Plain.of (not_connects (.inr hu)) rfl
        (by simp [Spec.sent, Spec.contents, handshakeBytes, Spec.writes]) (by simp) (by simp))
  | fail hne => exact Inv.error fail_state
  | report he => exact Inv.error he
  | wait hsock =>
    exact hi.cons (Plain.of (not_connects (.inl (by simp))) (by simp [Spec.received, hsock])
      (by simp [Spec.sent, Spec.contents, handshakeBytes, Spec.writes]) (by simp) (by simp))
  | closeNow _ => exact Inv.of_closed rfl rfl rfl
  | close hw =>
    refine Inv.of_closing rfl ⟨rfl, [], _, h, rfl, rfl, rfl, ?_⟩
    intro hu
    have := (hi.uninit hu).state
    subst this
    cases hw
  | closed _ => exact Inv.of_closed rfl rfl rfl
  | @connect c hst hc =>
    obtain ⟨o, p, -, h1, h2, -⟩ := connect_before (x := ⟨.accept, i, s, connectActions cfg c⟩) hok (hi.uninit hst) rfl hc rfl
    exact Inv.of_before h2 h1
  | @retry m orig u r w hst hsock hr hw =>
    obtain ⟨o1, o, p, hb⟩ := hi.before hst
    rw [hb.write, Option.some.injEq] at hw
    subst hw
    obtain ⟨o', -, h1, h2⟩ := retry_before (x := ⟨.sock, i, s, [.mutate (saveRetry cfg r),
      .write none (firstCcs cfg s ++ [content ⟨.plaintext, []⟩ 22 r.encoded]) 0,
      transition .expectingServerHello]⟩) hok hb hst rfl hsock hr rfl
    exact Inv.of_before h2 h1
  | @serverHello m orig u r hst hsock hr =>
    obtain ⟨o1, o, p, hb⟩ := hi.before hst
    obtain ⟨g, -, h1, h2⟩ := shlo_mid (x := ⟨.sock, i, s, _⟩) hok hb hst rfl hsock hr rfl
    exact Inv.of_mid (by rw [show (applyAll _ s).state = _ from h2]; exact .inl rfl) h1
  | earlyFailed hst he =>
    exact hi.cons (Plain.of (not_connects (.inl (by simp))) rfl
      (by simp [Spec.sent, Spec.contents, handshakeBytes, Spec.writes]) (by simp) (by simp))
  | @earlyFirst t d f w hst ho he hw hc hcc =>
    refine (hi.cons (Plain.of (not_connects (.inl (by simp))) rfl
      (by simp [Spec.sent, Spec.contents, handshakeBytes, Spec.writes, content, ccs]) (by simp) (by simp))).ccs true ?_
    rcases hst with hst | hst | hst <;> rw [hst] <;> simp
  | earlyWrite hst ho he hw =>
    exact hi.cons (Plain.of (not_connects (.inl (by simp))) rfl
      (by simp [Spec.sent, Spec.contents, handshakeBytes, Spec.writes, content]) (by simp) (by simp))
  | earlyLate hst he hw =>
    exact hi.cons (Plain.of (not_connects (.inl (by simp))) rfl
      (by simp [Spec.sent, Spec.contents, handshakeBytes, Spec.writes, content]) (by simp) (by simp))
  | encryptedExtensions hst hsock hq hc hctx hal hea hre hno ht =>
    obtain ⟨g, hg⟩ := hi.mid (by rw [hst]; simp [midState])
    obtain ⟨s', h1, h2, h3⟩ := ee_mid hg hst hsock hq hc hal hea ht hno
    rw [h1]
    exact Inv.of_mid h2 h3
  | certificateRequest hst hsock hau hctx hc hal hg =>
    obtain ⟨g, hm⟩ := hi.mid (by rw [hst]; simp [midState])
    exact Inv.of_mid (.inr (.inl rfl)) (request_mid hm hst hsock hc hal hg)
  | certificate hst hsock hctx hc =>
    obtain ⟨g, hm⟩ := hi.mid (by rw [hst]; simp [midState])
    exact Inv.of_mid (.inr (.inr (.inl rfl))) (chain_mid hm hst hsock (by simp) (by simp) (by simp) (by simp)
      (fun acts ha => .inl ⟨_, received_sock hsock ha⟩) hc)
  | compressedCertificate hst hsock hctx hal hd hc =>
    obtain ⟨g, hm⟩ := hi.mid (by rw [hst]; simp [midState])
    exact Inv.of_mid (.inr (.inr (.inl rfl))) (chain_mid hm hst hsock (by simp) (by simp) (by simp) (by simp)
      (fun acts ha => .inr ⟨_, _, received_sock hsock ha, hal, hd⟩) hc)
  | certificateVerify hst hsock hctx hun hal hh hv hvc =>
    obtain ⟨g, hm⟩ := hi.mid (by rw [hst]; simp [midState])
    rw [hm.hs, Option.some.injEq] at hctx
    subst hctx
    exact Inv.of_mid (.inr (.inr (.inr rfl))) (verify_mid hm hst hsock hun hal hh hv hvc)
  | @finished m orig u d hst hsock hp =>
    obtain ⟨g, hm⟩ := hi.mid (by rw [hst]; simp [midState])
    obtain ⟨early, he, hen⟩ := hm.encrypted (by rw [hst]; simp)
    cases hech : echRejected s with
    | true =>
      refine Inv.error ?_
      unfold finalReport
      rw [if_pos hech]
      exact rejected_state (s' := applyAll [.mutate (saveFinished cfg d), transition .established,
        .secretAvailable .serverAppTraffic d.read, .secretAvailable .clientAppTraffic d.write,
        .secretAvailable .exporterMaster d.exporter, .secretAvailable .resumptionMaster d.resumption,
        .write none d.flight 0] s) (by rw [hst]; simp)
    | false =>
      have hl := finished_live hok hm hst he hen hsock hp hech
      have hfr : finalReport i.inp s = [.reportHandshakeSuccess (decide (early = .accepted))] := by
        unfold finalReport
        rw [hech, he]
        simp
      rw [hfr]
      exact Inv.of_live rfl hl
  | ticket hst hsock ht =>
    obtain ⟨psk, rfl⟩ := ticket_shape ht
    obtain ⟨g, th, e, hl⟩ := hi.live hst
    have hr : Spec.received ⟨.sock, i, s, [.newCachedPsk psk]⟩ = some _ := received_sock hsock (by simp)
    exact Inv.of_live hst (hl.cons (Calm.msg rfl hr (by simp) (by simp) rfl (by simp) (by simp)))
  | data hst hsock =>
    exact hi.cons (Plain.of (not_connects (.inl (by simp))) (by simp [Spec.received, hsock])
      (by simp [Spec.sent, Spec.contents, handshakeBytes, Spec.writes]) (by simp) (by simp))
  | appWrite hst hw =>
    exact hi.cons (Plain.of (not_connects (.inl (by simp))) rfl
      (by simp [Spec.sent, Spec.contents, handshakeBytes, Spec.writes, content]) (by simp) (by simp))
  | keyUpdateInitiation hst hu he hw hk hn =>
    obtain ⟨g, th, e, hl⟩ := hi.live hst
    exact Inv.of_live hst (init_live hok hl he hk hn)
  | keyUpdate hst hsock hr hk hn =>
    obtain ⟨g, th, e, hl⟩ := hi.live hst
    exact Inv.of_live hst (read_live hok hl hsock hk hn)
  | keyUpdateAnswered hst hsock hr hk hn he hw hn' =>
    obtain ⟨g, th, e, hl⟩ := hi.live hst
    exact Inv.of_live hst (answer_live hok hl hsock hk hn he hn')
  | closeNotify hst hsock hw => exact Inv.of_closed rfl rfl rfl
  | expectedCloseNotify hst hsock => exact Inv.of_closed rfl rfl rfl

/-- The invariant holds after every history. -/
theorem run_inv {cfg : Cfg} (hok : ∀ c a, cfg.hashOf c = .ok a → a.Ok) {h s} (hr : Run cfg h s) :
    Inv cfg h s := by
  induction hr with
  | nil =>
    refine ⟨fun _ => ⟨rfl, rfl, rfl, by simp, by simp [Spec.asked], ⟨by simp, rfl, rfl⟩⟩, ?_, ?_, ?_, ?_, ?_⟩ <;>
      intro hh <;> simp [midState] at hh
  | @step h s t i o hr ht hst ih =>
    have := step_shape cfg i s t
    rw [hst] at this
    exact inv_step hok ih this

end Fizz.ClientSM

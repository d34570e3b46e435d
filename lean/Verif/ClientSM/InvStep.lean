import Verif.ClientSM.Inv

/-!
# The server's flight preserves the invariant
-/

namespace Fizz.ClientSM
open Fizz.Codec Fizz.Crypto
open Fizz.Server (Level RLayer WLayer Content KeyExchangeType HsCtx SockIn PeerCert content
  deref derefPtr check ksState ksSecret transcriptHash finishedData verifierFailure
  derefPtr_eq_ok deref_eq_ok check_eq_ok pure_eq_ok encode_eq finishedData_eq handshakeValue_len
  ks_deriveMaster ks_getMaster ks_deriveApp ks_getClientApp ks_getServerApp ks_clearMaster ks_clientUpdate
  ks_serverUpdate)
open Fizz.Server.Spec (messageHash finishedMac handshakeBytes)
open Fizz.Client (CachedPsk PskType)
open Fizz.Conn (Trig)
open Spec (Offer PskOffer Public Neg)

/-- A step whose message is neither a ServerHello nor a HelloRetryRequest. -/
theorem transcript_msg {cfg : Cfg} {h : List Step} {x : Step} {m : HsMsg} {orig : Bytes}
    (hr : Spec.received x = some (m, orig)) (h1 : ∀ c, m ≠ .serverHello c) (h2 : ∀ c, m ≠ .helloRetryRequest c) :
    Spec.transcript cfg (x :: h) = Spec.transcript cfg h ++ orig ++ Spec.sent x := by
  unfold Spec.transcript
  rw [Spec.transcripts, hr]
  cases m <;> simp_all

/-- A step that receives such a message, and neither sends nor reports anything. -/
theorem Calm.msg {x : Step} {m : HsMsg} {orig : Bytes} (ht : x.trig = .sock) (hr : Spec.received x = some (m, orig))
    (h2 : ∀ c, m ≠ .helloRetryRequest c) (h3 : ∀ c, m ≠ .keyUpdate c) (hs : Spec.sent x = [])
    (h4 : ∀ b, .reportHandshakeSuccess b ∉ x.acts) (h5 : ∀ n, .reportEarlyHandshakeSuccess n ∉ x.acts) :
    Calm x := by
  refine ⟨not_connects (.inl (by rw [ht]; simp)), ?_, ?_, by rw [hs]; simp, h4, h5⟩
  · unfold Spec.retryOf
    rw [hr]
    cases m <;> simp_all
  · intro k o hh
    rw [hr] at hh
    cases Option.some.inj hh
    exact h3 k rfl

theorem Fixed.hash {cfg h g} (hf : Spec.Fixed cfg h g) : cfg.hashOf g.cipher = .ok g.hash := by
  obtain ⟨n, y, o, -, hn⟩ := hf
  exact hn.hash

theorem Fixed.psk {cfg h g psk} (hf : Spec.Fixed cfg h g) (hp : g.psk = some psk) : g.offer.pskOf = some psk := by
  obtain ⟨n, y, o, -, hn⟩ := hf
  obtain ⟨m, -, -, -, -, -, -, -, -, -, h1, -⟩ := hn.message
  exact (h1 psk hp).offered

theorem checkEe_facts {exts req} (h : checkEeExtensions exts req = .ok ()) :
    (exts.map (·.extension_type)).Nodup ∧ ∀ t ∈ exts.map (·.extension_type),
      t ∉ ([13, 51, 41, 45, 44, 43] : List UInt16) ∧ t ∈ req := by
  unfold checkEeExtensions at h
  simp only [Res.bind_eq_ok, check_eq_ok, List.all_eq_true] at h
  obtain ⟨_, h1, h2⟩ := h
  refine ⟨noDuplicates_facts h2, ?_⟩
  intro t ht
  obtain ⟨e, he, rfl⟩ := List.mem_map.1 ht
  simpa only [decide_eq_true_eq] using h1 e he

theorem eeAlpn_facts {cfg exts alpn} (h : eeAlpn cfg exts = .ok alpn) :
    (∀ a, alpn = some a → getProtocolNameList exts = .ok (some ⟨[⟨a⟩]⟩) ∧ a ∈ cfg.supportedAlpns) ∧
    (alpn = none → getProtocolNameList exts = .ok none ∧ cfg.requireAlpn = false) := by
  unfold eeAlpn at h
  rw [Res.bind_eq_ok] at h
  obtain ⟨l, h1, h⟩ := h
  cases l with
  | none =>
    simp only [Res.bind_eq_ok, check_eq_ok] at h
    obtain ⟨_, h2, h⟩ := h
    have := pure_eq_ok.1 h
    subst this
    exact ⟨by simp, fun _ => ⟨h1, by simpa using h2⟩⟩
  | some l =>
    obtain ⟨names⟩ := l
    simp only at h
    split at h
    · rename_i p hp
      simp only [Res.bind_eq_ok, check_eq_ok, decide_eq_true_eq] at h
      obtain ⟨_, h2, h⟩ := h
      have := pure_eq_ok.1 h
      subst this
      refine ⟨fun a ha => ?_, by simp⟩
      cases Option.some.inj ha
      exact ⟨h1, h2⟩
    · cases h

theorem eeEarly_facts {cfg h g s exts alpn r} (hm : Mid cfg h g s) (hs : s.state = .expectingEncryptedExtensions)
    (he : eeEarly cfg s exts alpn = .ok r) : ∃ early, r = some early ∧ Spec.EarlyAnswer cfg g exts alpn early := by
  obtain ⟨h1, -⟩ := hm.opening hs
  unfold eeEarly at he
  rw [Res.bind_eq_ok] at he
  obtain ⟨l, h2, he⟩ := he
  cases l with
  | none =>
    have := pure_eq_ok.1 he
    subst this
    rw [h1]
    unfold earlyStatus
    cases he : g.first.early with
    | false => exact ⟨.notAttempted, by simp, .inr (.inr ⟨rfl, h2, he⟩)⟩
    | true => exact ⟨.rejected, by cases (Spec.retries h) <;> simp, .inr (.inl ⟨rfl, h2, he⟩)⟩
  | some l =>
    refine ⟨.accepted, ?_⟩
    simp only [acceptEarly] at he
    split_ifs at he with ha
    rw [Res.bind_eq_ok] at he
    obtain ⟨_, hv, he⟩ := he
    refine ⟨(pure_eq_ok.1 he).symm, .inl ⟨rfl, h2, ?_⟩⟩
    rw [h1] at ha
    unfold earlyStatus at ha
    have hfirst : g.first.early = true ∧ Spec.retries h = [] := by
      cases he : g.first.early <;> cases hq : Spec.retries h <;> simp [he, hq] at ha ⊢
    obtain ⟨psk, ex, k1, k2, k3, k4⟩ := hm.early.some hfirst.1
    have hof := hm.first hfirst.2
    refine ⟨by rw [hof]; exact hfirst.1, ?_⟩
    unfold validateAcceptedEarly at hv
    rw [k4] at hv
    simp only [Res.bind_eq_ok, check_eq_ok, decide_eq_true_eq] at hv
    obtain ⟨_, v1, _, v2, _, v3, -⟩ := hv
    obtain ⟨t, t1, t2, t3⟩ := hm.info.pskType
    cases hp : g.psk with
    | none =>
      exfalso
      have : g.offer.psk.isSome = true := by
        rw [hof]
        unfold Offer.pskOf at k1
        cases hq : g.first.psk with
        | none => rw [hq] at k1; cases k1
        | some _ => rfl
      rw [t3 hp, if_pos this] at t1
      exact v1 t1
    | some k =>
      have := Fixed.psk hm.fixed hp
      rw [hof, k1] at this
      cases Option.some.inj this
      refine ⟨psk, rfl, k2, ?_, v3⟩
      rw [hm.info.cipher] at v2
      exact (Option.some.inj v2).symm

theorem byPsk_after {cfg h g s t} (hm : Mid cfg h g s) (ht : s.pskType = some t) :
    isPskAccepted t = true ↔ ByPsk g := by
  obtain ⟨t', t1, t2, t3⟩ := hm.info.pskType
  rw [ht] at t1
  cases Option.some.inj t1
  constructor
  · intro hh
    cases hp : g.psk with
    | none =>
      rw [t3 hp] at hh
      split_ifs at hh <;> simp [isPskAccepted] at hh
    | some psk =>
      rw [t2 psk hp] at hh
      exact ⟨psk, hp, isPskAccepted_iff.1 hh⟩
  · rintro ⟨psk, h1, h2⟩
    rw [t2 psk h1]
    exact isPskAccepted_iff.2 h2

theorem ee_mid {cfg h g s i m orig u requested alpn early retry t} (hm : Mid cfg h g s)
    (hs : s.state = .expectingEncryptedExtensions)
    (he : i.sock = .event (.handshake (.encryptedExtensions m) orig) u)
    (hq : s.requestedExtensions = some requested) (hc : checkEeExtensions m.extensions requested = .ok ())
    (hal : eeAlpn cfg m.extensions = .ok alpn) (hea : eeEarly cfg s m.extensions alpn = .ok early)
    (ht : s.pskType = some t) (hno : eeNotify cfg i.inp m.extensions = .ok ()) :
    ∃ s', applyAll (.mutate (saveEe orig alpn early retry) :: (retryActions retry ++ [transition (afterEe t)])) s = s' ∧
    midState s'.state ∧
    Mid cfg (⟨.sock, i, s, .mutate (saveEe orig alpn early retry) :: (retryActions retry ++ [transition (afterEe t)])⟩ :: h)
      g s' := by
  refine ⟨{ saveEe orig alpn early retry s with state := afterEe t }, by cases retry <;> rfl, ?_, ?_⟩
  · show midState (afterEe t)
    unfold afterEe midState
    split_ifs <;> simp
  generalize hx : (⟨.sock, i, s, .mutate (saveEe orig alpn early retry) ::
    (retryActions retry ++ [transition (afterEe t)])⟩ : Step) = x
  have hr : Spec.received x = some (.encryptedExtensions m, orig) := by
    rw [← hx]; exact received_sock he (by simp)
  have hst : Spec.sent x = [] := by rw [← hx]; cases retry <;> rfl
  have htr := transcript_msg (cfg := cfg) (h := h) hr (by simp) (by simp)
  have hca : Calm x := Calm.msg (by rw [← hx]) hr (by simp) (by simp) hst
    (by rw [← hx]; cases retry <;> simp [retryActions, transition])
    (by rw [← hx]; cases retry <;> simp [retryActions, transition])
  obtain ⟨ea, rfl, hans⟩ := eeEarly_facts hm hs hea
  obtain ⟨hnd, hall⟩ := checkEe_facts hc
  obtain ⟨hal1, hal2⟩ := eeAlpn_facts hal
  obtain ⟨-, req, hrq, hreq⟩ := hm.opening hs
  rw [hq] at hrq
  cases Option.some.inj hrq
  have hby := byPsk_after hm ht
  refine
    { toBase := hm.toBase.next hca ⟨rfl, rfl, rfl, rfl, rfl, rfl, rfl, rfl, rfl, rfl, rfl, rfl, rfl, rfl, rfl, rfl, ?_⟩
      hs := ?_, opening := ?_, encrypted := fun _ => ⟨ea, rfl, [], x, h, m, orig, rfl, hr, ?_, hnd, ?_, hal1, hal2, hans, ?_⟩
      byPsk := ?_, ask := ?_, chain := ?_, proved := ?_ }
  · show (s.echState.map (eeEch retry)).map _ = _
    cases s.echState with
    | none => rfl
    | some e => cases retry <;> rfl
  · rw [htr, hst, List.append_nil]
    show s.hs.map _ = _
    rw [hm.hs]; rfl
  · intro hh
    simp only at hh
    unfold afterEe at hh
    split_ifs at hh <;> cases hh
  · rw [← hx]; exact hs
  · intro t' ht'
    exact ⟨(hall t' ht').1, hreq t' (hall t' ht').2⟩
  · intro hex
    rw [← hx]
    unfold eeNotify at hno
    rwa [if_pos hex] at hno
  · intro hb
    refine ⟨.inr ?_, (hm.byPsk hb).2⟩
    show afterEe t = _
    unfold afterEe
    rw [if_pos (hby.2 hb)]
  · exact fun hb => (hm.ask hb).cons (by rw [hr]; simp)
  · intro hh
    simp only at hh
    unfold afterEe at hh
    split_ifs at hh <;> cases hh
  · intro hh hb
    simp only at hh
    unfold afterEe at hh
    rw [if_neg (fun k => hb (hby.1 k))] at hh
    cases hh

theorem not_byPsk_of {cfg h g s} (hm : Mid cfg h g s) (hs : s.state = .expectingCertificate ∨
    s.state = .expectingCertificateVerify) : ¬ ByPsk g := by
  intro hb
  rcases hs with hs | hs <;> rcases (hm.byPsk hb).1 with h1 | h1 <;> (rw [hs] at h1; cases h1)

theorem request_mid {cfg h g s i m orig u algs cert} (hm : Mid cfg h g s)
    (hs : s.state = .expectingCertificate)
    (he : i.sock = .event (.handshake (.certificateRequest m) orig) u)
    (hc : m.certificate_request_context = []) (hal : getSignatureAlgorithms m.extensions = .ok (some algs))
    (hg : getClientCert cfg i.inp s algs.supported_signature_algorithms m.extensions = .ok cert) :
    Mid cfg (⟨.sock, i, s, [.mutate (saveRequest orig cert), transition .expectingCertificate]⟩ :: h) g
      (applyAll [.mutate (saveRequest orig cert), transition .expectingCertificate] s) := by
  generalize hx : (⟨.sock, i, s, [.mutate (saveRequest orig cert), transition .expectingCertificate]⟩ : Step) = x
  have hr : Spec.received x = some (.certificateRequest m, orig) := by
    rw [← hx]; exact received_sock he (by simp)
  have hst : Spec.sent x = [] := by rw [← hx]; rfl
  have htr := transcript_msg (cfg := cfg) (h := h) hr (by simp) (by simp)
  have hca : Calm x := Calm.msg (by rw [← hx]) hr (by simp) (by simp) hst
    (by rw [← hx]; simp [transition]) (by rw [← hx]; simp [transition])
  refine
    { toBase := hm.toBase.next hca ⟨rfl, rfl, rfl, rfl, rfl, rfl, rfl, rfl, rfl, rfl, rfl, rfl, rfl, rfl, rfl, rfl, rfl⟩
      hs := ?_, opening := fun hh => (by cases hh), encrypted := fun _ => ?_
      byPsk := fun hb => absurd hb (not_byPsk_of hm (.inl hs))
      ask := fun _ => .inr ⟨cert, ⟨[], x, h, m, orig, algs, rfl, hr, hc, hal, ?_, ?_⟩, rfl, rfl, rfl⟩
      chain := fun hh => (by cases hh), proved := fun hh => (by cases hh) }
  · rw [htr, hst, List.append_nil]
    show s.hs.map _ = _
    rw [hm.hs]; rfl
  · obtain ⟨e, h1, h2⟩ := hm.encrypted (by rw [hs]; simp)
    exact ⟨e, h1, h2.cons x⟩
  · intro hf
    unfold getClientCert at hg
    rw [hf] at hg
    exact (Except.ok.inj hg).symm
  · intro hf
    unfold getClientCert at hg
    rw [if_pos hf] at hg
    rw [← hx]; exact hg

theorem checkCert_facts {cfg inp e} (h : checkCertExtensions cfg inp e = .ok ()) : Spec.EntryOk cfg inp e := by
  unfold checkCertExtensions at h
  split_ifs at h with hx
  · simp only [Res.bind_eq_ok, check_eq_ok, List.all_eq_true, decide_eq_true_eq] at h
    obtain ⟨req, h1, h2⟩ := h
    exact ⟨fun hh => (by rw [hx] at hh; cases hh), fun _ => ⟨req, h1, h2⟩⟩
  · rw [check_eq_ok] at h
    refine ⟨fun _ => by simpa using h, fun hh => absurd hh hx⟩

theorem readChain_forall {cfg inp es cs} (h : readChain cfg inp false es = .ok cs) :
    List.Forall₂ (fun e c => inp.makePeerCert e false = .ok c) es cs ∧ ∀ e ∈ es, Spec.EntryOk cfg inp e := by
  induction es generalizing cs with
  | nil => cases h; exact ⟨.nil, by simp⟩
  | cons e es ih =>
    rw [readChain] at h
    simp only [Res.bind_eq_ok] at h
    obtain ⟨_, h1, c, h2, cs', h3, h⟩ := h
    cases pure_eq_ok.1 h
    obtain ⟨i1, i2⟩ := ih h3
    refine ⟨.cons h2 i1, ?_⟩
    intro e' he'
    rcases List.mem_cons.1 he' with rfl | he'
    · exact checkCert_facts h1
    · exact i2 _ he'

theorem handleCert_facts {cfg inp m chain} (h : handleCertMsg cfg inp m = .ok chain) :
    ∃ e es leaf cs, m.certificate_request_context = [] ∧ m.certificate_list = e :: es ∧ chain = leaf :: cs ∧
      inp.makePeerCert e true = .ok leaf ∧
      List.Forall₂ (fun e c => inp.makePeerCert e false = .ok c) es cs ∧
      ∀ e ∈ m.certificate_list, Spec.EntryOk cfg inp e := by
  unfold handleCertMsg at h
  simp only [Res.bind_eq_ok, check_eq_ok, List.isEmpty_iff] at h
  obtain ⟨_, h1, ch, h2, _, h3, h⟩ := h
  cases pure_eq_ok.1 h
  cases hl : m.certificate_list with
  | nil => rw [hl] at h2; cases h2; simp at h3
  | cons e es =>
    rw [hl, readChain] at h2
    simp only [Res.bind_eq_ok] at h2
    obtain ⟨_, k1, c, k2, cs', k3, h2⟩ := h2
    cases pure_eq_ok.1 h2
    obtain ⟨i1, i2⟩ := readChain_forall k3
    refine ⟨e, es, c, cs', h1, rfl, rfl, k2, i1, ?_⟩
    intro e' he'
    rcases List.mem_cons.1 he' with rfl | he'
    · exact checkCert_facts k1
    · exact i2 _ he'

theorem chain_mid {cfg h g s i m m' orig u chain algo} (hm : Mid cfg h g s)
    (hs : s.state = .expectingCertificate)
    (he : i.sock = .event (.handshake m orig) u)
    (hm1 : ∀ c, m ≠ .serverHello c) (hm2 : ∀ c, m ≠ .helloRetryRequest c) (hm3 : ∀ c, m ≠ .keyUpdate c)
    (hm4 : ∀ c, m ≠ .certificateRequest c)
    (hmm : ∀ acts, acts ≠ [] → Spec.CertReceived cfg ⟨.sock, i, s, acts⟩ m')
    (hc : handleCertMsg cfg i.inp m' = .ok chain) :
    Mid cfg (⟨.sock, i, s, [.mutate (saveChain orig chain algo), transition .expectingCertificateVerify]⟩ :: h) g
      (applyAll [.mutate (saveChain orig chain algo), transition .expectingCertificateVerify] s) := by
  have hmm := hmm [.mutate (saveChain orig chain algo), transition .expectingCertificateVerify] (by simp)
  generalize hx : (⟨.sock, i, s, [.mutate (saveChain orig chain algo),
    transition .expectingCertificateVerify]⟩ : Step) = x at hmm ⊢
  have hr : Spec.received x = some (m, orig) := by
    rw [← hx]; exact received_sock he (by simp)
  have hst : Spec.sent x = [] := by rw [← hx]; rfl
  have htr := transcript_msg (cfg := cfg) (h := h) hr hm1 hm2
  have hca : Calm x := Calm.msg (by rw [← hx]) hr hm2 hm3 hst
    (by rw [← hx]; simp [transition]) (by rw [← hx]; simp [transition])
  have hnb := not_byPsk_of hm (.inl hs)
  obtain ⟨e, es, leaf, cs, c1, c2, rfl, c3, c4, c5⟩ := handleCert_facts hc
  refine
    { toBase := hm.toBase.next hca ⟨rfl, rfl, rfl, rfl, rfl, rfl, rfl, rfl, rfl, rfl, rfl, rfl, rfl, rfl, rfl, rfl, rfl⟩
      hs := ?_, opening := fun hh => (by cases hh), encrypted := fun _ => ?_
      byPsk := fun hb => absurd hb hnb, ask := fun _ => ?_
      chain := fun _ => ⟨leaf, cs, rfl, [], x, h, m', e, es, rfl, hmm, c1, c2, ?_, ?_, ?_⟩
      proved := fun hh => (by cases hh) }
  · rw [htr, hst, List.append_nil]
    show s.hs.map _ = _
    rw [hm.hs]; rfl
  · obtain ⟨e, h1, h2⟩ := hm.encrypted (by rw [hs]; simp)
    exact ⟨e, h1, h2.cons x⟩
  · rcases (hm.ask hnb).cons (x := x) (by
      intro k o hh
      rw [hr] at hh
      cases Option.some.inj hh
      exact hm4 k rfl) with ⟨a1, a2⟩ | ⟨k, a1, a2, a3⟩
    · refine .inl ⟨a1, .inr ?_⟩
      show some (s.clientAuth.getD .notRequested) = _
      rcases a2 with a2 | a2 <;> rw [a2] <;> rfl
    · refine .inr ⟨k, a1, ?_, a3⟩
      show some (s.clientAuth.getD .notRequested) = _
      rw [a2]; rfl
  · rw [← hx]; exact c3
  · rw [← hx]; exact c4
  · rw [← hx]; exact c5

theorem verify_mid {cfg h g s i m orig u leaf chain cert ha} (hm : Mid cfg h g s)
    (hs : s.state = .expectingCertificateVerify)
    (he : i.sock = .event (.handshake (.certificateVerify m) orig) u)
    (hc : s.unverifiedCertChain = some (leaf :: chain)) (hal : m.algorithm ∈ cfg.supportedSigSchemes)
    (hh : cfg.hashOf g.cipher = .ok ha)
    (hv : i.inp.verifySig leaf m.algorithm (transcriptHash ha ⟨g.cipher, Spec.transcript cfg h⟩) m.signature = .ok ())
    (hvc : verifiedCert cfg i.inp leaf (leaf :: chain) = .ok cert) :
    Mid cfg (⟨.sock, i, s, [.mutate (saveServerCert orig m.algorithm cert), transition .expectingFinished]⟩ :: h) g
      (applyAll [.mutate (saveServerCert orig m.algorithm cert), transition .expectingFinished] s) := by
  generalize hx : (⟨.sock, i, s, [.mutate (saveServerCert orig m.algorithm cert),
    transition .expectingFinished]⟩ : Step) = x
  have hr : Spec.received x = some (.certificateVerify m, orig) := by
    rw [← hx]; exact received_sock he (by simp)
  have hst : Spec.sent x = [] := by rw [← hx]; rfl
  have htr := transcript_msg (cfg := cfg) (h := h) hr (by simp) (by simp)
  have hca : Calm x := Calm.msg (by rw [← hx]) hr (by simp) (by simp) hst
    (by rw [← hx]; simp [transition]) (by rw [← hx]; simp [transition])
  have hnb := not_byPsk_of hm (.inr hs)
  refine
    { toBase := hm.toBase.next hca ⟨rfl, rfl, rfl, rfl, rfl, rfl, rfl, rfl, rfl, rfl, rfl, rfl, rfl, rfl, rfl, rfl, rfl⟩
      hs := ?_, opening := fun hh => (by cases hh), encrypted := fun _ => ?_
      byPsk := fun hb => absurd hb hnb, ask := fun _ => (hm.ask hnb).cons (by rw [hr]; simp)
      chain := fun hh => (by cases hh)
      proved := fun _ _ => ⟨cert, rfl, ?_⟩ }
  · rw [htr, hst, List.append_nil]
    show s.hs.map _ = _
    rw [hm.hs]; rfl
  · obtain ⟨e, h1, h2⟩ := hm.encrypted (by rw [hs]; simp)
    exact ⟨e, h1, h2.cons x⟩
  · obtain ⟨l', c', h1, h2⟩ := hm.chain hs
    rw [hc] at h1
    cases h1
    have hgh : g.hash = ha := by
      have := Fixed.hash hm.fixed
      rw [hh] at this
      exact (Except.ok.inj this).symm
    refine ⟨[], x, h, m, orig, leaf, chain, rfl, hr, h2, hal, ?_, ?_, ?_⟩
    · rw [← hx, hgh]; exact hv
    · intro hf
      unfold verifiedCert at hvc
      rw [if_neg (by rw [hf]; simp)] at hvc
      exact (Except.ok.inj hvc).symm
    · intro hf
      unfold verifiedCert at hvc
      rw [if_pos hf] at hvc
      rw [← hx]
      show ∃ r, i.inp.verifyChain (leaf :: chain) = .ok r ∧ cert = r.getD leaf
      cases hq : i.inp.verifyChain (leaf :: chain) with
      | error f => rw [hq] at hvc; cases hvc
      | ok r =>
        rw [hq] at hvc
        refine ⟨r, rfl, ?_⟩
        cases r <;> exact (Except.ok.inj hvc).symm

end Fizz.ClientSM

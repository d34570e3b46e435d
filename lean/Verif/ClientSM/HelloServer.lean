import Verif.ClientSM.HelloSecond

/-!
# What an accepted ServerHello fixes
-/

namespace Fizz.ClientSM
open Fizz.Codec Fizz.Crypto
open Fizz.Server (Level RLayer WLayer Content KeyExchangeType HsCtx SockIn PeerCert content
  deref derefPtr check ksState ksSecret transcriptHash finishedData
  derefPtr_eq_ok deref_eq_ok check_eq_ok pure_eq_ok ks_deriveEarly ks_getEarly finishedData_eq
  DeriveSecret_len frame_eq encode_eq ks_getHandshake)
open Fizz.Server.Spec (messageHash finishedMac)
open Fizz.Client (CachedPsk PskType)
open Fizz.Conn (Trig)
open Spec (Offer PskOffer Public Neg)

/-! ## The key schedule -/

/-- The stage after the PSK. -/
def pskStage : Option Bytes → KS.Spec.Stage
  | none => .start
  | some b => .early (some b)

theorem ks_ecdhe' {h : HashAlg} (ok : h.Ok) {psk : Option Bytes} {e : Bytes} {k : KS.KS}
    (hk : ksState (KS.deriveHandshakeSecretEcdhe h (KS.conc h ⟨pskStage psk, none⟩) e) = .ok k) :
    k = KS.conc h ⟨.handshake ⟨psk, some e⟩, none⟩ := by
  have e := KS.step_eq ok ⟨pskStage psk, none⟩ (.deriveHandshakeSecretEcdhe e)
    ⟨.handshake ⟨psk, some e⟩, none⟩ .done (by cases psk <;> rfl)
  simp only [KS.step] at e
  rw [e] at hk
  exact (Except.ok.inj hk).symm

theorem ks_noEcdhe' {h : HashAlg} (ok : h.Ok) {psk : Bytes} {k : KS.KS}
    (hk : ksState (KS.deriveHandshakeSecret h (KS.conc h ⟨pskStage (some psk), none⟩)) = .ok k) :
    k = KS.conc h ⟨.handshake ⟨some psk, none⟩, none⟩ := by
  have e := KS.step_eq ok ⟨pskStage (some psk), none⟩ .deriveHandshakeSecret _ _ rfl
  simp only [KS.step] at e
  rw [e] at hk
  exact (Except.ok.inj hk).symm

/-! ## Negotiation -/

theorem negotiatePsk_facts {cfg attempted exts version cipher b r}
    (h : negotiatePsk cfg attempted exts version cipher b = .ok r) :
    (r.mode = none ∧ r.serverCert = none ∧ r.clientCert = none ∧ getServerPresharedKey exts = .ok none ∧
      r.type = if attempted.isSome then .rejected
        else if cfg.supportedPskModes = [] then .notSupported else .notAttempted) ∨
    ∃ psk, attempted = some psk ∧ getServerPresharedKey exts = .ok (some ⟨0⟩) ∧ psk.version = version ∧
      sameHash cfg cipher psk.cipher = .ok true ∧ pskMode b ∈ cfg.supportedPskModes ∧
      r = ⟨psk.type, some (pskMode b), psk.serverCert, psk.clientCert⟩ := by
  unfold negotiatePsk at h
  rw [Res.bind_eq_ok] at h
  obtain ⟨sel, h1, h⟩ := h
  cases attempted with
  | none =>
    cases sel with
    | some s => cases h
    | none =>
      cases pure_eq_ok.1 h
      refine .inl ⟨rfl, rfl, rfl, h1, ?_⟩
      cases cfg.supportedPskModes <;> rfl
  | some psk =>
    cases sel with
    | none =>
      cases pure_eq_ok.1 h
      exact .inl ⟨rfl, rfl, rfl, h1, rfl⟩
    | some s =>
      simp only at h
      unfold acceptPsk at h
      simp only [Res.bind_eq_ok, check_eq_ok, decide_eq_true_eq] at h
      obtain ⟨_, h2, _, h3, same, h4, _, h5, _, h6, h⟩ := h
      subst h5
      refine .inr ⟨psk, rfl, ?_, h3.symm, h4, h6, (pure_eq_ok.1 h).symm⟩
      rw [h1, ← h2]

theorem negotiateExchange_facts {exts shares r} (h : negotiateExchange exts shares = .ok r) :
    (r = none ∧ getServerKeyShare exts = .ok none) ∨
    ∃ g own peer, r = some (g, own, peer) ∧ getServerKeyShare exts = .ok (some ⟨⟨g, peer⟩⟩) ∧
      (g, own) ∈ shares := by
  unfold negotiateExchange at h
  rw [Res.bind_eq_ok] at h
  obtain ⟨k, h1, h⟩ := h
  cases k with
  | none => exact .inl ⟨(pure_eq_ok.1 h).symm, h1⟩
  | some k =>
    simp only at h
    split at h
    · cases h
    · rename_i own hf
      exact .inr ⟨_, own, _, (pure_eq_ok.1 h).symm, h1, findShare_mem hf⟩

/-- What the ServerHello says. -/
structure ShloOk (cfg : Cfg) (s : St) (m : ServerHello) (req : List UInt16) (sh : List (UInt16 × Bytes))
    (v : UInt16) (ex : Option (UInt16 × Bytes × Bytes)) (np : NegotiatedPsk) : Prop where
  requested : s.requestedExtensions = some req
  nodup : (m.extensions.map (·.extension_type)).Nodup
  allowed : ∀ t ∈ m.extensions.map (·.extension_type), t ∈ req ∧ (t = 51 ∨ t = 41 ∨ t = 43)
  versions : m.legacy_version = 0x0303 ∧ m.legacy_compression_method = 0 ∧
    getServerSupportedVersions m.extensions = .ok (some ⟨v⟩) ∧ v ∈ cfg.supportedVersions ∧
    m.cipher_suite ∈ cfg.supportedCiphers
  shares : s.keyExchangers = some sh
  exchange : (ex = none ∧ getServerKeyShare m.extensions = .ok none) ∨
    ∃ g own peer, ex = some (g, own, peer) ∧
      getServerKeyShare m.extensions = .ok (some ⟨⟨g, peer⟩⟩) ∧ (g, own) ∈ sh
  sessionId : m.legacy_session_id_echo = some s.legacySessionId
  sameVersion : s.version = none ∨ s.version = some v
  sameCipher : s.cipher = none ∨ s.cipher = some m.cipher_suite
  psk : (np.mode = none ∧ np.serverCert = none ∧ np.clientCert = none ∧
      getServerPresharedKey m.extensions = .ok none ∧
      np.type = if s.attemptedPsk.isSome then .rejected
        else if cfg.supportedPskModes = [] then .notSupported else .notAttempted) ∨
    ∃ k, s.attemptedPsk = some k ∧ getServerPresharedKey m.extensions = .ok (some ⟨0⟩) ∧
      k.version = v ∧ sameHash cfg m.cipher_suite k.cipher = .ok true ∧
      pskMode ex.isSome ∈ cfg.supportedPskModes ∧
      np = ⟨k.type, some (pskMode ex.isSome), k.serverCert, k.clientCert⟩
  either : ex.isSome = true ∨ np.mode = some Server.psk_ke

theorem negotiateShlo_facts {cfg s m version exchange psk}
    (h : negotiateShlo cfg s m = .ok (version, exchange, psk)) :
    ∃ req shares, ShloOk cfg s m req shares version exchange psk := by
  unfold negotiateShlo at h
  simp only [Res.bind_eq_ok, check_eq_ok, decide_eq_true_eq, Bool.or_eq_true] at h
  obtain ⟨req, h1, _, h2, v, h3, shares, h4, ex, h5, _, h6, _, h7, _, h8, ps, h9, _, h10, h⟩ := h
  cases pure_eq_ok.1 h
  unfold checkShloExtensions at h2
  simp only [Res.bind_eq_ok, check_eq_ok, List.all_eq_true, decide_eq_true_eq] at h2
  obtain ⟨_, h21, h22⟩ := h2
  refine ⟨req, shares,
    { requested := deref_eq_ok.1 h1, nodup := noDuplicates_facts h22, allowed := ?_
      versions := getVersion_facts h3, shares := deref_eq_ok.1 h4, exchange := negotiateExchange_facts h5
      sessionId := h6, sameVersion := h7, sameCipher := h8, psk := negotiatePsk_facts h9, either := h10 }⟩
  intro t ht
  rw [List.mem_map] at ht
  obtain ⟨e, he, rfl⟩ := ht
  exact h21 e he

/-! ## The transcript so far -/

theorem Before.cases {cfg h o1 o p s} (hb : Before cfg h o1 o p s) :
    Spec.retries h = [] ∨ ∃ r, Spec.retries h = [r] := by
  have hc := hb.count
  cases hh : Spec.retries h with
  | nil => exact .inl rfl
  | cons a l =>
    cases l with
    | nil => exact .inr ⟨a, rfl⟩
    | cons b l => rw [hh] at hc; simp at hc

theorem outerContext_eq {cfg h o1 o p s cipher ctx} (hb : Before cfg h o1 o p s)
    (hc : s.cipher = none ∨ s.cipher = some cipher) (h1 : outerContext s cipher = .ok ctx) :
    ctx = ⟨cipher, (Spec.transcripts cfg h).1⟩ := by
  unfold outerContext at h1
  rcases hb.cases with hr | ⟨r, hr⟩
  · obtain ⟨-, a, -, -, -, b⟩ := hb.new hr
    rw [a] at h1
    simp only [Res.bind_eq_ok] at h1
    obtain ⟨e, h2, h1⟩ := h1
    rw [← pure_eq_ok.1 h1]
    have := deref_eq_ok.1 h2
    rw [b] at this
    rw [Option.some.inj this]
  · obtain ⟨-, a, -, b, -⟩ := hb.retried r hr
    rw [a] at h1
    rw [b] at hc
    rcases hc with hc | hc
    · cases hc
    · cases Option.some.inj hc
      exact (Except.ok.inj h1).symm

theorem innerContext_eq {cfg h o1 o p s cipher e ctx} (hb : Before cfg h o1 o p s) (he : EchInv cfg h o p e s)
    (hc : s.cipher = none ∨ s.cipher = some cipher) (h1 : innerContext s cipher e = .ok ctx) :
    ctx = ⟨cipher, (Spec.transcripts cfg h).2⟩ := by
  unfold innerContext at h1
  rcases hb.cases with hr | ⟨r, hr⟩
  · obtain ⟨-, a, -, -, -, -⟩ := hb.new hr
    obtain ⟨-, b, -⟩ := he.new hr
    rw [a] at h1
    simp only [Res.bind_eq_ok] at h1
    obtain ⟨e, h2, h1⟩ := h1
    rw [← pure_eq_ok.1 h1]
    have := derefPtr_eq_ok.1 h2
    rw [b] at this
    rw [Option.some.inj this]
  · obtain ⟨-, a, -, b, -⟩ := hb.retried r hr
    obtain ⟨d, -⟩ := he.retried r hr
    rw [a] at h1
    rw [b] at hc
    have := derefPtr_eq_ok.1 h1
    rw [d] at this
    rcases hc with hc | hc
    · cases hc
    · cases Option.some.inj hc
      exact (Option.some.inj this).symm

/-- What becomes of ECH. -/
theorem resolveEch_facts {cfg h o1 o p s inp cipher m ctx ech} (hb : Before cfg h o1 o p s)
    (hc : s.cipher = none ∨ s.cipher = some cipher) (hr : resolveEch inp s cipher m = .ok (ctx, ech)) :
    (cfg.hasEchConfigs = false ∧ s.echState = none ∧ ech = none ∧ ctx = ⟨cipher, (Spec.transcripts cfg h).1⟩) ∨
    (cfg.hasEchConfigs = true ∧ ∃ e acc, s.echState = some e ∧ EchInv cfg h o p e s ∧
      ech = some (if acc then .accepted else .rejected) ∧
      inp.echAccepted o.random (Spec.transcripts cfg h).2 m = .ok acc ∧
      (e.status = .requested ∨ (acc = true ↔ e.status = .accepted)) ∧
      ctx = ⟨cipher, if acc then (Spec.transcripts cfg h).2 else (Spec.transcripts cfg h).1⟩) := by
  unfold resolveEch at hr
  rw [Res.bind_eq_ok] at hr
  obtain ⟨outer, h1, hr⟩ := hr
  have e1 := outerContext_eq hb hc h1
  subst e1
  by_cases hE : cfg.hasEchConfigs = true
  · obtain ⟨e, k1, k2⟩ := hb.ech hE
    rw [k1] at hr
    simp only [Res.bind_eq_ok, check_eq_ok, decide_eq_true_eq] at hr
    obtain ⟨inner, h2, acc, h3, _, h4, hr⟩ := hr
    have e2 := innerContext_eq hb k2 hc h2
    subst e2
    refine .inr ⟨hE, e, acc, k1, k2, ?_, by rw [← k2.random]; exact h3, h4, ?_⟩
    · have := pure_eq_ok.1 hr
      cases acc <;> simp at this <;> simp [this]
    · have := pure_eq_ok.1 hr
      cases acc <;> simp at this <;> simp [this]
  · have hE' : cfg.hasEchConfigs = false := by simpa using hE
    rw [(hb.plain hE').1] at hr
    have := pure_eq_ok.1 hr
    rw [Prod.mk.injEq] at this
    exact .inl ⟨hE', (hb.plain hE').1, this.2.symm, this.1.symm⟩

end Fizz.ClientSM

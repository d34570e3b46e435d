import Verif.Server.Spec
import Verif.Server.Shape
import Verif.Crypto.KeyScheduleProps
import Verif.Ticket.CookieProps
import Verif.Codec.ExtLemmas

/-!
# What a successful ClientHello handler has established
-/

namespace Fizz.Server
open Fizz.Codec Fizz.Crypto
open Fizz.Ticket (CookieState ResumptionState)
open Fizz.Conn (Trig)
open Spec (Neg)

/-! ## The key scheduler calls -/

section ks
variable {h : HashAlg} (ok : h.Ok)
include ok

theorem ks_deriveEarly {psk : Bytes} {k : KS.KS}
    (hk : ksState (KS.deriveEarlySecret h {} psk) = .ok k) : k = KS.conc h ⟨.early (some psk), none⟩ := by
  have e := KS.step_eq ok {} (.deriveEarlySecret psk) _ _ rfl
  simp only [KS.step] at e
  rw [show KS.conc h {} = {} from rfl] at e
  rw [e] at hk
  exact (Except.ok.inj hk).symm

theorem ks_getEarly {psk : Option Bytes} {w th b} (ht : th.length = h.hashLen)
    (hk : ksSecret (KS.getEarly h (KS.conc h ⟨.early psk, none⟩) w th) = .ok b) :
    b = KS.Spec.earlyValue h.spec psk th w := by
  have e := KS.step_eq ok ⟨.early psk, none⟩ (.getEarly w th) _ _
    (by simp only [KS.Spec.next]; rw [if_pos (show th.length = h.spec.L from ht)])
  simp only [KS.step, Prod.mk.injEq] at e
  rw [e.2] at hk
  exact (Except.ok.inj hk).symm

/-- The stage before the key exchange. -/
def stage0 : Option ResumptionState → KS.Spec.Stage
  | some rs => .early (some rs.resumptionSecret)
  | none => .start

theorem ks_ecdhe {r : Option ResumptionState} {e : Bytes} {k : KS.KS}
    (hk : ksState (KS.deriveHandshakeSecretEcdhe h (KS.conc h ⟨stage0 r, none⟩) e) = .ok k) :
    k = KS.conc h ⟨.handshake ⟨r.map (·.resumptionSecret), some e⟩, none⟩ := by
  have e := KS.step_eq ok ⟨stage0 r, none⟩ (.deriveHandshakeSecretEcdhe e)
    ⟨.handshake ⟨r.map (·.resumptionSecret), some e⟩, none⟩ .done (by cases r <;> rfl)
  simp only [KS.step] at e
  rw [e] at hk
  exact (Except.ok.inj hk).symm

theorem ks_noEcdhe {rs : ResumptionState} {k : KS.KS}
    (hk : ksState (KS.deriveHandshakeSecret h (KS.conc h ⟨stage0 (some rs), none⟩)) = .ok k) :
    k = KS.conc h ⟨.handshake ⟨some rs.resumptionSecret, none⟩, none⟩ := by
  have e := KS.step_eq ok ⟨stage0 (some rs), none⟩ .deriveHandshakeSecret _ _ rfl
  simp only [KS.step] at e
  rw [e] at hk
  exact (Except.ok.inj hk).symm

theorem ks_getHandshake {i w th b} (ht : th.length = h.hashLen)
    (hk : ksSecret (KS.getHandshake h (KS.conc h ⟨.handshake i, none⟩) w th) = .ok b) :
    b = KS.Spec.handshakeValue h.spec i th w := by
  have e := KS.step_eq ok ⟨.handshake i, none⟩ (.getHandshake w th) _ _
    (by simp only [KS.Spec.next]; rw [if_pos (show th.length = h.spec.L from ht)])
  simp only [KS.step, Prod.mk.injEq] at e
  rw [e.2] at hk
  exact (Except.ok.inj hk).symm

theorem ks_deriveMaster {i} {k : KS.KS}
    (hk : ksState (KS.deriveMasterSecret h (KS.conc h ⟨.handshake i, none⟩)) = .ok k) :
    k = KS.conc h ⟨.master i, none⟩ := by
  have e := KS.step_eq ok ⟨.handshake i, none⟩ .deriveMasterSecret _ _ rfl
  simp only [KS.step] at e
  rw [e] at hk
  exact (Except.ok.inj hk).symm

theorem ks_getMaster {i a w th b} (ht : th.length = h.hashLen)
    (hk : ksSecret (KS.getMaster h (KS.conc h ⟨.master i, a⟩) w th) = .ok b) :
    b = KS.Spec.masterValue h.spec i th w := by
  have e := KS.step_eq ok ⟨.master i, a⟩ (.getMaster w th) _ _
    (by simp only [KS.Spec.next]; rw [if_pos (show th.length = h.spec.L from ht)])
  simp only [KS.step, Prod.mk.injEq] at e
  rw [e.2] at hk
  exact (Except.ok.inj hk).symm

theorem ks_deriveApp {i th} {k : KS.KS} (ht : th.length = h.hashLen)
    (hk : ksState (KS.deriveAppTrafficSecrets h (KS.conc h ⟨.master i, none⟩) th) = .ok k) :
    k = KS.conc h ⟨.master i, some ⟨i, th, 0, 0⟩⟩ := by
  have e := KS.step_eq ok ⟨.master i, none⟩ (.deriveAppTrafficSecrets th) _ _
    (by simp only [KS.Spec.next]; rw [if_pos (show th.length = h.spec.L from ht)])
  simp only [KS.step] at e
  rw [e] at hk
  exact (Except.ok.inj hk).symm

theorem ks_getClientApp {st a b}
    (hk : ksSecret (KS.getApp (KS.conc h ⟨st, some a⟩) .clientAppTraffic) = .ok b) :
    b = KS.Spec.clientTraffic h.spec a := by
  have e := KS.step_eq ok ⟨st, some a⟩ (.getApp .clientAppTraffic) _ _ rfl
  simp only [KS.step, Prod.mk.injEq] at e
  rw [e.2] at hk
  exact (Except.ok.inj hk).symm

theorem ks_getServerApp {st a b}
    (hk : ksSecret (KS.getApp (KS.conc h ⟨st, some a⟩) .serverAppTraffic) = .ok b) :
    b = KS.Spec.serverTraffic h.spec a := by
  have e := KS.step_eq ok ⟨st, some a⟩ (.getApp .serverAppTraffic) _ _ rfl
  simp only [KS.step, Prod.mk.injEq] at e
  rw [e.2] at hk
  exact (Except.ok.inj hk).symm

theorem ks_clearMaster {i a} {k : KS.KS}
    (hk : ksState (KS.clearMasterSecret (KS.conc h ⟨.master i, a⟩)) = .ok k) :
    k = KS.conc h ⟨.start, a⟩ := by
  have e := KS.step_eq ok ⟨.master i, a⟩ .clearMasterSecret _ _ rfl
  simp only [KS.step] at e
  rw [e] at hk
  exact (Except.ok.inj hk).symm

theorem ks_clientUpdate {st a} {k : KS.KS}
    (hk : ksState (KS.clientKeyUpdate h (KS.conc h ⟨st, some a⟩)) = .ok k) :
    k = KS.conc h ⟨st, some { a with clientUpdates := a.clientUpdates + 1 }⟩ := by
  have e := KS.step_eq ok ⟨st, some a⟩ .clientKeyUpdate _ _ rfl
  simp only [KS.step] at e
  rw [e] at hk
  exact (Except.ok.inj hk).symm

theorem ks_serverUpdate {st a} {k : KS.KS}
    (hk : ksState (KS.serverKeyUpdate h (KS.conc h ⟨st, some a⟩)) = .ok k) :
    k = KS.conc h ⟨st, some { a with serverUpdates := a.serverUpdates + 1 }⟩ := by
  have e := KS.step_eq ok ⟨st, some a⟩ .serverKeyUpdate _ _ rfl
  simp only [KS.step] at e
  rw [e] at hk
  exact (Except.ok.inj hk).symm

theorem DeriveSecret_len (s : Bytes) (l : String) (th : Bytes) :
    (KS.Spec.DeriveSecret h.spec s l th).length = h.hashLen := KS.expandLabel_len ok _ _ _

theorem finishedData_eq {c : HsCtx} {k : Bytes} (hk : k.length = h.hashLen) :
    finishedData h c k = .ok (Spec.finishedMac h.spec k (h.digest c.transcript)) := by
  have := ok.pos
  unfold finishedData
  rw [expandLabel_eq ok _ _ _ _ hk (by rw [KS.hl_toNat ok]; omega) (by decide) (by simp)]
  rw [Res.ok_bind, hmac_eq' ok]
  simp [Spec.finishedMac, transcriptHash]
  rfl

theorem handshakeValue_len (i : KS.Spec.Inputs) (th : Bytes) {w} (hw : w ≠ .echAcceptConfirmation) :
    (KS.Spec.handshakeValue h.spec i th w).length = h.hashLen := by
  cases w
  · exact DeriveSecret_len ok _ _ _
  · exact DeriveSecret_len ok _ _ _
  · exact absurd rfl hw

end ks

/-! ## Part 1 -/

/-- What part 1 has checked. -/
structure Facts1 (cfg : Cfg) (inp : Inp) (s : St) (u : Bool) (m : ClientHello) (orig : Bytes)
    (p : Part1) : Prop where
  cookie : Spec.cookieState inp m = p.cookie
  noBoth : s.hs = none ∨ p.cookie = none
  ech : processEch cfg inp p.cookie s m orig = .ok p.hello
  parsed : u = false
  version : ∃ v, getSupportedVersions p.hello.chlo.extensions = .ok (some v) ∧
    Negotiate.FirstIn cfg.supportedVersions (· ∈ v.versions) p.version
  sameVersion : s.version = none ∨ s.version = some p.version
  cipher : Negotiate.negotiateTiers cfg.supportedCiphers p.hello.chlo.cipher_suites = some p.cipher
  sameCipher : s.cipher = none ∨ s.cipher = some p.cipher
  cookieVersion : ∀ ck, p.cookie = some ck → ck.version = p.version ∧ ck.cipher = p.cipher
  valid : p.hello.chlo.legacy_compression_methods = [0] ∧
    (p.hello.chlo.extensions.map (·.extension_type)).Nodup
  res : getResumptionState cfg inp p.hello.chlo = .ok p.res
  replay : getReplayCacheResult cfg inp p.hello.chlo p.version = .ok p.replay

theorem getCookieState_spec {cfg inp m c} (h : getCookieState cfg inp m = .ok c) :
    Spec.cookieState inp m = c := by
  rw [getCookieState, Res.bind_eq_ok] at h
  obtain ⟨ck, h1, h⟩ := h
  cases ck with
  | none => cases pure_eq_ok.1 h; simp [Spec.cookieState, h1]
  | some ck =>
    simp only [Res.bind_eq_ok] at h
    obtain ⟨_, -, r, h2, h⟩ := h
    cases r with
    | none => cases h
    | some r =>
      simp only [Res.bind_eq_ok] at h
      obtain ⟨_, -, h⟩ := h
      cases pure_eq_ok.1 h
      simp [Spec.cookieState, h1, h2]

theorem part1_facts {cfg inp s u m orig p} (h : part1 cfg inp s u m orig = .ok (.inr p)) :
    Facts1 cfg inp s u m orig p := by
  rw [part1] at h
  simp only [Res.bind_eq_ok, check_eq_ok, decide_eq_true_eq] at h
  obtain ⟨ck, h1, _, h2, hh, h3, _, h4, v, h5, _, h6, h⟩ := h
  cases v with
  | none =>
    simp only [Res.bind_eq_ok] at h
    obtain ⟨_, -, h⟩ := h
    cases pure_eq_ok.1 h
  | some v =>
    simp only [Res.bind_eq_ok] at h
    obtain ⟨p', h7, h⟩ := h
    cases pure_eq_ok.1 h
    rw [part1Negotiated] at h7
    simp only [Res.bind_eq_ok, check_eq_ok, decide_eq_true_eq] at h7
    obtain ⟨w, h8, _, h9, ci, h10, _, h11, _, h12, r, h13, rp, h14, h7⟩ := h7
    cases pure_eq_ok.1 h7
    rw [validateClientHello] at h9
    simp only [Res.bind_eq_ok, check_eq_ok, decide_eq_true_eq] at h9
    obtain ⟨_, h91, h92⟩ := h9
    refine ⟨getCookieState_spec h1, ?_, h3, by simpa using h4, ?_, ?_, ?_, h11, ?_, ⟨h91, h92⟩, h13, h14⟩
    · cases hs : s.hs <;> cases ck <;> simp_all
    · rw [negotiateVersion, Res.bind_eq_ok] at h5
      obtain ⟨sv, h51, h5⟩ := h5
      cases sv with
      | none => cases pure_eq_ok.1 h5
      | some sv =>
        exact ⟨sv, h51, ((Negotiate.C14_flat _ _).1 _).1 (pure_eq_ok.1 h5)⟩
    · exact h6
    · unfold negotiateCipher at h10
      cases hn : Negotiate.negotiateTiers cfg.supportedCiphers hh.chlo.cipher_suites with
      | none => rw [hn] at h10; cases h10
      | some c => rw [hn] at h10; cases h10; rfl
    · rintro c hc
      simp only at hc
      subst hc
      rw [verifyCookieState] at h12
      simp only [Res.bind_eq_ok, check_eq_ok, decide_eq_true_eq] at h12
      obtain ⟨_, a, b⟩ := h12
      exact ⟨a, b⟩

/-! ## ECH -/

theorem usedHello_eq {cfg : Cfg} {x : Step} {m orig} {cookie : Option CookieState} {hh : Hello}
    (hpost : (Spec.post x).echStatus = hh.echStatus)
    (hck : Spec.cookieState x.env.inp m = cookie)
    (fresh : x.pre.hs = none → x.pre.echStatus = .notRequested)
    (hp : processEch cfg x.env.inp cookie x.pre m orig = .ok hh) :
    Spec.usedHello x m orig = (hh.chlo, hh.orig) := by
  unfold Spec.usedHello
  rw [hpost]
  rw [processEch, Res.bind_eq_ok] at hp
  obtain ⟨h0, h1, h2⟩ := hp
  have e0 : h0 = hh := by
    split_ifs at h2 with ha
    · rw [Res.bind_eq_ok] at h2
      obtain ⟨o, -, h2⟩ := h2
      cases o with
      | none => cases h2
      | some _ => exact pure_eq_ok.1 h2
    · exact pure_eq_ok.1 h2
  subst e0
  clear h2
  by_cases hr : (x.pre.hs.isSome || cookie.isSome) = true
  · rw [processEchAny, if_pos hr] at h1
    rw [processEchRetry, Res.bind_eq_ok] at h1
    obtain ⟨⟨st, id, c, o⟩, h1, h3⟩ := h1
    cases pure_eq_ok.1 h3
    simp only
    have hcond : ¬ (x.pre.hs = none ∧ Spec.cookieState x.env.inp m = none) := by
      rw [hck]; intro hh; simp [hh.1, hh.2] at hr
    have key : ∀ ech, processEchHrrChecked x.env.inp cookie x.pre m orig ech = .ok (st, id, c, o) →
        (if st = .accepted then (Spec.innerHello x m).getD (m, orig) else (m, orig)) = (c, o) := by
      intro ech hq
      unfold processEchHrrChecked at hq
      split_ifs at hq with ha
      · simp only [Res.bind_eq_ok, check_eq_ok] at hq
        obtain ⟨es, he, oe, -, _, -, _, -, ⟨c', o'⟩, hd, hq⟩ := hq
        cases pure_eq_ok.1 hq
        rw [if_pos rfl, Spec.innerHello, if_neg hcond, if_pos ha, deref_eq_ok.1 he]
        simp [hd]
      · cases cookie with
        | none =>
          cases pure_eq_ok.1 hq
          rw [if_neg ha]
        | some ck =>
          simp only at hq
          cases hs : ck.echCipherSuite with
          | none =>
            rw [hs] at hq
            cases pure_eq_ok.1 hq
            rw [if_neg ha]
          | some su =>
            rw [hs] at hq
            simp only [Res.bind_eq_ok, check_eq_ok] at hq
            obtain ⟨oe, -, _, -, ci, -, _, -, ⟨c', o'⟩, hd, hq⟩ := hq
            cases pure_eq_ok.1 hq
            rw [if_pos rfl, Spec.innerHello, if_neg hcond, if_neg ha, hck]
            simp [hd]
    unfold processEchHrr at h1
    rw [Res.bind_eq_ok] at h1
    obtain ⟨ech, -, h1⟩ := h1
    dsimp only at h1
    split_ifs at h1
    · simp only [Res.bind_eq_ok] at h1
      obtain ⟨_, -, h1⟩ := h1
      cases ech with
      | none => cases h1
      | some e =>
        simp only [Res.bind_eq_ok] at h1
        obtain ⟨_, -, h1⟩ := h1
        exact key _ h1
    · exact key _ h1
  · rw [processEchAny, if_neg hr] at h1
    have hn : x.pre.hs = none ∧ cookie = none := by
      cases hs : x.pre.hs <;> cases cookie <;> simp_all
    have hnr := fresh hn.1
    rw [processEchFirst] at h1
    split at h1
    · cases pure_eq_ok.1 h1
      rw [hnr]; rfl
    · simp only [Res.bind_eq_ok] at h1
      obtain ⟨oe, -, e, -, sni, -, h1⟩ := h1
      split_ifs at h1
      · simp only [Res.bind_eq_ok] at h1
        obtain ⟨r, hd, h1⟩ := h1
        cases r with
        | none => cases pure_eq_ok.1 h1; rfl
        | some r =>
          obtain ⟨c, o, ctx⟩ := r
          cases pure_eq_ok.1 h1
          rw [if_pos rfl, Spec.innerHello, if_pos ⟨hn.1, hck.trans hn.2⟩, hd]
          rfl
      · cases pure_eq_ok.1 h1
        rw [hnr]; rfl

end Fizz.Server

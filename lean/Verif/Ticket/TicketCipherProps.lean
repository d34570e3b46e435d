import Verif.Ticket.TicketCipher
import Verif.Ticket.TokenProps
import Verif.Ticket.TicketCodecProps

/-! # C38: ticket acceptance policy -/

namespace Fizz.Ticket
open Fizz.Time Fizz.Crypto

/-- Nanoseconds of a handshake's validity still left at `now`. -/
def leftNs (p : TicketPolicy) (now : Int) (s : ResumptionState) : Int :=
  s.handshakeTime + p.handshakeValidity * 1000000000 - now

/-- No arithmetic overflow: the validity, the expiry time and the time left are representable in
signed 64-bit nanoseconds (292 years). -/
structure Representable (p : TicketPolicy) (now : Int) (s : ResumptionState) : Prop where
  validity : InI64 (p.handshakeValidity * 1000000000)
  expiry : InI64 (s.handshakeTime + p.handshakeValidity * 1000000000)
  left : InI64 (leftNs p now s)

theorem getValidity_eq {p : TicketPolicy} {now : Int} {s : ResumptionState}
    (h : Representable p now s) : p.getValidity now s = .ok (toSeconds (leftNs p now s)) := by
  have h1 := h.validity
  have h2 := h.expiry
  have h3 := h.left
  unfold leftNs at *
  unfold TicketPolicy.getValidity
  have c : ∀ v, InI64 v → checked v = .ok v := fun v hv => by simp [checked, hv]
  unfold nsPerSec
  rw [c _ h1, Res.ok_bind, c _ h2, Res.ok_bind, c _ h3]
  rfl

theorem toSeconds_pos {t : Int} : 0 < toSeconds t ↔ 1000000000 ≤ t := by
  have hb : t = 1000000000 * t.tdiv 1000000000 + t.tmod 1000000000 :=
    (Int.mul_tdiv_add_tmod t _).symm
  unfold toSeconds nsPerSec
  rcases Int.le_total 0 t with h | h
  · have h2 := Int.tmod_nonneg 1000000000 h
    have h4 := Int.tmod_lt_of_pos t (b := 1000000000) (by decide)
    omega
  · have h3 : t.tdiv 1000000000 ≤ 0 := by
      have := Int.tdiv_nonneg (a := -t) (b := 1000000000) (by omega) (by decide)
      rw [Int.neg_tdiv] at this; omega
    omega

/-- C38: a ticket is accepted as resumption exactly when it decrypts, decodes, and at least one
whole second of the handshake's validity is left; the state handed on is the decoded one.  In every
other case it is rejected with no state (for decoded states whose times are representable). -/
theorem C38_accept_iff (A : TokenAlg) (c : TicketCipher) (now : Int) (ticket : Bytes)
    (plaintext : Option Bytes) (hd : c.tokenCipher.decrypt A ticket none = .ok plaintext)
    (hok : ∀ pt, plaintext = some pt → ∀ why, decode c.factory c.certManager pt ≠ .error (.ub why) ∧
      decode c.factory c.certManager pt ≠ .error .abort)
    (hrep : ∀ pt s, plaintext = some pt → decode c.factory c.certManager pt = .ok s →
      Representable c.policy now s) :
    (∀ s, c.decrypt A now ticket = .ok (.resumption, some s) ↔
      ∃ pt, plaintext = some pt ∧ decode c.factory c.certManager pt = .ok s ∧
        1000000000 ≤ s.handshakeTime + c.policy.handshakeValidity * 1000000000 - now) ∧
    ((∃ s, c.decrypt A now ticket = .ok (.resumption, some s)) ∨
      c.decrypt A now ticket = .ok (.rejected, none)) := by
  unfold TicketCipher.decrypt
  rw [hd]
  cases plaintext with
  | none => simp
  | some pt =>
    simp only [Res.ok_bind]
    have hok := hok pt rfl
    cases hdec : decode c.factory c.certManager pt with
    | error e =>
      cases e with
      | ub why => exact absurd hdec (hok why).1
      | abort => exact absurd hdec (hok "").2
      | _ => simp [hdec]
    | ok s =>
      have hr := hrep pt s rfl hdec
      simp only [TicketPolicy.shouldAccept, getValidity_eq hr, Res.ok_bind, Res.pure_eq]
      by_cases hp : 0 < toSeconds (leftNs c.policy now s)
      · have := toSeconds_pos.mp hp
        simp only [gt_iff_lt, hp, decide_true, if_true]
        refine ⟨fun s' => ?_, Or.inl ⟨s, rfl⟩⟩
        constructor
        · intro h; cases h; exact ⟨pt, rfl, hdec, this⟩
        · rintro ⟨pt', h, h', _⟩
          cases h; rw [hdec] at h'; cases h'; rfl
      · have := fun h => hp (toSeconds_pos.mpr h)
        simp only [gt_iff_lt, hp, decide_false, Bool.false_eq_true, if_false]
        refine ⟨fun s' => ?_, Or.inr trivial⟩
        constructor
        · intro h; cases h
        · rintro ⟨pt', h, h', h2⟩
          cases h; rw [hdec] at h'; cases h'; exact absurd h2 this

/-- C38: an issued ticket has a positive lifetime that does not exceed what is left of the handshake
validity, nor the configured handshake and ticket validities; it is never issued when less than one
second is left. -/
theorem C38_lifetime (A : TokenAlg) (c : TicketCipher) (now : Int) (salt : Bytes)
    (s : ResumptionState) (ticket : Bytes) (lifetime : Int) (hrep : Representable c.policy now s)
    (h : c.encrypt A now salt s = .ok (some (ticket, lifetime))) :
    0 < lifetime ∧ lifetime ≤ c.policy.handshakeValidity ∧ lifetime ≤ c.policy.ticketValidity ∧
      now + lifetime * 1000000000 ≤
        s.handshakeTime + c.policy.handshakeValidity * 1000000000 := by
  unfold TicketCipher.encrypt TicketPolicy.remainingValidity at h
  simp only [getValidity_eq hrep, Res.ok_bind, Res.pure_eq] at h
  split at h
  · cases h
  next hpos =>
  rw [Res.bind_eq_ok] at h
  obtain ⟨e, _, h⟩ := h
  rw [Res.bind_eq_ok] at h
  obtain ⟨t, _, h⟩ := h
  cases t with
  | none => cases h
  | some t =>
    simp only [Except.ok.injEq, Option.some.injEq, Prod.mk.injEq] at h
    obtain ⟨rfl, rfl⟩ := h
    have hb := (toSeconds_bounds (leftNs c.policy now s)).1
    have hp : 0 < toSeconds (leftNs c.policy now s) := by omega
    have := toSeconds_pos.mp hp
    unfold nsPerSec at hb
    unfold leftNs at *
    refine ⟨by omega, by omega, by omega, ?_⟩
    omega

/-- C38: while secrets are in force and the state fits, a ticket is issued exactly when at least one
second is left under each of the three limits. -/
theorem C38_issues_iff (A : TokenAlg) (ok : A.Ok) (c : TicketCipher) (now : Int) (salt : Bytes)
    (s : ResumptionState) (hrep : Representable c.policy now s) (hfit : Fits c.storage s)
    (first : Bytes) (others : List Bytes) (hs : c.tokenCipher.secrets = first :: others)
    (hlen : first.length = A.hash.hashLen) :
    (∃ ticket lifetime, c.encrypt A now salt s = .ok (some (ticket, lifetime))) ↔
      (now + 1000000000 ≤ s.handshakeTime + c.policy.handshakeValidity * 1000000000 ∧
        1 ≤ c.policy.handshakeValidity ∧ 1 ≤ c.policy.ticketValidity) := by
  obtain ⟨e, he⟩ := (C17_encodes c.storage s).mpr hfit
  unfold TicketCipher.encrypt TicketPolicy.remainingValidity
  simp only [getValidity_eq hrep, Res.ok_bind, Res.pure_eq, he]
  have hp := toSeconds_pos (t := leftNs c.policy now s)
  have hl : leftNs c.policy now s =
    s.handshakeTime + c.policy.handshakeValidity * 1000000000 - now := rfl
  have htok : ∃ t, c.tokenCipher.encrypt A salt e none = .ok (some t) := by
    unfold TokenCipher.encrypt
    rw [hs]
    simp only [createAead_eq ok hlen, Res.ok_bind, Res.pure_eq]
    exact ⟨_, rfl⟩
  obtain ⟨t, ht⟩ := htok
  rw [ht]
  by_cases hle : min (min (toSeconds (leftNs c.policy now s)) c.policy.handshakeValidity)
      c.policy.ticketValidity ≤ 0
  · rw [if_pos hle]
    constructor
    · rintro ⟨_, _, h⟩; cases h
    · rintro ⟨h1, h2, h3⟩
      have := hp.mpr (by omega)
      omega
  · rw [if_neg hle]
    constructor
    · intro _
      have h1 : 0 < toSeconds (leftNs c.policy now s) := by omega
      have := hp.mp h1
      omega
    · intro _; exact ⟨_, _, rfl⟩

/-- C38 (finding): the configured ticket validity plays no role when a ticket comes back: whatever
it is set to, `decrypt` gives the same answer. -/
theorem C38_ticket_validity_not_enforced (A : TokenAlg) (c : TicketCipher) (now : Int)
    (ticket : Bytes) (validity : Int) :
    ({ c with policy := { c.policy with ticketValidity := validity } } : TicketCipher).decrypt A now
      ticket = c.decrypt A now ticket := rfl

/-- C38: the dual cipher rejects exactly when both ciphers reject; otherwise it gives the answer of
the primary, or, if that rejects, of the fallback.  New tickets come from the primary. -/
theorem C38_dual (primary fallback : Bytes → Res (PskType × Option ResumptionState))
    (ticket : Bytes) (a b : PskType × Option ResumptionState)
    (ha : primary ticket = .ok a) (hb : fallback ticket = .ok b) :
    (∃ r, dualDecrypt primary fallback ticket = .ok r ∧
      (r.1 = .rejected ↔ a.1 = .rejected ∧ b.1 = .rejected) ∧
      (a.1 ≠ .rejected → r = a) ∧ (a.1 = .rejected → r = b)) ∧
    ∀ (enc fb : ResumptionState → Res (Option (Bytes × Int))) (s : ResumptionState),
      dualEncrypt enc fb s = enc s := by
  refine ⟨?_, fun _ _ _ => rfl⟩
  unfold dualDecrypt
  rw [ha]
  simp only [Res.ok_bind, Res.pure_eq]
  by_cases h : a.1 = .rejected
  · rw [if_pos h]; exact ⟨b, hb, by simp [h], fun hn => absurd h hn, fun _ => rfl⟩
  · rw [if_neg h]; exact ⟨a, rfl, by simp [h], fun _ => rfl, fun hn => absurd hn h⟩

/-- C38/C17/C16 end to end: a ticket issued at `t0` by one server and presented at `t1` to another
server that still has the issuing secret (no other secret of the second server accepting the ticket
by accident) is accepted iff a whole second of handshake validity is left, and then yields the
issuer's session. -/
theorem C38_resumes (A : TokenAlg) (ok : A.Ok) (storage : Storage) (psk : Option Bytes)
    (f1 f2 : CertFactory) (m1 m2 : CertManager.Manager) (p1 p2 : TicketPolicy)
    (parsed : Bytes → ClientCert)
    (calls1 calls2 : List (List Bytes)) (first : Bytes) (others newer older : List Bytes)
    (hi : Spec.installed calls1 [] = first :: others)
    (hr : Spec.installed calls2 [] = newer ++ first :: older)
    (salt : Bytes) (hsalt : salt.length = A.hash.hashLen)
    (s : ResumptionState) (t0 t1 : Int) (ticket : Bytes) (lifetime : Int)
    (hp : ∀ c der, s.clientCert = some c → c.der = some der → storage = .x509 →
      f2.peerCert der = .ok (parsed der))
    (ht : InI64 s.ticketIssueTime) (hh : InI64 s.handshakeTime)
    (tc1 tc2 : TokenCipher)
    (h1 : (TokenCipher.make (ticketLabel :: psk.toList)).afterCalls A calls1 = .ok tc1)
    (h2 : (TokenCipher.make (ticketLabel :: psk.toList)).afterCalls A calls2 = .ok tc2)
    (hissue : (TicketCipher.mk tc1 p1 storage f1 m1).encrypt A t0 salt s =
      .ok (some (ticket, lifetime)))
    (hauth : ∀ s' ∈ newer,
      Spec.contextual A.hash.spec (ticketLabel :: psk.toList) s' ≠
        Spec.contextual A.hash.spec (ticketLabel :: psk.toList) first →
      A.tryOpen
        (Spec.aeadKey A A.hash.spec (Spec.contextual A.hash.spec (ticketLabel :: psk.toList) s') salt)
        (Spec.aeadIv A A.hash.spec (Spec.contextual A.hash.spec (ticketLabel :: psk.toList) s') salt)
        0 none (ticket.drop (A.hash.hashLen + 4)) = none)
    (hrep : Representable p2 t1 { s with handshakeTime := wholeSeconds s.handshakeTime }) :
    (TicketCipher.mk tc2 p2 storage f2 m2).decrypt A t1 ticket = .ok
      (if 1000000000 ≤ wholeSeconds s.handshakeTime + p2.handshakeValidity * 1000000000 - t1 then
        (.resumption, some
          { s with
            serverCert := CertManager.getCertByIdentity m2 (match s.serverCert with
              | some c => c.identity
              | none => [])
            clientCert := storedCert parsed storage s.clientCert
            alpn := normAlpn s.alpn
            ticketIssueTime := wholeSeconds s.ticketIssueTime
            handshakeTime := wholeSeconds s.handshakeTime })
      else (.rejected, none)) := by
  -- open the issuing call
  unfold TicketCipher.encrypt at hissue
  rw [Res.bind_eq_ok] at hissue
  obtain ⟨v, _, hissue⟩ := hissue
  simp only [Res.pure_eq] at hissue
  split at hissue
  · cases hissue
  rw [Res.bind_eq_ok] at hissue
  obtain ⟨e, he, hissue⟩ := hissue
  rw [Res.bind_eq_ok] at hissue
  obtain ⟨tok, htok, hissue⟩ := hissue
  cases tok with
  | none => cases hissue
  | some tok =>
  simp only [Except.ok.injEq, Option.some.injEq, Prod.mk.injEq] at hissue
  obtain ⟨rfl, -⟩ := hissue
  obtain ⟨i, r, token, g1, g2, g3, g4⟩ := C16_rotation A ok (ticketLabel :: psk.toList) calls1 calls2
    first others newer older hi hr (fun _ _ => Or.inl (by simp)) salt e hsalt none
  rw [h1] at g1; cases g1
  rw [h2] at g2; cases g2
  rw [htok] at g3; cases g3
  have g5 := g4 hauth
  have hdec := C17_roundtrip f2 m2 parsed storage s e hp ht hh he
  unfold TicketCipher.decrypt
  rw [g5]
  simp only [Res.ok_bind]
  rw [hdec]
  simp only [TicketPolicy.shouldAccept]
  have gv : ∀ st : ResumptionState, st.handshakeTime = wholeSeconds s.handshakeTime →
      p2.getValidity t1 st = .ok (toSeconds
        (leftNs p2 t1 { s with handshakeTime := wholeSeconds s.handshakeTime })) := by
    intro st hst
    have hl : leftNs p2 t1 st =
        leftNs p2 t1 { s with handshakeTime := wholeSeconds s.handshakeTime } := by
      simp only [leftNs, hst]
    rw [← hl]
    refine getValidity_eq ⟨hrep.validity, ?_, ?_⟩
    · rw [hst]; exact hrep.expiry
    · rw [hl]; exact hrep.left
  rw [gv _ rfl]
  simp only [Res.ok_bind, Res.pure_eq]
  have hp := toSeconds_pos (t := leftNs p2 t1 { s with handshakeTime := wholeSeconds s.handshakeTime })
  change _ ↔ 1000000000 ≤ wholeSeconds s.handshakeTime + p2.handshakeValidity * 1000000000 - t1
    at hp
  by_cases hc : 1000000000 ≤ wholeSeconds s.handshakeTime + p2.handshakeValidity * 1000000000 - t1
  · rw [if_pos hc, if_pos (decide_eq_true (hp.mpr hc))]
    cases s.serverCert <;> rfl
  · rw [if_neg hc, if_neg fun h => hc (hp.mp (of_decide_eq_true h))]

/-! ## A concrete ticket: issued, resumed two hours later (although the ticket validity is one hour)
and rejected after three days -/

/-- Cipher with one secret. -/
def sampleCipher : TicketCipher :=
  ⟨⟨[[1, 2]], [ticketLabel]⟩, {}, .identityOnly, sampleFactory,
    CertManager.build [(⟨0, [115], [], [0x0804]⟩, true)]⟩

set_option maxRecDepth 40000 in
example : ∃ ticket,
    sampleCipher.encrypt toyTokenAlg 1700000000123456789 [5, 6] sampleState =
      .ok (some (ticket, 3600)) ∧
    ((sampleCipher.decrypt toyTokenAlg (1700000000123456789 + 7200 * 1000000000) ticket).map
      fun r => (r.1, r.2.map (·.resumptionSecret))) = .ok (.resumption, some [1, 2, 3]) ∧
    sampleCipher.decrypt toyTokenAlg (1700000000123456789 + 259200 * 1000000000) ticket =
      .ok (.rejected, none) ∧
    Representable sampleCipher.policy 1700000000123456789 sampleState := by
  refine ⟨_, rfl, ?_, ?_, ⟨?_, ?_, ?_⟩⟩ <;> decide

end Fizz.Ticket

import Verif.Ticket.TicketCodec
import Verif.Codec.PrimLemmas

/-! # C17: session tickets decode to the state they encode -/

namespace Fizz.Ticket
open Fizz.Codec Fizz.Time

/-! ## Specification -/

/-- A time in whole seconds: what is left of it after a round trip. -/
def wholeSeconds (t : Int) : Int := t.tdiv 1000000000 * 1000000000

/-- ALPN: an empty protocol name and no protocol name are the same thing on the wire. -/
def normAlpn : Option Bytes → Option Bytes
  | some [] => none
  | a => a

/-- The client certificate the reader of a ticket gets for each storage mode. -/
def storedCert (parsed : Bytes → ClientCert) : Storage → Option ClientCert → Option ClientCert
  | .none, _ => none
  | _, none => none
  | .x509, some ⟨_, some der⟩ => some (parsed der)
  | .x509, some ⟨ident, none⟩ => some ⟨ident, none⟩
  | .identityOnly, some ⟨ident, _⟩ => some ⟨ident, none⟩

/-- All the variable parts fit their length prefix. -/
structure Fits (storage : Storage) (s : ResumptionState) : Prop where
  secret : s.resumptionSecret.length < 2 ^ 16
  server : ∀ c, s.serverCert = some c → c.identity.length < 2 ^ 16
  client : ∀ c, s.clientCert = some c → storage ≠ .none →
    (match storage, c.der with
      | .x509, some der => der.length
      | _, _ => c.identity.length) < 2 ^ 16
  alpn : ∀ a, s.alpn = some a → a.length < 2 ^ 8
  token : s.appToken.length < 2 ^ 16

/-! ## Helpers -/

theorem liftRes_eq_ok {α} {r : Res α} {inp a rest} :
    liftRes r inp = .ok (a, rest) ↔ r = .ok a ∧ rest = inp := by
  unfold liftRes
  cases r <;> simp [eq_comm]

/-- Wire form of the client certificate. -/
def certWire : Storage → Option ClientCert → Bytes
  | .none, _ => [0]
  | _, none => [0]
  | .x509, some ⟨_, some der⟩ => 1 :: vec .u16 der
  | .x509, some ⟨ident, none⟩ => 2 :: vec .u16 ident
  | .identityOnly, some ⟨ident, _⟩ => 2 :: vec .u16 ident

theorem appendClientCertificate_ok {storage cert bs} :
    appendClientCertificate storage cert = .ok bs → bs = certWire storage cert ∧
      (∀ c, cert = some c → storage ≠ .none →
        (match storage, c.der with
          | .x509, some der => der.length
          | _, _ => c.identity.length) < 2 ^ 16) := by
  intro h
  rcases cert with _ | ⟨ident, der⟩
  · cases storage <;> simp [appendClientCertificate, writeU8, certWire] at h ⊢ <;> rw [← h] <;> rfl
  · cases storage with
    | none => simp [appendClientCertificate, writeU8, certWire] at h ⊢; rw [← h]; rfl
    | x509 =>
      cases der with
      | none =>
        simp only [appendClientCertificate, writeU8, Res.ok_bind, Res.bind_eq_ok, writeBuf_eq_ok,
          Res.pure_eq, Except.ok.injEq] at h
        obtain ⟨_, ⟨h1, rfl⟩, rfl⟩ := h
        refine ⟨rfl, ?_⟩
        rintro c ⟨⟩ _
        simpa [Width.bytes] using h1
      | some der =>
        simp only [appendClientCertificate, writeU8, Res.ok_bind, Res.bind_eq_ok, writeBuf_eq_ok,
          Res.pure_eq, Except.ok.injEq] at h
        obtain ⟨_, ⟨h1, rfl⟩, rfl⟩ := h
        refine ⟨rfl, ?_⟩
        rintro c ⟨⟩ _
        simpa [Width.bytes] using h1
    | identityOnly =>
      simp only [appendClientCertificate, writeU8, Res.ok_bind, Res.bind_eq_ok, writeBuf_eq_ok,
          Res.pure_eq, Except.ok.injEq] at h
      obtain ⟨_, ⟨h1, rfl⟩, rfl⟩ := h
      refine ⟨rfl, ?_⟩
      rintro c ⟨⟩ _
      simpa [Width.bytes] using h1

/-- The part of a ticket up to the ALPN. -/
def baseWire (storage : Storage) (s : ResumptionState) : Bytes :=
  beEnc 2 s.version.toNat ++ (beEnc 2 s.cipher.toNat ++ (vec .u16 s.resumptionSecret ++
    (vec .u16 (selfIdentity s) ++ (certWire storage s.clientCert ++ (beEnc 4 s.ticketAgeAdd.toNat ++
      (beEnc 8 (toU64 (toSeconds s.ticketIssueTime)).toNat ++ vec .u8 (s.alpn.getD [])))))))

theorem encode_ok {storage s e} (h : encode storage s = .ok e) :
    Fits storage s ∧
    e = baseWire storage s ++ (vec .u16 s.appToken ++
      beEnc 8 (toU64 (toSeconds s.handshakeTime)).toNat) := by
  simp only [encode, writeU16, writeU32, writeU64, Res.ok_bind, Res.bind_eq_ok, writeBuf_eq_ok,
    Res.pure_eq, Except.ok.injEq] at h
  obtain ⟨b3, ⟨h3, rfl⟩, b4, ⟨h4, rfl⟩, b5, h5, b8, h8, b9, ⟨h9, rfl⟩, rfl⟩ := h
  obtain ⟨rfl, hc⟩ := appendClientCertificate_ok h5
  have h8' : b8 = vec .u8 (s.alpn.getD []) ∧ ∀ a, s.alpn = some a → a.length < 2 ^ 8 := by
    cases ha : s.alpn with
    | none =>
      rw [ha, writeAlpn] at h8; rw [writeBuf_eq_ok] at h8; exact ⟨h8.2, by simp⟩
    | some a =>
      rw [ha, writeAlpn] at h8; rw [writeBuf_eq_ok] at h8
      exact ⟨h8.2, by rintro _ ⟨⟩; simpa [Width.bytes] using h8.1⟩
  obtain ⟨rfl, ha⟩ := h8'
  refine ⟨⟨by simpa [Width.bytes] using h3, ?_, hc, ha, by simpa [Width.bytes] using h9⟩, ?_⟩
  · intro c hc
    rw [selfIdentity, hc] at h4
    simpa [Width.bytes] using h4
  · simp only [baseWire, List.append_assoc]

theorem readClientCertificate_wire (f : CertFactory) (parsed : Bytes → ClientCert)
    (storage : Storage) (cert : Option ClientCert) (rest : Bytes)
    (hp : ∀ c der, cert = some c → c.der = some der → storage = .x509 →
      f.peerCert der = .ok (parsed der))
    (hf : ∀ c, cert = some c → storage ≠ .none →
        (match storage, c.der with
          | .x509, some der => der.length
          | _, _ => c.identity.length) < 2 ^ 16) :
    readClientCertificate f (certWire storage cert ++ rest) =
      .ok (storedCert parsed storage cert, rest) := by
  have z : ∀ (b : UInt8) (x : Bytes), readU8 (b :: x) = .ok ((b, 1), x) := by
    intro b x; rw [readU8_eq_ok]
    refine ⟨?_, rfl⟩
    simp [beEnc]
  unfold readClientCertificate
  rcases cert with _ | ⟨ident, der⟩
  · rw [Rd.bind_eq_ok]
    refine ⟨(0, 1), rest, ?_, ?_⟩
    · cases storage <;> exact z 0 rest
    · cases storage <;> simp [storedCert]
  · cases storage with
    | none =>
      rw [Rd.bind_eq_ok]
      exact ⟨(0, 1), rest, z 0 rest, by simp [storedCert]⟩
    | identityOnly =>
      have h := hf _ rfl (by simp)
      rw [Rd.bind_eq_ok]
      refine ⟨(2, 1), vec .u16 ident ++ rest, z 2 _, ?_⟩
      simp only [show (2 : UInt8) ≠ 0 by decide, show (2 : UInt8) ≠ 1 by decide, if_false, if_true]
      rw [Rd.bind_eq_ok]
      exact ⟨(ident, _), rest, readBuf_eq_ok.mpr ⟨by simpa [Width.bytes] using h, rfl, rfl⟩,
        by simp [storedCert, makeIdentityOnlyCert]⟩
    | x509 =>
      cases der with
      | none =>
        have h := hf _ rfl (by simp)
        rw [Rd.bind_eq_ok]
        refine ⟨(2, 1), vec .u16 ident ++ rest, z 2 _, ?_⟩
        simp only [show (2 : UInt8) ≠ 0 by decide, show (2 : UInt8) ≠ 1 by decide, if_false,
          if_true]
        rw [Rd.bind_eq_ok]
        exact ⟨(ident, _), rest, readBuf_eq_ok.mpr ⟨by simpa [Width.bytes] using h, rfl, rfl⟩,
          by simp [storedCert, makeIdentityOnlyCert]⟩
      | some der =>
        have h := hf _ rfl (by simp)
        have hp' := hp _ der rfl rfl rfl
        rw [Rd.bind_eq_ok]
        refine ⟨(1, 1), vec .u16 der ++ rest, z 1 _, ?_⟩
        simp only [show (1 : UInt8) ≠ 0 by decide, if_false, if_true]
        rw [Rd.bind_eq_ok]
        refine ⟨(der, _), rest, readBuf_eq_ok.mpr ⟨by simpa [Width.bytes] using h, rfl, rfl⟩, ?_⟩
        rw [Rd.bind_eq_ok]
        exact ⟨parsed der, rest, liftRes_eq_ok.mpr ⟨hp', rfl⟩, by simp [storedCert]⟩

/-- The state read back from the fields every ticket has. -/
def restoredBase (parsed : Bytes → ClientCert) (mgr : CertManager.Manager) (storage : Storage)
    (s : ResumptionState) : ResumptionState :=
  { version := s.version
    cipher := s.cipher
    resumptionSecret := s.resumptionSecret
    serverCert := CertManager.getCertByIdentity mgr (selfIdentity s)
    clientCert := storedCert parsed storage s.clientCert
    alpn := normAlpn s.alpn
    ticketAgeAdd := s.ticketAgeAdd
    ticketIssueTime := wholeSeconds s.ticketIssueTime
    appToken := []
    handshakeTime := wholeSeconds s.ticketIssueTime }

theorem readBase_wire (f : CertFactory) (mgr : CertManager.Manager) (parsed : Bytes → ClientCert)
    (storage : Storage) (s : ResumptionState) (rest : Bytes) (hf : Fits storage s)
    (hp : ∀ c der, s.clientCert = some c → c.der = some der → storage = .x509 →
      f.peerCert der = .ok (parsed der))
    (ht : InI64 s.ticketIssueTime) :
    readBase f mgr (baseWire storage s ++ rest) =
      .ok (restoredBase parsed mgr storage s, rest) := by
  unfold readBase baseWire
  simp only [List.append_assoc]
  rw [Rd.bind_eq_ok]
  refine ⟨(s.version, 2), _, readU16_eq_ok.mpr ⟨rfl, rfl⟩, ?_⟩
  rw [Rd.bind_eq_ok]
  refine ⟨(s.cipher, 2), _, readU16_eq_ok.mpr ⟨rfl, rfl⟩, ?_⟩
  rw [Rd.bind_eq_ok]
  refine ⟨(s.resumptionSecret, _), _, readBuf_eq_ok.mpr
    ⟨by simpa [Width.bytes] using hf.secret, rfl, rfl⟩, ?_⟩
  rw [Rd.bind_eq_ok]
  refine ⟨(selfIdentity s, _), _, readBuf_eq_ok.mpr ⟨?_, rfl, rfl⟩, ?_⟩
  · unfold selfIdentity
    cases hc : s.serverCert with
    | none => simp [Width.bytes]
    | some c => simpa [Width.bytes] using hf.server c hc
  rw [Rd.bind_eq_ok]
  refine ⟨_, _, readClientCertificate_wire f parsed storage s.clientCert _ hp hf.client, ?_⟩
  rw [Rd.bind_eq_ok]
  refine ⟨(s.ticketAgeAdd, 4), _, readU32_eq_ok.mpr ⟨rfl, rfl⟩, ?_⟩
  rw [Rd.bind_eq_ok]
  refine ⟨(toU64 (toSeconds s.ticketIssueTime), 8), _, readU64_eq_ok.mpr ⟨rfl, rfl⟩, ?_⟩
  rw [Rd.bind_eq_ok]
  refine ⟨(s.alpn.getD [], _), rest, readBuf_eq_ok.mpr ⟨?_, rfl, rfl⟩, ?_⟩
  · cases ha : s.alpn with
    | none => simp [Width.bytes]
    | some a => simpa [Width.bytes] using hf.alpn a ha
  rw [Rd.bind_eq_ok]
  refine ⟨_, _, liftRes_eq_ok.mpr ⟨fromSeconds_toSeconds ht, rfl⟩, ?_⟩
  rw [Rd.pure_eq_ok]
  refine ⟨?_, rfl⟩
  simp only [restoredBase, wholeSeconds, toSeconds, nsPerSec, ResumptionState.mk.injEq, true_and,
    and_true]
  cases s.alpn with
  | none => rfl
  | some a => cases a <;> rfl

/-! ### Truncation: a reader run on a prefix either stops at the end of input or does the same -/

/-- On a prefix of an input it can read, the reader either does the same or runs out of input. -/
def Truncatable {α} (rd : Rd α) : Prop :=
  ∀ p x a r, rd (p ++ x) = .ok (a, r) →
    (∃ r', rd p = .ok (a, r') ∧ r = r' ++ x) ∨ rd p = .error .outOfRange

theorem Truncatable.pure {α} (a : α) : Truncatable (pure a) := by
  intro p x b r h
  rw [Rd.pure_eq_ok] at h
  obtain ⟨rfl, rfl⟩ := h
  exact Or.inl ⟨p, rfl, rfl⟩

theorem Truncatable.pull (n : Nat) : Truncatable (pull n) := by
  intro p x b r h
  rw [pull_eq_ok] at h
  obtain ⟨rfl, h⟩ := h
  by_cases hl : b.length ≤ p.length
  · left
    have : p = b ++ p.drop b.length := by
      have := congrArg (List.take b.length) h
      rw [List.take_append_of_le_length hl, List.take_left] at this
      conv => lhs; rw [← List.take_append_drop b.length p, this]
    refine ⟨p.drop b.length, pull_eq_ok.mpr ⟨rfl, this⟩, ?_⟩
    rw [this] at h
    simpa using h.symm
  · right; rw [pull_eq_error]; exact ⟨by omega, rfl⟩

theorem Truncatable.bind {α β} {m : Rd α} {f : α → Rd β} (hm : Truncatable m)
    (hf : ∀ a, Truncatable (f a)) : Truncatable (m >>= f) := by
  intro p x b r h
  rw [Rd.bind_eq_ok] at h
  obtain ⟨a, r1, h1, h2⟩ := h
  rcases hm p x a r1 h1 with ⟨r', h3, rfl⟩ | h3
  · rcases hf a r' x b r h2 with ⟨r'', h4, h5⟩ | h4
    · exact Or.inl ⟨r'', Rd.bind_eq_ok.mpr ⟨a, r', h3, h4⟩, h5⟩
    · exact Or.inr (Rd.bind_eq_error.mpr (Or.inr ⟨a, r', h3, h4⟩))
  · exact Or.inr (Rd.bind_eq_error.mpr (Or.inl h3))

theorem Truncatable.readBE (n) : Truncatable (readBE n) :=
  .bind (.pull n) fun _ => .pure _
theorem Truncatable.readBuf (w) : Truncatable (readBuf w) :=
  .bind (.readBE _) fun _ => .bind (.pull _) fun _ => .pure _
theorem Truncatable.readU8 : Truncatable readU8 := .bind (.readBE _) fun _ => .pure _
theorem Truncatable.readU16 : Truncatable readU16 := .bind (.readBE _) fun _ => .pure _
theorem Truncatable.readU32 : Truncatable readU32 := .bind (.readBE _) fun _ => .pure _
theorem Truncatable.readU64 : Truncatable readU64 := .bind (.readBE _) fun _ => .pure _
theorem Truncatable.liftRes {α} (r : Res α) : Truncatable (liftRes r) := by
  intro p x a s h
  rw [liftRes_eq_ok] at h
  exact Or.inl ⟨p, liftRes_eq_ok.mpr ⟨h.1, rfl⟩, h.2⟩

theorem Truncatable.readClientCertificate (f) : Truncatable (readClientCertificate f) := by
  refine .bind .readU8 fun s => ?_
  obtain ⟨s, n⟩ := s
  show Truncatable (if s = 0 then _ else if s = 1 then _ else if s = 2 then _ else _)
  by_cases h0 : s = 0
  · rw [if_pos h0]; exact .pure _
  rw [if_neg h0]
  by_cases h1 : s = 1
  · rw [if_pos h1]
    exact .bind (.readBuf _) fun _ => .bind (.liftRes _) fun _ => .pure _
  rw [if_neg h1]
  by_cases h2 : s = 2
  · rw [if_pos h2]
    exact .bind (.readBuf _) fun _ => .pure _
  · rw [if_neg h2]; exact .pure _

theorem Truncatable.readBase (f m) : Truncatable (readBase f m) :=
  .bind .readU16 fun _ => .bind .readU16 fun _ => .bind (.readBuf _) fun _ =>
    .bind (.readBuf _) fun _ => .bind (.readClientCertificate f) fun _ => .bind .readU32 fun _ =>
    .bind .readU64 fun _ => .bind (.readBuf _) fun _ => .bind (.liftRes _) fun _ => .pure _

/-! ## The theorems -/

/-- C17: encoding succeeds exactly when every variable part fits its length prefix. -/
theorem C17_encodes (storage : Storage) (s : ResumptionState) :
    (∃ e, encode storage s = .ok e) ↔ Fits storage s := by
  constructor
  · rintro ⟨e, h⟩; exact (encode_ok h).1
  · intro hf
    have hw : ∀ (w : Width) (b : Bytes), b.length < 256 ^ w.bytes → writeBuf w b = .ok (vec w b) :=
      fun w b h => writeBuf_eq_ok.mpr ⟨h, rfl⟩
    have h3 := hw .u16 s.resumptionSecret (by simpa [Width.bytes] using hf.secret)
    have h9 := hw .u16 s.appToken (by simpa [Width.bytes] using hf.token)
    have h4 := hw .u16 (selfIdentity s) (by
      unfold selfIdentity
      cases hc : s.serverCert with
      | none => simp [Width.bytes]
      | some c => simpa [Width.bytes] using hf.server c hc)
    have h5 : ∃ b, appendClientCertificate storage s.clientCert = .ok b := by
      cases hc : s.clientCert with
      | none => cases storage <;> exact ⟨_, rfl⟩
      | some c =>
        have hcl := hf.client c hc
        obtain ⟨ident, der⟩ := c
        cases storage with
        | none => exact ⟨_, rfl⟩
        | identityOnly =>
          have := hw .u16 ident (by simpa [Width.bytes] using hcl (by simp))
          exact ⟨_, by simp [appendClientCertificate, writeU8, this]; rfl⟩
        | x509 =>
          cases der with
          | none =>
            have := hw .u16 ident (by simpa [Width.bytes] using hcl (by simp))
            exact ⟨_, by simp [appendClientCertificate, writeU8, this]; rfl⟩
          | some der =>
            have := hw .u16 der (by simpa [Width.bytes] using hcl (by simp))
            exact ⟨_, by simp [appendClientCertificate, writeU8, this]; rfl⟩
    obtain ⟨b5, h5⟩ := h5
    unfold encode
    simp only [writeU16, writeU32, writeU64, Res.ok_bind]
    rw [h3, h4, h5]
    simp only [Res.ok_bind, h9]
    unfold writeAlpn
    cases ha : s.alpn with
    | none =>
      have := hw .u8 [] (by simp [Width.bytes])
      exact ⟨_, by simp [this]; rfl⟩
    | some a =>
      have := hw .u8 a (by simpa [Width.bytes] using hf.alpn a ha)
      exact ⟨_, by simp [this]; rfl⟩

/-- C17: a ticket decodes to the state it was made from: the same version, cipher, secret, age add,
app token and ALPN (no name and the empty name identified), both times in whole seconds, the server
certificate the reader's manager has under the stored identity, and the client certificate according
to the storage mode (`parsed` is what the reader's factory makes of a stored DER certificate). -/
theorem C17_roundtrip (f : CertFactory) (mgr : CertManager.Manager) (parsed : Bytes → ClientCert)
    (storage : Storage) (s : ResumptionState) (e : Bytes)
    (hp : ∀ c der, s.clientCert = some c → c.der = some der → storage = .x509 →
      f.peerCert der = .ok (parsed der))
    (ht : InI64 s.ticketIssueTime) (hh : InI64 s.handshakeTime)
    (he : encode storage s = .ok e) :
    decode f mgr e = .ok
      { version := s.version
        cipher := s.cipher
        resumptionSecret := s.resumptionSecret
        serverCert := CertManager.getCertByIdentity mgr (match s.serverCert with
          | some c => c.identity
          | none => [])
        clientCert := storedCert parsed storage s.clientCert
        alpn := normAlpn s.alpn
        ticketAgeAdd := s.ticketAgeAdd
        ticketIssueTime := wholeSeconds s.ticketIssueTime
        appToken := s.appToken
        handshakeTime := wholeSeconds s.handshakeTime } := by
  obtain ⟨hf, rfl⟩ := encode_ok he
  unfold decode
  rw [readBase_wire f mgr parsed storage s _ hf hp ht]
  have h1 := readBuf_eq_ok (w := .u16) (inp := vec .u16 s.appToken ++
      beEnc 8 (toU64 (toSeconds s.handshakeTime)).toNat) (b := s.appToken)
      (n := 2 + s.appToken.length) (rest := beEnc 8 (toU64 (toSeconds s.handshakeTime)).toNat)
      |>.mpr ⟨by simpa [Width.bytes] using hf.token, rfl, rfl⟩
  have h2 := readU64_eq_ok (inp := beEnc 8 (toU64 (toSeconds s.handshakeTime)).toNat)
      (v := toU64 (toSeconds s.handshakeTime)) (n := 8) (rest := []) |>.mpr ⟨by simp, rfl⟩
  have e1 : (vec .u16 s.appToken ++ beEnc 8 (toU64 (toSeconds s.handshakeTime)).toNat).isEmpty
      = false := by
    rw [List.isEmpty_eq_false_iff]
    intro h; have := congrArg List.length h; simp at this
  have e2 : (beEnc 8 (toU64 (toSeconds s.handshakeTime)).toNat).isEmpty = false := by
    rw [List.isEmpty_eq_false_iff]
    intro h; have := congrArg List.length h; simp at this
  simp only [e1, Bool.false_eq_true, if_false, h1, e2, h2, fromSeconds_toSeconds hh]
  rfl

/-- C17: tickets from before the app token, or from before the handshake time, existed decode with
the missing fields defaulted: no app token, handshake time = issue time.  `old` is any ticket cut
right behind its ALPN, `older` any ticket cut right behind its app token. -/
theorem C17_old_formats (f : CertFactory) (mgr : CertManager.Manager)
    (parsed : Bytes → ClientCert) (storage : Storage) (s : ResumptionState) (e : Bytes)
    (hp : ∀ c der, s.clientCert = some c → c.der = some der → storage = .x509 →
      f.peerCert der = .ok (parsed der))
    (ht : InI64 s.ticketIssueTime) (hh : InI64 s.handshakeTime)
    (he : encode storage s = .ok e) :
    ∃ full noToken noTime token time,
      decode f mgr e = .ok full ∧
      e = noToken ++ token ++ time ∧ token.length = 2 + s.appToken.length ∧ time.length = 8 ∧
      noTime = noToken ++ token ∧
      decode f mgr noTime = .ok { full with handshakeTime := full.ticketIssueTime } ∧
      decode f mgr noToken =
        .ok { full with handshakeTime := full.ticketIssueTime, appToken := [] } := by
  have hfull := C17_roundtrip f mgr parsed storage s e hp ht hh he
  obtain ⟨hf, rfl⟩ := encode_ok he
  refine ⟨_, baseWire storage s, baseWire storage s ++ vec .u16 s.appToken, vec .u16 s.appToken,
    beEnc 8 (toU64 (toSeconds s.handshakeTime)).toNat, hfull, by simp, by simp [Width.bytes],
    by simp, rfl, ?_, ?_⟩
  · unfold decode
    rw [readBase_wire f mgr parsed storage s _ hf hp ht]
    have h1 := readBuf_eq_ok (w := .u16) (inp := vec .u16 s.appToken) (b := s.appToken)
      (n := 2 + s.appToken.length) (rest := [])
      |>.mpr ⟨by simpa [Width.bytes] using hf.token, by simp, rfl⟩
    have e1 : (vec .u16 s.appToken).isEmpty = false := by
      rw [List.isEmpty_eq_false_iff]
      intro h; have := congrArg List.length h; simp [Width.bytes] at this
    simp only [e1, Bool.false_eq_true, if_false, h1]
    rfl
  · unfold decode
    have := readBase_wire f mgr parsed storage s [] hf hp ht
    rw [List.append_nil] at this
    rw [this]
    rfl

/-- C17: every other truncation of a ticket is rejected with `std::out_of_range`. -/
theorem C17_truncated (f : CertFactory) (mgr : CertManager.Manager)
    (parsed : Bytes → ClientCert) (storage : Storage) (s : ResumptionState) (e p x : Bytes)
    (hp : ∀ c der, s.clientCert = some c → c.der = some der → storage = .x509 →
      f.peerCert der = .ok (parsed der))
    (ht : InI64 s.ticketIssueTime) (he : encode storage s = .ok e) (hsplit : e = p ++ x)
    (hx : x.length ≠ 0) (hx1 : x.length ≠ 8) (hx2 : x.length ≠ 8 + 2 + s.appToken.length) :
    decode f mgr p = .error .outOfRange := by
  obtain ⟨hf, rfl⟩ := encode_ok he
  have hb := readBase_wire f mgr parsed storage s (vec .u16 s.appToken ++
      beEnc 8 (toU64 (toSeconds s.handshakeTime)).toNat) hf hp ht
  rw [hsplit] at hb
  unfold decode
  rcases Truncatable.readBase f mgr p x _ _ hb with ⟨r', h1, h2⟩ | h1
  · rw [h1]
    simp only
    have hr : r'.isEmpty = false := by
      rw [List.isEmpty_eq_false_iff]
      rintro rfl
      have := congrArg List.length h2
      simp [Width.bytes] at this; omega
    rw [hr]
    simp only [Bool.false_eq_true, if_false]
    have hb2 := readBuf_eq_ok (w := .u16) (inp := vec .u16 s.appToken ++
      beEnc 8 (toU64 (toSeconds s.handshakeTime)).toNat) (b := s.appToken)
      (n := 2 + s.appToken.length) (rest := beEnc 8 (toU64 (toSeconds s.handshakeTime)).toNat)
      |>.mpr ⟨by simpa [Width.bytes] using hf.token, rfl, rfl⟩
    rw [h2] at hb2
    rcases Truncatable.readBuf .u16 r' x _ _ hb2 with ⟨r2, h3, h4⟩ | h3
    · rw [h3]
      simp only
      have hlen := congrArg List.length h4
      simp only [beEnc_length, List.length_append] at hlen
      have hr2 : r2.isEmpty = false := by
        rw [List.isEmpty_eq_false_iff]
        rintro rfl
        simp at hlen; omega
      rw [hr2]
      simp only [Bool.false_eq_true, if_false]
      have : readU64 r2 = .error .outOfRange := by
        unfold readU64 readBE
        rw [Rd.bind_eq_error]
        left
        rw [Rd.bind_eq_error]
        left
        rw [pull_eq_error]
        exact ⟨by omega, rfl⟩
      rw [this]
    · rw [h3]
  · rw [h1]

/-- C17 (finding): the reader multiplies an unchecked 64-bit number of seconds by 10^9; a ticket
whose stored time is not a time in nanoseconds (only a holder of the ticket key can make one) leads
to signed overflow. -/
theorem C17_time_overflow (seconds : UInt64) :
    (∃ t, fromSeconds seconds = .ok t) ↔
      (seconds.toNat ≤ 9223372036 ∨ 2 ^ 64 - 9223372036 ≤ seconds.toNat) := by
  have hlt := seconds.toNat_lt
  have key : (∃ t, fromSeconds seconds = .ok t) ↔ InI64 (toI64 seconds * nsPerSec) := by
    unfold fromSeconds checked
    by_cases h : InI64 (toI64 seconds * nsPerSec)
    · simp [h]
    · simp [h]
  rw [key]
  have hv : toI64 seconds = if seconds.toNat < 2 ^ 63 then (seconds.toNat : Int)
      else (seconds.toNat : Int) - 2 ^ 64 := rfl
  generalize toI64 seconds = v at hv
  generalize seconds.toNat = n at *
  unfold InI64 nsPerSec
  by_cases hs : n < 2 ^ 63
  · rw [if_pos hs] at hv; subst hv; omega
  · rw [if_neg hs] at hv; subst hv; omega

/-! ## A concrete ticket -/

/-- A state with both certificates, ALPN, app token and fractional times. -/
def sampleState : ResumptionState where
  version := 0x0304
  cipher := 0x1301
  resumptionSecret := [1, 2, 3]
  serverCert := some ⟨0, [115], [], [0x0804]⟩
  clientCert := some ⟨[99], some [48, 0]⟩
  alpn := some [104, 50]
  ticketAgeAdd := 0xdeadbeef
  ticketIssueTime := 1700000000123456789
  appToken := [7, 7]
  handshakeTime := 1699999999999999999

/-- A factory that knows one certificate. -/
def sampleFactory : CertFactory := ⟨fun der => if der = [48, 0] then .ok ⟨[99], some [48, 0]⟩
  else .error (Failure.rt "could not read cert")⟩

set_option maxRecDepth 20000 in
example : ∃ e, encode .x509 sampleState = .ok e ∧ e.length = 44 ∧
    (decode sampleFactory (CertManager.build [(⟨0, [115], [], [0x0804]⟩, true)]) e).map
      (fun s => (s.serverCert, s.clientCert, s.ticketIssueTime, s.handshakeTime, s.appToken)) =
      .ok (sampleState.serverCert, sampleState.clientCert, 1700000000000000000,
        1699999999000000000, [7, 7]) ∧
    decode sampleFactory {} (e.take 35) = .error .outOfRange ∧
    InI64 sampleState.ticketIssueTime := by
  refine ⟨_, rfl, ?_, ?_, ?_, ?_⟩ <;> decide

end Fizz.Ticket

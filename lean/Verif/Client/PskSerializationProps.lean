import Verif.Client.PskSerialization
import Verif.Ticket.CookieProps

/-! # C19: serialized client PSKs restore faithfully -/

namespace Fizz.Client
open Fizz.Codec Fizz.Time Fizz.Ticket

/-! ## Specification -/

/-- The time restored from a time stored in units of `unit` nanoseconds: rounded down to the unit;
times before the epoch (by at least one unit) come back as the largest time. -/
def Spec.restoredTime (unit t : Int) : Int :=
  if 0 ≤ t then t - t % unit
  else if -unit < t then 0
  else (2 ^ 63 - 1) - (2 ^ 63 - 1) % unit

/-- The certificate restored: what the serializer makes of its own non-empty output. -/
def Spec.restoredCert {κ} (ser : CertSerializer κ) (c : Option κ) : Option κ :=
  c.bind fun c => (ser.serialize c).bind fun b => if b = [] then none else ser.deserialize b

/-- The PSK restored. -/
def Spec.restored {κ} (ser : CertSerializer κ) (p : CachedPsk κ) : CachedPsk κ :=
  { p with
    type := .resumption
    alpn := if p.alpn = some [] then none else p.alpn
    serverCert := Spec.restoredCert ser p.serverCert
    clientCert := Spec.restoredCert ser p.clientCert
    ticketIssueTime := Spec.restoredTime 1000000 p.ticketIssueTime
    ticketExpirationTime := Spec.restoredTime 1000000000 p.ticketExpirationTime
    ticketHandshakeTime := Spec.restoredTime 1000000 p.ticketHandshakeTime }

/-- All variable parts fit their length. -/
def Spec.PskFits {κ} (ser : CertSerializer κ) (p : CachedPsk κ) : Prop :=
  p.psk.length < 2 ^ 16 ∧ p.secret.length < 2 ^ 16 ∧ (∀ a, p.alpn = some a → a.length < 2 ^ 8) ∧
  (∀ c b, p.serverCert = some c → ser.serialize c = some b → b.length < 2 ^ 32) ∧
  (∀ c b, p.clientCert = some c → ser.serialize c = some b → b.length < 2 ^ 32)

/-! ## Times -/

theorem clampTimePoint_eq (unit : Int) (hu : 0 < unit) (v : UInt64) :
    clampTimePoint unit v =
      .ok (min ((v.toNat : Int) * unit) ((2 ^ 63 - 1) - (2 ^ 63 - 1) % unit)) := by
  unfold clampTimePoint checked
  have hq : ((2 ^ 63 - 1 : Int).tdiv unit) = (2 ^ 63 - 1) / unit :=
    Int.tdiv_eq_ediv_of_nonneg (by decide)
  rw [hq]
  have hd : (2 ^ 63 - 1 : Int) - (2 ^ 63 - 1) % unit = (2 ^ 63 - 1) / unit * unit := by
    have := Int.mul_ediv_add_emod (2 ^ 63 - 1) unit
    rw [Int.mul_comm] at this; omega
  have hnn : 0 ≤ (2 ^ 63 - 1 : Int) / unit := Int.ediv_nonneg (by decide) (by omega)
  rw [hd]
  generalize hK : (2 ^ 63 - 1 : Int) / unit = K at *
  have hm : (2 ^ 63 - 1 : Int) % unit ≥ 0 := Int.emod_nonneg _ (by omega)
  have hKle : K * unit ≤ 2 ^ 63 - 1 := by omega
  have e : ((Nat.min v.toNat K.toNat : Nat) : Int) * unit = min ((v.toNat : Int) * unit) (K * unit) := by
    rcases Nat.le_total v.toNat K.toNat with h | h
    · have h' : (v.toNat : Int) ≤ K := by omega
      have h2 : (v.toNat : Int) * unit ≤ K * unit := Int.mul_le_mul_of_nonneg_right h' (by omega)
      have : Nat.min v.toNat K.toNat = v.toNat := Nat.min_eq_left h
      rw [this]; omega
    · have h' : K ≤ (v.toNat : Int) := by omega
      have h2 : K * unit ≤ (v.toNat : Int) * unit := Int.mul_le_mul_of_nonneg_right h' (by omega)
      have : Nat.min v.toNat K.toNat = K.toNat := Nat.min_eq_right h
      rw [this, Int.toNat_of_nonneg hnn]; omega
  simp only [e]
  rw [if_pos]
  have h0 : 0 ≤ (v.toNat : Int) * unit := Int.mul_nonneg (by omega) (by omega)
  have h1 : 0 ≤ K * unit := Int.mul_nonneg hnn (by omega)
  unfold InI64; omega

theorem toU64_toNat (v : Int) : ((toU64 v).toNat : Int) = v % 2 ^ 64 := by
  unfold toU64
  rw [UInt64.toNat_ofNat']
  have h1 : v % 2 ^ 64 < 2 ^ 64 := Int.emod_lt_of_pos _ (by decide)
  have h2 : 0 ≤ v % 2 ^ 64 := Int.emod_nonneg _ (by decide)
  rw [Nat.mod_eq_of_lt (by omega)]
  omega

/-- Clamping what was stored. -/
theorem clamp_stored (unit t : Int) (hu : unit = 1000000 ∨ unit = 1000000000) (ht : InI64 t) :
    clampTimePoint unit (toU64 (t.tdiv unit)) = .ok (Spec.restoredTime unit t) := by
  rw [clampTimePoint_eq unit (by omega), toU64_toNat]
  unfold InI64 at ht
  congr 1
  unfold Spec.restoredTime
  by_cases h0 : 0 ≤ t
  · rw [if_pos h0, Int.tdiv_eq_ediv_of_nonneg h0]
    rcases hu with rfl | rfl <;> omega
  · rw [if_neg h0]
    have hneg : t.tdiv unit = -((-t) / unit) := by
      have := Int.neg_tdiv (a := t) (b := unit)
      rw [Int.tdiv_eq_ediv_of_nonneg (a := -t) (by omega)] at this
      omega
    rw [hneg]
    by_cases h1 : -unit < t
    · rw [if_pos h1]
      have : (-t) / unit = 0 := Int.ediv_eq_zero_of_lt (by omega) (by omega)
      rw [this]
      rcases hu with rfl | rfl <;> decide
    · rw [if_neg h1]
      rcases hu with rfl | rfl <;> omega

/-! ## Layout -/

/-- The layout up to the handshake time. -/
def pskBase {κ} (ser : CertSerializer κ) (p : CachedPsk κ) : Bytes :=
  vec .u16 p.psk ++ (vec .u16 p.secret ++ (beEnc 2 p.version.toNat ++ (beEnc 2 p.cipher.toNat ++
    (Ticket.Spec.cookieGroup p.group ++ (vec .u8 (p.alpn.getD []) ++
      (beEnc 4 p.ticketAgeAdd.toNat ++ (beEnc 8 (toU64 (toMillis p.ticketIssueTime)).toNat ++
        (beEnc 8 (toU64 (toSeconds p.ticketExpirationTime)).toNat ++
          (vec .u32 (certBytes ser p.serverCert) ++ (vec .u32 (certBytes ser p.clientCert) ++
            beEnc 4 p.maxEarlyDataSize.toNat))))))))))

theorem writePskGroup_eq (g : Option UInt16) :
    writePskGroup g = .ok (Ticket.Spec.cookieGroup g) := by
  cases g <;> rfl

theorem pow32 : 256 ^ Width.u32.bytes = 2 ^ 32 := by simp only [Width.bytes, Nat.reducePow]

theorem fits32 {n : Nat} : n < 256 ^ Width.u32.bytes ↔ n < 2 ^ 32 := by rw [pow32]

theorem certBytes_fits {κ} (ser : CertSerializer κ) (c : Option κ) :
    (certBytes ser c).length < 2 ^ 32 ↔
      ∀ x b, c = some x → ser.serialize x = some b → b.length < 2 ^ 32 := by
  cases c with
  | none => simp [certBytes]
  | some x =>
    cases h : ser.serialize x with
    | none =>
      refine iff_of_true (by simp [certBytes, h]) ?_
      rintro y b ⟨⟩ h2; rw [h] at h2; cases h2
    | some b =>
      simp only [certBytes, h, Option.getD_some]
      constructor
      · rintro h3 y b' ⟨⟩ h2; rw [h] at h2; cases h2; exact h3
      · intro h3; exact h3 x b rfl h

theorem serializePsk_eq_ok {κ} (ser : CertSerializer κ) (p : CachedPsk κ) (e : Bytes) :
    serializePsk ser p = .ok e ↔ Spec.PskFits ser p ∧
      e = pskBase ser p ++ beEnc 8 (toU64 (toMillis p.ticketHandshakeTime)).toNat := by
  simp only [serializePsk, writeU16, writeU32, writeU64, tryWriteCert, writePskGroup_eq,
    Res.ok_bind, Res.bind_eq_ok, writeBuf_eq_ok, Res.pure_eq, Except.ok.injEq]
  have ha : (p.alpn.getD []).length < 2 ^ 8 ↔ ∀ a, p.alpn = some a → a.length < 2 ^ 8 := by
    cases p.alpn <;> simp
  constructor
  · rintro ⟨_, ⟨h1, rfl⟩, _, ⟨h2, rfl⟩, _, ⟨h3, rfl⟩, _, ⟨h4, rfl⟩, _, ⟨h5, rfl⟩, rfl⟩
    refine ⟨⟨by simpa [Width.bytes] using h1, by simpa [Width.bytes] using h2,
      ha.1 (by simpa [Width.bytes] using h3), (certBytes_fits _ _).1 (fits32.1 h4),
      (certBytes_fits _ _).1 (fits32.1 h5)⟩, ?_⟩
    simp only [pskBase, List.append_assoc]
  · rintro ⟨⟨h1, h2, h3, h4, h5⟩, rfl⟩
    refine ⟨_, ⟨by simpa [Width.bytes] using h1, rfl⟩, _, ⟨by simpa [Width.bytes] using h2, rfl⟩, _,
      ⟨by simpa [Width.bytes] using ha.2 h3, rfl⟩, _,
      ⟨fits32.2 ((certBytes_fits _ _).2 h4), rfl⟩, _,
      ⟨fits32.2 ((certBytes_fits _ _).2 h5), rfl⟩, ?_⟩
    simp only [pskBase, List.append_assoc]

theorem readVec {w : Width} {b : Bytes} (h : b.length < 256 ^ w.bytes) (x : Bytes) :
    readBuf w (vec w b ++ x) = .ok ((b, w.bytes + b.length), x) :=
  readBuf_eq_ok.mpr ⟨h, rfl, rfl⟩

theorem readU32_append (v : UInt32) (x : Bytes) :
    readU32 (beEnc 4 v.toNat ++ x) = .ok ((v, 4), x) := by
  rw [readU32_eq_ok]; exact ⟨by simp, rfl⟩

theorem readU64_append (v : UInt64) (x : Bytes) :
    readU64 (beEnc 8 v.toNat ++ x) = .ok ((v, 8), x) := by
  rw [readU64_eq_ok]; exact ⟨by simp, rfl⟩

theorem readPskGroup_eq : readPskGroup = readGroup := rfl

theorem liftR_ok {α} (a : α) (x : Bytes) : liftR (.ok a) x = .ok (a, x) := rfl

theorem tryReadCert_wire {κ} (ser : CertSerializer κ) (c : Option κ)
    (h : (certBytes ser c).length < 2 ^ 32) (x : Bytes) :
    tryReadCert ser (vec .u32 (certBytes ser c) ++ x) = .ok (Spec.restoredCert ser c, x) := by
  have hr := readVec (w := .u32) (fits32.2 h) x
  have e : tryReadCert ser = (readBuf .u32 >>= fun a =>
      pure (if a.1.isEmpty then none else ser.deserialize a.1)) := rfl
  rw [e, Rd.bind_eq_ok]
  refine ⟨_, _, hr, ?_⟩
  have key : ∀ o : Option Bytes, (if (o.getD []).isEmpty then none else ser.deserialize (o.getD [])) =
      o.bind fun b => if b = [] then none else ser.deserialize b := by
    intro o
    cases o with
    | none => rfl
    | some b => cases b <;> simp
  have : (if (certBytes ser c).isEmpty then none else ser.deserialize (certBytes ser c)) =
      Spec.restoredCert ser c := by
    clear hr h
    cases c with
    | none => rfl
    | some c => exact key _
  simp [← this]

theorem Rd.bind_ok {α β} {m : Rd α} {f : α → Rd β} {inp a r} (h : m inp = .ok (a, r)) :
    (m >>= f) inp = f a r := by
  show (match m inp with | .ok (a, rest) => f a rest | .error e => .error e) = _
  rw [h]

theorem val_ok {α} {rd : Rd (α × Nat)} {inp a n r} (h : rd inp = .ok ((a, n), r)) :
    val rd inp = .ok (a, r) := by
  rw [val, Rd.bind_ok h]
  rfl

theorem readPskBase_wire {κ} (ser : CertSerializer κ) (p : CachedPsk κ) (hf : Spec.PskFits ser p)
    (h1 : InI64 p.ticketIssueTime) (h2 : InI64 p.ticketExpirationTime) (x : Bytes) :
    readPskBase ser (pskBase ser p ++ x) =
      .ok ({ Spec.restored ser p with ticketHandshakeTime := 0 }, x) := by
  obtain ⟨f1, f2, f3, f4, f5⟩ := hf
  have ha : (p.alpn.getD []).length < 2 ^ 8 := by
    cases h : p.alpn with
    | none => simp
    | some a => simpa using f3 a h
  have hc1 : ∀ y, liftR (clampTimePoint nsPerMs (toU64 (toMillis p.ticketIssueTime))) y =
      .ok (Spec.restoredTime 1000000 p.ticketIssueTime, y) := by
    intro y
    unfold toMillis nsPerMs
    rw [clamp_stored 1000000 p.ticketIssueTime (by simp) h1, liftR_ok]
  have hc2 : ∀ y, liftR (clampTimePoint nsPerSec (toU64 (toSeconds p.ticketExpirationTime))) y =
      .ok (Spec.restoredTime 1000000000 p.ticketExpirationTime, y) := by
    intro y
    unfold toSeconds nsPerSec
    rw [clamp_stored 1000000000 p.ticketExpirationTime (by simp) h2, liftR_ok]
  have hassoc : pskBase ser p ++ x = vec .u16 p.psk ++ (vec .u16 p.secret ++
      (beEnc 2 p.version.toNat ++ (beEnc 2 p.cipher.toNat ++
    (Ticket.Spec.cookieGroup p.group ++ (vec .u8 (p.alpn.getD []) ++
      (beEnc 4 p.ticketAgeAdd.toNat ++ (beEnc 8 (toU64 (toMillis p.ticketIssueTime)).toNat ++
        (beEnc 8 (toU64 (toSeconds p.ticketExpirationTime)).toNat ++
          (vec .u32 (certBytes ser p.serverCert) ++ (vec .u32 (certBytes ser p.clientCert) ++
            (beEnc 4 p.maxEarlyDataSize.toNat ++ x))))))))))) := by
    rw [pskBase]; simp only [List.append_assoc]
  rw [hassoc, readPskBase]
  rw [Rd.bind_ok (val_ok (readVec (w := .u16) (by simpa [Width.bytes] using f1) _))]
  rw [Rd.bind_ok (val_ok (readVec (w := .u16) (by simpa [Width.bytes] using f2) _))]
  rw [Rd.bind_ok (val_ok (readU16_append _ _)), Rd.bind_ok (val_ok (readU16_append _ _))]
  rw [readPskGroup_eq, Rd.bind_ok (readGroup_wire _ _)]
  rw [Rd.bind_ok (val_ok (readVec (w := .u8) (by simpa [Width.bytes] using ha) _))]
  rw [Rd.bind_ok (val_ok (readU32_append _ _)), Rd.bind_ok (val_ok (readU64_append _ _)),
    Rd.bind_ok (hc1 _)]
  rw [Rd.bind_ok (val_ok (readU64_append _ _)), Rd.bind_ok (hc2 _)]
  rw [Rd.bind_ok (tryReadCert_wire ser _ ((certBytes_fits _ _).2 f4) _)]
  rw [Rd.bind_ok (tryReadCert_wire ser _ ((certBytes_fits _ _).2 f5) _)]
  rw [Rd.bind_ok (val_ok (readU32_append _ _))]
  have : (if (p.alpn.getD []).isEmpty then none else some (p.alpn.getD [])) =
      if p.alpn = some [] then none else p.alpn := by
    cases h : p.alpn with
    | none => simp
    | some a => cases a <;> simp
  simp only [Spec.restored, ← this, Rd.pure_eq_ok]
  exact ⟨trivial, trivial⟩

/-! ## Theorems -/

/-- C19: `serializePsk` succeeds exactly when every part fits its length field. -/
theorem C19_serialize_iff {κ} (ser : CertSerializer κ) (p : CachedPsk κ) :
    (∃ e, serializePsk ser p = .ok e) ↔ Spec.PskFits ser p := by
  constructor
  · rintro ⟨e, h⟩; exact ((serializePsk_eq_ok ser p e).1 h).1
  · intro h; exact ⟨_, (serializePsk_eq_ok ser p _).2 ⟨h, rfl⟩⟩

/-- C19: what was serialized is restored.  The clock reading at restore time does not matter. -/
theorem C19_roundtrip {κ} (ser : CertSerializer κ) (p : CachedPsk κ) (now : Int) (e : Bytes)
    (h1 : InI64 p.ticketIssueTime) (h2 : InI64 p.ticketExpirationTime)
    (h3 : InI64 p.ticketHandshakeTime) (he : serializePsk ser p = .ok e) :
    deserializePsk ser now e = .ok (Spec.restored ser p) := by
  obtain ⟨hf, rfl⟩ := (serializePsk_eq_ok ser p e).1 he
  rw [deserializePsk]
  rw [readPskBase_wire ser p hf h1 h2]
  have e2 : (beEnc 8 (toU64 (toMillis p.ticketHandshakeTime)).toNat).isEmpty = false := by
    rw [List.isEmpty_eq_false_iff]
    intro h; have := congrArg List.length h; simp at this
  have hr := readU64_append (toU64 (toMillis p.ticketHandshakeTime)) []
  rw [List.append_nil] at hr
  have hc' : clampTimePoint nsPerMs (toU64 (toMillis p.ticketHandshakeTime)) =
      .ok (Spec.restoredTime 1000000 p.ticketHandshakeTime) := by
    unfold toMillis nsPerMs
    exact clamp_stored 1000000 p.ticketHandshakeTime (by simp) h3
  simp only [e2, Bool.false_eq_true, if_false, hr, hc', Res.ok_bind]
  rfl

/-- C19: a resumption PSK with times from the epoch on, a non-empty ALPN and certificates its
serializer can read back is restored exactly, up to the resolution of the times. -/
theorem C19_faithful {κ} (ser : CertSerializer κ) (p : CachedPsk κ) (now : Int) (e : Bytes)
    (ht : p.type = .resumption) (hal : p.alpn ≠ some [])
    (hcert : ∀ c, p.serverCert = some c ∨ p.clientCert = some c →
      ∃ b, ser.serialize c = some b ∧ b ≠ [] ∧ ser.deserialize b = some c)
    (h1 : InI64 p.ticketIssueTime ∧ 0 ≤ p.ticketIssueTime)
    (h2 : InI64 p.ticketExpirationTime ∧ 0 ≤ p.ticketExpirationTime)
    (h3 : InI64 p.ticketHandshakeTime ∧ 0 ≤ p.ticketHandshakeTime)
    (he : serializePsk ser p = .ok e) :
    deserializePsk ser now e = .ok { p with
      ticketIssueTime := p.ticketIssueTime - p.ticketIssueTime % 1000000
      ticketExpirationTime := p.ticketExpirationTime - p.ticketExpirationTime % 1000000000
      ticketHandshakeTime := p.ticketHandshakeTime - p.ticketHandshakeTime % 1000000 } := by
  rw [C19_roundtrip ser p now e h1.1 h2.1 h3.1 he]
  have hc : ∀ o, (∀ c, o = some c → ∃ b, ser.serialize c = some b ∧ b ≠ [] ∧
      ser.deserialize b = some c) → Spec.restoredCert ser o = o := by
    intro o ho
    cases o with
    | none => rfl
    | some c =>
      obtain ⟨b, e1, e2, e3⟩ := ho c rfl
      simp [Spec.restoredCert, e1, e2, e3]
  simp only [Spec.restored, hal, if_false, ← ht, Spec.restoredTime, h1.2, h2.2, h3.2, if_true,
    hc _ fun c h => hcert c (.inl h), hc _ fun c h => hcert c (.inr h)]

/-- C19: the time stored for an expiration that is later than another is not earlier, and no time
at or after the epoch is restored later than it was: a PSK never comes back with a longer life. -/
theorem C19_time_monotone (unit a b : Int) (hu : 0 < unit) (ha : 0 ≤ a) (hab : a ≤ b) :
    Spec.restoredTime unit a ≤ Spec.restoredTime unit b ∧ Spec.restoredTime unit b ≤ b ∧
      b < Spec.restoredTime unit b + unit := by
  have hb : 0 ≤ b := by omega
  have e : ∀ x : Int, x - x % unit = unit * (x / unit) := by
    intro x; have := Int.mul_ediv_add_emod x unit; omega
  simp only [Spec.restoredTime, ha, hb, if_true, e]
  have h1 : a / unit ≤ b / unit := Int.ediv_le_ediv hu hab
  have h2 := Int.mul_le_mul_of_nonneg_left h1 (Int.le_of_lt hu)
  have h3 := Int.mul_ediv_add_emod b unit
  have h4 := Int.emod_nonneg b (show unit ≠ 0 by omega)
  have h5 := Int.emod_lt_of_pos b hu
  omega

/-- C19: whatever 64-bit number is stored for a time, restoring it does not overflow: it gives that
many units, or the largest representable number of units. -/
theorem C19_clamp (unit : Int) (hu : 0 < unit) (stored : UInt64) :
    ∃ t, clampTimePoint unit stored = .ok t ∧ InI64 t ∧ 0 ≤ t ∧
      (t = stored.toNat * unit ∨
        (2 ^ 63 - 1 < stored.toNat * unit ∧ t ≤ 2 ^ 63 - 1 ∧ 2 ^ 63 - 1 - unit < t)) := by
  refine ⟨_, clampTimePoint_eq unit hu stored, ?_⟩
  have hm : (2 ^ 63 - 1 : Int) % unit ≥ 0 := Int.emod_nonneg _ (by omega)
  have hm2 : (2 ^ 63 - 1 : Int) % unit < unit := Int.emod_lt_of_pos _ hu
  have hnn : 0 ≤ (2 ^ 63 - 1 : Int) / unit := Int.ediv_nonneg (by decide) (by omega)
  have hd : (2 ^ 63 - 1 : Int) - (2 ^ 63 - 1) % unit = (2 ^ 63 - 1) / unit * unit := by
    have := Int.mul_ediv_add_emod (2 ^ 63 - 1) unit
    rw [Int.mul_comm] at this; omega
  have h1 : 0 ≤ (2 ^ 63 - 1 : Int) / unit * unit := Int.mul_nonneg hnn (by omega)
  have h0 : 0 ≤ (stored.toNat : Int) * unit := Int.mul_nonneg (by omega) (by omega)
  by_cases hlt : (stored.toNat : Int) ≤ (2 ^ 63 - 1) / unit
  · have h2 : (stored.toNat : Int) * unit ≤ (2 ^ 63 - 1) / unit * unit :=
      Int.mul_le_mul_of_nonneg_right hlt (by omega)
    unfold InI64; omega
  · have h2 : ((2 ^ 63 - 1) / unit + 1) * unit ≤ (stored.toNat : Int) * unit :=
      Int.mul_le_mul_of_nonneg_right (by omega) (by omega)
    rw [Int.add_mul, Int.one_mul] at h2
    unfold InI64; omega

/-! ### Arbitrary input -/

/-- The only failure of a reader is `std::out_of_range`. -/
def OnlyRange {α} (rd : Rd α) : Prop := ∀ inp e, rd inp = .error e → e = .outOfRange

theorem OnlyRange.bind {α β} {m : Rd α} {f : α → Rd β} (hm : OnlyRange m)
    (hf : ∀ a, OnlyRange (f a)) : OnlyRange (m >>= f) := by
  intro inp e h
  rw [Rd.bind_eq_error] at h
  rcases h with h | ⟨a, r, -, h⟩
  · exact hm _ _ h
  · exact hf _ _ _ h

theorem OnlyRange.pure {α} (a : α) : OnlyRange (pure a) := by intro inp e h; simp at h
theorem OnlyRange.pull (n) : OnlyRange (pull n) := by
  intro inp e h; rw [pull_eq_error] at h; exact h.2
theorem OnlyRange.readBE (n) : OnlyRange (readBE n) := .bind (.pull n) fun _ => .pure _
theorem OnlyRange.readBuf (w) : OnlyRange (readBuf w) :=
  .bind (.readBE _) fun _ => .bind (.pull _) fun _ => .pure _
theorem OnlyRange.readU8 : OnlyRange readU8 := .bind (.readBE _) fun _ => .pure _
theorem OnlyRange.readU16 : OnlyRange readU16 := .bind (.readBE _) fun _ => .pure _
theorem OnlyRange.readU32 : OnlyRange readU32 := .bind (.readBE _) fun _ => .pure _
theorem OnlyRange.readU64 : OnlyRange readU64 := .bind (.readBE _) fun _ => .pure _
theorem OnlyRange.clamp (unit : Int) (hu : 0 < unit) (v) :
    OnlyRange (liftR (clampTimePoint unit v)) := by
  intro inp e h; rw [clampTimePoint_eq unit hu] at h; cases h
theorem OnlyRange.tryReadCert {κ} (ser : CertSerializer κ) : OnlyRange (tryReadCert ser) :=
  .bind (.readBuf _) fun _ => .pure _
theorem OnlyRange.readPskGroup : OnlyRange readPskGroup := by
  refine .bind .readU8 fun a => ?_
  dsimp only
  split
  · exact .bind .readU16 fun _ => .pure _
  · exact .pure _
theorem OnlyRange.val {α} {rd : Rd (α × Nat)} (h : OnlyRange rd) : OnlyRange (val rd) :=
  .bind h fun _ => .pure _
theorem OnlyRange.readPskBase {κ} (ser : CertSerializer κ) : OnlyRange (readPskBase ser) :=
  .bind (.val (.readBuf _)) fun _ => .bind (.val (.readBuf _)) fun _ => .bind (.val .readU16) fun _ => .bind (.val .readU16)
    fun _ => .bind .readPskGroup fun _ => .bind (.val (.readBuf _)) fun _ => .bind (.val .readU32) fun _ =>
    .bind (.val .readU64) fun _ => .bind (.clamp _ (by decide) _) fun _ => .bind (.val .readU64) fun _ =>
    .bind (.clamp _ (by decide) _) fun _ => .bind (.tryReadCert _) fun _ =>
    .bind (.tryReadCert _) fun _ => .bind (.val .readU32) fun _ => .pure _

/-- C19: any byte string either deserializes or is reported as too short (`std::out_of_range`);
nothing else, in particular no overflow, can happen — whatever the certificate serializer does. -/
theorem C19_total {κ} (ser : CertSerializer κ) (now : Int) (data : Bytes) :
    (∃ p, deserializePsk ser now data = .ok p) ∨
      deserializePsk ser now data = .error .outOfRange := by
  rw [deserializePsk]
  cases h : readPskBase ser data with
  | error e => right; rw [OnlyRange.readPskBase ser _ _ h]
  | ok a =>
    obtain ⟨p, rest⟩ := a
    by_cases hr : rest.isEmpty
    · left; simp [hr]
    · simp only [hr, Bool.false_eq_true, if_false]
      cases h2 : readU64 rest with
      | error e => right; rw [OnlyRange.readU64 _ _ h2]
      | ok b =>
        obtain ⟨⟨t, n⟩, r2⟩ := b
        left
        simp [clampTimePoint_eq nsPerMs (by decide)]

theorem Truncatable.readPskBase {κ} (ser : CertSerializer κ) : Truncatable (readPskBase ser) := by
  have hc : ∀ u v, Truncatable (liftR (clampTimePoint u v)) := by
    intro u v; exact Truncatable.liftRes _
  have hv : ∀ {α} (rd : Rd (α × Nat)), Truncatable rd → Truncatable (val rd) :=
    fun rd h => .bind h fun _ => .pure _
  have hg : Truncatable Client.readPskGroup :=
    .bind .readU8 fun _ => .ite (.bind .readU16 fun _ => .pure _) (.pure _)
  have ht : Truncatable (Client.tryReadCert ser) := .bind (.readBuf _) fun _ => .pure _
  exact .bind (hv _ (.readBuf _)) fun _ => .bind (hv _ (.readBuf _)) fun _ => .bind (hv _ .readU16) fun _ => .bind (hv _ .readU16)
    fun _ => .bind hg fun _ => .bind (hv _ (.readBuf _)) fun _ => .bind (hv _ .readU32) fun _ =>
    .bind (hv _ .readU64) fun _ => .bind (hc _ _) fun _ => .bind (hv _ .readU64) fun _ =>
    .bind (hc _ _) fun _ => .bind ht fun _ =>
    .bind ht fun _ => .bind (hv _ .readU32) fun _ => .pure _

/-- C19: a serialized PSK cut short is rejected, except when exactly the handshake time is missing
(the format of older versions): then everything else is restored and the time is the clock's. -/
theorem C19_truncated {κ} (ser : CertSerializer κ) (p : CachedPsk κ) (now : Int) (e pre cut : Bytes)
    (h1 : InI64 p.ticketIssueTime) (h2 : InI64 p.ticketExpirationTime)
    (he : serializePsk ser p = .ok e) (hsplit : e = pre ++ cut) (hcut : cut ≠ []) :
    (cut.length = 8 → deserializePsk ser now pre =
      .ok { Spec.restored ser p with ticketHandshakeTime := now }) ∧
    (cut.length ≠ 8 → deserializePsk ser now pre = .error .outOfRange) := by
  obtain ⟨hf, rfl⟩ := (serializePsk_eq_ok ser p e).1 he
  constructor
  · intro h8
    have hl := congrArg List.length hsplit
    simp only [List.length_append, beEnc_length] at hl
    have : pre = pskBase ser p := by
      have := (List.append_inj hsplit (by omega)).1
      exact this.symm
    subst this
    have hb := readPskBase_wire ser p hf h1 h2 []
    rw [List.append_nil] at hb
    rw [deserializePsk]
    rw [hb]
    rfl
  · intro h8
    have hb := readPskBase_wire ser p hf h1 h2 (beEnc 8 (toU64 (toMillis p.ticketHandshakeTime)).toNat)
    rw [hsplit] at hb
    rw [deserializePsk]
    rcases Truncatable.readPskBase ser pre cut _ _ hb with ⟨r', k1, k2⟩ | k1
    · rw [k1]
      have hl := congrArg List.length k2
      simp only [List.length_append, beEnc_length] at hl
      have hc : 0 < cut.length := List.length_pos_iff.mpr hcut
      have hr : r'.isEmpty = false := by
        rw [List.isEmpty_eq_false_iff]
        rintro rfl; simp at hl; omega
      simp only [hr, Bool.false_eq_true, if_false]
      have : readU64 r' = .error .outOfRange := by
        unfold readU64 readBE
        rw [Rd.bind_eq_error]
        left
        rw [Rd.bind_eq_error]
        left
        rw [pull_eq_error]
        exact ⟨by omega, rfl⟩
      rw [this]
    · rw [k1]

/-! ## A concrete case -/

/-- A serializer that knows certificates with even numbers. -/
def sampleSerializer : CertSerializer Nat where
  serialize n := if n % 2 = 0 then some [7, UInt8.ofNat n] else none
  deserialize
    | [7, b] => some b.toNat
    | _ => none

/-- A PSK with certificates (one of them not serializable) and fractional times. -/
def samplePsk : CachedPsk Nat where
  psk := [1, 2]
  secret := [3]
  type := .resumption
  version := 0x0304
  cipher := 0x1301
  group := some 29
  serverCert := some 4
  clientCert := some 5
  maxEarlyDataSize := 100
  alpn := some [104, 50]
  ticketAgeAdd := 0xdeadbeef
  ticketIssueTime := 1700000000123456789
  ticketExpirationTime := 1700086400123456789
  ticketHandshakeTime := 1699999999999999999

set_option maxRecDepth 20000 in
example : InI64 samplePsk.ticketIssueTime ∧ InI64 samplePsk.ticketExpirationTime ∧
    ∃ e, serializePsk sampleSerializer samplePsk = .ok e ∧
    deserializePsk sampleSerializer 0 e = .ok { samplePsk with
      clientCert := none
      ticketIssueTime := 1700000000123000000
      ticketExpirationTime := 1700086400000000000
      ticketHandshakeTime := 1699999999999000000 } := by
  refine ⟨by decide, by decide, _, rfl, ?_⟩
  decide +kernel

/-- Before the epoch: the expiration comes back as a time in the year 2262. -/
example : Spec.restoredTime 1000000000 (-5000000000) = 9223372036000000000 := by decide

end Fizz.Client

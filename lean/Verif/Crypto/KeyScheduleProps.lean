import Verif.Crypto.KeyScheduleSpec
import Verif.Crypto.HkdfProps

/-!
# C21: the key schedule
-/

namespace Fizz.KS
open Fizz.Crypto

/-- The concrete scheduler for what an abstract one knows. -/
def conc (h : HashAlg) (a : Spec.Abs) : KS where
  secret := match a.stage with
    | .start => none
    | .early p => some (.early (Spec.early h.spec p))
    | .handshake i => some (.handshake (Spec.handshake h.spec i))
    | .master i => some (.master (Spec.master h.spec i))
  app := a.app.map fun k =>
    { client := Spec.clientTraffic h.spec k, clientGeneration := UInt32.ofNat k.clientUpdates,
      server := Spec.serverTraffic h.spec k, serverGeneration := UInt32.ofNat k.serverUpdates }

theorem hl_toNat {h : HashAlg} (ok : h.Ok) : (UInt16.ofNat h.hashLen).toNat = h.hashLen := by
  have := ok.le; have := ok.max
  simp [UInt16.toNat_ofNat']; omega

theorem ds_eq {h : HashAlg} (ok : h.Ok) (secret : Bytes) (label : String) (th : Bytes)
    (hk : secret.length = h.hashLen) (ht : th.length = h.hashLen) (hl : (lbl label).length ≤ 249) :
    deriveSecret h secret (lbl label) th (UInt16.ofNat h.hashLen) =
      .ok (Spec.DeriveSecret h.spec secret label th) := by
  have := ok.pos; have := ok.le; have := ok.max
  exact deriveSecret_eq ok _ _ _ _ hk ht (by rw [hl_toNat ok]; omega) (by rw [hl_toNat ok]; omega) hl

theorem ds8_eq {h : HashAlg} (ok : h.Ok) (secret : Bytes) (label : String) (th : Bytes)
    (hk : secret.length = h.hashLen) (ht : th.length = h.hashLen) (hl : (lbl label).length ≤ 249) :
    deriveSecret h secret (lbl label) th 8 =
      .ok (Crypto.Spec.ExpandLabel h.spec secret (Spec.ascii label) th 8) := by
  have := ok.pos
  exact deriveSecret_eq ok _ _ _ _ hk ht (by decide) (by show 8 ≤ _; omega) hl

theorem extract_len {h : HashAlg} (ok : h.Ok) (a b : Bytes) :
    (Crypto.Spec.Extract h.spec a b).length = h.hashLen := HMAC_length ok _ _

theorem nextStage_eq {h : HashAlg} (ok : h.Ok) (cur ikm : Bytes) (hk : cur.length = h.hashLen) :
    nextStage h cur ikm = .ok (Crypto.Spec.Extract h.spec
      (Spec.DeriveSecret h.spec cur "derived" (h.spec.H [])) ikm) := by
  unfold nextStage kDerivedSecret
  rw [ok.blank, ds_eq ok _ _ _ hk (ok.len _) (by decide)]
  simp only [Res.ok_bind]
  rw [extract_eq ok]
  rfl

theorem early_len {h : HashAlg} (ok : h.Ok) (p) : (Spec.early h.spec p).length = h.hashLen :=
  extract_len ok _ _
theorem handshake_len {h : HashAlg} (ok : h.Ok) (p) : (Spec.handshake h.spec p).length = h.hashLen :=
  extract_len ok _ _
theorem master_len {h : HashAlg} (ok : h.Ok) (p) : (Spec.master h.spec p).length = h.hashLen :=
  extract_len ok _ _

theorem expandLabel_len {h : HashAlg} (ok : h.Ok) (s l c : Bytes) :
    (Crypto.Spec.ExpandLabel h.spec s l c (UInt16.ofNat h.hashLen)).length = h.hashLen := by
  unfold Crypto.Spec.ExpandLabel
  rw [Expand_length ok, hl_toNat ok]

theorem traffic_len {h : HashAlg} (ok : h.Ok) (s : Bytes) (hs : s.length = h.hashLen) (n : Nat) :
    (Spec.traffic h.spec s n).length = h.hashLen := by
  cases n with
  | zero => exact hs
  | succ n => exact expandLabel_len ok _ _ _

theorem upd_eq {h : HashAlg} (ok : h.Ok) (s : Bytes) (hs : s.length = h.hashLen) (n : Nat) :
    expandLabel h (Spec.traffic h.spec s n) kTrafficKeyUpdate [] (UInt16.ofNat h.hashLen) =
      .ok (Spec.traffic h.spec s (n + 1)) := by
  have := ok.pos
  exact expandLabel_eq ok _ _ _ _ (traffic_len ok s hs n) (by rw [hl_toNat ok]; omega) (by decide)
    (by simp)

theorem ofNat32_succ (n : Nat) : UInt32.ofNat n + 1 = UInt32.ofNat (n + 1) := by
  rw [UInt32.ofNat_add]; rfl

theorem step_eq {h : HashAlg} (ok : h.Ok) (a : Spec.Abs) (o : Op) (a' : Spec.Abs) (out : Out)
    (hn : Spec.next h.spec a o = some (a', out)) :
    step h (conc h a) o = (conc h a', .ok out) := by
  have z : Spec.zero h.spec = zeros h := rfl
  rcases a with ⟨st, app⟩
  cases o with
  | deriveEarlySecret psk =>
    cases st <;> simp [Spec.next] at hn
    obtain ⟨rfl, rfl⟩ := hn
    simp [step, deriveEarlySecret, conc, extract_eq ok, Spec.early, z]
  | deriveHandshakeSecret =>
    cases st <;> simp [Spec.next] at hn
    obtain ⟨rfl, rfl⟩ := hn
    simp [step, deriveHandshakeSecret, conc, nextStage_eq ok _ _ (early_len ok _), Spec.handshake, z]
  | deriveHandshakeSecretEcdhe e =>
    cases st <;> simp [Spec.next] at hn
    · obtain ⟨rfl, rfl⟩ := hn
      have h1 := nextStage_eq ok (Spec.early h.spec none) e (early_len ok _)
      simp only [Spec.early, Option.getD_none, z] at h1
      simp [step, deriveHandshakeSecretEcdhe, conc, extract_eq ok, h1, Spec.handshake, Spec.early, z]
    · obtain ⟨rfl, rfl⟩ := hn
      simp [step, deriveHandshakeSecretEcdhe, conc, nextStage_eq ok _ _ (early_len ok _),
        Spec.handshake]
  | deriveMasterSecret =>
    cases st <;> simp [Spec.next] at hn
    obtain ⟨rfl, rfl⟩ := hn
    simp [step, deriveMasterSecret, conc, nextStage_eq ok _ _ (handshake_len ok _), Spec.master, z]
  | deriveAppTrafficSecrets th =>
    cases st <;> simp [Spec.next] at hn
    obtain ⟨ht, rfl, rfl⟩ := hn
    simp [step, deriveAppTrafficSecrets, conc, kClientAppTraffic, kServerAppTraffic,
      ds_eq ok _ _ _ (master_len ok _) ht (by decide : (lbl "c ap traffic").length ≤ 249),
      ds_eq ok _ _ _ (master_len ok _) ht (by decide : (lbl "s ap traffic").length ≤ 249),
      Spec.clientTraffic, Spec.serverTraffic, Spec.traffic]
  | clearMasterSecret =>
    cases st <;> simp [Spec.next] at hn
    obtain ⟨rfl, rfl⟩ := hn
    simp [step, clearMasterSecret, conc]
  | clientKeyUpdate =>
    cases app <;> simp [Spec.next] at hn
    obtain ⟨rfl, rfl⟩ := hn
    simp [step, clientKeyUpdate, conc, Spec.clientTraffic, Spec.serverTraffic,
      upd_eq ok _ (show (Spec.DeriveSecret _ _ _ _).length = _ from expandLabel_len ok _ _ _)]
  | serverKeyUpdate =>
    cases app <;> simp [Spec.next] at hn
    obtain ⟨rfl, rfl⟩ := hn
    simp [step, serverKeyUpdate, conc, Spec.clientTraffic, Spec.serverTraffic,
      upd_eq ok _ (show (Spec.DeriveSecret _ _ _ _).length = _ from expandLabel_len ok _ _ _)]
  | getEarly w th =>
    cases st <;> simp [Spec.next] at hn
    obtain ⟨ht, rfl, rfl⟩ := hn
    cases w <;> simp only [step, getEarly, conc, earlyLabel, Spec.earlyValue]
    all_goals first
      | (rw [ds_eq ok _ _ _ (early_len ok _) ht (by decide)]; rfl)
      | (rw [ds8_eq ok _ _ _ (early_len ok _) ht (by decide)]; rfl)
  | getHandshake w th =>
    cases st <;> simp [Spec.next] at hn
    obtain ⟨ht, rfl, rfl⟩ := hn
    cases w <;> simp only [step, getHandshake, conc, handshakeLabel, Spec.handshakeValue]
    all_goals first
      | (rw [ds_eq ok _ _ _ (handshake_len ok _) ht (by decide)]; rfl)
      | (rw [ds8_eq ok _ _ _ (handshake_len ok _) ht (by decide)]; rfl)
  | getMaster w th =>
    cases st <;> simp [Spec.next] at hn
    obtain ⟨ht, rfl, rfl⟩ := hn
    cases w <;> simp only [step, getMaster, conc, masterLabel, Spec.masterValue]
    all_goals (rw [ds_eq ok _ _ _ (master_len ok _) ht (by decide)]; rfl)
  | getApp w =>
    cases app <;> simp [Spec.next] at hn
    obtain ⟨rfl, rfl⟩ := hn
    cases w <;> rfl

theorem run_eq {h : HashAlg} (ok : h.Ok) (ops : List Op) : ∀ (a : Spec.Abs) (a' : Spec.Abs)
    (outs : List Out), Spec.trace h.spec a ops = some (a', outs) →
    run h (conc h a) ops = (conc h a', outs.map .ok) := by
  induction ops with
  | nil => intro a a' outs ht; simp [Spec.trace] at ht; obtain ⟨rfl, rfl⟩ := ht; rfl
  | cons o ops ih =>
    intro a a' outs ht
    rw [Spec.trace] at ht
    cases hn : Spec.next h.spec a o with
    | none => rw [hn] at ht; cases ht
    | some p =>
      obtain ⟨a1, out⟩ := p
      rw [hn] at ht
      simp only at ht
      cases ht2 : Spec.trace h.spec a1 ops with
      | none => rw [ht2] at ht; cases ht
      | some p =>
        obtain ⟨a2, outs2⟩ := p
        rw [ht2] at ht
        simp only [Option.some.injEq, Prod.mk.injEq] at ht
        obtain ⟨rfl, rfl⟩ := ht
        simp only [run, step_eq ok _ _ _ _ hn, ih _ _ _ ht2, List.map_cons]

/-! ## Claims -/

/-- C21: on every call sequence in documented order, from a fresh scheduler, every call succeeds
and returns the RFC 8446 value determined by the PSK, the ECDHE secret, the transcripts and the
number of updates. -/
theorem C21_schedule (h : HashAlg) (ok : h.Ok) (ops : List Op) (a : Spec.Abs) (outs : List Out)
    (ht : Spec.trace h.spec {} ops = some (a, outs)) : (run h {} ops).2 = outs.map .ok := by
  have := run_eq ok ops {} a outs ht
  rw [show conc h {} = {} from rfl] at this
  rw [this]

/-- C21: two schedulers driven by different call sequences (as client and server do: other
queries, another order of key updates) that end with the same inputs and the same number of updates
in each direction answer every later call identically. -/
theorem C21_agree (h : HashAlg) (ok : h.Ok) (opsC opsS : List Op) (a : Spec.Abs)
    (outsC outsS : List Out) (hc : Spec.trace h.spec {} opsC = some (a, outsC))
    (hs : Spec.trace h.spec {} opsS = some (a, outsS)) (later : List Op) :
    run h (run h {} opsC).1 later = run h (run h {} opsS).1 later := by
  have e1 := run_eq ok opsC {} a outsC hc
  have e2 := run_eq ok opsS {} a outsS hs
  rw [show conc h {} = {} from rfl] at e1 e2
  rw [e1, e2]

theorem updates_trace (h : Crypto.Spec.Hash) (us : List Bool) : ∀ (st : Spec.Stage) (k : Spec.AppKeys),
    ∃ outs, Spec.trace h ⟨st, some k⟩ (us.map fun b => if b then .clientKeyUpdate else .serverKeyUpdate) =
      some (⟨st, some ⟨k.inputs, k.transcript, k.clientUpdates + us.countP id,
        k.serverUpdates + us.countP not⟩⟩, outs) := by
  induction us with
  | nil => intro st k; exact ⟨[], rfl⟩
  | cons u us ih =>
    intro st k
    cases u with
    | true =>
      obtain ⟨outs, ho⟩ := ih st { k with clientUpdates := k.clientUpdates + 1 }
      refine ⟨.generation (UInt32.ofNat (k.clientUpdates + 1)) :: outs, ?_⟩
      simp only [List.map_cons, if_true, Spec.trace, Spec.next, ho]
      simp; omega
    | false =>
      obtain ⟨outs, ho⟩ := ih st { k with serverUpdates := k.serverUpdates + 1 }
      refine ⟨.generation (UInt32.ofNat (k.serverUpdates + 1)) :: outs, ?_⟩
      simp only [List.map_cons, Bool.false_eq_true, if_false, Spec.trace, Spec.next, ho]
      simp; omega

/-- C21: key updates may be applied in any interleaving: if the two ends performed the same number
of client-direction updates and the same number of server-direction updates, their traffic secrets
are equal, and are the RFC's `application_traffic_secret_N`. -/
theorem C21_updates (h : HashAlg) (ok : h.Ok) (ops : List Op) (st : Spec.Stage) (k : Spec.AppKeys)
    (outs : List Out) (ht : Spec.trace h.spec {} ops = some (⟨st, some k⟩, outs))
    (us : List Bool) :
    let s := (run h (run h {} ops).1
      (us.map fun b => if b then Op.clientKeyUpdate else Op.serverKeyUpdate)).1
    let k' : Spec.AppKeys := ⟨k.inputs, k.transcript, k.clientUpdates + us.countP id,
      k.serverUpdates + us.countP not⟩
    getApp s .clientAppTraffic = .ok (.secret (Spec.clientTraffic h.spec k')) ∧
    getApp s .serverAppTraffic = .ok (.secret (Spec.serverTraffic h.spec k')) := by
  have e1 := run_eq ok ops {} _ outs ht
  rw [show conc h {} = {} from rfl] at e1
  obtain ⟨outs2, h2⟩ := updates_trace h.spec us st k
  have e2 := run_eq ok _ _ _ _ h2
  simp only
  rw [e1, e2]
  exact ⟨rfl, rfl⟩

/-- The calls that dereference a pointer the code has not checked, on a scheduler holding a secret
of another kind. -/
def Unchecked (s : KS) : Op → Prop
  | .deriveHandshakeSecret => ∃ x, s.secret = some x ∧ ∀ e, x ≠ .early e
  | .deriveAppTrafficSecrets _ => ∃ x, s.secret = some x ∧ ∀ e, x ≠ .master e
  | .getEarly _ _ => ∃ x, s.secret = some x ∧ ∀ e, x ≠ .early e
  | .getHandshake _ _ => ∃ x, s.secret = some x ∧ ∀ e, x ≠ .handshake e
  | .getMaster _ _ => ∃ x, s.secret = some x ∧ ∀ e, x ≠ .master e
  | _ => False

theorem extract_no_ub {h : HashAlg} (ok : h.Ok) (a b : Bytes) (w : String) :
    extract h a b ≠ .error (.ub w) := by rw [extract_eq ok]; simp

theorem expand_no_ub {h : HashAlg} (ok : h.Ok) (a b : Bytes) (n : Nat) (w : String) :
    expand h a b n ≠ .error (.ub w) := by
  by_cases hk : a.length = h.hashLen
  · by_cases hl : n ≤ 255 * h.hashLen
    · rw [expand_eq ok _ _ _ hk hl]; simp
    · rw [(C23_refuses h a b n).1 hk (by omega)]; simp [Failure.rt]
  · rw [(C23_refuses h a b n).2 hk]; simp

theorem expandLabel_no_ub {h : HashAlg} (ok : h.Ok) (a b c : Bytes) (n : UInt16) (w : String) :
    expandLabel h a b c n ≠ .error (.ub w) := by
  unfold expandLabel
  cases he : Codec.encodeHkdfLabel n b c kHkdfLabelPrefix with
  | ok bs => exact expand_no_ub ok _ _ _ _
  | error e =>
    simp only [Res.error_bind, ne_eq, Except.error.injEq]
    rintro rfl
    simp only [Codec.encodeHkdfLabel, Codec.writeU16, Codec.writeBuf, Codec.writeLen, Res.ok_bind,
      Res.pure_eq] at he
    split at he
    · split at he <;> simp [Codec.Width.overflow] at he
    · simp [Codec.Width.overflow] at he

theorem deriveSecret_no_ub {h : HashAlg} (ok : h.Ok) (a b c : Bytes) (n : UInt16) (w : String) :
    deriveSecret h a b c n ≠ .error (.ub w) := by
  unfold deriveSecret
  split
  · simp
  split
  · simp
  split
  · simp
  cases he : expandLabel h a b c n with
  | ok x => simp
  | error e =>
    simp only [Res.error_bind, ne_eq, Except.error.injEq]
    rintro rfl
    exact expandLabel_no_ub ok _ _ _ _ _ he

theorem nextStage_no_ub {h : HashAlg} (ok : h.Ok) (a b : Bytes) (w : String) :
    nextStage h a b ≠ .error (.ub w) := by
  unfold nextStage
  cases he : deriveSecret h a kDerivedSecret h.blankHash (UInt16.ofNat h.hashLen) with
  | ok x => exact extract_no_ub ok _ _ _
  | error e =>
    simp only [Res.error_bind, ne_eq, Except.error.injEq]
    rintro rfl
    exact deriveSecret_no_ub ok _ _ _ _ _ he

/-- C21: undefined behaviour happens exactly when one of the five unchecked calls is made while a
secret of another kind is held.  In particular `deriveEarlySecret`, `deriveHandshakeSecret(ecdhe)`,
`deriveMasterSecret`, `clearMasterSecret`, key updates and traffic-secret queries never cause it,
in any state. -/
theorem C21_ub_exact (h : HashAlg) (ok : h.Ok) (s : KS) (o : Op) :
    (∃ w, (step h s o).2 = .error (.ub w)) ↔ Unchecked s o := by
  rcases s with ⟨sec, app⟩
  have gen : ∀ {r : Res Bytes} {f : Bytes → Out}, (∀ w, r ≠ .error (.ub w)) →
      ¬ ∃ w, (do let x ← r; pure (f x) : Res Out) = .error (.ub w) := by
    intro r f hr
    cases r with
    | ok x => simp
    | error e => rintro ⟨w, hw⟩; exact hr w (by simpa using hw)
  cases o with
  | deriveEarlySecret psk =>
    cases sec <;> simp [step, deriveEarlySecret, Unchecked, extract_eq ok, Failure.fizz]
  | deriveHandshakeSecret =>
    cases sec with
    | none => simp [step, deriveHandshakeSecret, Unchecked]
    | some x =>
      cases x with
      | early e =>
        have := nextStage_no_ub ok e (zeros h)
        simp only [step, deriveHandshakeSecret, Unchecked]
        cases hn : nextStage h e (zeros h) with
        | ok y => simp
        | error f =>
          rw [hn] at this
          simpa using this
      | handshake e => simp [step, deriveHandshakeSecret, Unchecked, nullDeref]
      | master e => simp [step, deriveHandshakeSecret, Unchecked, nullDeref]
  | deriveHandshakeSecretEcdhe ec =>
    cases sec with
    | none =>
      simp only [step, deriveHandshakeSecretEcdhe, Unchecked, extract_eq ok]
      have := nextStage_no_ub ok (Crypto.Spec.Extract h.spec (zeros h) (zeros h)) ec
      cases hn : nextStage h (Crypto.Spec.Extract h.spec (zeros h) (zeros h)) ec with
      | ok y => simp
      | error f => rw [hn] at this; simpa using this
    | some x =>
      cases x with
      | early e =>
        have := nextStage_no_ub ok e ec
        simp only [step, deriveHandshakeSecretEcdhe, Unchecked]
        cases hn : nextStage h e ec with
        | ok y => simp
        | error f => rw [hn] at this; simpa using this
      | handshake e => simp [step, deriveHandshakeSecretEcdhe, Unchecked, Failure.rt]
      | master e => simp [step, deriveHandshakeSecretEcdhe, Unchecked, Failure.rt]
  | deriveMasterSecret =>
    cases sec with
    | none => simp [step, deriveMasterSecret, Unchecked]
    | some x =>
      cases x with
      | handshake e =>
        have := nextStage_no_ub ok e (zeros h)
        simp only [step, deriveMasterSecret, Unchecked]
        cases hn : nextStage h e (zeros h) with
        | ok y => simp
        | error f => rw [hn] at this; simpa using this
      | early e => simp [step, deriveMasterSecret, Unchecked, Failure.rt]
      | master e => simp [step, deriveMasterSecret, Unchecked, Failure.rt]
  | deriveAppTrafficSecrets th =>
    cases sec with
    | none => simp [step, deriveAppTrafficSecrets, Unchecked]
    | some x =>
      cases x with
      | master e =>
        have h1 := deriveSecret_no_ub ok e kClientAppTraffic th (UInt16.ofNat h.hashLen)
        have h2 := deriveSecret_no_ub ok e kServerAppTraffic th (UInt16.ofNat h.hashLen)
        simp only [step, deriveAppTrafficSecrets, Unchecked]
        cases hn : deriveSecret h e kClientAppTraffic th (UInt16.ofNat h.hashLen) with
        | error f => rw [hn] at h1; simpa using h1
        | ok y =>
          cases hm : deriveSecret h e kServerAppTraffic th (UInt16.ofNat h.hashLen) with
          | error f => rw [hm] at h2; simpa [hm] using h2
          | ok z => simp
      | early e => simp [step, deriveAppTrafficSecrets, Unchecked, nullDeref]
      | handshake e => simp [step, deriveAppTrafficSecrets, Unchecked, nullDeref]
  | clearMasterSecret =>
    rcases sec with _ | ⟨_ | _ | _⟩ <;> simp [step, clearMasterSecret, Unchecked, Failure.fizz]
  | clientKeyUpdate =>
    cases app with
    | none => simp [step, clientKeyUpdate, Unchecked]
    | some a =>
      have := expandLabel_no_ub ok a.client kTrafficKeyUpdate [] (UInt16.ofNat h.hashLen)
      simp only [step, clientKeyUpdate, Unchecked]
      cases hn : expandLabel h a.client kTrafficKeyUpdate [] (UInt16.ofNat h.hashLen) with
      | ok y => simp
      | error f => rw [hn] at this; simpa using this
  | serverKeyUpdate =>
    cases app with
    | none => simp [step, serverKeyUpdate, Unchecked]
    | some a =>
      have := expandLabel_no_ub ok a.server kTrafficKeyUpdate [] (UInt16.ofNat h.hashLen)
      simp only [step, serverKeyUpdate, Unchecked]
      cases hn : expandLabel h a.server kTrafficKeyUpdate [] (UInt16.ofNat h.hashLen) with
      | ok y => simp
      | error f => rw [hn] at this; simpa using this
  | getEarly w th =>
    rcases sec with _ | ⟨e | e | e⟩
    · simp [step, getEarly, Unchecked]
    · simp only [step, getEarly, Unchecked]
      have := gen (f := .secret) (deriveSecret_no_ub ok e (earlyLabel h w).1 th (earlyLabel h w).2)
      simpa using this
    · simp [step, getEarly, Unchecked, nullDeref]
    · simp [step, getEarly, Unchecked, nullDeref]
  | getHandshake w th =>
    rcases sec with _ | ⟨e | e | e⟩
    · simp [step, getHandshake, Unchecked]
    · simp [step, getHandshake, Unchecked, nullDeref]
    · simp only [step, getHandshake, Unchecked]
      have := gen (f := .secret) (deriveSecret_no_ub ok e (handshakeLabel h w).1 th (handshakeLabel h w).2)
      simpa using this
    · simp [step, getHandshake, Unchecked, nullDeref]
  | getMaster w th =>
    rcases sec with _ | ⟨e | e | e⟩
    · simp [step, getMaster, Unchecked]
    · simp [step, getMaster, Unchecked, nullDeref]
    · simp [step, getMaster, Unchecked, nullDeref]
    · simp only [step, getMaster, Unchecked]
      have := gen (f := .secret) (deriveSecret_no_ub ok e (masterLabel h w).1 th (masterLabel h w).2)
      simpa using this
  | getApp w =>
    cases app <;> cases w <;> simp [step, getApp, Unchecked]

/-- C21: a second `deriveEarlySecret`, and deriving the handshake (with ECDHE) or master secret or
clearing out of order, is reported as an error and changes nothing. -/
theorem C21_misuse (h : HashAlg) (s : KS) (x : Sec) (hx : s.secret = some x) :
    (∀ psk, step h s (.deriveEarlySecret psk) =
      (s, .error (Failure.fizz "secret already set" none))) ∧
    ((∀ e, x ≠ .early e) → ∀ ec, step h s (.deriveHandshakeSecretEcdhe ec) =
      (s, .error (Failure.rt "Mismatched access type"))) ∧
    ((∀ e, x ≠ .handshake e) → step h s .deriveMasterSecret =
      (s, .error (Failure.rt "Mismatched access type"))) ∧
    ((∀ e, x ≠ .master e) → step h s .clearMasterSecret =
      (s, .error (Failure.fizz "Secret isn't MasterSecret" none))) := by
  rcases s with ⟨sec, app⟩
  simp only at hx
  subst hx
  refine ⟨fun psk => rfl, ?_, ?_, ?_⟩
  · intro hn ec
    cases x with
    | early e => exact absurd rfl (hn e)
    | handshake e => rfl
    | master e => rfl
  · intro hn
    cases x with
    | handshake e => exact absurd rfl (hn e)
    | early e => rfl
    | master e => rfl
  · intro hn
    cases x with
    | master e => exact absurd rfl (hn e)
    | early e => rfl
    | handshake e => rfl

/-- C21: a failed call never changes the scheduler, whatever the state and the call (for an honest
hash). -/
theorem C21_fail_unchanged (h : HashAlg) (ok : h.Ok) (s : KS) (o : Op) (f : Failure)
    (hf : (step h s o).2 = .error f) : (step h s o).1 = s := by
  rcases s with ⟨sec, app⟩
  cases o with
  | deriveEarlySecret psk => cases sec <;> simp [step, deriveEarlySecret, extract_eq ok] at hf ⊢
  | deriveHandshakeSecret =>
    rcases sec with _ | ⟨e | e | e⟩ <;> simp only [step, deriveHandshakeSecret] at hf ⊢
    split at hf <;> simp_all
  | deriveHandshakeSecretEcdhe ec =>
    rcases sec with _ | ⟨e | e | e⟩ <;>
      simp only [step, deriveHandshakeSecretEcdhe, extract_eq ok] at hf ⊢
    · rw [nextStage_eq ok _ _ (extract_len ok _ _)] at hf; simp at hf
    · split at hf <;> simp_all
  | deriveMasterSecret =>
    rcases sec with _ | ⟨e | e | e⟩ <;> simp only [step, deriveMasterSecret] at hf ⊢
    split at hf <;> simp_all
  | deriveAppTrafficSecrets th =>
    rcases sec with _ | ⟨e | e | e⟩ <;> simp only [step, deriveAppTrafficSecrets] at hf ⊢
    split at hf
    · simp_all
    · split at hf <;> simp_all
  | clearMasterSecret => rcases sec with _ | ⟨e | e | e⟩ <;> simp [step, clearMasterSecret] at hf ⊢
  | clientKeyUpdate =>
    cases app <;> simp only [step, clientKeyUpdate] at hf ⊢
    split at hf <;> simp_all
  | serverKeyUpdate =>
    cases app <;> simp only [step, serverKeyUpdate] at hf ⊢
    split at hf <;> simp_all
  | getEarly w th => rfl
  | getHandshake w th => rfl
  | getMaster w th => rfl
  | getApp w => rfl

/-- C21: traffic keys and resumption secrets are the RFC 8446 sections 7.3 and 4.6.1 values. -/
theorem C21_traffic_key (h : HashAlg) (ok : h.Ok) (secret nonce : Bytes) (keyLen ivLen : Nat)
    (hs : secret.length = h.hashLen) (hk : keyLen ≤ 255 * h.hashLen) (hi : ivLen ≤ 255 * h.hashLen)
    (hk2 : keyLen < 65536) (hi2 : ivLen < 65536) (hn : nonce.length ≤ 255) :
    getTrafficKey h secret keyLen ivLen = .ok (.trafficKey
      (Crypto.Spec.ExpandLabel h.spec secret (Spec.ascii "key") [] (UInt16.ofNat keyLen))
      (Crypto.Spec.ExpandLabel h.spec secret (Spec.ascii "iv") [] (UInt16.ofNat ivLen))) ∧
    getResumptionSecret h secret nonce = .ok (.secret
      (Crypto.Spec.ExpandLabel h.spec secret (Spec.ascii "resumption") nonce (UInt16.ofNat h.hashLen))) := by
  have n1 : (UInt16.ofNat keyLen).toNat = keyLen := by simp [UInt16.toNat_ofNat']; omega
  have n2 : (UInt16.ofNat ivLen).toNat = ivLen := by simp [UInt16.toNat_ofNat']; omega
  have := ok.pos
  unfold getTrafficKey getResumptionSecret
  rw [expandLabel_eq ok _ _ _ _ hs (by rw [n1]; exact hk) (by decide) (by simp),
    expandLabel_eq ok _ _ _ _ hs (by rw [n2]; exact hi) (by decide) (by simp),
    expandLabel_eq ok _ _ _ _ hs (by rw [hl_toNat ok]; omega) (by decide) hn]
  exact ⟨rfl, rfl⟩

/-! ## Instances -/

/-- A PSK+ECDHE connection with early-data secrets and updates is a documented sequence. -/
def demo : List Op := [.deriveEarlySecret [1, 2], .getEarly .clientEarlyTraffic [3, 4],
  .deriveHandshakeSecretEcdhe [5], .getHandshake .serverHandshakeTraffic [6, 7],
  .deriveMasterSecret, .deriveAppTrafficSecrets [8, 9], .getMaster .resumptionMaster [8, 9],
  .clearMasterSecret, .clientKeyUpdate, .serverKeyUpdate, .clientKeyUpdate]

example : ((Spec.trace toyHash.spec {} demo).map (·.1)) =
    some ⟨.start, some ⟨⟨some [1, 2], some [5]⟩, [8, 9], 2, 1⟩⟩ := by decide

/-- Another order of the same calls without the queries reaches the same point. -/
example : ((Spec.trace toyHash.spec {} [.deriveEarlySecret [1, 2], .deriveHandshakeSecretEcdhe [5],
    .deriveMasterSecret, .deriveAppTrafficSecrets [8, 9], .serverKeyUpdate, .clientKeyUpdate,
    .clearMasterSecret, .clientKeyUpdate]).map (·.1)) =
    some ⟨.start, some ⟨⟨some [1, 2], some [5]⟩, [8, 9], 2, 1⟩⟩ := by decide

/-- The undefined behaviour is reachable: asking for an early secret after the handshake secret. -/
example : Unchecked (run toyHash {} [.deriveHandshakeSecretEcdhe [5]]).1
    (.getEarly .earlyExporter [1, 2]) := by
  refine ⟨_, rfl, ?_⟩
  intro e he
  cases he

end Fizz.KS

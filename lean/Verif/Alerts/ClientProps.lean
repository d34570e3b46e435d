import Verif.Alerts.ClientSpec
import Verif.Alerts.ServerProps
import Verif.ClientSM.HelloFacts

/-!
# The alerts of a client tell the truth
-/

namespace Fizz.Alerts.ClientProps
open Fizz.Codec Fizz.Crypto Fizz.ClientSM Fizz.Alerts Fizz.Alerts.ClientSpec
open Fizz.Server (HsCtx PeerCert deref derefPtr check ksState ksSecret transcriptHash finishedData
  psk_ke verifierFailure deref_eq_ok)
open Fizz.Alerts.Spec (Lacks)

variable {cfg : Cfg} {inp : Inp} {s : St} {unparsed : Bool}

/-- Failures without an alert, or of the application. -/
abbrev Ours {α} (cfg : Cfg) (inp : Inp) (x : Res α) : Prop := Only (Explained (Supplied cfg inp) fun _ => False) x

theorem Ours.any {α} {R : UInt8 → Prop} {x : Res α} (h : Ours cfg inp x) : Only (Explained (Supplied cfg inp) R) x :=
  h.mono fun f hf => by
    rcases hf with h | h | ⟨_, _, h⟩
    · exact .inl h
    · exact .inr (.inl h)
    · exact h.elim

theorem fields_mono {R R' : UInt8 → Prop} {α} {x : Res α} (h : Only (Explained (Supplied cfg inp) R) x)
    (hr : ∀ a, R a → R' a) : Only (Explained (Supplied cfg inp) R') x :=
  h.mono fun f hf => by
    rcases hf with h | h | ⟨a, ha, h⟩
    · exact .inl h
    · exact .inr (.inl h)
    · exact .inr (.inr ⟨a, ha, hr a h⟩)

/-! ## Own messages -/

theorem quiet_checked (t : Int) : Quiet (Time.checked t) := by
  unfold Time.checked
  split <;> first | exact Only.ok _ | exact Only.error rfl

theorem quiet_validatePsk (n) : Quiet (validatePsk cfg n) := by
  unfold validatePsk
  split
  · exact Only.ok _
  · split
    · exact Only.ok _
    · split
      · exact Only.ok _
      · refine Only.bind ?_ fun _ _ => Only.pure _
        unfold freshPsk
        split
        · split
          · exact Only.ok _
          · refine Only.bind (quiet_checked _) fun _ _ => ?_
            split <;> exact Only.pure _
        · exact Only.ok _

theorem ours_shares : ∀ (l acc), Ours cfg inp (makeShares inp l acc)
  | [], _ => Only.ok _
  | g :: gs, acc => Only.bind (Only.supplied fun f => .keyShare g f) fun _ _ => ours_shares gs _

theorem ours_optExt {b : Bool} {r : Res Extension} (h : Ours cfg inp r) : Ours cfg inp (optExt b r) := by
  unfold optExt
  split
  · exact Only.bind h fun _ _ => Only.pure _
  · exact Only.ok _

theorem ours_echExt {r : Res Bytes} (h : Ours cfg inp r) : Ours cfg inp (echExt r) :=
  Only.bind h fun _ _ => Only.pure _

theorem quiet_serverNames (l) : Quiet (encodeServerNameList l) := by
  unfold encodeServerNameList writeServerName; quiet

theorem ours_hello (r sh sni e i c) : Ours cfg inp (getClientHello cfg inp r sh sni e i c) := by
  refine Only.bind ?_ fun _ _ => Only.pure _
  unfold helloExtensions
  refine Only.bind ?_ fun _ _ => Only.bind (Only.quiet (by unfold encodeSupportedVersions; quiet)) fun _ _ =>
    Only.bind (Only.quiet (by unfold encodeSupportedGroups; quiet)) fun _ _ =>
    Only.bind (Only.quiet (by unfold encodeClientKeyShare writeKeyShareEntry; quiet)) fun _ _ =>
    Only.bind (Only.quiet (by unfold encodeSignatureAlgorithms; quiet)) fun _ _ => ?_
  · unfold sniExt
    split
    · exact ours_optExt (Only.quiet (quiet_serverNames _))
    · exact Only.ok _
  refine Only.bind (ours_optExt (Only.quiet (by unfold encodeProtocolNameList writeProtocolName; quiet))) fun _ _ =>
    Only.bind (ours_optExt (Only.quiet (by unfold encodePskKeyExchangeModes; quiet))) fun _ _ =>
    Only.bind (ours_optExt (Only.quiet (by unfold encodeClientEarlyData; quiet))) fun _ _ => Only.bind ?_ fun _ _ =>
    Only.bind (ours_optExt (Only.quiet (by unfold encodeCertificateCompressionAlgorithms; quiet))) fun _ _ =>
    Only.bind ?_ fun _ _ => Only.pure _
  · unfold cookieExt
    split
    · exact ours_optExt (Only.quiet (by unfold encodeCookie; quiet))
    · exact Only.ok _
  · unfold extraExt
    split
    · exact Only.supplied fun f => .extensions f
    · exact Only.ok _

theorem quiet_offerExt (p a b) : Quiet (encodeClientPresharedKey (pskOffer p a b)) := by
  unfold encodeClientPresharedKey writePskIdentity writePskBinder; quiet

theorem quiet_ownBinders {c : ClientHello} {p : ClientPresharedKey} {e : Extension}
    (h : encodeClientPresharedKey p = .ok e) : Quiet (getBinderLength (addExt c e)) := by
  rw [codec_clientPresharedKey.2.1] at h
  obtain ⟨⟨⟨hi1, hi2⟩, hb1, hb2⟩, rfl⟩ := h
  have hl : (addExt c (Codec.Spec.clientPresharedKeyWire p)).extensions.getLast? =
      some (Codec.Spec.clientPresharedKeyWire p) := by simp [addExt]
  have hr := binderLength_vecs hi2 hb2
  have ht : (Codec.Spec.clientPresharedKeyWire p).extension_type = ExtensionType.pre_shared_key := rfl
  have hd : (Codec.Spec.clientPresharedKeyWire p).extension_data =
      vec .u16 (p.identities.flatMap Codec.Spec.pskIdentity) ++ vec .u16 (p.binders.flatMap Codec.Spec.pskBinder) := rfl
  simp only [getBinderLength, hl, hd, hr, ht, ne_eq, not_true_eq_false, if_false]
  exact Only.ok _

theorem ours_bind (h c p x n) : Ours cfg inp (encodeAndAddBinders cfg h c p x n) := by
  refine Only.bind (Only.quiet (quiet_ksState (quiet_deriveEarlySecret _ _ _))) fun _ _ =>
    Only.bind (Only.quiet (quiet_ksSecret (quiet_getEarly _ _ _ _))) fun _ _ => Only.bind ?_ fun _ _ =>
    Only.bind (Only.supplied fun f => .hash _ f) fun _ _ => Only.bind (Only.quiet (quiet_offerExt _ _ _)) fun e he =>
    Only.bind (Only.quiet (quiet_ownBinders he)) fun _ _ => Only.bind (Only.quiet (quiet_encodeHandshake _)) fun _ _ => ?_
  · unfold obfuscatedAge
    split
    · exact Only.bind (Only.quiet (quiet_checked _)) fun _ _ => Only.pure _
    · exact Only.ok _
  · exact Only.bind (Only.quiet (quiet_finishedData _ _ _)) fun _ _ => Only.bind (Only.quiet (quiet_offerExt _ _ _)) fun _ _ =>
      Only.bind (Only.quiet (quiet_encodeHandshake _)) fun _ _ => Only.pure _

theorem ours_encrypt (b i r n g) : Ours cfg inp (encryptHello inp b i r n g) := by
  refine Only.bind (Only.quiet (quiet_serverNames _)) fun _ _ => Only.bind (ours_echExt (Only.supplied fun f => .echEncrypt _ _ _ f))
    fun _ _ => Only.bind ?_ fun _ _ => Only.pure _
  unfold greaseExt
  split
  · exact ours_optExt (Only.quiet (by unfold encodeClientPresharedKey writePskIdentity writePskBinder; quiet))
  · exact Only.ok _

theorem ours_connect : Ours cfg inp (onConnect cfg inp) := by
  refine Only.bind ?_ fun _ _ => Only.pure _
  refine Only.bind (Only.quiet (quiet_validatePsk _)) fun psk _ => Only.bind (ours_shares _ _) fun _ _ => Only.bind ?_ fun _ _ =>
    Only.bind (ours_hello _ _ _ _ _ _) fun _ _ => Only.bind ?_ fun _ _ => Only.bind ?_ fun _ _ => Only.bind ?_ fun _ _ => Only.pure _
  · unfold setupEch
    split
    · exact Only.bind (Only.supplied fun f => .echSetup f) fun _ _ => Only.pure _
    · exact Only.ok _
  · unfold firstEchExt
    split
    · exact Only.ok _
    · split
      · exact ours_optExt (ours_echExt (Only.supplied fun f => .greaseEch _ f))
      · exact Only.ok _
  · cases psk with
    | none => exact Only.bind (Only.quiet (quiet_encodeHandshake _)) fun _ _ => Only.pure _
    | some psk =>
      refine Only.bind (Only.supplied fun f => .hash _ f) fun _ _ => Only.bind (ours_bind _ _ _ _ _) fun _ _ =>
        Only.bind ?_ fun _ _ => Only.pure _
      unfold optEarlySecrets
      split
      · exact Only.bind (Only.bind (Only.quiet (quiet_ksSecret (quiet_getEarly _ _ _ _))) fun _ _ =>
          Only.bind (Only.quiet (quiet_ksSecret (quiet_getEarly _ _ _ _))) fun _ _ => Only.pure _) fun _ _ => Only.pure _
      · exact Only.ok _
  · unfold finalHello
    split
    · exact Only.bind (Only.supplied fun f => .greasePsk _ f) fun _ _ => Only.bind (ours_encrypt _ _ _ _ _) fun _ _ =>
        Only.bind (Only.quiet (quiet_encodeHandshake _)) fun _ _ => Only.pure _
    · split
      · exact Only.bind (ours_echExt (Only.supplied fun f => .greaseEch _ f)) fun _ _ =>
          Only.bind (Only.quiet (quiet_encodeHandshake _)) fun _ _ => Only.pure _
      · exact Only.ok _

/-! ## ServerHello -/

theorem share_none {g : UInt16} : ∀ {l : List (UInt16 × Bytes)}, findShare g l = none → g ∉ l.map (·.1)
  | [], _ => by simp
  | (g', b) :: l, h => by
    unfold findShare at h
    split at h
    · cases h
    · next hn =>
      simp only [List.map_cons, List.mem_cons, not_or]
      exact ⟨fun e => hn e.symm, share_none h⟩

theorem share_some {g : UInt16} {b : Bytes} : ∀ {l : List (UInt16 × Bytes)}, findShare g l = some b → g ∈ l.map (·.1)
  | [], h => by cases h
  | (g', b') :: l, h => by
    unfold findShare at h
    split at h
    · next hn => simp [hn]
    · exact List.mem_map.2 (by obtain ⟨x, hx, e⟩ := List.mem_map.1 (share_some h); exact ⟨x, List.mem_cons_of_mem _ hx, e⟩)

theorem all_false {l : List Extension} {p : Extension → Prop} [DecidablePred p]
    (h : (l.all fun e => decide (p e)) = false) : ∃ e ∈ l, ¬ p e := by
  rw [List.all_eq_false] at h
  obtain ⟨e, he, hp⟩ := h
  exact ⟨e, he, by simpa using hp⟩

theorem field_checks (lv co ci exts) : Only (Explained (Supplied cfg inp) (FieldReason cfg lv co ci exts))
    (getVersionAndCipher cfg lv co ci exts) := by
  refine Only.bind (Only.check fun h => .reason (.legacy_version (by simpa using h))) fun _ _ =>
    Only.bind (Only.check fun h => .reason (.compression (by simpa using h))) fun _ _ =>
    Only.bind (Only.quiet (quiet_getServerSupportedVersions _)) fun o ho => ?_
  cases o with
  | none => exact Only.error (.reason (.no_version (lacks_of ho)))
  | some v =>
    exact Only.bind (Only.check fun h => .reason (.version v ho (by simpa using h))) fun _ _ =>
      Only.bind (Only.check fun h => .reason (.cipher (by simpa using h))) fun _ _ => Only.pure _

theorem version_eq {lv co ci exts v} (h : getVersionAndCipher cfg lv co ci exts = .ok v) :
    ∃ w, getServerSupportedVersions exts = .ok (some w) ∧ w.selected_version = v := by
  simp only [getVersionAndCipher, Res.bind_eq_ok] at h
  obtain ⟨_, _, _, _, o, ho, h⟩ := h
  cases o with
  | none => cases h
  | some w =>
    simp only [Res.bind_eq_ok] at h
    obtain ⟨_, _, _, _, h⟩ := h
    cases h
    exact ⟨w, ho, rfl⟩

theorem why_duplicates {R : UInt8 → Prop} (exts : List Extension)
    (h : ¬ (exts.map (·.extension_type)).Nodup → R 47) :
    Only (Explained (Supplied cfg inp) R) (noDuplicates exts) :=
  Only.check fun hd => .reason (h (by simpa using hd))

variable {m : ServerHello}

local notation "OK" => Only (Explained (Supplied cfg inp) (HelloReason cfg inp s unparsed m))

theorem why_shloExtensions {requested} (hr : s.requestedExtensions = some requested) :
    OK (checkShloExtensions m.extensions requested) := by
  refine Only.bind (Only.check fun h => ?_) fun _ _ => why_duplicates _ fun h => .fields _ (.duplicate h)
  obtain ⟨e, he, hn⟩ := all_false h
  refine .reason (.extension requested hr e he ?_)
  by_cases hq : e.extension_type ∈ requested
  · refine .inr fun hm => hn ⟨hq, ?_⟩
    simp only [List.mem_cons, List.not_mem_nil, or_false] at hm
    tauto
  · exact .inl hq

theorem why_exchange {shares} (hs : s.keyExchangers = some shares) : OK (negotiateExchange m.extensions shares) := by
  refine Only.bind (Only.quiet (quiet_getServerKeyShare _)) fun o ho => ?_
  cases o with
  | none => exact Only.pure _
  | some k =>
    dsimp only
    split
    · next h => exact Only.error (.reason (.group shares hs k ho (share_none h)))
    · exact Only.pure _

theorem exchange_is {shares x} (h : negotiateExchange m.extensions shares = .ok x) :
    x.isSome = true ↔ ¬ Lacks m.extensions 51 := by
  unfold negotiateExchange at h
  rw [Res.bind_eq_ok] at h
  obtain ⟨o, ho, h⟩ := h
  cases o with
  | none => cases h; exact ⟨fun h => (by cases h), fun h => absurd (lacks_of ho) h⟩
  | some k =>
    dsimp only at h
    split at h
    · cases h
    · cases h; exact ⟨fun _ => has_of ho, fun _ => rfl⟩

theorem other_hash {a b} (h : sameHash cfg a b = .ok false) : OtherHash cfg a b := by
  simp only [sameHash, Res.bind_eq_ok] at h
  obtain ⟨ha, h1, hb, h2, h⟩ := h
  refine ⟨ha, hb, h1, h2, ?_⟩
  cases h' : (ha.hashLen == hb.hashLen && ha.blockSize == hb.blockSize && ha.blankHash == hb.blankHash) with
  | true => rw [h'] at h; cases h
  | false =>
    simp only [Bool.and_eq_false_iff, beq_eq_false_iff_ne] at h'
    tauto

theorem ours_sameHash (a b) : Ours cfg inp (sameHash cfg a b) :=
  Only.bind (Only.supplied fun f => .hash _ f) fun _ _ => Only.bind (Only.supplied fun f => .hash _ f) fun _ _ => Only.pure _

theorem why_psk {version} {w} (hw : getServerSupportedVersions m.extensions = .ok (some w)) (hv : w.selected_version = version)
    {b : Bool} (hb : b = true ↔ ¬ Lacks m.extensions 51) :
    OK (negotiatePsk cfg s.attemptedPsk m.extensions version m.cipher_suite b) := by
  refine Only.bind (Only.quiet (quiet_getServerPresharedKey _)) fun o ho => ?_
  cases hp : s.attemptedPsk with
  | none =>
    cases o with
    | none => exact Only.pure _
    | some sel => exact Only.error (.reason (.psk_unoffered sel ho (.inl hp)))
  | some psk =>
    cases o with
    | none => exact Only.pure _
    | some sel =>
      refine Only.bind (Only.check fun h => .reason (.psk_unoffered sel ho (.inr (by simpa using h)))) fun _ _ =>
        Only.bind (Only.check fun h => .reason (.psk_misfit sel ho psk hp (.inl ⟨w, hw, by simpa [hv] using h⟩))) fun _ _ =>
        Only.bind (ours_sameHash _ _).any fun same hs =>
        Only.bind (Only.check fun h => .reason (.psk_misfit sel ho psk hp (.inr (.inl ?_)))) fun _ _ =>
        Only.bind (Only.check fun h => .reason (.psk_misfit sel ho psk hp (.inr (.inr ?_)))) fun _ _ => Only.pure _
      · subst h; exact other_hash hs
      · cases b with
        | true => exact .inl ⟨hb.1 rfl, by simpa [pskMode] using h⟩
        | false => exact .inr ⟨Classical.byContradiction fun hn => absurd (hb.2 hn) (by simp), by simpa [pskMode, psk_ke] using h⟩

theorem mode_ke {p} {version} (h : negotiatePsk cfg s.attemptedPsk m.extensions version m.cipher_suite false = .ok p)
    (hm : p.mode ≠ some psk_ke) : Lacks m.extensions 41 := by
  unfold negotiatePsk at h
  rw [Res.bind_eq_ok] at h
  obtain ⟨o, ho, h⟩ := h
  cases o with
  | none => exact lacks_of ho
  | some sel =>
    exfalso
    cases hp : s.attemptedPsk with
    | none => rw [hp] at h; cases h
    | some psk =>
      rw [hp] at h
      simp only [acceptPsk, Res.bind_eq_ok] at h
      obtain ⟨_, _, _, _, _, _, _, _, _, _, h⟩ := h
      cases h
      exact hm rfl

theorem accepted_has {p} {version b} (h : negotiatePsk cfg s.attemptedPsk m.extensions version m.cipher_suite b = .ok p)
    (hm : isPskAccepted p.type = true) : ¬ Lacks m.extensions 41 := by
  unfold negotiatePsk at h
  rw [Res.bind_eq_ok] at h
  obtain ⟨o, ho, h⟩ := h
  cases o with
  | some sel => exact has_of ho
  | none =>
    exfalso
    cases hp : s.attemptedPsk with
    | none => rw [hp] at h; cases h; revert hm; dsimp only; split <;> simp [isPskAccepted]
    | some psk => rw [hp] at h; cases h; simp [isPskAccepted] at hm

theorem why_negotiate : OK (negotiateShlo cfg s m) := by
  refine Only.bind (Only.quiet (quiet_deref _)) fun requested hr => Only.bind (why_shloExtensions (deref_eq_ok.1 hr)) fun _ _ =>
    Only.bind (fields_mono (field_checks _ _ _ _) fun a => .fields a) fun v hv =>
    Only.bind (Only.quiet (quiet_deref _)) fun shares hs => Only.bind (why_exchange (deref_eq_ok.1 hs)) fun x hx =>
    Only.bind (Only.check fun h => .reason (.session_id (by simpa using h))) fun _ _ => ?_
  obtain ⟨w, hw, hwv⟩ := version_eq hv
  refine Only.bind (Only.check fun h => ?_) fun _ _ => Only.bind (Only.check fun h => ?_) fun _ _ =>
    Only.bind (why_psk hw hwv (exchange_is hx)) fun p hp => Only.bind (Only.check fun h => ?_) fun _ _ => Only.pure _
  · cases ho : s.version with
    | none => simp [ho] at h
    | some v' =>
      rw [ho] at h
      refine .reason (.version_changed v' w ho hw fun e => ?_)
      simp [← hwv, e] at h
  · cases ho : s.cipher with
    | none => simp [ho] at h
    | some c =>
      rw [ho] at h
      refine .reason (.cipher_changed c ho fun e => ?_)
      simp [e] at h
  · simp only [Bool.or_eq_false_iff, decide_eq_false_iff_not] at h
    refine .reason (.no_share ?_ ?_)
    · exact Classical.byContradiction fun hn => by have := (exchange_is hx).2 hn; rw [h.1] at this; cases this
    · rw [h.1] at hp
      exact mode_ke hp h.2

theorem negotiate_psk {v x p} (h : negotiateShlo cfg s m = .ok (v, x, p)) (hm : isPskAccepted p.type = true) :
    ¬ Lacks m.extensions 41 := by
  simp only [negotiateShlo, Res.bind_eq_ok] at h
  obtain ⟨_, _, _, _, _, _, _, _, _, _, _, _, _, _, _, _, p', hp, _, _, h⟩ := h
  cases h
  exact accepted_has hp hm

theorem quiet_early (h mode a) : Quiet (earlyStage h mode a) := by
  unfold earlyStage
  split
  · exact Only.ok _
  · exact Only.bind (quiet_deref _) fun _ _ => quiet_ksState (quiet_deriveEarlySecret _ _ _)

theorem ours_handshake (h ks x) : Ours cfg inp (handshakeStage h inp ks x) := by
  unfold handshakeStage
  split
  · exact Only.bind (Only.supplied fun f => .kex _ _ _ f) fun _ _ =>
      Only.quiet (quiet_ksState (quiet_deriveHandshakeSecretEcdhe _ _ _))
  · exact Only.quiet (quiet_ksState (quiet_deriveHandshakeSecret _ _))

theorem quiet_inner (c e) : Quiet (innerContext s c e) := by
  unfold innerContext
  split
  · exact quiet_derefPtr _
  · exact Only.bind (quiet_derefPtr _) fun _ _ => Only.pure _

theorem quiet_outer (c) : Quiet (outerContext s c) := by
  unfold outerContext
  split
  · exact Only.ok _
  · exact Only.bind (quiet_deref _) fun _ _ => Only.pure _

theorem why_ech (c) : OK (resolveEch inp s c m) := by
  refine Only.bind (Only.quiet (quiet_outer _)) fun o _ => ?_
  cases he : s.echState with
  | none => exact Only.pure _
  | some e =>
    refine Only.bind (Only.quiet (quiet_inner _ _)) fun i _ => Only.bind (Only.supplied fun f => .echAccepted _ _ _ f) fun b hb =>
      Only.bind (Only.check fun h => ?_) fun _ _ => Only.pure _
    simp only [decide_eq_false_iff_not, not_or] at h
    exact .reason (.ech_changed e he h.1 _ b hb h.2)

theorem ech_is {c ctx} (h : resolveEch inp s c m = .ok (ctx, some .rejected)) :
    ∃ e t, s.echState = some e ∧ inp.echAccepted e.random t m = .ok false := by
  unfold resolveEch at h
  rw [Res.bind_eq_ok] at h
  obtain ⟨o, _, h⟩ := h
  cases he : s.echState with
  | none => rw [he] at h; cases h
  | some e =>
    rw [he] at h
    simp only [Res.bind_eq_ok] at h
    obtain ⟨i, _, b, hb, _, _, h⟩ := h
    cases b with
    | true => cases h
    | false => exact ⟨e, _, rfl, hb⟩

theorem quiet_time (mode a) : Quiet (shloTime inp mode a) := by
  unfold shloTime
  split
  · exact Only.ok _
  · exact Only.bind (quiet_deref _) fun _ _ => Only.pure _

theorem why_serverHello (o) : OK (onServerHello cfg inp s unparsed m o) := by
  refine Only.bind ?_ fun _ _ => Only.pure _
  refine Only.bind why_negotiate fun n hn => ?_
  obtain ⟨v, x, p⟩ := n
  refine Only.bind (Only.supplied fun f => .hash _ f) fun _ _ => Only.bind (Only.quiet (quiet_early _ _ _)) fun _ _ =>
    Only.bind (ours_handshake _ _ _).any fun _ _ => Only.bind (why_ech _) fun y hy => ?_
  obtain ⟨ctx, ech⟩ := y
  refine Only.bind (Only.check fun h => ?_) fun _ _ => Only.bind (Only.check fun h => .reason (.behind (by simpa using h))) fun _ _ =>
    Only.bind (Only.supplied fun f => .hash _ f) fun _ _ =>
    Only.bind (Only.quiet (quiet_ksSecret (quiet_getHandshake _ _ _ _))) fun _ _ =>
    Only.bind (Only.quiet (quiet_ksSecret (quiet_getHandshake _ _ _ _))) fun _ _ =>
    Only.bind (Only.quiet (quiet_time _ _)) fun _ _ => Only.pure _
  simp only [Bool.not_eq_false', Bool.and_eq_true, decide_eq_true_eq] at h
  obtain ⟨rfl, ha⟩ := h
  obtain ⟨e, t, he, hb⟩ := ech_is hy
  exact .reason (.ech_psk e he t hb (negotiate_psk hn ha))

/-! ## HelloRetryRequest -/

section
variable {m : HelloRetryRequest}

local notation "RETRY" => Only (Explained (Supplied cfg inp) (RetryReason cfg s m))

theorem why_hrrExtensions {requested} (hr : s.requestedExtensions = some requested) :
    RETRY (checkHrrExtensions m.extensions requested) := by
  refine Only.bind (Only.check fun h => ?_) fun _ _ => why_duplicates _ fun h => .fields _ (.duplicate h)
  obtain ⟨e, he, hn⟩ := all_false h
  refine .reason (.extension requested hr e he ?_ ?_)
  · simp only [List.mem_cons, List.not_mem_nil, or_false]
    tauto
  · by_cases h1 : e.extension_type = 0xfe0d
    · refine .inr fun h2 => hn (.inr (.inr (.inr ⟨h1, ?_⟩)))
      rw [h1]; exact h2
    · exact .inl h1

theorem why_hrrGroup : RETRY (hrrGroup cfg m.extensions) := by
  refine Only.bind (Only.quiet (quiet_getHelloRetryRequestKeyShare _)) fun o ho => ?_
  cases o with
  | none => exact Only.pure _
  | some k => exact Only.bind (Only.check fun h => .reason (.group k ho (by simpa using h))) fun _ _ => Only.pure _

theorem group_is {g} (h : hrrGroup cfg m.extensions = .ok (some g)) :
    ∃ k, getHelloRetryRequestKeyShare m.extensions = .ok (some k) ∧ k.selected_group = g := by
  unfold hrrGroup at h
  rw [Res.bind_eq_ok] at h
  obtain ⟨o, ho, h⟩ := h
  cases o with
  | none => cases h
  | some k =>
    simp only [Res.bind_eq_ok] at h
    obtain ⟨_, _, h⟩ := h
    cases h
    exact ⟨k, ho, rfl⟩

theorem why_negotiateHrr : RETRY (negotiateHrr cfg s m) := by
  refine Only.bind (Only.quiet (quiet_deref _)) fun requested hr => Only.bind (why_hrrExtensions (deref_eq_ok.1 hr)) fun _ _ =>
    Only.bind (Only.check fun h => .reason (.second ?_)) fun _ _ =>
    Only.bind (fields_mono (field_checks _ _ _ _) fun a => .fields a) fun v hv => Only.bind why_hrrGroup fun _ _ =>
    Only.bind ?_ fun _ _ => Only.pure _
  · intro hn; rw [hn] at h; cases h
  · refine Only.bind (Only.quiet (quiet_getCookie _)) fun o _ => ?_
    cases o <;> exact Only.pure _

theorem negotiated_group {v g c} (h : negotiateHrr cfg s m = .ok (v, some g, c)) :
    ∃ k, getHelloRetryRequestKeyShare m.extensions = .ok (some k) ∧ k.selected_group = g := by
  simp only [negotiateHrr, Res.bind_eq_ok] at h
  obtain ⟨_, _, _, _, _, _, _, _, o, ho, _, _, h⟩ := h
  cases h
  exact group_is ho

theorem why_hrrShares {g : Option UInt16} {shares} (hs : s.keyExchangers = some shares)
    (hg : ∀ x, g = some x → ∃ k, getHelloRetryRequestKeyShare m.extensions = .ok (some k) ∧ k.selected_group = x) :
    RETRY (hrrShares inp shares g) := by
  cases g with
  | none => exact Only.ok _
  | some x =>
    obtain ⟨k, hk, rfl⟩ := hg x rfl
    refine Only.bind (Only.check fun h => .reason (.needless k hk shares hs ?_)) fun _ _ => (ours_shares _ _).any
    cases hf : findShare k.selected_group shares with
    | none => rw [hf] at h; cases h
    | some b => exact share_some hf

theorem ours_hrrPsk (c p) : Ours cfg inp (hrrPsk cfg c p) := by
  cases p with
  | none => exact Only.ok _
  | some p => exact Only.bind (ours_sameHash _ _) fun _ _ => Only.pure _

theorem quiet_hrrContext (h c b) : Quiet (hrrContext h c b) := Only.bind (quiet_frame _ _) fun _ _ => Only.pure _

theorem ours_echRetry (h c m o e) : Ours cfg inp (echRetry inp h c m o e) := by
  cases e with
  | none => exact Only.ok _
  | some e =>
    refine Only.bind (Only.quiet (quiet_derefPtr _)) fun _ _ => Only.bind (Only.quiet (quiet_hrrContext _ _ _)) fun _ _ =>
      Only.bind (Only.supplied fun f => .echAcceptedHrr _ _ _ f) fun _ _ => Only.bind ?_ fun _ _ => Only.pure _
    unfold newGrease
    split
    · exact Only.ok _
    · exact Only.bind (Only.supplied fun f => .greasePskHrr _ f) fun _ _ => Only.pure _

theorem ours_retryOffer (h c x p) : Ours cfg inp (retryOffer cfg inp h c x p) := by
  cases p with
  | none => exact Only.bind (Only.quiet (quiet_encodeHandshake _)) fun _ _ => Only.pure _
  | some p => exact Only.bind (ours_bind _ _ _ _ _) fun _ _ => Only.pure _

theorem ours_retryFinal (c e r) : Ours cfg inp (retryFinal inp s c e r) := by
  cases r with
  | none => exact Only.ok _
  | some r =>
    exact Only.bind (Only.quiet (quiet_deref _)) fun _ _ => Only.bind (Only.quiet (quiet_deref _)) fun _ _ =>
      Only.bind (ours_encrypt _ _ _ _ _) fun _ _ => Only.bind (Only.quiet (quiet_encodeHandshake _)) fun _ _ => Only.pure _

theorem why_retry (o) : RETRY (onHelloRetryRequest cfg inp s m o) := by
  refine Only.bind ?_ fun _ _ => Only.bind (Only.quiet (quiet_derefPtr _)) fun _ _ => Only.pure _
  refine Only.bind why_negotiateHrr fun n hn => ?_
  obtain ⟨v, g, c⟩ := n
  refine Only.bind (ours_hrrPsk _ _).any fun _ _ => Only.bind (Only.quiet (quiet_deref _)) fun shares hs =>
    Only.bind (why_hrrShares (deref_eq_ok.1 hs) fun x hx => negotiated_group (hx ▸ hn)) fun _ _ => Only.bind ?_ fun _ _ =>
    Only.bind (Only.supplied fun f => .hash _ f) fun _ _ => Only.bind (Only.quiet (quiet_deref _)) fun _ _ =>
    Only.bind (Only.quiet (quiet_hrrContext _ _ _)) fun _ _ => Only.bind (ours_echRetry _ _ _ _ _).any fun _ _ =>
    Only.bind (ours_retryOffer _ _ _ _).any fun _ _ => Only.bind (ours_retryFinal _ _ _).any fun _ _ => Only.pure _
  exact Only.bind (Only.quiet (quiet_deref _)) fun _ _ => (ours_hello _ _ _ _ _ _).any
end

/-! ## EncryptedExtensions -/

section
variable {m : EncryptedExtensions}

local notation "EXT" => Only (Explained (Supplied cfg inp) (ExtensionsReason cfg s m))

theorem why_eeExtensions {requested} (hr : s.requestedExtensions = some requested) :
    EXT (checkEeExtensions m.extensions requested) := by
  refine Only.bind (Only.check fun h => ?_) fun _ _ => why_duplicates _ fun h => .duplicate h
  obtain ⟨e, he, hn⟩ := all_false h
  refine .reason (.extension requested hr e he ?_)
  by_cases h1 : e.extension_type ∈ ([13, 51, 41, 45, 44, 43] : List UInt16)
  · left
    simp only [List.mem_cons, List.not_mem_nil, or_false] at h1 ⊢
    tauto
  · exact .inr fun h2 => hn ⟨h1, h2⟩

theorem why_alpn : EXT (eeAlpn cfg m.extensions) := by
  refine Only.bind (Only.quiet (quiet_getProtocolNameList _)) fun o ho => ?_
  cases o with
  | none =>
    exact Only.bind (Only.check fun h => .reason (.no_application_protocol (by simpa using h) (lacks_of ho))) fun _ _ => Only.pure _
  | some l =>
    dsimp only
    split
    · next p hl =>
      refine Only.bind (Only.check fun h => .reason (.application_protocol l ho fun q hq => ?_)) fun _ _ => Only.pure _
      rw [hl] at hq
      cases hq
      simpa using h
    · next hn => exact Only.error (.reason (.application_protocol l ho fun q hq => absurd hq (hn q)))

theorem alpn_is {a} (h : eeAlpn cfg m.extensions = .ok a) :
    (a = none ∧ getProtocolNameList m.extensions = .ok none) ∨
      ∃ n, a = some n ∧ getProtocolNameList m.extensions = .ok (some ⟨[⟨n⟩]⟩) := by
  unfold eeAlpn at h
  rw [Res.bind_eq_ok] at h
  obtain ⟨o, ho, h⟩ := h
  cases o with
  | none =>
    simp only [Res.bind_eq_ok] at h
    obtain ⟨_, _, h⟩ := h
    cases h
    exact .inl ⟨rfl, ho⟩
  | some l =>
    dsimp only at h
    split at h
    · next p hl =>
      simp only [Res.bind_eq_ok] at h
      obtain ⟨_, _, h⟩ := h
      cases h
      obtain ⟨l⟩ := l
      dsimp only at hl
      subst hl
      exact .inr ⟨_, rfl, ho⟩
    · cases h

theorem why_early {a} (ha : eeAlpn cfg m.extensions = .ok a) : EXT (eeEarly cfg s m.extensions a) := by
  refine Only.bind (Only.quiet (quiet_getServerEarlyData _)) fun o ho => ?_
  cases o with
  | none => exact Only.pure _
  | some x =>
    have hx := has_of ho
    dsimp only
    unfold acceptEarly
    split
    · refine Only.bind ?_ fun _ _ => Only.pure _
      unfold validateAcceptedEarly
      cases hp : s.earlyDataParams with
      | none => exact Only.error (.reason (.early_data hx (.inr (.inl hp))))
      | some p =>
        refine Only.bind (Only.check fun h => .reason (.early_data hx (.inr (.inr (.inl (by simpa using h)))))) fun _ _ =>
          Only.bind (Only.check fun h => .reason (.early_data hx (.inr (.inr (.inr (.inr ⟨p, hp, .inl (by simpa using h)⟩)))))) fun _ _ =>
          Only.bind (Only.check fun h => .reason (.early_data hx (.inr (.inr (.inr (.inr ⟨p, hp, .inr ?_⟩)))))) fun _ _ =>
          Only.check fun h => .reason (.early_data hx (.inr (.inr (.inr (.inl ?_)))))
        · have h : p.alpn ≠ a := by simpa using h
          rcases alpn_is ha with ⟨rfl, hg⟩ | ⟨n, rfl, hg⟩
          · refine ⟨fun b _ l hl => ?_, fun hc => h hc.1⟩
            rw [hg] at hl; cases hl
          · refine ⟨fun b hb l hl => ?_, fun hc => has_of hg hc.2⟩
            rw [hg] at hl
            cases hl
            intro e
            simp only [List.cons.injEq, ProtocolName.mk.injEq, and_true] at e
            exact h (by rw [hb, e])
        · simpa using h
    · next hn => exact Only.error (.reason (.early_data hx (.inl hn)))

theorem why_extensions (o) : EXT (onEncryptedExtensions cfg inp s m o) := by
  refine Only.bind (Only.quiet (quiet_deref _)) fun requested hr => Only.bind (why_eeExtensions (deref_eq_ok.1 hr)) fun _ _ =>
    Only.bind (Only.quiet (quiet_derefPtr _)) fun _ _ => Only.bind why_alpn fun a ha => Only.bind (why_early ha) fun _ _ =>
    Only.bind ?_ fun _ _ => Only.bind ?_ fun _ _ => Only.bind (Only.quiet (quiet_deref _)) fun _ _ => Only.pure _
  · unfold eeRetry
    split
    · exact Only.ok _
    · refine Only.bind (Only.supplied fun f => .echRetry _ f) fun o _ => ?_
      split
      · exact Only.pure _
      · exact Only.error (.inl rfl)
      · exact Only.pure _
  · unfold eeNotify
    split
    · exact Only.supplied fun f => .notify _ f
    · exact Only.ok _
end

/-! ## Certificates -/

local notation "FINE(" p ")" => Only (Explained (Supplied cfg inp) (Reason cfg inp s unparsed p))

theorem why_request (m o) : FINE(.sock (.handshake (.certificateRequest m) o)) (onCertificateRequest cfg inp s m o) := by
  refine Only.bind (Only.check fun h => .reason (.second_request m o ?_)) fun _ _ =>
    Only.bind (Only.quiet (quiet_derefPtr _)) fun _ _ => Only.bind (Only.check fun h => .reason (.request m o (.inl ?_))) fun _ _ =>
    Only.bind (Only.quiet (quiet_getSignatureAlgorithms _)) fun o' ho => ?_
  · intro hn; rw [hn] at h; cases h
  · rw [ne_eq, ← List.isEmpty_iff, h]; simp
  · cases o' with
    | none => exact Only.error (.reason (.request m o (.inr (lacks_of ho))))
    | some l =>
      refine Only.bind ?_ fun _ _ => Only.pure _
      unfold getClientCert
      split
      · exact Only.supplied fun f => .getCert _ _ _ f
      · exact Only.ok _

theorem why_chain {m : CertificateMsg} : ∀ (leaf) (l : List CertificateEntry), (∀ e ∈ l, e ∈ m.certificate_list) →
    Only (Explained (Supplied cfg inp) (CertificateReason cfg inp m)) (readChain cfg inp leaf l)
  | _, [], _ => Only.ok _
  | leaf, e :: l, h => by
    refine Only.bind ?_ fun _ _ => Only.bind (Only.supplied fun f => .makePeerCert _ _ f) fun _ _ =>
      Only.bind (why_chain false l fun x hx => h x (by simp [hx])) fun _ _ => Only.pure _
    unfold checkCertExtensions
    split
    · refine Only.bind (Only.supplied fun f => .extensions f) fun requested hr => Only.check fun hc => ?_
      obtain ⟨x, hx, hn⟩ := all_false hc
      exact .reason (.extension e (h e (by simp)) x hx (.inr ⟨requested, hr, hn⟩))
    · next hx =>
      refine Only.check fun hc => ?_
      cases hl : e.extensions with
      | nil => rw [hl] at hc; cases hc
      | cons x xs => exact .reason (.extension e (h e (by simp)) x (by simp [hl]) (.inl (by simpa using hx)))

theorem chain_nil {leaf l} (h : readChain cfg inp leaf l = .ok []) : l = [] := by
  cases l with
  | nil => rfl
  | cons e l =>
    simp only [readChain, Res.bind_eq_ok] at h
    obtain ⟨_, _, _, _, _, _, h⟩ := h
    cases h

theorem why_certMsg (m) : Only (Explained (Supplied cfg inp) (CertificateReason cfg inp m)) (handleCertMsg cfg inp m) := by
  refine Only.bind (Only.check fun h => .reason (.context ?_)) fun _ _ => Only.bind (why_chain _ _ fun _ h => h) fun chain hc =>
    Only.bind (Only.check fun h => .reason (.empty ?_)) fun _ _ => Only.pure _
  · rw [ne_eq, ← List.isEmpty_iff, h]; simp
  · cases chain with
    | nil => exact chain_nil hc
    | cons c cs => cases h

theorem why_certificate (m o) : FINE(.sock (.handshake (.certificate m) o)) (onCertificate cfg inp s m o) :=
  Only.bind (Only.quiet (quiet_derefPtr _)) fun _ _ =>
    Only.bind (fields_mono (why_certMsg _) fun a h => .certificate m o a h) fun _ _ => Only.pure _

theorem why_compressed (m o) :
    FINE(.sock (.handshake (.compressedCertificate m) o)) (onCompressedCertificate cfg inp s m o) := by
  refine Only.bind (Only.check fun h => .reason (.compressed_unoffered m o ?_)) fun _ _ =>
    Only.bind (Only.quiet (quiet_derefPtr _)) fun _ _ =>
    Only.bind (Only.check fun h => .reason (.algorithm m o (by simpa using h))) fun _ _ => Only.bind ?_ fun c hc =>
    Only.bind (fields_mono (why_certMsg _) fun a h => .decompressed m o c a ?_ h) fun _ _ => Only.pure _
  · simpa using h
  · unfold decompress
    split
    · exact Only.ok _
    · exact Only.error (.inl rfl)
    · exact Only.error (.inl rfl)
    · next f _ _ hf => exact Only.error (.reason (.decompression m o f hf))
  · unfold decompress at hc
    split at hc <;> cases hc
    assumption

theorem quiet_leaf (l) : Quiet (leafOf l) := by
  cases l
  · exact Only.error rfl
  · exact Only.ok _

theorem why_verify (m o) : FINE(.sock (.handshake (.certificateVerify m) o)) (onCertificateVerify cfg inp s m o) := by
  refine Only.bind (Only.check fun h => .reason (.scheme m o (by simpa using h))) fun _ _ =>
    Only.bind (Only.quiet (quiet_deref _)) fun chain hch => Only.bind (Only.quiet (quiet_leaf _)) fun leaf _ =>
    Only.bind (Only.quiet (quiet_derefPtr _)) fun _ _ => Only.bind (Only.supplied fun f => .hash _ f) fun _ _ =>
    Only.bind (Only.supplied fun f => .verifySig _ _ _ _ f) fun _ _ => Only.bind ?_ fun _ _ => Only.pure _
  unfold verifiedCert
  split
  · next hv =>
    split
    · exact Only.ok _
    · exact Only.ok _
    · next f hf =>
      refine Only.error ?_
      have hch := deref_eq_ok.1 hch
      by_cases hz : ∃ t a, f = .err t a .fizz ∨ f = .err t a .verifier
      · obtain ⟨t, a, rfl | rfl⟩ := hz <;> exact .inr (.inl (.verifyChain _ _ hf))
      · have hz' : ∀ t a, f ≠ .err t a .fizz ∧ f ≠ .err t a .verifier :=
          fun t a => ⟨fun h => hz ⟨t, a, .inl h⟩, fun h => hz ⟨t, a, .inr h⟩⟩
        have hb := Reason.bad_certificate (cfg := cfg) (inp := inp) (s := s) (unparsed := unparsed) m o hv chain f hch hf hz'
        unfold verifierFailure
        split
        · next t a => exact absurd rfl (hz' t a).1
        · next t a => exact absurd rfl (hz' t a).2
        · exact .inr (.inr ⟨42, rfl, hb⟩)
        · exact .inl rfl
        · exact .inl rfl
        · exact .inr (.inr ⟨42, rfl, hb⟩)
  · exact Only.ok _

/-! ## Finished -/

theorem quiet_endEarly (c) : Quiet (endEarly cfg s c) := by
  unfold endEarly
  split
  · exact Only.bind (quiet_encodeHandshake _) fun _ _ => Only.bind (quiet_derefPtr _) fun _ _ => Only.pure _
  · exact Only.ok _

theorem ours_auth (h c t) : Ours cfg inp (clientAuth inp h s c t) := by
  cases t with
  | stored => exact Only.ok _
  | notRequested => exact Only.ok _
  | requestedNoMatch => exact Only.bind (Only.quiet (quiet_encodeHandshake _)) fun _ _ => Only.pure _
  | sent =>
    exact Only.bind (Only.quiet (quiet_derefPtr _)) fun _ _ => Only.bind (Only.supplied fun f => .certMessage _ f) fun _ _ =>
      Only.bind (Only.quiet (quiet_encodeHandshake _)) fun _ _ => Only.bind (Only.quiet (quiet_deref _)) fun _ _ =>
      Only.bind (Only.supplied fun f => .sign _ _ _ f) fun _ _ => Only.bind (Only.quiet (quiet_encodeHandshake _)) fun _ _ => Only.pure _

theorem ours_flight (h c) : Ours cfg inp (secondFlight cfg inp h s c) := by
  refine Only.bind (Only.quiet (quiet_endEarly _)) fun x _ => ?_
  exact Only.bind (Only.quiet (quiet_deref _)) fun _ _ => Only.bind (ours_auth _ _ _) fun _ _ =>
    Only.bind (Only.quiet (quiet_deref _)) fun _ _ => Only.bind (Only.quiet (quiet_finishedData _ _ _)) fun _ _ =>
    Only.bind (Only.quiet (quiet_encodeHandshake _)) fun _ _ => Only.bind (Only.quiet (quiet_derefPtr _)) fun _ _ => Only.pure _

theorem quiet_master (h ks a b) : Quiet (masterStage h ks a b) :=
  Only.bind (quiet_ksState (quiet_deriveMasterSecret _ _)) fun _ _ => Only.bind (quiet_ksSecret (quiet_getMaster _ _ _ _)) fun _ _ =>
    Only.bind (quiet_ksSecret (quiet_getMaster _ _ _ _)) fun _ _ =>
    Only.bind (quiet_ksState (quiet_deriveAppTrafficSecrets _ _ _)) fun _ _ =>
    Only.bind (quiet_ksState (quiet_clearMasterSecret _)) fun _ _ => Only.bind (quiet_ksSecret (quiet_getApp _ _)) fun _ _ =>
    Only.bind (quiet_ksSecret (quiet_getApp _ _)) fun _ _ => Only.pure _

theorem derefPtr_ok {α} {o : Option α} {x} (h : derefPtr o = .ok x) : o = some x := by
  cases o with
  | none => cases h
  | some y => cases h; rfl

theorem why_finished (hok : ∀ c a, cfg.hashOf c = .ok a → a.Ok) (m o) :
    FINE(.sock (.handshake (.finished m) o)) (onFinished cfg inp s unparsed m o) := by
  refine Only.bind ?_ fun _ _ => Only.pure _
  refine Only.bind (Only.check fun h => .reason (.behind_finished m o (by simpa using h))) fun _ _ =>
    Only.bind (Only.quiet (quiet_derefPtr _)) fun ctx hc => Only.bind (Only.supplied fun f => .hash _ f) fun alg ha =>
    Only.bind (Only.quiet (quiet_deref _)) fun secret hs => Only.bind (Only.quiet (quiet_finishedData _ _ _)) fun x hx =>
    Only.bind (Only.check fun h => .reason (.finished m o ctx (derefPtr_ok hc) alg ha secret (deref_eq_ok.1 hs) fun hl e => ?_))
      fun _ _ => Only.bind (ours_flight _ _).any fun y _ => ?_
  · rw [Server.finishedData_eq (hok _ _ ha) hl] at hx
    cases hx
    rw [e] at h
    simp at h
  · exact Only.bind (Only.quiet (quiet_derefPtr _)) fun _ _ => Only.bind (Only.quiet (quiet_deref _)) fun _ _ =>
      Only.bind (Only.supplied fun f => .hash _ f) fun _ _ => Only.bind (Only.quiet (quiet_deref _)) fun _ _ =>
      Only.bind (Only.quiet (quiet_master _ _ _ _)) fun _ _ => Only.pure _

/-! ## The established connection -/

theorem ours_ticket (m) : Ours cfg inp (onNewSessionTicket cfg inp s m) := by
  refine Only.bind (Only.quiet (quiet_derefPtr _)) fun _ _ => Only.bind (Only.quiet (quiet_deref _)) fun _ _ =>
    Only.bind (Only.supplied fun f => .hash _ f) fun _ _ => Only.bind (Only.quiet (quiet_deref _)) fun _ _ =>
    Only.bind (Only.quiet (quiet_derefPtr _)) fun _ _ => Only.bind (Only.quiet (quiet_ksSecret (quiet_getResumptionSecret _ _ _))) fun _ _ =>
    Only.bind (Only.quiet (quiet_deref _)) fun _ _ => Only.bind (Only.quiet (quiet_checked _)) fun _ _ =>
    Only.bind (Only.quiet (quiet_deref _)) fun _ _ => Only.bind (Only.quiet ?_) fun _ _ => Only.pure _
  refine Only.bind (quiet_getTicketEarlyData _) fun o _ => ?_
  cases o <;> exact Only.pure _

theorem quiet_appWrite (t d f) : Quiet (onAppWrite s t d f) := Only.bind (quiet_derefPtr _) fun _ _ => Only.pure _

theorem ours_schedule : Ours cfg inp (schedule cfg s) :=
  Only.bind (Only.quiet (quiet_deref _)) fun _ _ => Only.bind (Only.supplied fun f => .hash _ f) fun _ _ =>
    Only.bind (Only.quiet (quiet_derefPtr _)) fun _ _ => Only.pure _

theorem quiet_nextWrite (h ks) : Quiet (nextWrite h ks) :=
  Only.bind (quiet_ksState (quiet_clientKeyUpdate _ _)) fun _ _ => Only.bind (quiet_ksSecret (quiet_getApp _ _)) fun _ _ => Only.pure _
theorem quiet_nextRead (h ks) : Quiet (nextRead h ks) :=
  Only.bind (quiet_ksState (quiet_serverKeyUpdate _ _)) fun _ _ => Only.bind (quiet_ksSecret (quiet_getApp _ _)) fun _ _ => Only.pure _

theorem why_initiate (r) : FINE(.keyUpdateInitiation r) (onKeyUpdateInitiation cfg s unparsed r) :=
  Only.bind (Only.check fun h => .reason (.behind_initiation r (by simpa using h))) fun _ _ =>
    Only.bind (Only.quiet (quiet_encodeHandshake _)) fun _ _ => Only.bind (Only.quiet (quiet_derefPtr _)) fun _ _ =>
    Only.bind ours_schedule.any fun _ _ => Only.bind (Only.quiet (quiet_nextWrite _ _)) fun _ _ => Only.pure _

theorem why_keyUpdate (m o) : FINE(.sock (.handshake (.keyUpdate m) o)) (onKeyUpdate cfg s unparsed m) := by
  refine Only.bind (Only.check fun h => .reason (.behind_update m o (by simpa using h))) fun _ _ =>
    Only.bind ours_schedule.any fun _ _ => Only.bind (Only.quiet (quiet_nextRead _ _)) fun _ _ => ?_
  dsimp only
  split
  · exact Only.pure _
  · exact Only.bind (Only.quiet (quiet_encodeHandshake _)) fun _ _ => Only.bind (Only.quiet (quiet_derefPtr _)) fun _ _ =>
      Only.bind (Only.quiet (quiet_nextWrite _ _)) fun _ _ => Only.pure _

theorem quiet_ignore (t d f) : Quiet (ignoreEarly s t d f) :=
  Only.bind (quiet_deref _) fun _ _ => Only.bind (Only.check fun _ => rfl) fun _ _ => Only.pure _

theorem quiet_writeEarly (t d f) : Quiet (writeEarly cfg s t d f) := by
  refine Only.bind (quiet_derefPtr _) fun _ _ => ?_
  split <;> exact Only.pure _

theorem quiet_handleEarly (t d f) : Quiet (handleEarly cfg s t d f) := by
  refine Only.bind (Only.check fun _ => rfl) fun _ _ => Only.bind (quiet_deref _) fun x _ => ?_
  cases x with
  | notAttempted => exact Only.error rfl
  | rejected => exact quiet_ignore _ _ _
  | attempted => exact quiet_writeEarly _ _ _
  | accepted => exact quiet_writeEarly _ _ _

theorem quiet_earlyEstablished (t d f) : Quiet (onEarlyEstablished s t d f) := by
  refine Only.bind (quiet_deref _) fun x _ => ?_
  split
  · exact quiet_appWrite _ _ _
  · exact quiet_ignore _ _ _

/-- Every handler. -/
theorem why_handle (hok : ∀ c a, cfg.hashOf c = .ok a → a.Ok) (p) : FINE(p) (handle cfg inp s unparsed p) := by
  unfold handle
  split
  · exact ours_connect.any
  · exact fields_mono (why_retry _) fun a h => .retry _ _ a h
  · exact fields_mono (why_serverHello _) fun a h => .hello _ _ a h
  · exact Only.quiet (quiet_handleEarly _ _ _)
  · exact fields_mono (why_extensions _) fun a h => .extensions _ _ a h
  · exact Only.quiet (quiet_handleEarly _ _ _)
  · exact why_request _ _
  · exact why_certificate _ _
  · exact why_compressed _ _
  · exact Only.quiet (quiet_ignore _ _ _)
  · exact why_verify _ _
  · exact Only.quiet (quiet_ignore _ _ _)
  · exact why_finished hok _ _
  · exact Only.quiet (quiet_handleEarly _ _ _)
  · exact Only.quiet (quiet_earlyEstablished _ _ _)
  · exact (ours_ticket _).any
  · exact Only.ok _
  · exact Only.quiet (quiet_appWrite _ _ _)
  · exact why_initiate _
  · exact why_keyUpdate _ _
  · exact Only.bind (Only.check fun h => .reason (.behind_close _ (by simpa using h))) fun _ _ =>
      Only.bind (Only.quiet (quiet_derefPtr _)) fun _ _ => Only.pure _
  · exact Only.ok _
  · exact Only.bind (Only.check fun h => .reason (.behind_close _ (by simpa using h))) fun _ _ => Only.pure _
  · refine Only.error ?_
    unfold invalidEvent
    split
    · exact .inl rfl
    · next hna =>
      refine .reason (.unexpected _ ?_ fun d hd => hna d hd)
      intro haw
      generalize hst : s.state = st at haw
      cases haw with
      | early st t d f h =>
        simp only [List.mem_cons, List.not_mem_nil, or_false] at h
        rcases h with h | h | h | h | h | h <;> simp_all
      | _ => simp_all

/-- C102: the alert a client answers an event with is unexpected_message for a failure without one (of the decoders,
the encoders, the key schedule or the state), or it comes from the application, or what it says is true of the
event, the configuration and the state. -/
theorem C102_client (hok : ∀ c a, cfg.hashOf c = .ok a → a.Ok) {p : Param} {f : Failure} {a : UInt8}
    (h : handle cfg inp s unparsed p = .error f) (ha : Server.alertFor f = some a) :
    (a = 10 ∧ named f = none) ∨ Supplied cfg inp f ∨ Reason cfg inp s unparsed p a := by
  have hn : ∀ b, named f = some b → b = a := by
    intro b hb
    cases f with
    | err m x c => cases c <;> simp_all [named, Server.alertFor]
    | _ => cases hb
  rcases (why_handle hok p).out f h with hq | hs | ⟨b, hb, hr⟩
  · refine .inl ⟨?_, hq⟩
    cases f with
    | err m x c => cases c <;> simp_all [named, Server.alertFor]
    | _ => exact (Option.some.inj ha).symm
  · exact .inr (.inl hs)
  · exact .inr (.inr (hn b hb ▸ hr))

end Fizz.Alerts.ClientProps

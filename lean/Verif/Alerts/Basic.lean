import Verif.Server.Machine

/-!
# Which failures name an alert

Only a `FizzException` carries an alert; the decoders and encoders of the wire format, the key schedule and
the standard library's containers throw other exceptions.
-/

namespace Fizz.Alerts
open Fizz.Codec Fizz.Crypto Fizz.Server

/-- The alert an exception carries. -/
def named : Failure → Option UInt8
  | .err _ a .fizz => a
  | .err _ a .verifier => a
  | _ => none

@[simp] theorem named_fizz (m : String) (a : Option UInt8) : named (Failure.fizz m a) = a := rfl
@[simp] theorem named_rt (m : String) : named (Failure.rt m) = none := rfl

/-- Whatever a computation fails with satisfies `P`. -/
structure Only {α} (P : Failure → Prop) (x : Res α) : Prop where
  out : ∀ f, x = .error f → P f

/-- No failure of the computation names an alert. -/
abbrev Quiet {α} (x : Res α) : Prop := Only (fun f => named f = none) x

theorem Only.bind {α β} {P : Failure → Prop} {x : Res α} {g : α → Res β} (hx : Only P x)
    (hg : ∀ v, x = .ok v → Only P (g v)) : Only P (x >>= g) := by
  cases x with
  | ok v => exact hg v rfl
  | error e => exact ⟨fun f h => hx.out f (by cases h; rfl)⟩

theorem Only.ok {α} {P : Failure → Prop} (a : α) : Only P (.ok a : Res α) := ⟨fun _ h => nomatch h⟩
theorem Only.pure {α} {P : Failure → Prop} (a : α) : Only P (pure a : Res α) := ⟨fun _ h => nomatch h⟩
theorem Only.error {α} {P : Failure → Prop} {f : Failure} (h : P f) : Only P (.error f : Res α) :=
  ⟨fun g hg => by cases hg; exact h⟩

theorem Only.check {P : Failure → Prop} {b : Bool} {m : String} {a : Option UInt8}
    (h : b = false → P (Failure.fizz m a)) : Only P (check b m a) := by
  cases b with
  | true => exact Only.ok ()
  | false => exact Only.error (h rfl)

theorem Only.mono {α} {P Q : Failure → Prop} {x : Res α} (h : Only P x) (hpq : ∀ f, P f → Q f) : Only Q x :=
  ⟨fun f hf => hpq f (h.out f hf)⟩

theorem check_ok {b : Bool} {m : String} {a : Option UInt8} {u : Unit} (h : check b m a = .ok u) : b = true := by
  cases b with
  | true => rfl
  | false => cases h

/-! ## Readers -/

/-- No failure of a reader names an alert. -/
def QuietRd {α} (r : Rd α) : Prop := ∀ b, Quiet (r b)

namespace QuietRd

theorem pure {α} (a : α) : QuietRd (pure a : Rd α) := fun _ => Only.ok _
theorem fail {α} {f : Failure} (h : named f = none) : QuietRd (Rd.fail f : Rd α) := fun _ => Only.error h
theorem bind {α β} {m : Rd α} {g : α → Rd β} (hm : QuietRd m) (hg : ∀ a, QuietRd (g a)) : QuietRd (m >>= g) := by
  refine fun b => ⟨fun f h => ?_⟩
  have h : (match m b with | .ok (a, rest) => g a rest | .error e => .error e) = .error f := h
  cases hb : m b with
  | ok v => rw [hb] at h; exact (hg _ _).out f h
  | error e => rw [hb] at h; cases h; exact (hm b).out _ hb

theorem pull (n : Nat) : QuietRd (pull n) := by
  intro b
  unfold Codec.pull
  split
  · exact Only.ok _
  · exact Only.error rfl

theorem remaining : QuietRd remaining := fun _ => Only.ok _
theorem skip (n : Nat) : QuietRd (skip n) := bind (pull n) fun _ => pure _
theorem readBE (n : Nat) : QuietRd (readBE n) := bind (pull n) fun _ => pure _
theorem readU8 : QuietRd readU8 := bind (readBE 1) fun _ => pure _
theorem readU16 : QuietRd readU16 := bind (readBE 2) fun _ => pure _
theorem readU32 : QuietRd readU32 := bind (readBE 4) fun _ => pure _
theorem readBuf (w : Width) : QuietRd (readBuf w) :=
  bind (readBE _) fun _ => bind (pull _) fun _ => pure _

theorem readLoop {α} {elem : Rd (α × Nat)} (h : QuietRd elem) (len : Nat) :
    ∀ fuel consumed, QuietRd (readLoop elem len fuel consumed) := by
  intro fuel
  induction fuel with
  | zero =>
    intro consumed
    rw [Codec.readLoop]
    split
    · exact fail rfl
    · split
      · exact fail rfl
      · exact pure _
  | succ n ih =>
    intro consumed
    rw [Codec.readLoop]
    split
    · exact bind h fun _ => bind (ih _) fun _ => pure _
    · split
      · exact fail rfl
      · exact pure _

theorem readVector {α} {elem : Rd (α × Nat)} (w : Width) (h : QuietRd elem) : QuietRd (readVector w elem) := by
  refine bind (readBE _) fun _ => bind remaining fun _ => ?_
  split
  · exact fail rfl
  · exact bind (readLoop h _ _ _) fun _ => pure _

end QuietRd

theorem quiet_getExtension {α} {rd : Rd α} (h : QuietRd rd) (t : UInt16) (exts : List Extension) :
    Quiet (getExtension t rd exts) := by
  unfold getExtension
  split
  · exact Only.ok _
  · split
    · next e f he => exact Only.error ((h _).out _ he)
    · split
      · exact Only.ok _
      · exact Only.error rfl

open QuietRd in
theorem quiet_getCookie (e) : Quiet (getCookie e) :=
  quiet_getExtension (bind (readBuf _) fun _ => pure _) _ _
open QuietRd in
theorem quiet_getServerNameList (e) : Quiet (getServerNameList e) :=
  quiet_getExtension (bind (readVector _ (bind readU8 fun _ => bind (readBuf _) fun _ => pure _)) fun _ => pure _) _ _
open QuietRd in
theorem quiet_getSupportedVersions (e) : Quiet (getSupportedVersions e) :=
  quiet_getExtension (bind (readVector _ readU16) fun _ => pure _) _ _
open QuietRd in
theorem quiet_getServerSupportedVersions (e) : Quiet (getServerSupportedVersions e) :=
  quiet_getExtension (bind readU16 fun _ => pure _) _ _
open QuietRd in
theorem quiet_getClientPresharedKey (e) : Quiet (getClientPresharedKey e) :=
  quiet_getExtension (bind (readVector _ (bind (readBuf _) fun _ => bind readU32 fun _ => pure _)) fun _ =>
    bind (readVector _ (bind (readBuf _) fun _ => pure _)) fun _ => pure _) _ _
open QuietRd in
theorem quiet_getServerPresharedKey (e) : Quiet (getServerPresharedKey e) :=
  quiet_getExtension (bind readU16 fun _ => pure _) _ _
open QuietRd in
theorem quiet_getPskKeyExchangeModes (e) : Quiet (getPskKeyExchangeModes e) :=
  quiet_getExtension (bind (readVector _ readU8) fun _ => pure _) _ _
open QuietRd in
theorem quiet_getClientEarlyData (e) : Quiet (getClientEarlyData e) :=
  quiet_getExtension (pure _) _ _
open QuietRd in
theorem quiet_getServerEarlyData (e) : Quiet (getServerEarlyData e) :=
  quiet_getExtension (pure _) _ _
open QuietRd in
theorem quiet_getTicketEarlyData (e) : Quiet (getTicketEarlyData e) :=
  quiet_getExtension (bind readU32 fun _ => pure _) _ _
open QuietRd in
theorem quiet_getProtocolNameList (e) : Quiet (getProtocolNameList e) :=
  quiet_getExtension (bind (readVector _ (bind (readBuf _) fun _ => pure _)) fun _ => pure _) _ _
open QuietRd in
theorem quiet_getSupportedGroups (e) : Quiet (getSupportedGroups e) :=
  quiet_getExtension (bind (readVector _ readU16) fun _ => pure _) _ _
open QuietRd in
theorem quiet_getClientKeyShare (e) : Quiet (getClientKeyShare e) :=
  quiet_getExtension (bind (readVector _ (bind readU16 fun _ => bind (readBuf _) fun _ => pure _)) fun _ => pure _) _ _
open QuietRd in
theorem quiet_getServerKeyShare (e) : Quiet (getServerKeyShare e) :=
  quiet_getExtension (bind (bind readU16 fun _ => bind (readBuf _) fun _ => pure _) fun _ => pure _) _ _
open QuietRd in
theorem quiet_getHelloRetryRequestKeyShare (e) : Quiet (getHelloRetryRequestKeyShare e) :=
  quiet_getExtension (bind readU16 fun _ => pure _) _ _
open QuietRd in
theorem quiet_getSignatureAlgorithms (e) : Quiet (getSignatureAlgorithms e) :=
  quiet_getExtension (bind (readVector _ readU16) fun _ => pure _) _ _
open QuietRd in
theorem quiet_getCertificateCompressionAlgorithms (e) : Quiet (getCertificateCompressionAlgorithms e) :=
  quiet_getExtension (bind (readVector _ readU16) fun _ => pure _) _ _

/-! ## Writers -/

theorem quiet_writeLen (w : Width) (n : Nat) : Quiet (writeLen w n) := by
  unfold writeLen
  split
  · exact Only.ok _
  · exact Only.error (by cases w <;> rfl)

theorem quiet_writeBuf (w : Width) (b : Bytes) : Quiet (writeBuf w b) :=
  Only.bind (quiet_writeLen _ _) fun _ _ => Only.ok _
theorem quiet_writeAll {α} {wr : α → Res Bytes} (h : ∀ a, Quiet (wr a)) : ∀ l, Quiet (writeAll wr l)
  | [] => Only.ok _
  | a :: l => Only.bind (h a) fun _ _ => Only.bind (quiet_writeAll h l) fun _ _ => Only.ok _
theorem quiet_writeVector {α} (w : Width) (size : α → Nat) {wr : α → Res Bytes} (h : ∀ a, Quiet (wr a)) (l) :
    Quiet (writeVector w size wr l) :=
  Only.bind (quiet_writeLen _ _) fun _ _ => Only.bind (quiet_writeAll h l) fun _ _ => Only.ok _
theorem quiet_writeU8 (v) : Quiet (writeU8 v) := Only.ok _
theorem quiet_writeU16 (v) : Quiet (writeU16 v) := Only.ok _
theorem quiet_writeU32 (v) : Quiet (writeU32 v) := Only.ok _

theorem quiet_deref {α} (o : Option α) : Quiet (deref o) := by
  cases o
  · exact Only.error rfl
  · exact Only.ok _
theorem quiet_derefPtr {α} (o : Option α) : Quiet (derefPtr o) := by
  cases o
  · exact Only.error rfl
  · exact Only.ok _

/-- Goes through a computation made of the parts above. -/
macro "quiet" : tactic => `(tactic| repeat (first
  | exact Only.ok _ | exact Only.pure _ | exact Only.error rfl | intro _
  | exact quiet_writeU8 _ | exact quiet_writeU16 _ | exact quiet_writeU32 _
  | exact quiet_writeBuf _ _ | exact quiet_writeLen _ _ | exact quiet_deref _ | exact quiet_derefPtr _
  | apply quiet_writeVector | apply Only.bind | split))

theorem quiet_writeExtension (e) : Quiet (writeExtension e) := by unfold writeExtension; quiet
theorem quiet_writeExtensions (l) : Quiet (writeVector .u16 sizeExtension writeExtension l) :=
  quiet_writeVector _ _ quiet_writeExtension _
theorem quiet_writeCertificateEntry (e) : Quiet (writeCertificateEntry e) := by
  unfold writeCertificateEntry; quiet; all_goals exact quiet_writeExtension _

theorem quiet_frame (t b) : Quiet (frameHandshake t b) := by unfold frameHandshake; quiet

theorem quiet_encodeBody (m : HsMsg) : Quiet m.encodeBody := by
  cases m <;> simp only [HsMsg.encodeBody]
  · unfold encodeClientHello writeRandom; quiet; all_goals exact quiet_writeExtension _
  · unfold encodeServerHello writeRandom; quiet; all_goals exact quiet_writeExtension _
  · unfold encodeHelloRetryRequest writeRandom; quiet; all_goals exact quiet_writeExtension _
  · unfold encodeEndOfEarlyData; quiet
  · unfold encodeNewSessionTicket; quiet; all_goals exact quiet_writeExtension _
  · exact quiet_writeExtensions _
  · unfold encodeCertificateMsg; quiet; all_goals exact quiet_writeCertificateEntry _
  · unfold encodeCompressedCertificate; quiet
  · unfold encodeCertificateRequest; quiet; all_goals exact quiet_writeExtension _
  · unfold encodeCertificateVerify; quiet
  · unfold encodeFinished; quiet
  · unfold encodeKeyUpdate; quiet

theorem quiet_encodeHandshake (m : HsMsg) : Quiet (encodeHandshake m) :=
  Only.bind (quiet_encodeBody m) fun _ _ => quiet_frame _ _

/-! ## Keys -/

theorem quiet_hmac (h k i o) : Quiet (hmac h k i o) := by unfold hmac; dsimp only; quiet
theorem quiet_extract (h s i) : Quiet (extract h s i) := by
  unfold extract
  exact quiet_hmac _ _ _ _
theorem quiet_expandLoop (h p l) : ∀ n r b e, Quiet (expandLoop h p l n r b e)
  | 0, _, _, _ => Only.ok _
  | n + 1, _, _, _ => Only.bind (quiet_hmac _ _ _ _) fun _ _ => quiet_expandLoop h p l n _ _ _
theorem quiet_expand (h e i n) : Quiet (expand h e i n) := by
  unfold expand
  dsimp only
  split
  · exact Only.error rfl
  split
  · exact Only.error rfl
  split
  · exact Only.ok _
  exact Only.bind (quiet_hmac _ _ _ _) fun _ _ => Only.bind (quiet_expandLoop _ _ _ _ _ _ _) fun _ _ => Only.ok _
theorem quiet_expandLabel (h s l v n) : Quiet (expandLabel h s l v n) := by
  unfold expandLabel encodeHkdfLabel; quiet
  exact quiet_expand _ _ _ _
theorem quiet_deriveSecret (h s l v n) : Quiet (deriveSecret h s l v n) := by
  unfold deriveSecret
  split
  · exact Only.error rfl
  split
  · exact Only.error rfl
  split
  · exact Only.error rfl
  exact Only.bind (quiet_expandLabel _ _ _ _ _) fun _ _ => Only.ok _

theorem quiet_ksState {p : KS.KS × Res KS.Out} (h : Quiet p.2) : Quiet (ksState p) := by
  obtain ⟨k, r⟩ := p
  cases r with
  | ok _ => exact Only.ok _
  | error f => exact Only.error (h.out f rfl)

theorem quiet_ksSecret {r : Res KS.Out} (h : Quiet r) : Quiet (ksSecret r) := by
  cases r with
  | ok o => cases o <;> first | exact Only.ok _ | exact Only.error rfl
  | error f => exact Only.error (h.out f rfl)

theorem quiet_nextStage (h c i) : Quiet (KS.nextStage h c i) :=
  Only.bind (quiet_deriveSecret _ _ _ _ _) fun _ _ => quiet_extract _ _ _

/-- A failing computation inside a `match`. -/
theorem quiet_match {α} {x : Res α} {f : Failure} (h : Quiet x) (hx : x = .error f) : named f = none := h.out f hx

theorem quiet_deriveEarlySecret (h s p) : Quiet (KS.deriveEarlySecret h s p).2 := by
  unfold KS.deriveEarlySecret
  split
  · exact Only.error rfl
  · split
    · next hx => exact Only.error (quiet_match (quiet_extract _ _ _) hx)
    · exact Only.ok _

theorem quiet_deriveHandshakeSecret (h s) : Quiet (KS.deriveHandshakeSecret h s).2 := by
  unfold KS.deriveHandshakeSecret
  split
  · exact Only.error rfl
  · split
    · next hx => exact Only.error (quiet_match (quiet_nextStage _ _ _) hx)
    · exact Only.ok _
  · exact Only.error rfl

theorem quiet_deriveHandshakeSecretEcdhe (h s e) : Quiet (KS.deriveHandshakeSecretEcdhe h s e).2 := by
  have hn : ∀ (t : KS.KS) (x : Bytes), Quiet (match KS.nextStage h x e with
      | .error f => (t, .error f)
      | .ok x => ({ t with secret := some (.handshake x) }, .ok .done) : KS.KS × Res KS.Out).2 := by
    intro t x
    split
    · next hx => exact Only.error (quiet_match (quiet_nextStage _ _ _) hx)
    · exact Only.ok _
  unfold KS.deriveHandshakeSecretEcdhe
  cases hs : s.secret with
  | none =>
    cases hx : extract h (KS.zeros h) (KS.zeros h) with
    | error f => exact Only.error (quiet_match (quiet_extract _ _ _) hx)
    | ok x => exact hn _ _
  | some k =>
    dsimp only
    rw [hs]
    cases k with
    | early x => exact hn _ _
    | _ => exact Only.error rfl

theorem quiet_deriveMasterSecret (h s) : Quiet (KS.deriveMasterSecret h s).2 := by
  unfold KS.deriveMasterSecret
  split
  · exact Only.error rfl
  · split
    · next hx => exact Only.error (quiet_match (quiet_nextStage _ _ _) hx)
    · exact Only.ok _
  · exact Only.error rfl

theorem quiet_deriveAppTrafficSecrets (h s t) : Quiet (KS.deriveAppTrafficSecrets h s t).2 := by
  unfold KS.deriveAppTrafficSecrets
  split
  · exact Only.error rfl
  · split
    · next hx => exact Only.error (quiet_match (quiet_deriveSecret _ _ _ _ _) hx)
    · split
      · next hx => exact Only.error (quiet_match (quiet_deriveSecret _ _ _ _ _) hx)
      · exact Only.ok _
  · exact Only.error rfl

theorem quiet_clearMasterSecret (s) : Quiet (KS.clearMasterSecret s).2 := by
  unfold KS.clearMasterSecret
  split <;> first | exact Only.ok _ | exact Only.error rfl

theorem quiet_clientKeyUpdate (h s) : Quiet (KS.clientKeyUpdate h s).2 := by
  unfold KS.clientKeyUpdate
  split
  · exact Only.error rfl
  · split
    · next hx => exact Only.error (quiet_match (quiet_expandLabel _ _ _ _ _) hx)
    · exact Only.ok _

theorem quiet_serverKeyUpdate (h s) : Quiet (KS.serverKeyUpdate h s).2 := by
  unfold KS.serverKeyUpdate
  split
  · exact Only.error rfl
  · split
    · next hx => exact Only.error (quiet_match (quiet_expandLabel _ _ _ _ _) hx)
    · exact Only.ok _

theorem quiet_getEarly (h s w t) : Quiet (KS.getEarly h s w t) := by
  unfold KS.getEarly
  split
  · exact Only.error rfl
  · exact Only.bind (quiet_deriveSecret _ _ _ _ _) fun _ _ => Only.ok _
  · exact Only.error rfl
theorem quiet_getHandshake (h s w t) : Quiet (KS.getHandshake h s w t) := by
  unfold KS.getHandshake
  split
  · exact Only.error rfl
  · exact Only.bind (quiet_deriveSecret _ _ _ _ _) fun _ _ => Only.ok _
  · exact Only.error rfl
theorem quiet_getMaster (h s w t) : Quiet (KS.getMaster h s w t) := by
  unfold KS.getMaster
  split
  · exact Only.error rfl
  · exact Only.bind (quiet_deriveSecret _ _ _ _ _) fun _ _ => Only.ok _
  · exact Only.error rfl
theorem quiet_getApp (s w) : Quiet (KS.getApp s w) := by
  unfold KS.getApp
  split
  · exact Only.error rfl
  · split <;> exact Only.ok _
theorem quiet_getResumptionSecret (h r n) : Quiet (KS.getResumptionSecret h r n) :=
  Only.bind (quiet_expandLabel _ _ _ _ _) fun _ _ => Only.ok _

theorem quiet_finishedData (h c k) : Quiet (finishedData h c k) :=
  Only.bind (quiet_expandLabel _ _ _ _ _) fun _ _ => quiet_hmac _ _ _ _

end Fizz.Alerts

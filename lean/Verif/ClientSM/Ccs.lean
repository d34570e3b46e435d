import Verif.ClientSM.Props3

/-!
# C63: the change_cipher_spec record of the compatibility mode
-/

namespace Fizz.ClientSM
open Fizz.Codec Fizz.Crypto
open Fizz.Server (Level RLayer WLayer Content KeyExchangeType HsCtx SockIn PeerCert content alertContent
  deref derefPtr check derefPtr_eq_ok deref_eq_ok check_eq_ok pure_eq_ok encode_eq)
open Fizz.Conn (Trig)

/-- The change_cipher_spec records some actions write. -/
def Spec.ccsWritten (acts : List Action) : List Content := (Spec.writes acts).filter fun c => c.type == 20

theorem ccsWritten_append (a b : List Action) :
    Spec.ccsWritten (a ++ b) = Spec.ccsWritten a ++ Spec.ccsWritten b := by
  simp [Spec.ccsWritten, writes_append]

/-- What the `sentCCS` member stands for. -/
structure CcsInv (cfg : Cfg) (k : List Content) (s : St) : Prop where
  count : k = if s.sentCCS then [ccs] else []
  compat : s.sentCCS = true → cfg.compatMode = true
  done : s.state = .established → s.sentCCS = cfg.compatMode

theorem firstCcs_filter {cfg s k} (hi : CcsInv cfg k s) :
    k ++ (firstCcs cfg s).filter (fun c => c.type == 20) = if sentCcs cfg s then [ccs] else [] := by
  rw [hi.count]
  unfold firstCcs sentCcs
  cases h1 : s.sentCCS <;> cases h2 : cfg.compatMode <;> simp [ccs]

theorem endEarly_types {cfg s ctx c e} (h : endEarly cfg s ctx = .ok (c, e)) :
    e.filter (fun c => c.type == 20) = [] := by
  unfold endEarly at h
  split_ifs at h
  · simp only [Res.bind_eq_ok] at h
    obtain ⟨enc, -, w, -, h⟩ := h
    cases pure_eq_ok.1 h
    rfl
  · cases h
    rfl

theorem finished_ccs {cfg inp s u m orig d} (h : processFinished cfg inp s u m orig = .ok d) :
    d.flight.filter (fun c => c.type == 20) = (firstCcs cfg s).filter (fun c => c.type == 20) := by
  rw [processFinished] at h
  simp only [Res.bind_eq_ok] at h
  obtain ⟨_, -, ctx, -, hh, -, sec, -, ex, -, _, -, ⟨all, flight, cert⟩, h2, ks, -, ci, -, hc, -, _, -,
    ⟨e1, e2, e3, e4, e5⟩, -, h⟩ := h
  cases pure_eq_ok.1 h
  rw [secondFlight] at h2
  simp only [Res.bind_eq_ok] at h2
  obtain ⟨⟨c, e⟩, h3, au, -, a, -, sec, -, mac, -, fin, -, w, -, h2⟩ := h2
  cases pure_eq_ok.1 h2
  simp [List.filter_append, endEarly_types h3, content]

theorem CcsInv.same {cfg k s s' acts} (hi : CcsInv cfg k s) (h1 : Spec.ccsWritten acts = [])
    (h2 : s'.sentCCS = s.sentCCS) (h3 : s'.state = .established → s.state = .established) :
    CcsInv cfg (k ++ Spec.ccsWritten acts) s' := by
  rw [h1, List.append_nil]
  exact ⟨by rw [h2]; exact hi.count, by rw [h2]; exact hi.compat, fun h => by rw [h2]; exact hi.done (h3 h)⟩

theorem alertWrites_ccs (s : St) (a f) : Spec.ccsWritten (alertWrites s a f) = [] := by
  unfold alertWrites
  repeat' split
  all_goals rfl

theorem alertWrites_apply (s : St) (a f) (s' : St) (b : Option UInt8) :
    applyAll (alertWrites s a f ++ [.reportError b]) s' = s' := by
  unfold applyAll alertWrites
  repeat' split
  all_goals rfl

theorem saveShlo_ccs (r : Shlo) (s : St) : (saveShlo r s).sentCCS = s.sentCCS := by
  unfold saveShlo shloEch; repeat' split
  all_goals rfl

theorem ccs_step {cfg : Cfg} {k i s t acts} (hi : CcsInv cfg k s) (hsh : Shape cfg i s t acts) :
    CcsInv cfg (k ++ Spec.ccsWritten acts) (applyAll acts s) := by
  cases hsh with
  | @fail _ a b hne =>
    have e : applyAll (.mutate toError :: (alertWrites s a b ++ [.reportError a])) s = toError s :=
      alertWrites_apply s a b _ a
    rw [e]
    refine hi.same ?_ rfl (fun h => by cases h)
    show Spec.ccsWritten (alertWrites s a b ++ [.reportError a]) = []
    rw [ccsWritten_append, alertWrites_ccs]; rfl
  | @retry m orig u r w hst hs hr hw =>
    have e1 : Spec.ccsWritten [Action.mutate (saveRetry cfg r),
        .write none (firstCcs cfg s ++ [content w 22 r.encoded]) 0, transition .expectingServerHello] =
        (firstCcs cfg s).filter (fun c => c.type == 20) := by
      simp [Spec.ccsWritten, Spec.writes, transition, content]
    rw [e1, firstCcs_filter hi]
    refine ⟨rfl, ?_, fun h => by cases h⟩
    show sentCcs cfg s = true → _
    unfold sentCcs
    intro h
    rcases (Bool.or_eq_true _ _).mp h with h | h
    · exact hi.compat h
    · exact h
  | earlyFirst hst ho he hw hc hcc =>
    refine ⟨?_, fun _ => hc, fun h => ?_⟩
    · rw [hi.count, hcc]; rfl
    · have h : s.state = .established := h
      rcases hst with hst | hst | hst <;> (rw [hst] at h; cases h)
  | @finished m orig u d hst hsock hp =>
    have e1 : Spec.ccsWritten ([Action.mutate (saveFinished cfg d), transition .established,
          .secretAvailable .serverAppTraffic d.read, .secretAvailable .clientAppTraffic d.write,
          .secretAvailable .exporterMaster d.exporter, .secretAvailable .resumptionMaster d.resumption,
          .write none d.flight 0]) = (firstCcs cfg s).filter (fun c => c.type == 20) := by
      rw [← finished_ccs hp]
      simp [Spec.ccsWritten, Spec.writes, transition]
    have hcp : sentCcs cfg s = true → cfg.compatMode = true := by
      unfold sentCcs
      intro h
      rcases (Bool.or_eq_true _ _).mp h with h | h
      · exact hi.compat h
      · exact h
    have hdn : sentCcs cfg s = cfg.compatMode := by
      unfold sentCcs
      cases h1 : s.sentCCS
      · simp
      · rw [hi.compat h1]; rfl
    rw [ccsWritten_append, e1, ← List.append_assoc, firstCcs_filter hi]
    have hfr : finalReport i.inp s = [.reportHandshakeSuccess (decide (s.earlyDataType = some .accepted))] ∨
        ∃ a, finalReport i.inp s = .mutate toError :: (alertWrites s a i.inp.alertFails ++ [.reportError a]) := by
      unfold finalReport
      split
      · right
        refine ⟨some 121, ?_⟩
        unfold handleError; rw [if_neg (by rw [hst]; simp)]
      · left; simp
    rcases hfr with hfr | ⟨a, hfr⟩
    · rw [hfr]
      exact ⟨by rw [show Spec.ccsWritten [.reportHandshakeSuccess _] = [] from rfl, List.append_nil]; rfl, hcp,
        fun _ => hdn⟩
    · rw [hfr]
      have e2 : Spec.ccsWritten (.mutate toError :: (alertWrites s a i.inp.alertFails ++ [.reportError a])) = [] := by
        show Spec.ccsWritten (alertWrites s a i.inp.alertFails ++ [.reportError a]) = []
        rw [ccsWritten_append, alertWrites_ccs]; rfl
      have e3 : applyAll ([Action.mutate (saveFinished cfg d), transition .established,
          .secretAvailable .serverAppTraffic d.read, .secretAvailable .clientAppTraffic d.write,
          .secretAvailable .exporterMaster d.exporter, .secretAvailable .resumptionMaster d.resumption,
          .write none d.flight 0] ++ .mutate toError :: (alertWrites s a i.inp.alertFails ++ [.reportError a])) s =
          toError { saveFinished cfg d s with state := .established } :=
        alertWrites_apply s a _ _ a
      rw [e2, e3, List.append_nil]
      exact ⟨rfl, hcp, fun h => by cases h⟩
  | @connect c hst hc =>
    unfold connectActions
    split
    · exact hi.same rfl rfl (fun h => by cases h)
    · exact hi.same rfl rfl (fun h => by cases h)
  | @encryptedExtensions m orig u rq ctx alpn early retry t hst hsock hq hc hctx hal hea hre hno ht =>
    have hne : afterEe t ≠ .established := by unfold afterEe; split_ifs <;> simp
    cases retry with
    | none => exact hi.same rfl rfl (fun h => absurd h hne)
    | some r => exact hi.same rfl rfl (fun h => absurd h hne)
  | @ticket m orig u acts hst hsock ht =>
    obtain ⟨psk, rfl⟩ := ticket_shape ht
    exact hi.same rfl rfl (fun h => h)
  | nothing => exact hi.same rfl rfl (fun h => h)
  | report hs => exact hi.same rfl rfl (fun h => h)
  | wait hs => exact hi.same rfl rfl (fun h => h)
  | closeNow hw => exact hi.same rfl rfl (fun h => by cases h)
  | close hw => exact hi.same rfl rfl (fun h => by cases h)
  | closed hw => exact hi.same rfl rfl (fun h => by cases h)
  | serverHello => exact hi.same rfl (saveShlo_ccs _ s) (fun h => by cases h)
  | earlyFailed => exact hi.same rfl rfl (fun h => h)
  | earlyWrite => exact hi.same rfl rfl (fun h => h)
  | earlyLate => exact hi.same rfl rfl (fun h => h)
  | certificateRequest => exact hi.same rfl rfl (fun h => by cases h)
  | certificate => exact hi.same rfl rfl (fun h => by cases h)
  | compressedCertificate => exact hi.same rfl rfl (fun h => by cases h)
  | certificateVerify => exact hi.same rfl rfl (fun h => by cases h)
  | data => exact hi.same rfl rfl (fun h => h)
  | appWrite => exact hi.same rfl rfl (fun h => h)
  | keyUpdateInitiation => exact hi.same rfl rfl (fun h => h)
  | keyUpdate => exact hi.same rfl rfl (fun h => h)
  | keyUpdateAnswered => exact hi.same rfl rfl (fun h => h)
  | closeNotify => exact hi.same rfl rfl (fun h => by cases h)
  | expectedCloseNotify => exact hi.same rfl rfl (fun h => by cases h)

theorem ccs_run {cfg : Cfg} {h s} (hr : Run cfg h s) : CcsInv cfg (Spec.ccsWritten (actions h)) s := by
  induction hr with
  | nil => exact ⟨rfl, (fun h => by cases h), (fun h => by cases h)⟩
  | @step h s t i o hr ht hst ih =>
    have := step_shape cfg i s t
    rw [hst] at this
    rw [actions_cons, ccsWritten_append]
    exact ccs_step ih this

/-- C63: the client writes a change_cipher_spec record only in compatibility mode, and at most one in the life of a
connection. -/
theorem C63_once {cfg : Cfg} {h s} (hr : Run cfg h s) :
    Spec.ccsWritten (actions h) = [] ∨ (Spec.ccsWritten (actions h) = [⟨⟨.plaintext, []⟩, 20, [[1]]⟩] ∧ cfg.compatMode = true) := by
  have hi := ccs_run hr
  rw [hi.count]
  cases hc : s.sentCCS with
  | false => exact .inl rfl
  | true => exact .inr ⟨rfl, hi.compat hc⟩

/-- C63: in compatibility mode a connection that has been established has written one. -/
theorem C63_established {cfg : Cfg} {h s} (hr : Run cfg h s) (hs : s.state = .established)
    (hc : cfg.compatMode = true) : Spec.ccsWritten (actions h) = [⟨⟨.plaintext, []⟩, 20, [[1]]⟩] := by
  have hi := ccs_run hr
  rw [hi.count, hi.done hs, hc]; rfl

end Fizz.ClientSM

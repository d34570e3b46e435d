import Verif.Alerts.ClientProps
import Verif.ClientSM.Shape
import Verif.Server.Shape

/-!
# The alerts of whole steps

What `ServerProps` and `ClientProps` say of a handler, said of the actions a step of the connection leads to.
-/

namespace Fizz.Alerts
open Fizz.Codec Fizz.Crypto

/-- Whatever a computation gives satisfies `P`. -/
def Gives {α} (P : α → Prop) (x : Res α) : Prop := ∀ v, x = .ok v → P v

theorem Gives.bind {α β} {P : β → Prop} {x : Res α} {g : α → Res β} (h : ∀ v, x = .ok v → Gives P (g v)) :
    Gives P (x >>= g) := by
  intro v hv
  rw [Res.bind_eq_ok] at hv
  obtain ⟨a, ha, hv⟩ := hv
  exact h a ha v hv

theorem Gives.pure {α} {P : α → Prop} {a : α} (h : P a) : Gives P (pure a : Res α) := fun v hv => by cases hv; exact h
theorem Gives.ok {α} {P : α → Prop} {a : α} (h : P a) : Gives P (.ok a : Res α) := fun v hv => by cases hv; exact h
theorem Gives.error {α} {P : α → Prop} {f : Failure} : Gives P (.error f : Res α) := fun v hv => by cases hv


/-- A content sent that is not an alert other than close_notify. -/
def plainContent (c : Server.Content) : Bool := c.type != 21 || decide (c.data.flatten = [2, 0])

end Fizz.Alerts

/-! ## Client -/

namespace Fizz.Alerts.ClientProps
open Fizz.Codec Fizz.Crypto Fizz.ClientSM Fizz.Alerts Fizz.Alerts.ClientSpec
open Fizz.Server (content)

variable {cfg : Cfg} {inp : Inp} {s : St} {unparsed : Bool}

/-- No report, and no alert but close_notify. -/
def plain : Action → Bool
  | .reportError _ => false
  | .write _ cs _ => cs.all plainContent
  | _ => true

/-- The actions of handlers, except those of the last one of a handshake with rejected ECH. -/
abbrev Plain (acts : List Action) : Prop := acts.all plain = true

theorem plain_ccs (rest : List Server.Content) (h : rest.all plainContent = true) :
    (firstCcs cfg s ++ rest).all plainContent = true := by
  rw [List.all_append, h, Bool.and_true]
  unfold firstCcs
  split <;> rfl

theorem plain_connect (c) : Plain (connectActions cfg c) := by
  unfold connectActions
  dsimp only
  split <;> rfl

theorem plain_appWrite (t d f) : Gives Plain (onAppWrite s t d f) := Gives.bind fun _ _ => Gives.pure rfl

theorem plain_ignore (t d f) : Gives Plain (ignoreEarly s t d f) :=
  Gives.bind fun _ _ => Gives.bind fun _ _ => Gives.pure rfl

theorem plain_writeEarly (t d f) : Gives Plain (writeEarly cfg s t d f) := by
  refine Gives.bind fun _ _ => ?_
  split <;> exact Gives.pure rfl

theorem plain_handleEarly (t d f) : Gives Plain (handleEarly cfg s t d f) := by
  refine Gives.bind fun _ _ => Gives.bind fun x _ => ?_
  cases x with
  | notAttempted => exact Gives.error
  | rejected => exact plain_ignore _ _ _
  | attempted => exact plain_writeEarly _ _ _
  | accepted => exact plain_writeEarly _ _ _

theorem plain_early (t d f) : Gives Plain (onEarlyEstablished s t d f) := by
  refine Gives.bind fun _ _ => ?_
  split
  · exact plain_appWrite _ _ _
  · exact plain_ignore _ _ _

theorem plain_initiate (r) : Gives Plain (onKeyUpdateInitiation cfg s unparsed r) :=
  Gives.bind fun _ _ => Gives.bind fun _ _ => Gives.bind fun _ _ => Gives.bind fun _ _ => Gives.bind fun _ _ => Gives.pure rfl

theorem plain_update (m) : Gives Plain (onKeyUpdate cfg s unparsed m) := by
  refine Gives.bind fun _ _ => Gives.bind fun _ _ => Gives.bind fun _ _ => ?_
  dsimp only
  split
  · exact Gives.pure rfl
  · exact Gives.bind fun _ _ => Gives.bind fun _ _ => Gives.bind fun _ _ => Gives.pure rfl

theorem plain_ee (m o) : Gives Plain (onEncryptedExtensions cfg inp s m o) := by
  refine Gives.bind fun _ _ => Gives.bind fun _ _ => Gives.bind fun _ _ => Gives.bind fun _ _ => Gives.bind fun _ _ =>
    Gives.bind fun r _ => Gives.bind fun _ _ => Gives.bind fun _ _ => Gives.pure ?_
  cases r <;> rfl

theorem plain_request (m o) : Gives Plain (onCertificateRequest cfg inp s m o) := by
  refine Gives.bind fun _ _ => Gives.bind fun _ _ => Gives.bind fun _ _ => Gives.bind fun x _ => ?_
  cases x with
  | none => exact Gives.error
  | some _ => exact Gives.bind fun _ _ => Gives.pure rfl

theorem plain_close (post) : Gives Plain (onCloseNotify s unparsed post) :=
  Gives.bind fun _ _ => Gives.bind fun _ _ => Gives.pure rfl

theorem plain_flight {h c x} (hx : secondFlight cfg inp h s c = .ok x) : x.2.1.all plainContent = true := by
  unfold secondFlight at hx
  simp only [Res.bind_eq_ok] at hx
  obtain ⟨⟨c', e⟩, he, hx⟩ := hx
  simp only [Res.bind_eq_ok] at hx
  obtain ⟨_, _, _, _, _, _, _, _, _, _, _, _, hx⟩ := hx
  cases hx
  have hp : e.all plainContent = true := by
    unfold endEarly at he
    split at he
    · simp only [Res.bind_eq_ok] at he
      obtain ⟨_, _, _, _, he⟩ := he
      cases he
      rfl
    · cases he; rfl
  dsimp only
  rw [List.all_append, hp]
  rfl

theorem plain_done {m o d} (h : processFinished cfg inp s unparsed m o = .ok d) : d.flight.all plainContent = true := by
  unfold processFinished at h
  simp only [Res.bind_eq_ok] at h
  obtain ⟨_, _, _, _, _, _, _, _, _, _, _, _, ⟨a, fl, ct⟩, hf, h⟩ := h
  simp only [Res.bind_eq_ok] at h
  obtain ⟨_, _, _, _, _, _, _, _, ⟨_, _, _, _, _⟩, _, h⟩ := h
  cases h
  exact plain_ccs _ (plain_flight hf)

/-- What a successful handler reports: nothing but rejected ECH at the end of a handshake, by the alert
ech_required. -/
theorem plain_handle (p) : Gives (fun acts => Plain acts ∨ ∃ d e, s.state = .expectingFinished ∧ s.echState = some e ∧
    e.status = .rejected ∧ (∃ m o, p = .sock (.handshake (.finished m) o)) ∧ d.flight.all plainContent = true ∧
    acts = [.mutate (saveFinished cfg d), transition .established,
    .secretAvailable .serverAppTraffic d.read, .secretAvailable .clientAppTraffic d.write,
    .secretAvailable .exporterMaster d.exporter, .secretAvailable .resumptionMaster d.resumption,
    .write none d.flight 0] ++ handleError s (some 121) inp.alertFails) (handle cfg inp s unparsed p) := by
  intro acts h
  unfold handle at h
  split at h
  · refine .inl ((Gives.bind fun _ _ => Gives.pure (plain_connect _) : Gives Plain (onConnect cfg inp)) _ h)
  · refine .inl ((Gives.bind fun r _ => Gives.bind fun w _ => Gives.pure ?_ : Gives Plain (onHelloRetryRequest cfg inp s _ _)) _ h)
    simp only [Plain, List.all_cons, plain, Bool.true_and, transition, List.all_nil, Bool.and_true]
    exact plain_ccs _ rfl
  · exact .inl ((Gives.bind fun _ _ => Gives.pure rfl : Gives Plain (onServerHello cfg inp s unparsed _ _)) _ h)
  · exact .inl (plain_handleEarly _ _ _ _ h)
  · exact .inl (plain_ee _ _ _ h)
  · exact .inl (plain_handleEarly _ _ _ _ h)
  · exact .inl (plain_request _ _ _ h)
  · exact .inl ((Gives.bind fun _ _ => Gives.bind fun _ _ => Gives.pure rfl : Gives Plain (onCertificate cfg inp s _ _)) _ h)
  · exact .inl ((Gives.bind fun _ _ => Gives.bind fun _ _ => Gives.bind fun _ _ => Gives.bind fun _ _ => Gives.bind fun _ _ =>
      Gives.pure rfl : Gives Plain (onCompressedCertificate cfg inp s _ _)) _ h)
  · exact .inl (plain_ignore _ _ _ _ h)
  · exact .inl ((Gives.bind fun _ _ => Gives.bind fun _ _ => Gives.bind fun _ _ => Gives.bind fun _ _ => Gives.bind fun _ _ =>
      Gives.bind fun _ _ => Gives.bind fun _ _ => Gives.pure rfl : Gives Plain (onCertificateVerify cfg inp s _ _)) _ h)
  · exact .inl (plain_ignore _ _ _ _ h)
  · next m o hs =>
    unfold onFinished at h
    rw [Res.bind_eq_ok] at h
    obtain ⟨d, hd, h⟩ := h
    have hd := plain_done hd
    cases h
    unfold finalReport
    split
    · next he =>
      right
      unfold echRejected at he
      cases hes : s.echState with
      | none => rw [hes] at he; cases he
      | some e =>
        rw [hes] at he
        exact ⟨d, e, hs, rfl, by simpa using he, ⟨m, o, rfl⟩, hd, rfl⟩
    · left
      simp [Plain, plain, transition, hd]
  · exact .inl (plain_handleEarly _ _ _ _ h)
  · exact .inl (plain_early _ _ _ _ h)
  · exact .inl ((Gives.bind fun _ _ => Gives.bind fun _ _ => Gives.bind fun _ _ => Gives.bind fun _ _ => Gives.bind fun _ _ =>
      Gives.bind fun _ _ => Gives.bind fun _ _ => Gives.bind fun _ _ => Gives.bind fun _ _ => Gives.bind fun _ _ =>
      Gives.pure rfl : Gives Plain (onNewSessionTicket cfg inp s _)) _ h)
  · cases h; exact .inl rfl
  · exact .inl (plain_appWrite _ _ _ _ h)
  · exact .inl (plain_initiate _ _ h)
  · exact .inl (plain_update _ _ h)
  · exact .inl (plain_close _ _ h)
  · cases h; exact .inl rfl
  · exact .inl ((Gives.bind fun _ _ => Gives.pure rfl : Gives Plain (onExpectedCloseNotify unparsed _)) _ h)
  · cases h


theorem report_error {a a' : Option UInt8} {b : Bool} (h : Action.reportError a ∈ handleError s a' b) : a = a' := by
  unfold handleError at h
  split at h
  · simpa using h
  · unfold alertWrites at h
    split at h
    · split at h <;> simpa using h
    · simpa using h

theorem not_plain {acts : List Action} (hp : Plain acts) {a} (h : Action.reportError a ∈ acts) : False := by
  have := List.all_eq_true.1 hp _ h
  cases this

theorem why_event (hok : ∀ c a, cfg.hashOf c = .ok a → a.Ok) {i : StepIn} {t : Conn.Trig} {p : Param} {u : Bool}
    (he : Event i t p u) {a : UInt8} (h : .reportError (some a) ∈ (processEvent cfg i.inp s u p).acts) :
    Cause cfg i s t a := by
  unfold processEvent at h
  cases hf : handleOrFault cfg i.inp s u p with
  | ok acts =>
    rw [hf] at h
    rw [outcome_acts] at h
    unfold handleOrFault at hf
    split at hf
    · cases hf
    · rcases plain_handle (cfg := cfg) (inp := i.inp) (s := s) (unparsed := u) p _ hf with hp | ⟨d, e, hs, hes, her, ⟨m, o, rfl⟩, _, rfl⟩
      · exact (not_plain hp h).elim
      · rw [List.mem_append] at h
        rcases h with h | h
        · simp [transition] at h
        · cases report_error h
          exact .ech_required e m o u he hs hes her
  | error f =>
    rw [hf] at h
    have hr : Server.alertFor f = some a := by
      cases f <;> first | (cases h) | (rw [outcome_acts] at h; exact (report_error h).symm)
    unfold handleOrFault at hf
    split at hf
    · next hq => cases hf; exact .outside f a (.inl hq) hr
    · rcases C102_client hok hf hr with ⟨rfl, hn⟩ | hs | hr
      · refine .unnamed p u f he hf fun m a => ⟨?_, ?_⟩ <;> (rintro rfl; cases hn)
      · exact .outside f a (.inr hs) hr
      · exact .reason p u a he hr

theorem why_closing {i : StepIn} {t : Conn.Trig} {b : Bool} (ht : t = .app (.appClose b)) {w f a}
    (h : .reportError (some a) ∈ (closing i.inp s w f).acts) : Cause cfg i s t a := by
  unfold closing at h
  split at h
  · cases h
  · split at h
    · next ha => cases report_error h; exact .closing b ht ha
    · simp [Conn.Outcome.acts] at h

/-- C102: the alert a client reports with an error says what is true of the event that led to it; or the failure is
the record layer's, the application's or one without an alert. -/
theorem C102_client_report (hok : ∀ c a, cfg.hashOf c = .ok a → a.Ok) {i : StepIn} {t : Conn.Trig} {a : UInt8}
    (h : .reportError (some a) ∈ (step cfg i s t).acts) : Cause cfg i s t a := by
  unfold step at h
  split at h
  · unfold processSocketData at h
    split at h
    · cases report_error h
    · split at h
      · next ha => cases report_error h; exact .record a rfl ha
      · simp [Conn.Outcome.acts] at h
      · next e u hs => exact why_event hok (.sock e u hs) h
  · exact why_event hok .connect h
  · simp [Conn.Outcome.acts] at h
  · exact why_event hok (.write _ _ _) h
  · exact why_event hok (.earlyWrite _ _ _) h
  · exact why_event hok (.ticket _) h
  · exact why_event hok (.keyUpdate _) h
  · unfold handleAppCloseImmediate at h
    split at h
    · exact why_closing rfl h
    · simp [Conn.Outcome.acts] at h
  · unfold handleAppClose at h
    split at h
    · exact why_closing rfl h
    · simp [Conn.Outcome.acts] at h

/-- The alerts sent with an error are the one reported. -/
abbrev Sent (acts : List Action) : Prop := ∀ tok cs fl, .write tok cs fl ∈ acts → ∀ c ∈ cs, c.type = 21 →
  c.data.flatten = [2, 0] ∨ ∃ a, c.data.flatten = [2, a] ∧ .reportError (some a) ∈ acts

theorem plain_content {cs : List Server.Content} (h : cs.all plainContent = true) {c} (hc : c ∈ cs) (ht : c.type = 21) :
    c.data.flatten = [2, 0] := by
  have := List.all_eq_true.1 h c hc
  simpa [plainContent, ht] using this

theorem plain_sent {acts : List Action} (h : Plain acts) : Sent acts := fun _ _ _ hw _ hc ht =>
  .inl (plain_content (List.all_eq_true.1 h _ hw) hc ht)

theorem error_sent (a b) : Sent (handleError s a b) := by
  intro tok cs fl hw c hc ht
  unfold handleError at hw ⊢
  split at hw
  · simp at hw
  · next hs =>
    rw [if_neg hs]
    unfold alertWrites at hw ⊢
    split at hw
    · next =>
      split at hw
      · simp at hw
      · next hb =>
        simp only [List.mem_cons, List.mem_append, reduceCtorEq, List.not_mem_nil, or_false, false_or, Action.write.injEq] at hw
        obtain ⟨rfl, rfl, rfl⟩ := hw
        simp only [List.mem_cons, List.not_mem_nil, or_false] at hc
        subst hc
        exact .inr ⟨_, rfl, by simp⟩
    · simp at hw

theorem sent_append {l l' : List Action} (h : Sent l) (h' : Sent l') : Sent (l ++ l') := by
  intro tok cs fl hw c hc ht
  rw [List.mem_append] at hw
  rcases hw with hw | hw
  · rcases h tok cs fl hw c hc ht with h | ⟨a, h, hr⟩
    · exact .inl h
    · exact .inr ⟨a, h, List.mem_append_left _ hr⟩
  · rcases h' tok cs fl hw c hc ht with h | ⟨a, h, hr⟩
    · exact .inl h
    · exact .inr ⟨a, h, List.mem_append_right _ hr⟩

theorem event_sent {p : Param} {u : Bool} : Sent (processEvent cfg inp s u p).acts := by
  unfold processEvent
  cases hf : handleOrFault cfg inp s u p with
  | ok acts =>
    rw [outcome_acts]
    unfold handleOrFault at hf
    split at hf
    · cases hf
    · rcases plain_handle (cfg := cfg) (inp := inp) (s := s) (unparsed := u) p _ hf with hp | ⟨d, e, _, _, _, _, hd, rfl⟩
      · exact plain_sent hp
      · refine sent_append (plain_sent ?_) (error_sent _ _)
        simp [Plain, plain, transition, hd]
  | error f =>
    cases f <;> first | exact plain_sent rfl | (rw [outcome_acts]; exact error_sent _ _)

theorem closing_sent {w f} : Sent (closing inp s w f).acts := by
  unfold closing
  split
  · exact plain_sent rfl
  · split
    · exact error_sent _ _
    · exact plain_sent rfl

/-- C102: every alert a client sends is close_notify or the alert of the error it reports. -/
theorem C102_client_sent {i : StepIn} {t : Conn.Trig} {tok cs fl} (h : .write tok cs fl ∈ (step cfg i s t).acts)
    {c : Server.Content} (hc : c ∈ cs) (ht : c.type = 21) :
    c.data.flatten = [2, 0] ∨ ∃ a, c.data.flatten = [2, a] ∧ .reportError (some a) ∈ (step cfg i s t).acts := by
  have hs : Sent (step cfg i s t).acts := by
    unfold step
    split
    · unfold processSocketData
      split
      · exact error_sent _ _
      · split
        · exact error_sent _ _
        · exact plain_sent rfl
        · exact event_sent
    · exact event_sent
    · exact plain_sent rfl
    · exact event_sent
    · exact event_sent
    · exact event_sent
    · exact event_sent
    · unfold handleAppCloseImmediate
      split
      · exact closing_sent
      · exact plain_sent rfl
    · unfold handleAppClose
      split
      · exact closing_sent
      · exact plain_sent rfl
  exact hs tok cs fl h c hc ht

end Fizz.Alerts.ClientProps

/-! ## Server -/

namespace Fizz.Alerts
open Fizz.Codec Fizz.Crypto Fizz.Server Fizz.Alerts.Spec

variable {cfg : Cfg} {inp : Inp} {s : St} {unparsed : Bool}

/-- No report, and no alert but close_notify. -/
def plain : Action → Bool
  | .reportError _ => false
  | .write _ cs _ => cs.all plainContent
  | _ => true

/-- The actions of handlers. -/
abbrev Plain (acts : List Action) : Prop := acts.all plain = true

theorem plain_ccs (id) : (ccs id).all plainContent = true := by
  unfold ccs
  split <;> rfl

theorem plain_flight (w id f) : (flightContents w id f).all plainContent = true := by
  simp [flightContents, content, plainContent, plain_ccs]

theorem plain_helloActions (p f w) : Plain (helloActions cfg p f w) := by
  unfold helloActions
  dsimp only
  split
  · split <;> simp [Plain, plain, plain_flight, transition]
  · simp [Plain, plain, plain_flight, transition]

theorem plain_hello {m o} : Gives Plain (onClientHello cfg inp s unparsed m o) := by
  intro acts h
  cases onClientHello_shape h with
  | fallback => rfl
  | retry _ _ _ _ h =>
    refine (?_ : Gives Plain (sendRetry inp s _ _)) _ h
    refine Gives.bind fun _ _ => Gives.bind fun _ _ => Gives.bind fun _ _ => Gives.bind fun _ _ => Gives.bind fun _ _ =>
      Gives.bind fun _ _ => Gives.pure ?_
    simp [Plain, plain, transition, content, plainContent, plain_ccs]
  | noKex => exact plain_helloActions _ _ _
  | kex => exact plain_helloActions _ _ _

theorem plain_ticket (rms t) : Gives Plain (generateTicket cfg inp s rms t) := by
  unfold generateTicket
  split
  · exact Gives.ok rfl
  · refine Gives.bind fun _ _ => ?_
    split
    · exact Gives.pure rfl
    · refine Gives.bind fun _ _ => Gives.bind fun o _ => ?_
      cases o with
      | none => exact Gives.pure rfl
      | some x =>
        refine Gives.bind fun _ _ => Gives.bind fun a ha => Gives.pure ?_
        unfold writeNewSessionTicket at ha
        simp only [Res.bind_eq_ok] at ha
        obtain ⟨_, _, _, _, ha⟩ := ha
        cases ha
        rfl

theorem plain_finished (m o) : Gives Plain (onFinished cfg inp s unparsed m o) := by
  refine Gives.bind fun _ _ => Gives.bind fun _ _ => Gives.bind fun _ _ => Gives.bind fun _ _ => Gives.bind fun _ _ =>
    Gives.bind fun _ _ => Gives.bind fun _ _ => Gives.bind fun _ _ => Gives.bind fun _ _ => Gives.bind fun _ _ =>
    Gives.bind fun _ _ => Gives.bind fun _ _ => Gives.bind fun _ _ => Gives.bind fun nst hn => Gives.pure ?_
  have hn : Plain nst := by
    unfold finishedTicket at hn
    split at hn
    · exact plain_ticket _ _ _ hn
    · cases hn; rfl
  unfold finishedActions
  split
  · simp only [Plain] at hn ⊢
    simp [plain, transition, -List.all_eq_true, hn]
  · rfl

theorem plain_initiate (r) : Gives Plain (onKeyUpdateInitiation cfg s unparsed r) :=
  Gives.bind fun _ _ => Gives.bind fun _ _ => Gives.bind fun _ _ => Gives.bind fun _ _ => Gives.bind fun _ _ => Gives.pure rfl

theorem plain_update (m) : Gives Plain (onKeyUpdate cfg s unparsed m) := by
  refine Gives.bind fun _ _ => Gives.bind fun _ _ => Gives.bind fun _ _ => ?_
  dsimp only
  split
  · exact Gives.pure rfl
  · exact Gives.bind fun _ _ => Gives.bind fun _ _ => Gives.bind fun _ _ => Gives.pure rfl

theorem plain_certificate (m o) : Gives Plain (onCertificate cfg inp s m o) := by
  refine Gives.bind fun _ _ => Gives.bind fun _ _ => Gives.bind fun _ _ => ?_
  split
  · split
    · exact Gives.pure rfl
    · exact Gives.error
  · exact Gives.pure rfl

theorem plain_handle (p) : Gives Plain (handle cfg inp s unparsed p) := by
  unfold handle
  split
  · exact Gives.ok rfl
  · exact plain_hello
  · exact Gives.ok rfl
  · exact Gives.bind fun _ _ => Gives.pure rfl
  · exact Gives.bind fun _ _ => Gives.bind fun _ _ => Gives.pure rfl
  · exact plain_certificate _ _
  · exact Gives.bind fun _ _ => Gives.bind fun _ _ => Gives.bind fun _ _ => Gives.bind fun _ _ => Gives.bind fun _ _ =>
      Gives.bind fun _ _ => Gives.bind fun _ _ => Gives.pure rfl
  · exact Gives.bind fun _ _ => Gives.pure rfl
  · exact plain_finished _ _
  · exact plain_ticket _ _
  · exact Gives.ok rfl
  · exact Gives.bind fun _ _ => Gives.pure rfl
  · exact plain_initiate _
  · exact plain_update _
  · exact Gives.bind fun _ _ => Gives.bind fun _ _ => Gives.pure rfl
  · exact Gives.bind fun _ _ => Gives.pure rfl
  · exact Gives.error

theorem report_error {a a' : Option UInt8} {b : Bool} (h : Action.reportError a ∈ handleError s a' b) : a = a' := by
  unfold handleError at h
  split at h
  · simp at h
  · unfold alertWrites at h
    split at h
    · split at h <;> simpa using h
    · simpa using h

theorem why_event (hok : ∀ c a, cfg.hashOf c = .ok a → a.Ok) {i : StepIn} {t : Conn.Trig} {p : Param} {u : Bool}
    (he : Event i t p u) {a : UInt8} (h : .reportError (some a) ∈ (processEvent cfg i.inp s u p).acts) :
    Cause cfg i s t a := by
  unfold processEvent at h
  cases hf : handleOrFault cfg i.inp s u p with
  | ok acts =>
    rw [hf] at h
    rw [outcome_acts] at h
    unfold handleOrFault at hf
    split at hf
    · cases hf
    · have := List.all_eq_true.1 (plain_handle _ _ hf) _ h
      cases this
  | error f =>
    rw [hf] at h
    have hr : Server.alertFor f = some a := by
      cases f <;> first | (cases h) | (rw [outcome_acts] at h; exact (report_error h).symm)
    unfold handleOrFault at hf
    split at hf
    · next hq => cases hf; exact .outside f a (.inl hq) hr
    · rcases C102_server hok hf hr with ⟨rfl, hn⟩ | hs | hr
      · refine .unnamed p u f he hf fun m a => ⟨?_, ?_⟩ <;> (rintro rfl; cases hn)
      · exact .outside f a (.inr ⟨p, u, he, hs⟩) hr
      · exact .reason p u a he hr

/-- C102: the alert a server reports with an error says what is true of the event that led to it; or the failure is
the record layer's, the application's or one without an alert. -/
theorem C102_server_report (hok : ∀ c a, cfg.hashOf c = .ok a → a.Ok) {i : StepIn} {t : Conn.Trig} {a : UInt8}
    (h : .reportError (some a) ∈ (step cfg i s t).acts) : Cause cfg i s t a := by
  unfold step at h
  split at h
  · unfold processSocketData at h
    split at h
    · cases report_error h
    · split at h
      · next ha => cases report_error h; exact .record a rfl ha
      · simp [Conn.Outcome.acts] at h
      · next e u hs => exact why_event hok (.sock e u hs) h
  · exact why_event hok .accept h
  · simp [Conn.Outcome.acts, transition] at h
  · exact why_event hok (.write _ _ _) h
  · exact why_event hok (.earlyWrite _ _ _) h
  · exact why_event hok (.ticket _) h
  · exact why_event hok (.keyUpdate _) h
  · unfold handleAppCloseImmediate at h
    split at h
    · split at h <;> simp [Conn.Outcome.acts] at h
    · simp [Conn.Outcome.acts] at h
  · unfold handleAppClose at h
    split at h
    · split at h <;> simp [Conn.Outcome.acts] at h
    · simp [Conn.Outcome.acts] at h

/-- The alerts sent with an error are the one reported. -/
abbrev Sent (acts : List Action) : Prop := ∀ tok cs fl, .write tok cs fl ∈ acts → ∀ c ∈ cs, c.type = 21 →
  c.data.flatten = [2, 0] ∨ ∃ a, c.data.flatten = [2, a] ∧ .reportError (some a) ∈ acts

theorem plain_sent {acts : List Action} (h : Plain acts) : Sent acts := fun _ _ _ hw _ hc ht =>
  .inl (ClientProps.plain_content (List.all_eq_true.1 h _ hw) hc ht)

theorem error_sent (a b) : Sent (handleError s a b) := by
  intro tok cs fl hw c hc ht
  unfold handleError at hw ⊢
  split at hw
  · simp at hw
  · next hs =>
    rw [if_neg hs]
    unfold alertWrites at hw ⊢
    split at hw
    · next =>
      split at hw
      · simp at hw
      · next hb =>
        simp only [List.mem_cons, List.mem_append, reduceCtorEq, List.not_mem_nil, or_false, false_or, Action.write.injEq] at hw
        obtain ⟨rfl, rfl, rfl⟩ := hw
        simp only [List.mem_cons, List.not_mem_nil, or_false] at hc
        subst hc
        exact .inr ⟨_, rfl, by simp⟩
    · simp at hw

theorem event_sent {p : Param} {u : Bool} : Sent (processEvent cfg inp s u p).acts := by
  unfold processEvent
  cases hf : handleOrFault cfg inp s u p with
  | ok acts =>
    rw [outcome_acts]
    unfold handleOrFault at hf
    split at hf
    · cases hf
    · exact plain_sent (plain_handle _ _ hf)
  | error f =>
    cases f <;> first | exact plain_sent rfl | (rw [outcome_acts]; exact error_sent _ _)

/-- C102: every alert a server sends is close_notify or the alert of the error it reports. -/
theorem C102_server_sent {i : StepIn} {t : Conn.Trig} {tok cs fl} (h : .write tok cs fl ∈ (step cfg i s t).acts)
    {c : Server.Content} (hc : c ∈ cs) (ht : c.type = 21) :
    c.data.flatten = [2, 0] ∨ ∃ a, c.data.flatten = [2, a] ∧ .reportError (some a) ∈ (step cfg i s t).acts := by
  have hs : Sent (step cfg i s t).acts := by
    unfold step
    split
    · unfold processSocketData
      split
      · exact error_sent _ _
      · split
        · exact error_sent _ _
        · exact plain_sent rfl
        · exact event_sent
    · exact event_sent
    · exact plain_sent rfl
    · exact event_sent
    · exact event_sent
    · exact event_sent
    · exact event_sent
    · unfold handleAppCloseImmediate
      split
      · split <;> exact plain_sent rfl
      · exact plain_sent rfl
    · unfold handleAppClose
      split
      · split <;> exact plain_sent rfl
      · exact plain_sent rfl
  exact hs tok cs fl h c hc ht

end Fizz.Alerts

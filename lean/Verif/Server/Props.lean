import Verif.Server.InvRun

/-!
# C26 … C29, C44 … C49: what every execution of the server guarantees

All theorems quantify over every history `Run cfg h s` of the server: every sequence of network and
application events, every answer of the environment, every configuration (whose hash functions are
well-formed).  `h = newer ++ y :: older` singles out the step `y` of a history: `older` is what
happened before.
-/

namespace Fizz.Server
open Fizz.Codec Fizz.Crypto
open Fizz.Ticket (CookieState ResumptionState)
open Fizz.Conn (Trig)
open Spec (Neg)

/-! ## Splitting histories -/

theorem Run.split {cfg : Cfg} {newer y older s} (hr : Run cfg (newer ++ y :: older) s) :
    Run cfg older y.pre ∧ Run cfg (y :: older) (Spec.post y) ∧
    Shape cfg y.env y.pre y.trig y.acts ∧
    (y.trig = .sock ∨ (∃ e, y.trig = .app e) → terminal y.pre = false) := by
  induction newer generalizing s with
  | nil =>
    cases hr with
    | @step h s t i o hr ht hst =>
      refine ⟨hr, .step hr ht hst, ?_, ht⟩
      have := step_shape cfg i s t
      rw [hst] at this
      exact this
  | cons x newer ih =>
    cases hr with
    | step hr ht hst => exact ih hr

/-- Every occurrence of an action belongs to a step; what the steps before it did comes earlier. -/
theorem actions_split {h : List Step} {a b : List Action} {act : Action}
    (he : actions h = a ++ act :: b) :
    ∃ newer y older p q, h = newer ++ y :: older ∧ y.acts = p ++ act :: q ∧ a = actions older ++ p := by
  induction h generalizing b with
  | nil => simp at he
  | cons x h ih =>
    rw [actions_cons] at he
    rcases List.append_eq_append_iff.1 he with ⟨a', h1, h2⟩ | ⟨c', h1, h2⟩
    · exact ⟨[], x, h, a', b, rfl, h2, h1⟩
    · cases c' with
      | nil =>
        simp only [List.append_nil, List.nil_append] at h1 h2
        exact ⟨[], x, h, [], b, rfl, h2.symm, by rw [h1, List.append_nil]⟩
      | cons c c' =>
        simp only [List.cons_append, List.cons.injEq] at h2
        obtain ⟨rfl, h2⟩ := h2
        obtain ⟨n, y, o, p, q, rfl, h4, h5⟩ := ih h1
        exact ⟨x :: n, y, o, p, q, rfl, h4, h5⟩

theorem alertWrites_mem {s a f act} (h : act ∈ alertWrites s a f) :
    ∃ w d, s.write = some w ∧ act = .write none [alertContent w d] 0 := by
  unfold alertWrites at h
  repeat' split at h
  · simp at h
  · rename_i w hw _
    exact ⟨w, _, hw, by simpa using h⟩
  · simp at h

/-! ## C26: application data and success only after the client's Finished -/

theorem helloShape_no_deliver {cfg inp s u m orig acts} (h : HelloShape cfg inp s u m orig acts) :
    ∀ d, Action.deliver d ∉ acts := by
  intro d hd
  cases h with
  | fallback => simp [transition] at hd
  | retry h1 h2 h3 h4 h5 =>
    unfold sendRetry at h5
    simp only [Res.bind_eq_ok] at h5
    obtain ⟨_, -, mh, -, hrr, -, hrr', -, enc, -, w, -, h5⟩ := h5
    rw [← pure_eq_ok.1 h5] at hd
    simp [transition] at hd
  | noKex _ _ _ _ _ _ =>
    unfold helloActions at hd
    split at hd
    · split_ifs at hd <;> simp [transition] at hd
    · simp [transition] at hd
  | kex _ _ _ _ _ _ _ =>
    unfold helloActions at hd
    split at hd
    · split_ifs at hd <;> simp [transition] at hd
    · simp [transition] at hd

theorem shape_deliver {cfg i s t acts d} (h : Shape cfg i s t acts) (hd : .deliver d ∈ acts) :
    t = .sock ∧ (∃ u, i.sock = .event (.appData d) u) ∧
    (s.state = .acceptingEarlyData ∨ s.state = .acceptingData) := by
  cases h with
  | fail _ =>
    simp only [List.mem_cons, List.mem_append] at hd
    rcases hd with h | h | h
    · cases h
    · obtain ⟨w, d, -, h⟩ := alertWrites_mem h; cases h
    · simp at h
  | hello h1 h2 h3 => exact absurd hd (helloShape_no_deliver h3 d)
  | @earlyData d' u h1 h2 =>
    simp only [List.mem_singleton, Action.deliver.injEq] at hd
    subst hd
    exact ⟨rfl, ⟨u, h2⟩, .inl h1⟩
  | @data d' u h1 h2 =>
    simp only [List.mem_singleton, Action.deliver.injEq] at hd
    subst hd
    exact ⟨rfl, ⟨u, h2⟩, .inr h1⟩
  | finished _ _ _ _ _ _ _ _ _ _ _ _ _ h =>
    obtain ⟨-, ⟨-, -, hn⟩, -⟩ := finishedTicket_plain h
    unfold finishedActions at hd
    split_ifs at hd <;> simp [transition, hn] at hd
  | ticket _ h => exact absurd hd ((ticket_plain h).2.1.2.2 d)
  | _ => simp [transition, onAccept] at hd

/-- C26: application data handed to the user came off the wire under the key of the current client
generation after the handshake success was reported, or was early data of a connection that accepted
early data, under the early traffic key. -/
theorem C26_deliver {cfg : Cfg} (hok : ∀ c a, cfg.hashOf c = .ok a → a.Ok) {newer y older s}
    (hr : Run cfg (newer ++ y :: older) s) {d : Bytes} (hd : d ∈ Spec.delivered y) :
    (∃ u, y.trig = .sock ∧ y.env.sock = .event (.appData d) u) ∧
    ∃ g, Spec.Fixed cfg older g ∧
      ((.reportHandshakeSuccess ∈ actions older ∧
        y.pre.read = some ⟨.appTraffic, g.clientApp (Spec.updatesReceived older), false⟩) ∨
       (g.early = true ∧ .reportEarlyHandshakeSuccess ∈ actions older ∧
        y.pre.read = some ⟨.earlyData, g.clientEarly, false⟩)) := by
  obtain ⟨h1, h2, h3, h4⟩ := hr.split
  have hi := run_inv hok h1
  have hd' : .deliver d ∈ y.acts := by
    unfold Spec.delivered at hd
    rw [List.mem_flatMap] at hd
    obtain ⟨a, ha, hd⟩ := hd
    cases a <;> simp at hd
    subst hd; exact ha
  obtain ⟨ht, ⟨u, hs⟩, hst⟩ := shape_deliver h3 hd'
  refine ⟨⟨u, ht, hs⟩, ?_⟩
  rcases hst with hst | hst
  · obtain ⟨g, hg⟩ := hi.mid (.inl hst)
    obtain ⟨e1, e2, -⟩ := hg.early hst
    exact ⟨g, hg.fixed, .inr ⟨e1, hg.earlySuccess.2 e1, e2⟩⟩
  · obtain ⟨g, hg⟩ := hi.data hst
    exact ⟨g, hg.fixed, .inl ⟨hg.success, hg.read⟩⟩

/-- Steps that report the success of the handshake. -/
theorem shape_success {cfg : Cfg} (hok : ∀ c a, cfg.hashOf c = .ok a → a.Ok) {h i s t acts}
    (hi : Inv cfg h s) (hsh : Shape cfg i s t acts) (hs : .reportHandshakeSuccess ∈ acts) :
    ∃ m orig ctx secret ha, t = .sock ∧ s.state = .expectingFinished ∧
      i.sock = .event (.handshake (.finished m) orig) false ∧ s.hs = some ctx ∧
      s.clientHandshakeSecret = some secret ∧ cfg.hashOf ctx.cipher = .ok ha ∧
      finishedData ha ctx secret = .ok m.verify_data ∧
      (∃ p, acts = p ++ [.reportHandshakeSuccess] ∧ .reportHandshakeSuccess ∉ p) := by
  cases hsh with
  | fail _ =>
    simp only [List.mem_cons, List.mem_append] at hs
    rcases hs with h | h | h
    · cases h
    · obtain ⟨w, d, -, h⟩ := alertWrites_mem h; cases h
    · simp at h
  | hello h1 h2 h3 =>
    exact absurd hs (hello_inv (x := ⟨.sock, i, s, acts⟩) hok hi rfl h2 h1 h3).2.1
  | ticket _ h => exact absurd hs (ticket_plain h).2.1.1
  | @finished m orig ctx secret ha hc ks ks' cipher version read rms nst h1 h2 h3 h4 h5 h6 h7 h8 h9 h10 h11 h12 h13 h14 =>
    refine ⟨m, orig, ctx, secret, ha, rfl, h1, h2, h3, h4, h5, h6, ?_⟩
    obtain ⟨-, ⟨hn, -, -⟩, -⟩ := finishedTicket_plain h14
    unfold finishedActions
    split_ifs
    · exact ⟨_, rfl, by simp [transition, hn]⟩
    · exact ⟨[.mutate _, .secretAvailable _ _, transition _], rfl, by simp [transition]⟩
  | _ => simp [transition, onAccept] at hs

/-- C26: success is reported only in answer to a Finished message of the client whose verify_data is
the MAC, under the client's handshake key, of the transcript of all handshake messages exchanged before
it; no undecoded handshake bytes are left; and it has not been reported before. -/
theorem C26_success {cfg : Cfg} (hok : ∀ c a, cfg.hashOf c = .ok a → a.Ok) {newer y older s}
    (hr : Run cfg (newer ++ y :: older) s) (hs : .reportHandshakeSuccess ∈ y.acts) :
    ∃ g m orig, Spec.Fixed cfg older g ∧ Spec.received y = some (.finished m, orig) ∧
      y.env.sock = .event (.handshake (.finished m) orig) false ∧
      y.pre.read.map (fun l => (l.level, l.secret)) = some (.handshake, g.clientHandshake) ∧
      m.verify_data = Spec.finishedMac g.hash.spec g.clientHandshake
        (g.hash.digest (Spec.transcript cfg older)) ∧
      .reportHandshakeSuccess ∉ actions older := by
  obtain ⟨h1, h2, h3, h4⟩ := hr.split
  have hi := run_inv hok h1
  obtain ⟨m, orig, ctx, secret, ha, ht, hst, hsock, hctx, hsec, hha, hfd, p, hp, -⟩ :=
    shape_success hok hi h3 hs
  obtain ⟨g, hg⟩ := hi.mid (.inr (.inr (.inr hst)))
  have hh : cfg.hashOf g.cipher = .ok g.hash := by
    obtain ⟨_, _, _, -, hn⟩ := hg.fixed; exact hn.hash
  rw [hg.hs, Option.some.injEq] at hctx
  rw [hg.secret, Option.some.injEq] at hsec
  subst hctx hsec
  rw [hh, Except.ok.injEq] at hha
  subst hha
  refine ⟨g, m, orig, hg.fixed, ?_, hsock, ?_, ?_, hg.success⟩
  · unfold Spec.received
    rw [ht, hsock]
    simp only [List.isEmpty_iff]
    rw [if_neg (by rintro h; rw [h] at hs; cases hs)]
  · obtain ⟨skip, hrd, -⟩ := hg.late (by rw [hst]; simp)
    rw [hrd]; rfl
  · rw [finishedData_eq (hok _ _ hh) (k := g.clientHandshake)
      (handshakeValue_len (hok _ _ hh) _ _ (w := .clientHandshakeTraffic) (by simp)),
      Except.ok.injEq] at hfd
    exact hfd.symm

/-- C26: success is reported at most once in the life of a connection. -/
theorem C26_once {cfg : Cfg} (hok : ∀ c a, cfg.hashOf c = .ok a → a.Ok) {h s}
    (hr : Run cfg h s) {a b : List Action} (he : actions h = a ++ .reportHandshakeSuccess :: b) :
    .reportHandshakeSuccess ∉ a ∧ .reportHandshakeSuccess ∉ b := by
  have key : ∀ {a b}, actions h = a ++ .reportHandshakeSuccess :: b → .reportHandshakeSuccess ∉ a := by
    intro a b he
    obtain ⟨newer, y, older, p, q, rfl, h1, rfl⟩ := actions_split he
    have hm : .reportHandshakeSuccess ∈ y.acts := by rw [h1]; simp
    obtain ⟨_, _, _, -, -, -, -, -, h2⟩ := C26_success hok hr hm
    obtain ⟨r1, r2, r3, r4⟩ := hr.split
    obtain ⟨_, _, _, _, _, -, -, -, -, -, -, -, p', hp', hn⟩ := shape_success hok (run_inv hok r1) r3 hm
    rw [List.mem_append]
    rintro (hh | hh)
    · exact h2 hh
    · rw [h1] at hp'
      rcases List.append_eq_append_iff.1 hp' with ⟨a', e1, e2⟩ | ⟨c', e1, e2⟩
      · exact hn (by rw [e1]; exact List.mem_append_left _ hh)
      · cases c' with
        | nil => exact hn (by rw [List.append_nil] at e1; rw [← e1]; exact hh)
        | cons c c' => simp at e2
  refine ⟨key he, fun hb => ?_⟩
  obtain ⟨b1, b2, rfl⟩ := List.append_of_mem hb
  exact key (a := a ++ .reportHandshakeSuccess :: b1) (b := b2) (by rw [he]; simp) (by simp)

/-- C26 for the whole connection, with its queueing, asynchronous results and callbacks: whatever the
environment does, application data is handed to the user only after success or early success was
reported, and success at most once. -/
theorem C26_conn {cfg : Cfg} (hok : ∀ c a, cfg.hashOf c = .ok a → a.Ok) {E : Conn.Env machine}
    (hE : Serves cfg E) {c : Conn.C machine} (hr : Conn.Reachable E ({} : St) c) {a b : List Action}
    {act : Action} (he : Conn.Spec.visited c.log = a ++ act :: b) :
    (∀ d, act = .deliver d → .reportHandshakeSuccess ∈ a ∨ .reportEarlyHandshakeSuccess ∈ a) ∧
    (act = .reportHandshakeSuccess → .reportHandshakeSuccess ∉ a) := by
  obtain ⟨h, s, hrun, ⟨rest, hp⟩, -⟩ := Reachable.run hE hr
  rw [he] at hp
  change List Action at rest
  have hp' : actions h = a ++ act :: (b ++ rest) := by
    rw [← hp]
    show (a ++ act :: b) ++ rest = _
    simp
  refine ⟨fun d hd => ?_, fun ha => ?_⟩
  · subst hd
    obtain ⟨newer, y, older, p, q, rfl, h1, rfl⟩ := actions_split hp'
    have hm : d ∈ Spec.delivered y := by
      unfold Spec.delivered; rw [h1]; simp
    obtain ⟨-, g, -, ⟨hs, -⟩ | ⟨-, hs, -⟩⟩ := C26_deliver hok hrun hm
    · exact .inl (List.mem_append_left _ hs)
    · exact .inr (List.mem_append_left _ hs)
  · subst ha
    exact (C26_once hok hrun hp').1

/-! ## C27: early data -/

theorem shape_early {cfg : Cfg} (hok : ∀ c a, cfg.hashOf c = .ok a → a.Ok) {h y}
    (hi : Inv cfg h y.pre) (hsh : Shape cfg y.env y.pre y.trig y.acts)
    (hs : .reportEarlyHandshakeSuccess ∈ y.acts) :
    ∃ g, Spec.Negotiated cfg h y g ∧ g.early = true := by
  obtain ⟨t, i, s, acts⟩ := y
  simp only at hi hsh hs
  cases hsh with
  | fail _ =>
    simp only [List.mem_cons, List.mem_append] at hs
    rcases hs with h | h | h
    · cases h
    · obtain ⟨w, d, -, h⟩ := alertWrites_mem h; cases h
    · simp at h
  | hello h1 h2 h3 =>
    exact (hello_inv (x := ⟨.sock, i, s, acts⟩) hok hi rfl h2 h1 h3).2.2 hs
  | ticket _ h => exact absurd hs (ticket_plain h).2.1.2.1
  | finished h1 h2 h3 h4 h5 h6 h7 h8 h9 h10 h11 h12 h13 h14 =>
    obtain ⟨-, ⟨-, hn, -⟩, -⟩ := finishedTicket_plain h14
    unfold finishedActions at hs
    split_ifs at hs <;> simp [transition, hn] at hs
  | _ => simp [transition, onAccept] at hs

/-- Nothing has happened yet. -/
def Fresh (s : St) : Prop :=
  s.state = .uninitialized ∨ (s.state = .expectingClientHello ∧ s.hs = none)

theorem fail_state {s : St} {a f r} :
    (applyAll (.mutate toError :: (alertWrites s a f ++ [.reportError r])) s).state = .error := by
  show (List.foldl _ (toError s) _).state = _
  rw [List.foldl_append]
  unfold alertWrites
  repeat' split
  all_goals rfl

theorem helloActions_mid {cfg q f w s} : midState (applyAll (helloActions cfg q f w) s).state := by
  unfold helloActions midState
  split
  · split_ifs <;> simp [applyAll, Action.apply, transition]
  · simp only [applyAll, List.foldl_cons, List.foldl_nil, Action.apply, transition, List.foldl_append]
    cases f.requestClientAuth <;> simp

/-- Either nothing has been received, or the connection is no longer fresh. -/
theorem fresh_run {cfg : Cfg} {h s} (hr : Run cfg h s) (hf : Fresh s) :
    ∀ r ∈ h, Spec.received r = none ∧ Spec.contents r = [] := by
  induction hr with
  | nil => simp
  | @step h s t i o hr ht hst ih =>
    have hsh := step_shape cfg i s t
    rw [hst] at hsh
    generalize o.acts = acts at hsh hf ⊢
    have key : Fresh s → Spec.received ⟨t, i, s, acts⟩ = none ∧ Spec.contents ⟨t, i, s, acts⟩ = [] →
        ∀ r ∈ ⟨t, i, s, acts⟩ :: h, Spec.received r = none ∧ Spec.contents r = [] := by
      intro h1 h2 r hr
      rcases List.mem_cons.1 hr with rfl | hr
      · exact h2
      · exact ih h1 r hr
    have no : ∀ {e}, (applyAll acts s).state = e → e ≠ .uninitialized → e ≠ .expectingClientHello → False := by
      intro e h1 h2 h3
      rcases hf with hf | ⟨hf, -⟩ <;> rw [hf] at h1
      · exact h2 h1.symm
      · exact h3 h1.symm
    cases hsh with
    | nothing => exact key hf ⟨rfl, rfl⟩
    | wait hw => exact key hf ⟨by simp [Spec.received, hw], by simp [Spec.contents, Spec.writes]⟩
    | accept hs =>
      exact key (.inl hs) ⟨by simp [Spec.received], by simp [Spec.contents, Spec.writes, onAccept, transition]⟩
    | fail _ => exact absurd fail_state (fun h => no h (by simp) (by simp))
    | hello h1 h2 h3 =>
      cases h3 with
      | fallback => exact (no rfl (by simp [applyAll, Action.apply, transition])
          (by simp [applyAll, Action.apply, transition])).elim
      | retry h1 h2 h3 h4 h5 =>
        unfold sendRetry at h5
        simp only [Res.bind_eq_ok] at h5
        obtain ⟨_, -, mh, -, hrr, -, hrr', -, enc, -, w, -, h5⟩ := h5
        have h5 := pure_eq_ok.1 h5
        subst h5
        rcases hf with hf | ⟨-, hf⟩
        · cases hf
        · cases hf
      | @noKex p1 p2 k f w _ _ _ _ _ _ =>
        have := helloActions_mid (cfg := cfg) (s := s) (q := p2) (f := f) (w := w)
        rcases hf with hf | ⟨hf, -⟩ <;> (rw [hf] at this; simp [midState] at this)
      | @kex p1 p2 k f w _ _ _ _ _ _ _ _ _ =>
        have := helloActions_mid (cfg := cfg) (s := s) (q := p2) (f := f) (w := w)
        rcases hf with hf | ⟨hf, -⟩ <;> (rw [hf] at this; simp [midState] at this)
    | finished h1 h2 h3 h4 h5 h6 h7 h8 h9 h10 h11 h12 h13 h14 =>
      rw [(finishedActions_facts (finishedTicket_plain h14)).1] at hf
      simp [Fresh] at hf
    | ticket h1 h2 =>
      rw [(ticket_plain h2).1] at hf
      simp [Fresh, h1] at hf
    | appWrite h1 h2 =>
      have hf : Fresh s := hf
      rcases h1 with h1 | h1 | h1 <;> simp [Fresh, h1] at hf
    | earlyData h1 _ => have hf : Fresh s := hf; simp [Fresh, h1] at hf
    | data h1 _ => have hf : Fresh s := hf; simp [Fresh, h1] at hf
    | keyUpdateInitiation h1 => simp [Fresh, h1, applyAll, Action.apply, saveWrite] at hf
    | keyUpdate h1 => simp [Fresh, h1, applyAll, Action.apply, saveRead] at hf
    | keyUpdateAnswered h1 => simp [Fresh, h1, applyAll, Action.apply, saveBoth] at hf
    | _ =>
      simp [Fresh, applyAll, Action.apply, transition, toClosed, toExpectingCloseNotify] at hf

/-- C27: early data is accepted only when all conditions hold: it was offered and enabled, the client's
first PSK was accepted (binder verified) with the cipher and ALPN now negotiated, no HelloRetryRequest
and no cookie were involved, the replay cache said the hello is no replay, the ticket age is inside the
tolerance, and the app token validator approved. -/
theorem C27_accept {cfg : Cfg} (hok : ∀ c a, cfg.hashOf c = .ok a → a.Ok) {newer y older s}
    (hr : Run cfg (newer ++ y :: older) s) (hs : .reportEarlyHandshakeSuccess ∈ y.acts) :
    ∃ m orig g rs, y.env.sock = .event (.handshake (.clientHello m) orig) false ∧
      Spec.Negotiated cfg older y g ∧ g.early = true ∧ Spec.EarlyOk cfg y m g ∧ g.psk = some rs ∧
      Spec.PskOk cfg y.env.inp g rs ∧ (∀ r ∈ older, Spec.received r = none) := by
  obtain ⟨h1, -, h3, -⟩ := hr.split
  obtain ⟨g, hg, he⟩ := shape_early hok (run_inv hok h1) h3 hs
  obtain ⟨m, orig, -, hsock, -, -, hearly, -⟩ := hg.hello
  have ho := hearly he
  obtain ⟨a1, a2, a3, a4, a5, a6, a7, a8, rs, of, id, ids, b1, b2⟩ := ho
  exact ⟨m, orig, g, rs, hsock, hg, he, hearly he, b1, hg.psk _ b1,
    fun r hr => (fresh_run h1 (.inr ⟨hg.state, a4⟩) r hr).1⟩

/-- C27: otherwise early data is skipped, never delivered.  While the handshake runs, the server reads
with the client's handshake key, and it skips what it cannot decrypt exactly when early data was offered
and not accepted; after a HelloRetryRequest it skips encrypted records exactly when early data was
offered. -/
theorem C27_skip {cfg : Cfg} (hok : ∀ c a, cfg.hashOf c = .ok a → a.Ok) {h s} (hr : Run cfg h s) :
    (s.state = .expectingCertificate ∨ s.state = .expectingCertificateVerify ∨
      s.state = .expectingFinished →
      ∃ g skip, Spec.Fixed cfg h g ∧ s.read = some ⟨.handshake, g.clientHandshake, skip⟩ ∧
        (skip = true ↔ g.early = false ∧
          ∃ e, getClientEarlyData g.used.1.extensions = .ok (some e))) ∧
    (s.state = .acceptingEarlyData → ∃ g, Spec.Fixed cfg h g ∧ g.early = true ∧
      .reportEarlyHandshakeSuccess ∈ actions h) ∧
    (s.state = .expectingClientHello → s.hs ≠ none → ∃ newer r older v c gr, h = newer ++ r :: older ∧
      Spec.SentRetry cfg older r v c gr ∧
      (s.read = some ⟨.plaintext, [], true⟩ ↔
        ∃ m orig e, Spec.received r = some (.clientHello m, orig) ∧
          getClientEarlyData (Spec.usedHello r m orig).1.extensions = .ok (some e))) := by
  have hi := run_inv hok hr
  refine ⟨fun hs => ?_, fun hs => ?_, fun hs hh => ?_⟩
  · obtain ⟨g, hg⟩ := hi.mid (.inr hs)
    obtain ⟨skip, h1, h2⟩ := hg.late (by rcases hs with h | h | h <;> rw [h] <;> simp)
    exact ⟨g, skip, hg.fixed, h1, h2⟩
  · obtain ⟨g, hg⟩ := hi.mid (.inl hs)
    have := (hg.early hs).1
    exact ⟨g, hg.fixed, this, hg.earlySuccess.2 this⟩
  · obtain ⟨pre, -⟩ := hi.hello hs
    cases hc : s.hs with
    | none => exact absurd hc hh
    | some c =>
      obtain ⟨-, -, -, -, -, ⟨n, r, o, v, gr, h1, -, -, h2, h3⟩, -⟩ := pre.retried _ hc
      exact ⟨n, r, o, v, c.cipher, gr, h1, h2, h3⟩

/-! ## C28: the end of a connection -/

theorem Run.det {cfg : Cfg} {h s s'} (h1 : Run cfg h s) (h2 : Run cfg h s') : s = s' := by
  cases h1 with
  | nil => cases h2; rfl
  | step a b c =>
    generalize hh : (_ :: _ : List Step) = l at h2
    cases h2 with
    | nil => cases hh
    | step a' b' c' =>
      simp only [List.cons.injEq, Step.mk.injEq] at hh
      obtain ⟨⟨-, -, e1, e2⟩, -⟩ := hh
      rw [e1, e2]

theorem Run.suffix {cfg : Cfg} {newer h s'} (hr : Run cfg (newer ++ h) s') : ∃ s, Run cfg h s := by
  induction newer generalizing s' with
  | nil => exact ⟨s', hr⟩
  | cons x newer ih => cases hr with
    | step a _ _ => exact ih a

/-- A step of a connection that is over. -/
theorem over_step {cfg : Cfg} (hok : ∀ c a, cfg.hashOf c = .ok a → a.Ok) {h y}
    (hi : Inv cfg h y.pre) (ht : terminal y.pre = true) (hsh : Shape cfg y.env y.pre y.trig y.acts)
    (hg : y.trig = .sock ∨ (∃ e, y.trig = .app e) → terminal y.pre = false) :
    terminal (Spec.post y) = true ∧ (y.pre.state = .error → (Spec.post y).state = .error) ∧
    (y.trig = .accept ∨ y.trig = .v2) ∧ Spec.contents y = [] ∧ Spec.delivered y = [] ∧
    .reportHandshakeSuccess ∉ y.acts ∧ .reportEarlyHandshakeSuccess ∉ y.acts := by
  obtain ⟨t, i, s, acts⟩ := y
  simp only at *
  have hg1 : t ≠ .sock := by rintro rfl; rw [hg (.inl rfl)] at ht; cases ht
  have hg2 : ∀ e, t ≠ .app e := by rintro e rfl; rw [hg (.inr ⟨e, rfl⟩)] at ht; cases ht
  have htr : t = .accept ∨ t = .v2 := by
    cases t with
    | sock => exact absurd rfl hg1
    | app e => exact absurd rfl (hg2 e)
    | accept => exact .inl rfl
    | v2 => exact .inr rfl
  have hst : s.state = .error ∨ s.state = .closed := by simpa [terminal] using ht
  cases hsh with
  | nothing => exact ⟨ht, fun h => h, htr, rfl, rfl, by simp, by simp⟩
  | @fail _ a hne =>
    have hc := hst.resolve_left hne
    have hw := hi.closing (.inr hc)
    have : alertWrites s a i.inp.alertFails = [] := by
      unfold alertWrites; rw [hw]; cases a <;> rfl
    simp only [this, List.nil_append]
    refine ⟨?_, fun h => absurd h hne, htr, rfl, rfl, by simp, by simp⟩
    simp [terminal, Spec.post, applyAll, Action.apply, toError]
  | accept hs => rw [hs] at hst; simp at hst
  | v2 =>
    refine ⟨?_, fun _ => rfl, htr, rfl, rfl, by simp [transition], by simp [transition]⟩
    simp [terminal, Spec.post, applyAll, Action.apply, transition]
  | _ => exact absurd rfl (by first | exact hg1 | exact hg2 _)

/-- C28: once the connection is in Error or Closed, the state machine runs no network or application
event any more; whatever still runs (`accept`, the SSLv2 check) writes nothing, delivers nothing, reports
no success and does not lead back. -/
theorem C28_terminal {cfg : Cfg} (hok : ∀ c a, cfg.hashOf c = .ok a → a.Ok) {newer h s s'}
    (hr : Run cfg h s) (ht : terminal s = true) (hr' : Run cfg (newer ++ h) s') :
    terminal s' = true ∧ (s.state = .error → s'.state = .error) ∧
    ∀ y ∈ newer, (y.trig = .accept ∨ y.trig = .v2) ∧ Spec.contents y = [] ∧ Spec.delivered y = [] ∧
      .reportHandshakeSuccess ∉ y.acts ∧ .reportEarlyHandshakeSuccess ∉ y.acts := by
  induction newer generalizing s' with
  | nil =>
    have := hr.det hr'
    subst this
    exact ⟨ht, fun h => h, by simp⟩
  | cons y newer ih =>
    obtain ⟨r1, r2, r3, r4⟩ := hr'.split (newer := []) (y := y)
    obtain ⟨i1, i2, i3⟩ := ih r1
    obtain ⟨o1, o2, o3⟩ := over_step hok (run_inv hok r1) i1 r3 r4
    have := r2.det hr'
    subst this
    refine ⟨o1, fun h => o2 (i2 h), fun z hz => ?_⟩
    rcases List.mem_cons.1 hz with rfl | hz
    · exact o3
    · exact i3 z hz

theorem mem_writes {acts : List Action} {c : Content} (h : c ∈ Spec.writes acts) :
    ∃ t cs f, .write t cs f ∈ acts ∧ c ∈ cs := by
  unfold Spec.writes at h
  rw [List.mem_flatMap] at h
  obtain ⟨a, ha, hc⟩ := h
  cases a <;> simp at hc
  exact ⟨_, _, _, ha, hc⟩

theorem ticket_types {cfg inp s rms tok acts} (h : generateTicket cfg inp s rms tok = .ok acts) :
    ∀ c ∈ Spec.writes acts, c.type = 22 := by
  rcases ticket_shape h with rfl | ⟨w, rs, tk, lt, exts, -, -, -, -, rfl⟩
  · simp [Spec.writes]
  · simp [Spec.writes, content]

theorem helloShape_types {cfg inp s u m orig acts} (h : HelloShape cfg inp s u m orig acts) :
    ∀ c ∈ Spec.writes acts, c.type = 20 ∨ c.type = 22 := by
  intro c hc
  cases h with
  | fallback => simp [Spec.writes, transition] at hc
  | retry h1 h2 h3 h4 h5 =>
    unfold sendRetry at h5
    simp only [Res.bind_eq_ok] at h5
    obtain ⟨_, -, mh, -, hrr, -, hrr', -, enc, -, w, -, h5⟩ := h5
    rw [← pure_eq_ok.1 h5] at hc
    simp only [Spec.writes, transition, List.flatMap_cons, List.flatMap_nil, List.nil_append,
      List.append_nil, List.mem_cons] at hc
    rcases hc with rfl | hc
    · exact .inr rfl
    · exact .inl (ccs_type _ hc)
  | @noKex p1 p2 k f w _ _ _ _ _ _ =>
    have : c ∈ flightContents w p2.p1.hello.chlo.legacy_session_id f := by
      unfold helloActions at hc
      split at hc
      · split_ifs at hc <;> simpa [Spec.writes, transition] using hc
      · simpa [Spec.writes, transition] using hc
    simp only [flightContents, List.mem_cons, List.mem_append] at this
    rcases this with rfl | hc | hc
    · exact .inr rfl
    · exact .inl (ccs_type _ hc)
    · simp at hc; subst hc; exact .inr rfl
  | @kex p1 p2 k f w _ _ _ _ _ _ _ _ _ =>
    have : c ∈ flightContents w p2.p1.hello.chlo.legacy_session_id f := by
      unfold helloActions at hc
      split at hc
      · split_ifs at hc <;> simpa [Spec.writes, transition] using hc
      · simpa [Spec.writes, transition] using hc
    simp only [flightContents, List.mem_cons, List.mem_append] at this
    rcases this with rfl | hc | hc
    · exact .inr rfl
    · exact .inl (ccs_type _ hc)
    · simp at hc; subst hc; exact .inr rfl

/-- The connection will not write any more. -/
def Silent (s : St) : Prop :=
  terminal s = true ∨ (s.state = .expectingCloseNotify ∧ s.write = none)

theorem alertWrites_none {s a f} (h : s.write = none) : alertWrites s a f = [] := by
  unfold alertWrites; rw [h]; cases a <;> rfl

theorem silent_step {cfg : Cfg} (hok : ∀ c a, cfg.hashOf c = .ok a → a.Ok) {h y}
    (hi : Inv cfg h y.pre) (hs : Silent y.pre) (hsh : Shape cfg y.env y.pre y.trig y.acts)
    (hg : y.trig = .sock ∨ (∃ e, y.trig = .app e) → terminal y.pre = false) :
    Silent (Spec.post y) ∧ Spec.contents y = [] := by
  by_cases ht : terminal y.pre = true
  · obtain ⟨o1, -, -, o2, -⟩ := over_step hok hi ht hsh hg
    exact ⟨.inl o1, o2⟩
  · obtain ⟨h1, h2⟩ := hs.resolve_left ht
    obtain ⟨t, i, s, acts⟩ := y
    simp only at *
    cases hsh with
    | nothing => exact ⟨hs, rfl⟩
    | fail _ =>
      rw [alertWrites_none h2]
      exact ⟨.inl rfl, rfl⟩
    | wait _ => exact ⟨hs, rfl⟩
    | closeNow hw => rw [h2] at hw; cases hw
    | close hw => rw [h2] at hw; cases hw
    | closed _ => exact ⟨.inl rfl, rfl⟩
    | v2 => exact ⟨.inl rfl, rfl⟩
    | expectedCloseNotify _ _ => exact ⟨.inl rfl, rfl⟩
    | accept hst => rw [h1] at hst; cases hst
    | appWrite hst _ => rw [h1] at hst; simp at hst
    | hello hst => rw [h1] at hst; cases hst
    | earlyData hst => rw [h1] at hst; cases hst
    | data hst => rw [h1] at hst; cases hst
    | endOfEarlyData hst => rw [h1] at hst; cases hst
    | noCertificate hst => rw [h1] at hst; cases hst
    | certificate hst => rw [h1] at hst; cases hst
    | certificateVerify hst => rw [h1] at hst; cases hst
    | finished hst => rw [h1] at hst; cases hst
    | ticket hst => rw [h1] at hst; cases hst
    | keyUpdateInitiation hst => rw [h1] at hst; cases hst
    | keyUpdate hst => rw [h1] at hst; cases hst
    | keyUpdateAnswered hst => rw [h1] at hst; cases hst
    | closeNotify hst => rw [h1] at hst; cases hst

/-- C28: an alert is the last thing a connection writes, so there is at most one, and it is protected by
the write layer in force. -/
theorem C28_alert {cfg : Cfg} (hok : ∀ c a, cfg.hashOf c = .ok a → a.Ok) {newer y older s}
    (hr : Run cfg (newer ++ y :: older) s) {c : Content} (hc : c ∈ Spec.contents y) (ha : c.type = 21) :
    y.pre.write = some c.layer ∧ Spec.contents y = [c] ∧ (∃ d, c.data = [[2, d]]) ∧
    ∀ z ∈ newer, Spec.contents z = [] := by
  have key : ∀ {y older}, Run cfg (y :: older) (Spec.post y) → Shape cfg y.env y.pre y.trig y.acts →
      c ∈ Spec.contents y →
      Silent (Spec.post y) ∧ y.pre.write = some c.layer ∧ Spec.contents y = [c] ∧ (∃ d, c.data = [[2, d]]) := by
    rintro ⟨t, i, s, acts⟩ older - hsh hc
    simp only at hsh
    cases hsh with
    | @fail _ a _ =>
      refine ⟨.inl (by simp [terminal, Spec.post, fail_state]), ?_⟩
      unfold Spec.contents Spec.writes alertWrites at *
      simp only [List.flatMap_cons, List.flatMap_append, List.nil_append] at hc ⊢
      repeat' split at hc
      · simp at hc
      · rename_i w hw hf
        simp only [hf, ↓reduceIte] at *
        simp only [List.flatMap_cons, List.flatMap_nil, List.append_nil, List.mem_singleton] at hc ⊢
        subst hc
        exact ⟨hw, rfl, _, rfl⟩
      · simp at hc
    | nothing => simp [Spec.contents, Spec.writes] at hc
    | wait _ => simp [Spec.contents, Spec.writes] at hc
    | closeNow hw =>
      simp only [Spec.contents, Spec.writes, List.flatMap_cons, List.flatMap_nil, List.nil_append,
        List.append_nil, List.mem_singleton] at hc ⊢
      subst hc
      exact ⟨.inl rfl, hw, rfl, _, rfl⟩
    | close hw =>
      simp only [Spec.contents, Spec.writes, List.flatMap_cons, List.flatMap_nil, List.nil_append,
        List.append_nil, List.mem_singleton] at hc ⊢
      subst hc
      exact ⟨.inr ⟨rfl, rfl⟩, hw, rfl, _, rfl⟩
    | closeNotify hst hsock hw =>
      simp only [Spec.contents, Spec.writes, transition, List.flatMap_cons, List.flatMap_nil, List.nil_append,
        List.append_nil, List.mem_singleton] at hc ⊢
      subst hc
      exact ⟨.inl rfl, hw, rfl, _, rfl⟩
    | hello h1 h2 h3 =>
      rcases helloShape_types h3 c hc with h | h <;> (rw [ha] at h; exact absurd h (by decide))
    | ticket h1 h2 =>
      have h := ticket_types h2 c hc
      rw [ha] at h; exact absurd h (by decide)
    | finished h1 h2 h3 h4 h5 h6 h7 h8 h9 h10 h11 h12 h13 h14 =>
      have : c.type = 22 := by
        unfold finishedTicket at h14
        unfold Spec.contents finishedActions at hc
        split_ifs at h14 hc
        · refine ticket_types h14 c ?_
          simpa [Spec.writes, transition] using hc
        · simp [Spec.writes, transition] at hc
      rw [ha] at this; exact absurd this (by decide)
    | _ =>
      simp [Spec.contents, Spec.writes, onAccept, transition, content] at hc <;>
        (rw [hc] at ha; simp at ha)
  obtain ⟨-, r2, r3, -⟩ := hr.split
  obtain ⟨k1, k2, k3, k4⟩ := key r2 r3 hc
  refine ⟨k2, k3, k4, ?_⟩
  have : ∀ {newer s}, Run cfg (newer ++ y :: older) s → Silent s ∧ ∀ z ∈ newer, Spec.contents z = [] := by
    intro newer
    induction newer with
    | nil =>
      intro s hr
      have := r2.det hr
      subst this
      exact ⟨k1, by simp⟩
    | cons x newer ih =>
      intro s hr
      obtain ⟨q1, q2, q3, q4⟩ := hr.split (newer := []) (y := x)
      obtain ⟨i1, i2⟩ := ih q1
      obtain ⟨o1, o2⟩ := silent_step hok (run_inv hok q1) i1 q3 q4
      have := q2.det hr
      subst this
      refine ⟨o1, fun z hz => ?_⟩
      rcases List.mem_cons.1 hz with rfl | hz
      · exact o2
      · exact i2 z hz
  exact (this hr).2

theorem shape_error {cfg i s t acts r} (hsh : Shape cfg i s t acts) (h : .reportError r ∈ acts) :
    s.state ≠ .error ∧ (applyAll acts s).state = .error ∧
    ∃ p, acts = p ++ [.reportError r] ∧ ∀ r', .reportError r' ∉ p := by
  cases hsh with
  | @fail _ a hne =>
    have hr : r = a := by
      simp only [List.mem_cons, List.mem_append] at h
      rcases h with h | h | h
      · cases h
      · obtain ⟨w, d, -, h⟩ := alertWrites_mem h; cases h
      · simpa using h
    subst hr
    refine ⟨hne, fail_state, .mutate toError :: alertWrites s r i.inp.alertFails, by simp, ?_⟩
    intro r' hr
    rcases List.mem_cons.1 hr with hr | hr
    · cases hr
    · obtain ⟨w, d, -, hr⟩ := alertWrites_mem hr; cases hr
  | hello h1 h2 h3 =>
    exfalso
    cases h3 with
    | fallback => simp [transition] at h
    | retry h1 h2 h3 h4 h5 =>
      unfold sendRetry at h5
      simp only [Res.bind_eq_ok] at h5
      obtain ⟨_, -, mh, -, hrr, -, hrr', -, enc, -, w, -, h5⟩ := h5
      rw [← pure_eq_ok.1 h5] at h
      simp [transition] at h
    | noKex _ _ _ _ _ _ =>
      unfold helloActions at h
      split at h
      · split_ifs at h <;> simp [transition] at h
      · simp [transition] at h
    | kex _ _ _ _ _ _ _ =>
      unfold helloActions at h
      split at h
      · split_ifs at h <;> simp [transition] at h
      · simp [transition] at h
  | finished h1 h2 h3 h4 h5 h6 h7 h8 h9 h10 h11 h12 h13 h14 =>
    exfalso
    unfold finishedTicket at h14
    unfold finishedActions at h
    split_ifs at h14 h
    · rcases ticket_shape h14 with rfl | ⟨w, rs, tk, lt, exts, -, -, -, -, rfl⟩ <;>
        simp [transition] at h
    · simp [transition] at h
  | ticket h1 h2 =>
    exfalso
    rcases ticket_shape h2 with rfl | ⟨w, rs, tk, lt, exts, -, -, -, -, rfl⟩ <;> simp at h
  | _ => simp [transition, onAccept] at h

/-- C28: a failure is reported at most once, and the connection is over then. -/
theorem C28_report {cfg : Cfg} (hok : ∀ c a, cfg.hashOf c = .ok a → a.Ok) {h s}
    (hr : Run cfg h s) {a b : List Action} {r : Option UInt8} (he : actions h = a ++ .reportError r :: b) :
    s.state = .error ∧ (∀ r', .reportError r' ∉ a) ∧ .reportHandshakeSuccess ∉ b ∧ ∀ d, .deliver d ∉ b := by
  have gone : ∀ {newer y older s r}, Run cfg (newer ++ y :: older) s → .reportError r ∈ y.acts →
      s.state = .error := by
    intro newer y older s r hr hm
    obtain ⟨-, r2, r3, -⟩ := hr.split
    obtain ⟨-, h2, -⟩ := shape_error r3 hm
    exact (C28_terminal hok r2 (by simp [terminal, Spec.post, h2]) hr).2.1 h2
  obtain ⟨newer, y, older, p, q, rfl, h1, rfl⟩ := actions_split he
  have hm : .reportError r ∈ y.acts := by rw [h1]; simp
  obtain ⟨r1, r2, r3, -⟩ := hr.split
  obtain ⟨e1, e2, p', e3, e4⟩ := shape_error r3 hm
  have hpq : p = p' ∧ q = [] := by
    rw [h1] at e3
    rcases List.append_eq_append_iff.1 e3 with ⟨a', c1, c2⟩ | ⟨c', c1, c2⟩
    · cases a' with
      | nil => simp at c2 c1; exact ⟨c1.symm, c2⟩
      | cons x a' =>
        simp only [List.cons_append, List.cons.injEq] at c2
        exact absurd (by rw [c1, ← c2.1]; simp) (e4 r)
    · cases c' with
      | nil => simp at c2 c1; exact ⟨c1, c2⟩
      | cons x c' => simp at c2
  obtain ⟨rfl, rfl⟩ := hpq
  have hb : b = newer.reverse.flatMap Step.acts := by
    have : actions (newer ++ y :: older) = actions older ++ y.acts ++ newer.reverse.flatMap Step.acts := by
      simp [actions]
    rw [this, h1] at he
    simpa using he.symm
  refine ⟨gone hr hm, fun r' hr' => ?_, fun hs => ?_, fun d hd => ?_⟩
  · rcases List.mem_append.1 hr' with hr' | hr'
    · obtain ⟨a1, a2, ha⟩ := List.append_of_mem hr'
      obtain ⟨n', y', o', p', q', rfl, h1', -⟩ := actions_split ha
      exact e1 (gone r1 (r := r') (by rw [h1']; simp))
    · exact e4 r' hr'
  · rw [hb, List.mem_flatMap] at hs
    obtain ⟨z, hz, hs⟩ := hs
    exact ((C28_terminal hok r2 (by simp [terminal, Spec.post, e2]) hr).2.2 z (List.mem_reverse.1 hz)).2.2.2.1 hs
  · rw [hb, List.mem_flatMap] at hd
    obtain ⟨z, hz, hd⟩ := hd
    have := ((C28_terminal hok r2 (by simp [terminal, Spec.post, e2]) hr).2.2 z (List.mem_reverse.1 hz)).2.2.1
    have hd' : d ∈ Spec.delivered z := by
      unfold Spec.delivered
      rw [List.mem_flatMap]
      exact ⟨_, hd, by simp⟩
    rw [this] at hd'; cases hd'

/-! ## C29: client authentication -/

/-- C29: with client authentication required, success means: without a PSK, the client sent a non-empty
chain, proved with a CertificateVerify over the transcript that it has the leaf's key, and the chain was
accepted — the connection's client certificate is that one; with a PSK, it is the certificate stored in
the ticket. -/
theorem C29_required {cfg : Cfg} (hok : ∀ c a, cfg.hashOf c = .ok a → a.Ok) {newer y older s}
    (hreq : cfg.clientAuthMode = .required) (hr : Run cfg (newer ++ y :: older) s)
    (hs : .reportHandshakeSuccess ∈ y.acts) :
    ∃ g, Spec.Fixed cfg older g ∧
      (g.psk = none → ∃ cert, (Spec.post y).clientCert = some cert ∧ Spec.ProvedIdentity cfg g older cert) ∧
      ∀ rs, g.psk = some rs → (Spec.post y).clientCert = rs.clientCert := by
  obtain ⟨r1, r2, r3, -⟩ := hr.split
  have hi := run_inv hok r1
  obtain ⟨m, orig, ctx, secret, ha, ht, hst, hsock, -⟩ := shape_success hok hi r3 hs
  obtain ⟨g, hg⟩ := hi.mid (.inr (.inr (.inr hst)))
  have hcert : (Spec.post y).clientCert = y.pre.clientCert := by
    obtain ⟨t, i, s, acts⟩ := y
    simp only at *
    subst ht
    generalize hT : (Trig.sock) = T at r3
    cases r3 with
    | finished h1 h2 h3 h4 h5 h6 h7 h8 h9 h10 h11 h12 h13 h14 =>
      show (applyAll _ s).clientCert = _
      rw [(finishedActions_facts (finishedTicket_plain h14)).1]; rfl
    | nothing => cases hs
    | fail _ =>
      simp only [List.mem_cons, List.mem_append] at hs
      rcases hs with h | h | h
      · cases h
      · obtain ⟨w, d, -, h⟩ := alertWrites_mem h; cases h
      · simp at h
    | hello h1 => rw [hst] at h1; cases h1
    | ticket h1 => rw [hst] at h1; cases h1
    | _ => simp [transition, onAccept] at hs
  obtain ⟨a1, a2⟩ := hg.auth hst
  refine ⟨g, hg.fixed, fun hp => ?_, fun rs hp => ?_⟩
  · rcases a2 ⟨by rw [hreq]; simp, hp⟩ with ⟨ho, -⟩ | ⟨c, hc, hpi⟩
    · rw [hreq] at ho; cases ho
    · exact ⟨c, by rw [hcert, hc], hpi⟩
  · rw [hcert, a1 (by rintro ⟨-, h⟩; rw [hp] at h; cases h), hp]; rfl

end Fizz.Server

import Verif.ClientSM.InvRun

/-!
# C30, C31, C51 …: what every execution of the client guarantees

All theorems quantify over every history `Run cfg h s` of the client: every sequence of network and
application events, every answer of the environment, every configuration (whose hash functions are
well-formed).  `h = newer ++ y :: older` singles out the step `y` of a history: `older` is what
happened before.
-/

namespace Fizz.ClientSM
open Fizz.Codec Fizz.Crypto
open Fizz.Server (Level RLayer WLayer Content KeyExchangeType HsCtx SockIn PeerCert content alertContent
  deref derefPtr check ksState ksSecret transcriptHash finishedData
  derefPtr_eq_ok deref_eq_ok check_eq_ok pure_eq_ok)
open Fizz.Server.Spec (messageHash finishedMac handshakeBytes)
open Fizz.Client (CachedPsk PskType)
open Fizz.Conn (Trig)
open Spec (Offer PskOffer Public Neg)

/-! ## Splitting histories -/

theorem Run.split {cfg : Cfg} {newer y older s} (hr : Run cfg (newer ++ y :: older) s) :
    Run cfg older y.pre ∧ Run cfg (y :: older) (Spec.post y) ∧
    Shape cfg y.env y.pre y.trig y.acts ∧
    (y.trig = .sock ∨ (∃ e, y.trig = .app e) → terminal y.pre = false) := by
  induction newer generalizing s with
  | nil =>
    cases hr with
    | @step h s t i o hr ht hst =>
      refine ⟨hr, .step hr ht hst, ?_, ht⟩
      have := step_shape cfg i s t
      rw [hst] at this
      exact this
  | cons x newer ih =>
    cases hr with
    | step hr ht hst => exact ih hr

/-- Every occurrence of an action belongs to a step; what the steps before it did comes earlier. -/
theorem actions_split {h : List Step} {a b : List Action} {act : Action}
    (he : actions h = a ++ act :: b) :
    ∃ newer y older p q, h = newer ++ y :: older ∧ y.acts = p ++ act :: q ∧ a = actions older ++ p ∧
      b = q ++ newer.reverse.flatMap Step.acts := by
  induction h generalizing b with
  | nil => simp at he
  | cons x h ih =>
    rw [actions_cons] at he
    rcases List.append_eq_append_iff.1 he with ⟨a', h1, h2⟩ | ⟨c', h1, h2⟩
    · exact ⟨[], x, h, a', b, rfl, h2, h1, by simp⟩
    · cases c' with
      | nil =>
        simp only [List.append_nil, List.nil_append] at h1 h2
        exact ⟨[], x, h, [], b, rfl, h2.symm, by rw [h1, List.append_nil], by simp⟩
      | cons c c' =>
        simp only [List.cons_append, List.cons.injEq] at h2
        obtain ⟨rfl, h2⟩ := h2
        obtain ⟨n, y, o, p, q, rfl, h4, h5, h6⟩ := ih h1
        exact ⟨x :: n, y, o, p, q, rfl, h4, h5, by rw [h2, h6]; simp⟩

theorem Run.det {cfg : Cfg} {h s s'} (h1 : Run cfg h s) (h2 : Run cfg h s') : s = s' := by
  cases h1 with
  | nil => cases h2; rfl
  | step a b c =>
    generalize hh : (_ :: _ : List Step) = l at h2
    cases h2 with
    | nil => cases hh
    | step a' b' c' =>
      simp only [List.cons.injEq, Step.mk.injEq] at hh
      obtain ⟨⟨-, -, e1, e2⟩, -⟩ := hh
      rw [e1, e2]

theorem alertWrites_mem {s a f act} (h : act ∈ alertWrites s a f) :
    ∃ w d, s.write = some w ∧ act = .write none [alertContent w d] 0 := by
  unfold alertWrites at h
  repeat' split at h
  · simp at h
  · rename_i w hw _
    exact ⟨w, _, hw, by simpa using h⟩
  · simp at h

theorem handleError_mem {s a f act} (h : act ∈ handleError s a f) :
    (∃ g, act = .mutate g) ∨ (∃ w d, s.write = some w ∧ act = .write none [alertContent w d] 0) ∨
    act = .reportError a := by
  unfold handleError at h
  split_ifs at h
  · exact .inr (.inr (by simpa using h))
  · simp only [List.mem_cons, List.mem_append, List.not_mem_nil, or_false] at h
    rcases h with h | h | h
    · exact .inl ⟨_, h⟩
    · exact .inr (.inl (alertWrites_mem h))
    · exact .inr (.inr h)

theorem connectActions_mem {cfg c act} (h : act ∈ connectActions cfg c) :
    (∃ f, act = .mutate f) ∨ (∃ w, act = .write none [content ⟨.plaintext, []⟩ 22 w] 0) ∨
    (∃ k b, act = .secretAvailable k b) ∨ ∃ n, act = .reportEarlyHandshakeSuccess n := by
  unfold connectActions at h
  split at h <;> simp only [List.mem_cons, List.not_mem_nil, or_false, transition] at h
  · rcases h with h | h | h | h | h | h | h
    · exact .inl ⟨_, h⟩
    · exact .inl ⟨_, h⟩
    · exact .inr (.inl ⟨_, h⟩)
    · exact .inr (.inr (.inl ⟨_, _, h⟩))
    · exact .inr (.inr (.inr ⟨_, h⟩))
    · exact .inr (.inr (.inl ⟨_, _, h⟩))
    · exact .inl ⟨_, h⟩
  · rcases h with h | h | h
    · exact .inl ⟨_, h⟩
    · exact .inr (.inl ⟨_, h⟩)
    · exact .inl ⟨_, h⟩

theorem finalReport_mem {inp s act} (h : act ∈ finalReport inp s) :
    (∃ g, act = .mutate g) ∨ (∃ w d, s.write = some w ∧ act = .write none [alertContent w d] 0) ∨
    act = .reportError (some 121) ∨
    (echRejected s = false ∧ act = .reportHandshakeSuccess (decide (s.earlyDataType = some .accepted))) := by
  unfold finalReport at h
  split_ifs at h with he
  · rcases handleError_mem h with h | h | h
    · exact .inl h
    · exact .inr (.inl h)
    · exact .inr (.inr (.inl h))
  · exact .inr (.inr (.inr ⟨by simpa using he, by simpa using h⟩))

theorem retryActions_mem {r act} (h : act ∈ retryActions r) : ∃ n cs, act = .echRetryAvailable n cs := by
  unfold retryActions at h
  split at h
  · exact ⟨_, _, by simpa using h⟩
  · simp at h

theorem mem_delivered {y : Step} {d} : d ∈ Spec.delivered y ↔ .deliver d ∈ y.acts := by
  unfold Spec.delivered
  rw [List.mem_flatMap]
  constructor
  · rintro ⟨a, ha, hd⟩
    cases a <;> simp at hd
    subst hd; exact ha
  · intro h
    exact ⟨_, h, by simp⟩

/-! ## C30: success -/

/-- Steps that report the success of the handshake. -/
theorem shape_success {cfg : Cfg} {i s t acts b} (hsh : Shape cfg i s t acts)
    (hs : .reportHandshakeSuccess b ∈ acts) :
    ∃ m orig u d, t = .sock ∧ s.state = .expectingFinished ∧
      i.sock = .event (.handshake (.finished m) orig) u ∧
      processFinished cfg i.inp s u m orig = .ok d ∧ echRejected s = false ∧
      b = decide (s.earlyDataType = some .accepted) ∧ acts = doneActions cfg d b := by
  cases hsh with
  | fail _ =>
    simp only [List.mem_cons, List.mem_append] at hs
    rcases hs with h | h | h
    · cases h
    · obtain ⟨w, d, -, h⟩ := alertWrites_mem h; cases h
    · simp at h
  | connect _ _ =>
    rcases connectActions_mem hs with ⟨_, h⟩ | ⟨_, h⟩ | ⟨_, _, h⟩ | ⟨_, h⟩ <;> cases h
  | encryptedExtensions _ _ _ _ _ _ _ _ _ _ =>
    simp only [List.mem_cons, List.mem_append, transition] at hs
    rcases hs with h | h | h
    · cases h
    · obtain ⟨_, _, h⟩ := retryActions_mem h; cases h
    · simp at h
  | @finished m orig u d h1 h2 h3 =>
    have hs' := hs
    simp only [List.mem_cons, List.mem_append, transition, List.not_mem_nil, or_false] at hs
    rcases hs with (h | h | h | h | h | h | h) | h
    iterate 7 cases h
    rcases finalReport_mem h with ⟨_, h⟩ | ⟨_, _, _, h⟩ | h | ⟨he, h⟩
    iterate 3 cases h
    injection h with h
    subst h
    refine ⟨m, orig, u, d, rfl, h1, h2, h3, he, rfl, ?_⟩
    unfold finalReport
    rw [he]
    rfl
  | ticket _ _ h =>
    obtain ⟨_, rfl⟩ := ticket_shape h
    simp at hs
  | _ => simp [transition] at hs

/-- C30: success is reported only in answer to a Finished message that came under the server's handshake
key, whose verify_data is the MAC, under that key, of the transcript of all handshake messages
exchanged before it.  By then the server has been authenticated: by the PSK of a session of ours that it
selected, or by a certificate chain the verifier accepted and a signature of the transcript, with a
scheme we offered, by the leaf's key; if ECH was offered, it was accepted; the flag says whether early data was
accepted; and success has not been reported before. -/
theorem C30_success {cfg : Cfg} (hok : ∀ c a, cfg.hashOf c = .ok a → a.Ok) {newer y older s}
    (hr : Run cfg (newer ++ y :: older) s) {b : Bool} (hs : .reportHandshakeSuccess b ∈ y.acts) :
    ∃ g m orig early, Spec.Fixed cfg older g ∧ Spec.received y = some (.finished m, orig) ∧
      y.env.sock = .event (.handshake (.finished m) orig) false ∧
      y.pre.read = some ⟨.handshake, g.serverHandshake, false⟩ ∧
      m.verify_data = finishedMac g.hash.spec g.serverHandshake
        (g.hash.digest (Spec.transcript cfg older)) ∧
      Spec.ServerIs cfg g older (Spec.post y).serverCert ∧
      (cfg.hasEchConfigs = true → g.ech = true) ∧
      Spec.Encrypted cfg older g (Spec.post y).alpn early ∧ (b = true ↔ early = .accepted) ∧
      ∀ b', .reportHandshakeSuccess b' ∉ actions older := by
  obtain ⟨h1, h2, h3, h4⟩ := hr.split
  have hi := run_inv hok h1
  obtain ⟨m, orig, u, d, ht, hst, hsock, hp, hech, hb, hacts⟩ := shape_success h3 hs
  obtain ⟨g, hg⟩ := hi.mid (.inr (.inr (.inr hst)))
  obtain ⟨early, he, hen⟩ := hg.encrypted (by rw [hst]; simp)
  obtain ⟨rfl, f1, -⟩ := finished_facts hok hg hst he hp
  have hpost : Spec.post y = { saveFinished cfg d y.pre with state := .established } := by
    unfold Spec.post; rw [hacts]; rfl
  refine ⟨g, m, orig, early, hg.fixed, ?_, hsock, hg.read, f1, ?_, (echRejected_iff hg).1 hech, ?_, ?_,
    hg.quiet.success⟩
  · unfold Spec.received
    rw [ht, hsock, hacts]
    rfl
  · rw [hpost]
    show Spec.ServerIs cfg g older y.pre.serverCert
    by_cases hb : ByPsk g
    · obtain ⟨psk, k1, k2⟩ := hb
      exact .inl ⟨psk, k1, k2, ((hg.byPsk ⟨psk, k1, k2⟩).2 psk k1).1⟩
    · obtain ⟨c, k1, k2⟩ := hg.proved hst hb
      exact .inr ⟨not_byPsk hb, c, k1, k2⟩
  · rw [hpost]; exact hen
  · rw [hb, he]; simp

/-- C30: success is reported at most once in the life of a connection. -/
theorem C30_once {cfg : Cfg} (hok : ∀ c a, cfg.hashOf c = .ok a → a.Ok) {h s}
    (hr : Run cfg h s) {a b : List Action} {v : Bool}
    (he : actions h = a ++ .reportHandshakeSuccess v :: b) :
    ∀ w, .reportHandshakeSuccess w ∉ a ∧ .reportHandshakeSuccess w ∉ b := by
  have key : ∀ {a b v}, actions h = a ++ .reportHandshakeSuccess v :: b →
      ∀ w, .reportHandshakeSuccess w ∉ a := by
    intro a b v he w
    obtain ⟨newer, y, older, p, q, rfl, h1, rfl, -⟩ := actions_split he
    have hm : .reportHandshakeSuccess v ∈ y.acts := by rw [h1]; simp
    obtain ⟨_, _, _, _, -, -, -, -, -, -, -, -, -, h2⟩ := C30_success hok hr hm
    obtain ⟨r1, r2, r3, r4⟩ := hr.split
    obtain ⟨_, _, _, d, -, -, -, -, -, -, hp'⟩ := shape_success r3 hm
    rw [List.mem_append]
    rintro (hh | hh)
    · exact h2 w hh
    · have hp2 : y.acts = [.mutate (saveFinished cfg d), transition .established,
          .secretAvailable .serverAppTraffic d.read, .secretAvailable .clientAppTraffic d.write,
          .secretAvailable .exporterMaster d.exporter, .secretAvailable .resumptionMaster d.resumption,
          .write none d.flight 0] ++ [.reportHandshakeSuccess v] := by rw [hp']; rfl
      rw [h1] at hp2
      rcases List.append_eq_append_iff.1 hp2 with ⟨a', e1, e2⟩ | ⟨c', e1, e2⟩
      · have : .reportHandshakeSuccess w ∈ (_ : List Action) := List.mem_append_left a' hh
        rw [← e1] at this
        simp [transition] at this
      · cases c' with
        | nil => rw [List.append_nil] at e1; rw [e1] at hh; simp [transition] at hh
        | cons c c' => simp at e2
  refine fun w => ⟨key he w, fun hb => ?_⟩
  obtain ⟨b1, b2, rfl⟩ := List.append_of_mem hb
  exact key (a := a ++ .reportHandshakeSuccess v :: b1) (b := b2) (v := w) (by rw [he]; simp) v (by simp)

/-! ## C51: delivery of application data -/

theorem shape_deliver {cfg i s t acts d} (h : Shape cfg i s t acts) (hd : .deliver d ∈ acts) :
    t = .sock ∧ (∃ u, i.sock = .event (.appData d) u) ∧
    (s.state = .established ∨ s.state = .writeSideClosed) := by
  cases h with
  | fail _ =>
    simp only [List.mem_cons, List.mem_append] at hd
    rcases hd with h | h | h
    · cases h
    · obtain ⟨w, d, -, h⟩ := alertWrites_mem h; cases h
    · simp at h
  | connect _ _ =>
    rcases connectActions_mem hd with ⟨_, h⟩ | ⟨_, h⟩ | ⟨_, _, h⟩ | ⟨_, h⟩ <;> cases h
  | encryptedExtensions _ _ _ _ _ _ _ _ _ _ =>
    simp only [List.mem_cons, List.mem_append, transition] at hd
    rcases hd with h | h | h
    · cases h
    · obtain ⟨_, _, h⟩ := retryActions_mem h; cases h
    · simp at h
  | @finished m orig u d h1 h2 h3 =>
    simp only [List.mem_cons, List.mem_append, transition, List.not_mem_nil, or_false] at hd
    rcases hd with (h | h | h | h | h | h | h) | h
    iterate 7 cases h
    rcases finalReport_mem h with ⟨_, h⟩ | ⟨_, _, _, h⟩ | h | ⟨-, h⟩ <;> cases h
  | ticket _ _ h =>
    obtain ⟨_, rfl⟩ := ticket_shape h
    simp at hd
  | @data d' u h1 h2 =>
    simp only [List.mem_singleton, Action.deliver.injEq] at hd
    subst hd
    exact ⟨rfl, ⟨u, h2⟩, h1⟩
  | _ => simp [transition] at hd

/-- C51: application data handed to the user came off the wire after success was reported, under the
current generation of the server's application key; or, on a connection whose write side the application has
already closed, under the read key that was in force when it closed it. -/
theorem C51_deliver {cfg : Cfg} (hok : ∀ c a, cfg.hashOf c = .ok a → a.Ok) {newer y older s}
    (hr : Run cfg (newer ++ y :: older) s) {d : Bytes} (hd : d ∈ Spec.delivered y) :
    (∃ u, y.trig = .sock ∧ y.env.sock = .event (.appData d) u) ∧
    ((∃ g th b, Spec.Confirmed cfg older g th ∧ .reportHandshakeSuccess b ∈ actions older ∧
        y.pre.read = some ⟨.appTraffic, g.serverApp th (Spec.updatesReceived older), false⟩) ∨
     (∃ n z o, older = n ++ z :: o ∧ z.trig = .app (.appClose false) ∧ y.pre.read = z.pre.read)) := by
  obtain ⟨h1, h2, h3, h4⟩ := hr.split
  have hi := run_inv hok h1
  obtain ⟨ht, ⟨u, hs⟩, hst⟩ := shape_deliver h3 (mem_delivered.1 hd)
  refine ⟨⟨u, ht, hs⟩, ?_⟩
  rcases hst with hst | hst
  · obtain ⟨g, th, e, hl⟩ := hi.live hst
    exact .inl ⟨g, th, _, hl.confirmed, (hl.success _).2 rfl, hl.read⟩
  · obtain ⟨-, n, z, o, e1, e2, e3, -⟩ := hi.closing hst
    exact .inr ⟨n, z, o, e1, e2, e3⟩

/-- C51 with the layers of the steps spelt out: data is delivered either after success, or after the
application has closed its side of a connection. -/
theorem C51_order {cfg : Cfg} (hok : ∀ c a, cfg.hashOf c = .ok a → a.Ok) {newer y older s}
    (hr : Run cfg (newer ++ y :: older) s) {d : Bytes} (hd : d ∈ Spec.delivered y)
    (ho : ∀ x ∈ older, x.trig ≠ .app (.appClose false)) :
    ∃ g th b, Spec.Confirmed cfg older g th ∧ .reportHandshakeSuccess b ∈ actions older ∧
      y.pre.read = some ⟨.appTraffic, g.serverApp th (Spec.updatesReceived older), false⟩ := by
  obtain ⟨-, h | ⟨n, z, o, rfl, h1, -⟩⟩ := C51_deliver hok hr hd
  · exact h
  · exact absurd h1 (ho z (by simp))

/-- C30 for the whole connection, with its queueing, asynchronous results and callbacks: whatever the
environment does, success is reported at most once, and unless the application has called `appClose`, data
is handed to the user only after success. -/
theorem C30_conn {cfg : Cfg} (hok : ∀ c a, cfg.hashOf c = .ok a → a.Ok) {E : Conn.Env machine}
    (hE : Runs cfg E) {c : Conn.C machine} (hr : Conn.Reachable E ({} : St) c) {a b : List Action}
    {act : Action} (he : Conn.Spec.visited c.log = a ++ act :: b) :
    (∀ d, act = .deliver d → (∃ v, .reportHandshakeSuccess v ∈ a) ∨
      .app (.appClose false) ∈ (Conn.Spec.blocks c.log).map Prod.fst) ∧
    (∀ v, act = .reportHandshakeSuccess v → ∀ w, .reportHandshakeSuccess w ∉ a) := by
  obtain ⟨h, s, hrun, ⟨rest, hp⟩, ht⟩ := Reachable.run hE hr
  rw [he] at hp
  change List Action at rest
  have hp' : actions h = a ++ act :: (b ++ rest) := by
    rw [← hp]
    show (a ++ act :: b) ++ rest = _
    simp
  refine ⟨fun d hd => ?_, fun v ha w => ?_⟩
  · subst hd
    obtain ⟨newer, y, older, p, q, rfl, h1, rfl, -⟩ := actions_split hp'
    have hm : d ∈ Spec.delivered y := by
      unfold Spec.delivered; rw [h1]; simp
    obtain ⟨-, ⟨_, _, v, -, hs, -⟩ | ⟨n, z, o, rfl, hz, -⟩⟩ := C51_deliver hok hrun hm
    · exact .inl ⟨v, List.mem_append_left _ hs⟩
    · right
      rw [← ht, ← hz]
      simp
  · subst ha
    exact (C30_once hok hrun hp' w).1

/-! ## C31: only what was offered -/

/-- C31: when success is reported, the version, cipher suite, group, PSK, application protocol and early
data status in use are those a ServerHello and EncryptedExtensions chose among what the last ClientHello
offered (`Spec.Negotiated`, `Spec.Encrypted`), there was at most one HelloRetryRequest, with the same
version and cipher suite, and the client's state says so. -/
theorem C31_negotiated {cfg : Cfg} (hok : ∀ c a, cfg.hashOf c = .ok a → a.Ok) {newer y older s}
    (hr : Run cfg (newer ++ y :: older) s) {b : Bool} (hs : .reportHandshakeSuccess b ∈ y.acts) :
    ∃ g n x o p early, older = n ++ x :: o ∧ Spec.Offered cfg o g.first g.offer p ∧
      Spec.Negotiated cfg o x g ∧ Spec.Encrypted cfg older g (Spec.post y).alpn early ∧
      Spec.Info cfg (y :: older) g (Spec.post y) ∧ (Spec.retries (y :: older)).length ≤ 1 ∧
      (∀ r ∈ Spec.retries (y :: older), r.cipher_suite = g.cipher ∧
        getServerSupportedVersions r.extensions = .ok (some ⟨g.version⟩)) ∧
      (Spec.retries (y :: older) = [] → g.first = g.offer) := by
  obtain ⟨h1, h2, h3, h4⟩ := hr.split
  have hi := run_inv hok h1
  obtain ⟨m, orig, u, d, ht, hst, hsock, hp, hech, hb, hacts⟩ := shape_success h3 hs
  obtain ⟨g, hg⟩ := hi.mid (.inr (.inr (.inr hst)))
  obtain ⟨early, he, hen⟩ := hg.encrypted (by rw [hst]; simp)
  obtain ⟨rfl, f1, -⟩ := finished_facts hok hg hst he hp
  have hl := finished_live hok hg hst he hen hsock hp hech
  have hy : y = ⟨.sock, y.env, y.pre, doneActions cfg d (decide (early = .accepted))⟩ := by
    have : b = decide (early = .accepted) := by rw [hb, he]; simp
    rw [← this, ← hacts, ← ht]
  have hpost : Spec.post y = applyAll (doneActions cfg d (decide (early = .accepted))) y.pre := by
    rw [hy]; rfl
  rw [← hy, ← hpost] at hl
  obtain ⟨n, x, o, e1, hn⟩ := hg.fixed
  obtain ⟨p, ho⟩ := hn.offered
  refine ⟨g, n, x, o, p, early, e1, ho, hn, ?_, hl.info, ?_, hl.same, ?_⟩
  · rw [hpost]; exact hen
  · exact hl.count
  · exact fun h => (hl.first h).symm

end Fizz.ClientSM

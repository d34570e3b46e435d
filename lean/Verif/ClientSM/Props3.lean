import Verif.ClientSM.Props2

/-!
# C53 … C55, C62, C63: the end of a connection, key updates, tickets, accessors, compatibility mode
-/

namespace Fizz.ClientSM
open Fizz.Codec Fizz.Crypto
open Fizz.Server (Level RLayer WLayer Content KeyExchangeType HsCtx SockIn PeerCert content alertContent
  deref derefPtr check ksState ksSecret transcriptHash finishedData
  derefPtr_eq_ok deref_eq_ok check_eq_ok pure_eq_ok encode_eq)
open Fizz.Server.Spec (messageHash finishedMac handshakeBytes)
open Fizz.Client (CachedPsk PskType)
open Fizz.Conn (Trig)
open Spec (Offer PskOffer Public Neg Does)

/-! ## C53: the end of a connection -/

theorem alertWrites_none {s : St} (h : s.write = none) (a f) : alertWrites s a f = [] := by
  unfold alertWrites; rw [h]; cases a <;> rfl

/-- A step of a connection that is over. -/
theorem over_step {cfg : Cfg} {h y}
    (hi : Inv cfg h y.pre) (ht : terminal y.pre = true) (hsh : Shape cfg y.env y.pre y.trig y.acts)
    (hg : y.trig = .sock ∨ (∃ e, y.trig = .app e) → terminal y.pre = false) :
    terminal (Spec.post y) = true ∧ (y.pre.state = .error → (Spec.post y).state = .error) ∧
    (y.trig = .accept ∨ y.trig = .v2) ∧ ∀ a ∈ Spec.visible y.acts, ∃ r, a = .reportError r := by
  obtain ⟨t, i, s, acts⟩ := y
  simp only at *
  have hg1 : t ≠ .sock := by rintro rfl; rw [hg (.inl rfl)] at ht; cases ht
  have hg2 : ∀ e, t ≠ .app e := by rintro e rfl; rw [hg (.inr ⟨e, rfl⟩)] at ht; cases ht
  have htr : t = .accept ∨ t = .v2 := by
    cases t with
    | sock => exact absurd rfl hg1
    | app e => exact absurd rfl (hg2 e)
    | accept => exact .inl rfl
    | v2 => exact .inr rfl
  have hst : s.state = .error ∨ s.state = .closed := by simpa [terminal] using ht
  cases hsh with
  | nothing => exact ⟨ht, fun h => h, htr, by simp [Spec.visible]⟩
  | @fail _ a b hne =>
    have hc := hst.resolve_left hne
    rw [alertWrites_none (hi.closed hc).1]
    refine ⟨rfl, fun h => absurd h hne, htr, ?_⟩
    intro x hx
    have hx : x ∈ [Action.reportError a] := hx
    exact ⟨a, List.mem_singleton.1 hx⟩
  | @report _ a hs =>
    refine ⟨ht, fun h => h, htr, ?_⟩
    intro x hx
    have hx : x ∈ [Action.reportError a] := hx
    exact ⟨a, List.mem_singleton.1 hx⟩
  | connect hs _ => rcases hst with h | h <;> (rw [hs] at h; cases h)
  | _ => first | exact absurd rfl hg1 | exact absurd rfl (hg2 _)

/-- C53: once the connection is in Error or Closed, no network or application event is processed any
more; a further `connect` does nothing but report an error and does not lead back. -/
theorem C53_terminal {cfg : Cfg} (hok : ∀ c a, cfg.hashOf c = .ok a → a.Ok) {newer h s s'}
    (hr : Run cfg h s) (ht : terminal s = true) (hr' : Run cfg (newer ++ h) s') :
    terminal s' = true ∧ (s.state = .error → s'.state = .error) ∧
    ∀ y ∈ newer, (y.trig = .accept ∨ y.trig = .v2) ∧ ∀ a ∈ Spec.visible y.acts, ∃ r, a = .reportError r := by
  induction newer generalizing s' with
  | nil =>
    have := hr.det hr'
    subst this
    exact ⟨ht, fun h => h, by simp⟩
  | cons y newer ih =>
    obtain ⟨r1, r2, r3, r4⟩ := hr'.split (newer := []) (y := y)
    obtain ⟨i1, i2, i3⟩ := ih r1
    obtain ⟨o1, o2, o3⟩ := over_step (run_inv hok r1) i1 r3 r4
    have := r2.det hr'
    subst this
    refine ⟨o1, fun h => o2 (i2 h), fun z hz => ?_⟩
    rcases List.mem_cons.1 hz with rfl | hz
    · exact o3
    · exact i3 z hz

/-- Nothing can be written any more. -/
def Silent (s : St) : Prop := terminal s = true ∨ (s.state = .writeSideClosed ∧ s.write = none)

theorem writes_reports {l : List Action} (h : ∀ a ∈ l, ∃ r, a = .reportError r) : Spec.writes l = [] := by
  induction l with
  | nil => rfl
  | cons a l ih =>
    obtain ⟨r, rfl⟩ := h a (by simp)
    exact ih fun b hb => h b (by simp [hb])

theorem silent_step {cfg : Cfg} {h y}
    (hi : Inv cfg h y.pre) (ht : Silent y.pre) (hsh : Shape cfg y.env y.pre y.trig y.acts)
    (hg : y.trig = .sock ∨ (∃ e, y.trig = .app e) → terminal y.pre = false) :
    Silent (Spec.post y) ∧ Spec.contents y = [] := by
  rcases ht with ht | ⟨hst, hw⟩
  · obtain ⟨h1, -, -, h2⟩ := over_step hi ht hsh hg
    refine ⟨.inl h1, ?_⟩
    rw [contents_eq rfl]
    exact writes_reports h2
  · obtain ⟨t, i, s, acts⟩ := y
    simp only at *
    have hn : ∀ st, s.state = st → st ≠ .writeSideClosed → False := fun st h1 h2 => h2 (h1.symm.trans hst)
    cases hsh with
    | nothing => exact ⟨.inr ⟨hst, hw⟩, rfl⟩
    | fail hne => rw [alertWrites_none hw]; exact ⟨.inl rfl, rfl⟩
    | report hs => rw [hst] at hs; cases hs
    | wait _ => exact ⟨.inr ⟨hst, hw⟩, rfl⟩
    | closed _ => exact ⟨.inl rfl, rfl⟩
    | data hs _ => exact ⟨.inr ⟨hst, hw⟩, rfl⟩
    | expectedCloseNotify _ _ => exact ⟨.inl rfl, rfl⟩
    | closeNow h => rw [hw] at h; cases h
    | close h => rw [hw] at h; cases h
    | earlyFailed hs _ => rcases hs with hs | hs | hs | hs | hs | hs <;> exact (hn _ hs (by simp)).elim
    | earlyFirst hs _ _ _ _ _ => rcases hs with hs | hs | hs <;> exact (hn _ hs (by simp)).elim
    | earlyWrite hs _ _ _ => rcases hs with hs | hs | hs <;> exact (hn _ hs (by simp)).elim
    | connect hs _ => exact (hn _ hs (by simp)).elim
    | retry hs _ _ _ => exact (hn _ hs (by simp)).elim
    | serverHello hs _ _ => exact (hn _ hs (by simp)).elim
    | earlyLate hs _ _ => exact (hn _ hs (by simp)).elim
    | encryptedExtensions hs _ _ _ _ _ _ _ _ _ => exact (hn _ hs (by simp)).elim
    | certificateRequest hs _ _ _ _ _ _ => exact (hn _ hs (by simp)).elim
    | certificate hs _ _ _ => exact (hn _ hs (by simp)).elim
    | compressedCertificate hs _ _ _ _ _ => exact (hn _ hs (by simp)).elim
    | certificateVerify hs _ _ _ _ _ _ _ => exact (hn _ hs (by simp)).elim
    | finished hs _ _ => exact (hn _ hs (by simp)).elim
    | ticket hs _ _ => exact (hn _ hs (by simp)).elim
    | appWrite hs _ => exact (hn _ hs (by simp)).elim
    | keyUpdateInitiation hs _ _ _ _ _ => exact (hn _ hs (by simp)).elim
    | keyUpdate hs _ _ _ _ => exact (hn _ hs (by simp)).elim
    | keyUpdateAnswered hs _ _ _ _ _ _ _ => exact (hn _ hs (by simp)).elim
    | closeNotify hs _ _ => exact (hn _ hs (by simp)).elim

theorem silent_run {cfg : Cfg} (hok : ∀ c a, cfg.hashOf c = .ok a → a.Ok) {newer h s s'}
    (hr : Run cfg h s) (ht : Silent s) (hr' : Run cfg (newer ++ h) s') :
    Silent s' ∧ ∀ y ∈ newer, Spec.contents y = [] := by
  induction newer generalizing s' with
  | nil =>
    have := hr.det hr'
    subst this
    exact ⟨ht, by simp⟩
  | cons y newer ih =>
    obtain ⟨r1, r2, r3, r4⟩ := hr'.split (newer := []) (y := y)
    obtain ⟨i1, i2⟩ := ih r1
    obtain ⟨o1, o2⟩ := silent_step (run_inv hok r1) i1 r3 r4
    have := r2.det hr'
    subst this
    refine ⟨o1, fun z hz => ?_⟩
    rcases List.mem_cons.1 hz with rfl | hz
    · exact o2
    · exact i2 z hz

theorem flight_types {cfg h x g th rms early flight} (hf : Spec.Finishes cfg h x g th rms early flight) :
    ∀ c ∈ flight, c.type ≠ 21 := by
  obtain ⟨m, orig, cert, -, -, ⟨cc, eoed, auth, -, h2, h3, h4, rfl⟩, -⟩ := hf
  intro c hm
  rw [List.append_assoc, List.mem_append, List.mem_append] at hm
  rcases hm with hm | hm | hm
  · have := h2 c hm
    subst this
    decide
  · by_cases hq : early = .accepted ∧ cfg.omitEarlyRecordLayer = false
    · obtain ⟨k, k1, rfl⟩ := h3 hq
      rw [List.mem_singleton] at hm
      subst hm
      show (22 : UInt8) ≠ 21
      decide
    · rw [h4 hq] at hm; cases hm
  · rw [List.mem_singleton] at hm
    subst hm
    show (22 : UInt8) ≠ 21
    decide

/-- C53: an alert is the last thing a connection writes, so there is at most one, and it is protected by
the write layer in force before the step. -/
theorem C53_alert {cfg : Cfg} (hok : ∀ c a, cfg.hashOf c = .ok a → a.Ok) {newer y older s}
    (hr : Run cfg (newer ++ y :: older) s) {c : Content} (hc : c ∈ Spec.contents y) (ha : c.type = 21) :
    y.pre.write = some c.layer ∧ (∃ d, c.data = [[2, d]]) ∧
    (∃ l, Spec.contents y = l ++ [c] ∧ ∀ c' ∈ l, c'.type ≠ 21) ∧
    ∀ z ∈ newer, Spec.contents z = [] := by
  have r2 := hr.split.2.1
  have key : Silent (Spec.post y) ∧ y.pre.write = some c.layer ∧ (∃ d, c.data = [[2, d]]) ∧
      (∃ l, Spec.contents y = l ++ [c] ∧ ∀ c' ∈ l, c'.type ≠ 21) := by
    have hd := C61_does hok hr
    generalize hv : Spec.visible y.acts = l at hd
    have he := contents_eq hv
    rw [he] at hc ⊢
    cases hd with
    | fail _ h2 hf =>
      rw [writes_append] at hc ⊢
      rw [show Spec.writes [.reportError _] = [] from rfl, List.append_nil] at hc ⊢
      rcases farewell_writes hf with h | ⟨l, d, h1, h3⟩
      · rw [h] at hc; cases hc
      · rw [h3, List.mem_singleton] at hc
        subst hc
        exact ⟨.inl (by simp [terminal, h2]), h1, ⟨d, rfl⟩, [], h3, by simp⟩
    | @close now w h1 h2 h3 =>
      have hc : c ∈ [Spec.alert w 0] := hc
      rw [List.mem_singleton] at hc
      subst hc
      refine ⟨?_, h2, ⟨0, rfl⟩, [], rfl, by simp⟩
      cases now with
      | true => exact .inl (by simp [terminal, h3])
      | false => exact .inr ⟨by simpa using h3, ((run_inv hok r2).closing (by simpa using h3)).1⟩
    | closeNotify h1 h2 h3 h4 =>
      have hc : c ∈ [Spec.alert _ 0] := hc
      rw [List.mem_singleton] at hc
      subst hc
      exact ⟨.inl (by simp [terminal, h4]), h1.write, ⟨0, rfl⟩, [], rfl, by simp⟩
    | echRejected h1 h2 _ _ hf h5 =>
      rw [writes_append, writes_append, finalActions_writes] at hc ⊢
      rw [show Spec.writes [.reportError _] = [] from rfl, List.append_nil] at hc ⊢
      rcases List.mem_append.1 hc with hc | hc
      · exact absurd ha (flight_types h2 c hc)
      · rcases farewell_writes hf with h | ⟨l, d, h1, h3⟩
        · rw [h] at hc; cases hc
        · rw [h3, List.mem_singleton] at hc
          subst hc
          exact ⟨.inl (by simp [terminal, h5]), h1, ⟨d, rfl⟩, _, by rw [h3], flight_types h2⟩
    | connect h1 h2 h3 h4 =>
      rw [← he, h1.layer, List.mem_singleton] at hc
      subst hc
      exact absurd ha (by first | decide | simp)
    | retry _ h1 h2 =>
      obtain ⟨cc, h3, h4⟩ := h1.layer
      rw [← he, h3, List.mem_append, List.mem_singleton] at hc
      rcases hc with hc | hc
      · have := h4 c hc
        subst this
        exact absurd ha (by first | decide | simp)
      · subst hc
        exact absurd ha (by first | decide | simp)
    | finished h1 h2 _ _ _ =>
      rw [writes_append, finalActions_writes, List.mem_append] at hc
      rcases hc with hc | hc
      · exact absurd ha (flight_types h2 c hc)
      · cases hc
    | earlyWrite h1 h2 h3 h4 =>
      simp only [Spec.writes, List.flatMap_cons, List.flatMap_nil, List.append_nil, List.mem_append,
        List.mem_singleton] at hc
      rcases hc with hc | hc
      · rcases h4 with h4 | h4 <;> rw [h4] at hc
        · cases hc
        · rw [List.mem_singleton] at hc
          subst hc
          exact absurd ha (by first | decide | simp)
      · subst hc
        exact absurd ha (by first | decide | simp)
    | appWrite | keyUpdateAnswered | keyUpdateInitiated | earlyLate =>
      simp only [Spec.writes, List.flatMap_cons, List.flatMap_nil, List.append_nil, List.nil_append,
        List.mem_singleton] at hc
      subst hc
      exact absurd ha (by first | decide | simp)
    | _ => simp [Spec.writes] at hc
  exact ⟨key.2.1, key.2.2.1, key.2.2.2, (silent_run hok r2 key.1 hr).2⟩

/-- C53: after a failure has been reported nothing else is ever done: at most it is reported again, by
further calls of `connect`. -/
theorem C53_report {cfg : Cfg} (hok : ∀ c a, cfg.hashOf c = .ok a → a.Ok) {newer y older s}
    (hr : Run cfg (newer ++ y :: older) s) {r : Option UInt8} (he : .reportError r ∈ y.acts) :
    s.state = .error ∧ (∃ l, Spec.visible y.acts = l ++ [.reportError r] ∧ ∀ r', .reportError r' ∉ l) ∧
    ∀ z ∈ newer, z.trig ≠ .sock ∧ (∀ e, z.trig ≠ .app e) ∧
      ∀ a ∈ Spec.visible z.acts, ∃ r, a = .reportError r := by
  have r2 := hr.split.2.1
  have key : (Spec.post y).state = .error ∧
      (∃ l, Spec.visible y.acts = l ++ [.reportError r] ∧ ∀ r', .reportError r' ∉ l) := by
    have hd := C61_does hok hr
    have hm := (mem_visible (by rfl)).2 he
    generalize Spec.visible y.acts = l at hd hm ⊢
    have hfw : ∀ {w a f' r}, Spec.Farewell w a f' → .reportError r ∉ f' := by
      intro w a f' r hf
      cases hf <;> simp
    cases hd with
    | fail _ h2 hf =>
      simp only [List.mem_append, hfw hf, List.mem_singleton, Action.reportError.injEq, false_or] at hm
      subst hm
      exact ⟨h2, _, rfl, fun _ => hfw hf⟩
    | again h1 h2 =>
      simp only [List.mem_singleton, Action.reportError.injEq] at hm
      subst hm
      exact ⟨by rw [h2, h1], [], rfl, by simp⟩
    | echRejected h1 h2 h3 h4 hf h5 =>
      simp only [Spec.finalActions, List.mem_append, hfw hf, List.mem_cons, List.not_mem_nil, reduceCtorEq,
        Action.reportError.injEq, false_or, or_false] at hm
      subst hm
      refine ⟨h5, _, (List.append_assoc _ _ _).symm, ?_⟩
      intro r'
      simp [Spec.finalActions, hfw hf]
    | connect _ h _ h' =>
      subst h'
      rcases h with ⟨-, h⟩ | ⟨psk, t, e, k1, k2, k3, k4, h⟩ <;> simp [h] at hm
    | finished _ _ _ _ _ => simp [Spec.finalActions] at hm
    | _ => simp at hm
  obtain ⟨t1, t2, t3⟩ := C53_terminal hok r2 (by simp [terminal, key.1]) hr
  refine ⟨t2 key.1, key.2, fun z hz => ?_⟩
  obtain ⟨a1, a2⟩ := t3 z hz
  refine ⟨?_, ?_, a2⟩
  · rcases a1 with a1 | a1 <;> rw [a1] <;> simp
  · intro e; rcases a1 with a1 | a1 <;> rw [a1] <;> simp

theorem received_inv {y : Step} {m orig} (h : Spec.received y = some (m, orig)) :
    y.trig = .sock ∧ (∃ u, y.env.sock = .event (.handshake m orig) u) ∧ y.acts ≠ [] := by
  unfold Spec.received at h
  split at h
  · cases h
  · rename_i hn
    split at h
    · rename_i h1 h2
      cases h
      exact ⟨h1, ⟨_, h2⟩, fun hh => hn (by rw [hh]; rfl)⟩
    · cases h

/-! ## C54: key updates -/

/-- C54: a KeyUpdate message either ends the connection with an error or, on a complete connection, moves
the read key to the next generation; if it asks for it, a KeyUpdate is sent in return, under the old key, and
the write key moves too.  It has to end its record. -/
theorem C54_received {cfg : Cfg} (hok : ∀ c a, cfg.hashOf c = .ok a → a.Ok) {newer y older s}
    (hr : Run cfg (newer ++ y :: older) s) {m orig} (hm : Spec.received y = some (.keyUpdate m, orig)) :
    ((Spec.post y).state = .error ∧ ∀ c ∈ Spec.contents y, c.type = 21) ∨
    ∃ g th early, Spec.Current cfg older y.pre g th early ∧
      y.env.sock = .event (.handshake (.keyUpdate m) orig) false ∧ (Spec.post y).state = .established ∧
      (Spec.post y).read = some ⟨.appTraffic, g.serverApp th (Spec.updatesReceived older + 1), false⟩ ∧
      (m.request_update = 0 → Spec.contents y = [] ∧ (Spec.post y).write = y.pre.write) ∧
      (m.request_update ≠ 0 →
        Spec.contents y = [⟨g.writeLayer th older, 22, [Codec.Spec.handshake (.keyUpdate ⟨0⟩)]⟩] ∧
        (Spec.post y).write = some ⟨.appTraffic, g.clientApp th (Spec.updatesSent older + 1)⟩) := by
  obtain ⟨ht, ⟨u, hs⟩, hn⟩ := received_inv hm
  have hd := C61_does hok hr
  generalize hv : Spec.visible y.acts = l at hd
  have he := contents_eq hv
  rw [he]
  have hne : ∀ {m' orig'}, Spec.received y = some (m', orig') → m' = .keyUpdate m := by
    intro m' orig' hh
    rw [hm] at hh; cases hh; rfl
  cases hd with
  | nothing h => exact absurd h hn
  | fail _ h2 hf =>
    refine .inl ⟨h2, fun c hc => ?_⟩
    rw [writes_append, show Spec.writes [.reportError _] = [] from rfl, List.append_nil] at hc
    rcases farewell_writes hf with h | ⟨l, d, h1, h3⟩
    · rw [h] at hc; cases hc
    · rw [h3, List.mem_singleton] at hc
      subst hc; rfl
  | again h1 h2 => exact .inl ⟨by rw [h2, h1], by simp [Spec.writes]⟩
  | wait _ h _ => rw [hs] at h; cases h
  | keyUpdate h1 h2 h3 h4 h5 h6 h7 =>
    rw [hm] at h2; cases h2
    exact .inr ⟨_, _, _, h1, h3, h7, h5, fun _ => ⟨rfl, h6⟩, fun h => absurd h4 h⟩
  | keyUpdateAnswered h1 h2 h3 h4 h5 h6 h7 =>
    rw [hm] at h2; cases h2
    exact .inr ⟨_, _, _, h1, h3, h7, h5, fun h => absurd h h4, fun _ => ⟨rfl, h6⟩⟩
  | close h _ _ => rw [ht] at h; cases h
  | closed h _ _ => rw [ht] at h; cases h
  | connect h _ _ _ => exact absurd (h.connects.1.symm.trans ht) (by simp)
  | retry _ h _ => exact absurd (hne h.received) (by simp)
  | serverHello h => obtain ⟨_, -, h, _⟩ := h.message; rw [hs] at h; cases h
  | encryptedExtensions _ h _ _ => exact absurd (hne h) (by simp)
  | echRetry _ h _ _ _ _ _ => exact absurd (hne h) (by simp)
  | certificateRequest _ _ h _ _ => exact absurd (hne h) (by simp)
  | certificate _ _ h _ =>
    rcases h with ⟨_, h⟩ | ⟨_, _, h, _⟩ <;> exact absurd (hne h) (by simp)
  | certificateVerify _ _ h _ _ => exact absurd (hne h) (by simp)
  | finished h _ _ _ _ => obtain ⟨_, _, h, _⟩ := h.received; exact absurd (hne h) (by simp)
  | echRejected h _ _ _ _ _ => obtain ⟨_, _, h, _⟩ := h.received; exact absurd (hne h) (by simp)
  | ticket h _ _ => exact absurd (hne h) (by simp)
  | data _ _ h _ => rw [hs] at h; cases h
  | appWrite _ h _ => rw [ht] at h; cases h
  | keyUpdateInitiated _ h _ _ _ _ => rw [ht] at h; cases h
  | closeNotify _ _ h _ => rw [hs] at h; cases h
  | earlyWrite h _ _ _ => rw [ht] at h; cases h
  | earlyLate _ h _ _ => rw [ht] at h; cases h
  | earlyFailed h _ _ => rw [ht] at h; cases h
  | lateData _ _ h _ _ _ _ => rw [hs] at h; cases h
  | lateClose _ _ h _ => rw [hs] at h; cases h

/-- C54: a key update the application asks for is sent under the old key; the write key moves to the
next generation; it fails if a part of a handshake message is waiting. -/
theorem C54_initiated {cfg : Cfg} (hok : ∀ c a, cfg.hashOf c = .ok a → a.Ok) {newer y older s}
    (hr : Run cfg (newer ++ y :: older) s) {r} (ht : y.trig = .app (.keyUpdate r)) :
    y.acts = [] ∨ ((Spec.post y).state = .error ∧ ∀ c ∈ Spec.contents y, c.type = 21) ∨
    ∃ g th early, Spec.Current cfg older y.pre g th early ∧ y.env.unparsed = false ∧
      (Spec.post y).state = .established ∧ (Spec.post y).read = y.pre.read ∧
      (Spec.post y).write = some ⟨.appTraffic, g.clientApp th (Spec.updatesSent older + 1)⟩ ∧
      Spec.contents y = [⟨g.writeLayer th older, 22, [Codec.Spec.handshake (.keyUpdate ⟨r⟩)]⟩] := by
  have hd := C61_does hok hr
  generalize hv : Spec.visible y.acts = l at hd
  have he := contents_eq hv
  rw [he]
  have hne : ∀ {m orig}, Spec.received y = some (m, orig) → False := by
    intro m orig hh
    have := (received_inv hh).1
    rw [ht] at this; cases this
  have hsk : y.trig ≠ .sock := by rw [ht]; simp
  cases hd with
  | nothing h => exact .inl h
  | fail _ h2 hf =>
    refine .inr (.inl ⟨h2, fun c hc => ?_⟩)
    rw [writes_append, show Spec.writes [.reportError _] = [] from rfl, List.append_nil] at hc
    rcases farewell_writes hf with h | ⟨l, d, h1, h3⟩
    · rw [h] at hc; cases hc
    · rw [h3, List.mem_singleton] at hc
      subst hc; rfl
  | again h1 h2 => exact .inr (.inl ⟨by rw [h2, h1], by simp [Spec.writes]⟩)
  | keyUpdateInitiated h1 h2 h3 h4 h5 h6 =>
    rw [ht] at h2; cases h2
    exact .inr (.inr ⟨_, _, _, h1, h3, h6, h4, h5, rfl⟩)
  | wait h _ _ => exact absurd h hsk
  | keyUpdate _ h _ _ _ _ _ => exact (hne h).elim
  | keyUpdateAnswered _ h _ _ _ _ _ => exact (hne h).elim
  | close h _ _ => rw [ht] at h; cases h
  | closed h _ _ => rw [ht] at h; cases h
  | connect h _ _ _ => exact absurd (h.connects.1.symm.trans ht) (by simp)
  | retry _ h _ => exact (hne h.received).elim
  | serverHello h => obtain ⟨_, h, _⟩ := h.message; exact absurd h hsk
  | encryptedExtensions _ h _ _ => exact (hne h).elim
  | echRetry _ h _ _ _ _ _ => exact (hne h).elim
  | certificateRequest _ _ h _ _ => exact (hne h).elim
  | certificate _ _ h _ =>
    rcases h with ⟨_, h⟩ | ⟨_, _, h, _⟩ <;> exact (hne h).elim
  | certificateVerify _ _ h _ _ => exact (hne h).elim
  | finished h _ _ _ _ => obtain ⟨_, _, h, _⟩ := h.received; exact (hne h).elim
  | echRejected h _ _ _ _ _ => obtain ⟨_, _, h, _⟩ := h.received; exact (hne h).elim
  | ticket h _ _ => exact (hne h).elim
  | data _ h _ _ => exact absurd h hsk
  | appWrite _ h _ => rw [ht] at h; cases h
  | closeNotify _ h _ _ => exact absurd h hsk
  | earlyWrite h _ _ _ => rw [ht] at h; cases h
  | earlyLate _ h _ _ => rw [ht] at h; cases h
  | earlyFailed h _ _ => rw [ht] at h; cases h
  | lateData _ h _ _ _ _ _ => exact absurd h hsk
  | lateClose _ h _ _ => exact absurd h hsk

/-! ## C55: tickets -/

/-- C55: a PSK is handed to the application for storage only for a NewSessionTicket on a complete connection; it holds
the ticket, the secret derived from this connection's resumption master secret, and what this connection
has negotiated; and the ticket changes nothing else. -/
theorem C55_ticket {cfg : Cfg} (hok : ∀ c a, cfg.hashOf c = .ok a → a.Ok) {newer y older s}
    (hr : Run cfg (newer ++ y :: older) s) {psk} (hm : .newCachedPsk psk ∈ y.acts) :
    ∃ m orig, Spec.received y = some (.newSessionTicket m, orig) ∧
      Spec.SavedTicket cfg older y.env.inp m psk ∧ Spec.visible y.acts = [.newCachedPsk psk] ∧
      Spec.post y = y.pre := by
  have hd := C61_does hok hr
  have hm' := (mem_visible (by rfl)).2 hm
  generalize Spec.visible y.acts = l at hd hm' ⊢
  have hfw : ∀ {w a f'}, Spec.Farewell w a f' → .newCachedPsk psk ∉ f' := by
    intro w a f' hf
    cases hf <;> simp
  cases hd with
  | ticket h1 h2 h3 =>
    simp only [List.mem_singleton, Action.newCachedPsk.injEq] at hm'
    subst hm'
    exact ⟨_, _, h1, h2, rfl, h3⟩
  | fail _ _ hf => simp [hfw hf] at hm'
  | connect _ h _ h' =>
    subst h'
    rcases h with ⟨-, h⟩ | ⟨psk, t, e, k1, k2, k3, k4, h⟩ <;> simp [h] at hm'
  | echRejected _ _ _ _ hf _ => simp [hfw hf, Spec.finalActions] at hm'
  | finished _ _ _ _ _ => simp [Spec.finalActions] at hm'
  | _ => simp at hm'

/-! ## C62: what the connection says about itself -/

/-- C62: from the ServerHello until the connection ends the accessors of the state give the version, cipher suite,
group, PSK type and mode, key exchange type, server name and client random that were negotiated. -/
theorem C62_info {cfg : Cfg} (hok : ∀ c a, cfg.hashOf c = .ok a → a.Ok) {h s} (hr : Run cfg h s)
    (hs : s.state = .expectingEncryptedExtensions ∨ s.state = .expectingCertificate ∨
      s.state = .expectingCertificateVerify ∨ s.state = .expectingFinished ∨ s.state = .established) :
    ∃ g, Spec.Fixed cfg h g ∧ Spec.Info cfg h g s ∧ (Spec.retries h).length ≤ 1 ∧
      (s.state = .established → ∃ th early, Spec.Complete cfg h g th early ∧ Spec.ServerIs cfg g h s.serverCert ∧
        Spec.Encrypted cfg h g s.alpn early ∧ s.earlyDataType = some early ∧
        Spec.Completed cfg h g th early s.resumptionSecret s.clientCert) := by
  have hi := run_inv hok hr
  by_cases he : s.state = .established
  · obtain ⟨g, th, e, hl⟩ := hi.live he
    exact ⟨g, hl.complete.fixed, hl.info, hl.count, fun _ => ⟨th, e, hl.complete, hl.server, hl.encrypted, hl.status,
      hl.completed⟩⟩
  · obtain ⟨g, hg⟩ := hi.mid (by simpa [he, midState] using hs)
    exact ⟨g, hg.fixed, hg.info, hg.count, fun h => absurd h he⟩

end Fizz.ClientSM

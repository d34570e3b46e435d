import Verif.ClientSM.Does

/-!
# C52 … C63: corollaries of the complete behaviour of the client
-/

namespace Fizz.ClientSM
open Fizz.Codec Fizz.Crypto
open Fizz.Server (Level RLayer WLayer Content KeyExchangeType HsCtx SockIn PeerCert content alertContent
  deref derefPtr check ksState ksSecret transcriptHash finishedData
  derefPtr_eq_ok deref_eq_ok check_eq_ok pure_eq_ok encode_eq)
open Fizz.Server.Spec (messageHash finishedMac handshakeBytes)
open Fizz.Client (CachedPsk PskType)
open Fizz.Conn (Trig)
open Spec (Offer PskOffer Public Neg Does)

/-- C61: the complete behaviour.  Whatever a client does in any step of any history is listed in
`Spec.Does`, with the conditions under which it does it. -/
theorem C61_does {cfg : Cfg} (hok : ∀ c a, cfg.hashOf c = .ok a → a.Ok) {newer y older s}
    (hr : Run cfg (newer ++ y :: older) s) : Does cfg older y (Spec.visible y.acts) := by
  obtain ⟨r1, -, r3, -⟩ := hr.split
  exact does_shape hok (run_inv hok r1) r3

/-! ## Reading off the visible actions -/

theorem writes_visible (acts : List Action) : Spec.writes (Spec.visible acts) = Spec.writes acts := by
  induction acts with
  | nil => rfl
  | cons a l ih =>
    cases a with
    | mutate f => exact ih
    | write t c f => exact congrArg (c ++ ·) ih
    | _ => exact ih

theorem announced_visible (acts : List Action) :
    (Spec.visible acts).flatMap Spec.announcement = acts.flatMap Spec.announcement := by
  induction acts with
  | nil => rfl
  | cons a l ih =>
    cases a with
    | secretAvailable k v => exact congrArg ((k, v) :: ·) ih
    | _ => exact ih

theorem mem_visible {acts : List Action} {a : Action} (h : Spec.isVisible a = true) :
    a ∈ Spec.visible acts ↔ a ∈ acts := by
  simp [Spec.visible, h]

theorem contents_eq {x : Step} {l} (h : Spec.visible x.acts = l) : Spec.contents x = Spec.writes l := by
  rw [Spec.contents, ← h, writes_visible]

theorem announced_eq {x : Step} {l} (h : Spec.visible x.acts = l) :
    Spec.announced x = l.flatMap Spec.announcement := by
  rw [Spec.announced, ← h, announced_visible]

theorem writes_append (a b : List Action) : Spec.writes (a ++ b) = Spec.writes a ++ Spec.writes b := by
  simp [Spec.writes]

theorem farewell_writes {w a f} (h : Spec.Farewell w a f) :
    Spec.writes f = [] ∨ ∃ l d, w = some l ∧ Spec.writes f = [Spec.alert l d] := by
  cases h with
  | silent => exact .inl rfl
  | alert h1 h2 => exact .inr ⟨_, _, h1, rfl⟩

theorem farewell_announced {w a f} (h : Spec.Farewell w a f) : f.flatMap Spec.announcement = [] := by
  cases h <;> rfl

theorem finalActions_writes (g th rms flight) : Spec.writes (Spec.finalActions g th rms flight) = flight := by
  simp [Spec.writes, Spec.finalActions]

/-! ## C56: announced secrets -/

/-- C56: the secrets handed to the application's callback are the right ones, under the right names: with
`connect`, the early secrets of the ClientHello (exactly if it offers early data); with the ServerHello,
the handshake secrets; with the server's verified Finished, the application secrets, the exporter and the resumption
master secret; with a key update, the next generation of the direction that is updated. -/
theorem C56_announced {cfg : Cfg} (hok : ∀ c a, cfg.hashOf c = .ok a → a.Ok) {newer y older s}
    (hr : Run cfg (newer ++ y :: older) s) (hs : Spec.announced y ≠ []) :
    (∃ o p traffic exporter, Spec.First cfg y o p ∧ o.early = true ∧
      Spec.earlySecret cfg o .clientEarlyTraffic = some traffic ∧
      Spec.earlySecret cfg o .earlyExporter = some exporter ∧
      Spec.announced y = [(.clientEarlyTraffic, traffic), (.earlyExporter, exporter)]) ∨
    (∃ g, Spec.Negotiated cfg older y g ∧ Spec.announced y =
      [(.serverHandshakeTraffic, g.serverHandshake), (.clientHandshakeTraffic, g.clientHandshake)]) ∨
    (∃ g th early rms flight, Spec.Answered cfg older y g th early ∧
      Spec.Finishes cfg older y g th rms early flight ∧
      Spec.announced y = [(.serverAppTraffic, g.serverApp th 0), (.clientAppTraffic, g.clientApp th 0),
        (.exporterMaster, KS.Spec.masterValue g.hash.spec g.inputs th .exporterMaster),
        (.resumptionMaster, rms)]) ∨
    (∃ g th early, Spec.Complete cfg older g th early ∧
      (((∃ r, y.trig = .app (.keyUpdate r)) ∧
         Spec.announced y = [(.clientAppTraffic, g.clientApp th (Spec.updatesSent older + 1))]) ∨
       (∃ m orig, Spec.received y = some (.keyUpdate m, orig) ∧ m.request_update = 0 ∧
         Spec.announced y = [(.serverAppTraffic, g.serverApp th (Spec.updatesReceived older + 1))]) ∨
       (∃ m orig, Spec.received y = some (.keyUpdate m, orig) ∧ m.request_update ≠ 0 ∧
         Spec.announced y = [(.serverAppTraffic, g.serverApp th (Spec.updatesReceived older + 1)),
           (.clientAppTraffic, g.clientApp th (Spec.updatesSent older + 1))]))) := by
  have hd := C61_does hok hr
  generalize hv : Spec.visible y.acts = l at hd
  have ha := announced_eq hv
  cases hd with
  | fail _ _ hf =>
    refine absurd ?_ hs
    rw [ha, List.flatMap_append, farewell_announced hf]; rfl
  | connect h1 h2 h3 h4 =>
    subst hv
    rcases h2 with ⟨-, h2⟩ | ⟨psk, t, e, k1, k2, k3, k4, h2⟩
    · rw [h2] at ha; exact absurd ha hs
    · rw [h2] at ha
      exact .inl ⟨_, _, t, e, h1, k1, k3, k4, ha⟩
  | serverHello h1 => exact .inr (.inl ⟨_, h1, ha⟩)
  | finished h1 h2 _ _ _ => exact .inr (.inr (.inl ⟨_, _, _, _, _, h1, h2, by rw [ha]; rfl⟩))
  | echRejected h1 h2 _ _ hf _ =>
    refine .inr (.inr (.inl ⟨_, _, _, _, _, h1, h2, ?_⟩))
    rw [ha, List.flatMap_append, List.flatMap_append, farewell_announced hf]; rfl
  | keyUpdate h1 h2 _ h3 _ _ _ => exact .inr (.inr (.inr ⟨_, _, _, h1.complete, .inr (.inl ⟨_, _, h2, h3, ha⟩)⟩))
  | keyUpdateAnswered h1 h2 _ h3 _ _ _ => exact .inr (.inr (.inr ⟨_, _, _, h1.complete, .inr (.inr ⟨_, _, h2, h3, ha⟩)⟩))
  | keyUpdateInitiated h1 h2 _ _ _ _ => exact .inr (.inr (.inr ⟨_, _, _, h1.complete, .inl ⟨⟨_, h2⟩, ha⟩⟩))
  | _ => exact absurd ha hs

/-! ## C57: keys -/

/-- C57: in every state the record layers are keyed with the secrets of RFC 8446 section 7.1, computed
from the PSK, the (EC)DHE secret and the transcript of this connection. -/
theorem C57_layers {cfg : Cfg} (hok : ∀ c a, cfg.hashOf c = .ok a → a.Ok) {h s} (hr : Run cfg h s) :
    (s.state = .expectingServerHello → s.write = some ⟨.plaintext, []⟩ ∧ s.read = some ⟨.plaintext, [], false⟩) ∧
    (s.state = .expectingEncryptedExtensions ∨ s.state = .expectingCertificate ∨
      s.state = .expectingCertificateVerify ∨ s.state = .expectingFinished → ∃ g, Spec.Fixed cfg h g ∧
      s.write = some ⟨.handshake, g.clientHandshake⟩ ∧ s.read = some ⟨.handshake, g.serverHandshake, false⟩) ∧
    (s.state = .established → ∃ g th early, Spec.Complete cfg h g th early ∧
      s.write = some (g.writeLayer th h) ∧ s.read = some (g.readLayer th h) ∧
      s.exporterMasterSecret = some (KS.Spec.masterValue g.hash.spec g.inputs th .exporterMaster) ∧
      Spec.Completed cfg h g th early s.resumptionSecret s.clientCert) ∧
    (s.state = .writeSideClosed → s.write = none) ∧
    (s.state = .closed → s.write = none ∧ s.read = none) := by
  have hi := run_inv hok hr
  refine ⟨fun hs => ?_, fun hs => ?_, fun hs => ?_, fun hs => (hi.closing hs).1, hi.closed⟩
  · obtain ⟨o1, o, p, hb⟩ := hi.before hs
    exact ⟨hb.write, hb.read⟩
  · obtain ⟨g, hg⟩ := hi.mid hs
    exact ⟨g, hg.fixed, hg.write, hg.read⟩
  · obtain ⟨g, th, e, hl⟩ := hi.live hs
    exact ⟨g, th, e, hl.complete, hl.write, hl.read, hl.exporter, hl.completed⟩

/-- C57: everything the client writes is protected with the right key and is one of: a
change_cipher_spec record; an alert, under the layer in force; a ClientHello, in the clear; a message
of the second flight, under the handshake key (EndOfEarlyData: the early key); a KeyUpdate under the current
application key; application data, under the current application key after the handshake is complete; early data
under the early key. -/
theorem C57_protect {cfg : Cfg} (hok : ∀ c a, cfg.hashOf c = .ok a → a.Ok) {newer y older s}
    (hr : Run cfg (newer ++ y :: older) s) {c : Content} (hc : c ∈ Spec.contents y) :
    (c.type = 20 ∧ c = ccs) ∨
    (c.type = 21 ∧ y.pre.write = some c.layer ∧ ∃ d, c.data = [[2, d]]) ∨
    (c.type = 22 ∧ (c.layer = ⟨.plaintext, []⟩ ∧ c = ⟨⟨.plaintext, []⟩, 22, [Spec.sent y]⟩ ∧
      ((∃ o p, Spec.First cfg y o p) ∨ ∃ m orig o1 o p, Spec.Offered cfg older o1 o1 p ∧ Spec.Second cfg older y m orig o1 o p))) ∨
    (c.type = 22 ∧ ∃ g th early rms flight, Spec.Answered cfg older y g th early ∧
      Spec.Finishes cfg older y g th rms early flight ∧ c ∈ flight ∧
      ((c.layer = ⟨.handshake, g.clientHandshake⟩) ∨
       (early = .accepted ∧ ∃ k, Spec.earlySecret cfg g.first .clientEarlyTraffic = some k ∧ c.layer = ⟨.earlyData, k⟩))) ∨
    (c.type = 22 ∧ ∃ g th early r, Spec.Complete cfg older g th early ∧ y.pre.write = some c.layer ∧
      c = ⟨g.writeLayer th older, 22, [Codec.Spec.handshake (.keyUpdate ⟨r⟩)]⟩) ∨
    (c.type = 23 ∧ ∃ g th early, Spec.Complete cfg older g th early ∧ c.layer = g.writeLayer th older ∧
      y.pre.write = some c.layer ∧ ∃ t d f, c.data = [d] ∧
        (y.trig = .app (.appWrite t d f) ∨ (y.trig = .app (.earlyAppWrite t d f) ∧ early = .accepted))) ∨
    (c.type = 23 ∧ ∃ k, Spec.EarlyKey cfg older y.pre k ∧ c.layer = ⟨.earlyData, k⟩ ∧
      ∃ t d f, c.data = [d] ∧ y.trig = .app (.earlyAppWrite t d f)) := by
  obtain ⟨r1, r2, r3, -⟩ := hr.split
  have hi := run_inv hok r1
  have hd := C61_does hok hr
  generalize hv : Spec.visible y.acts = l at hd
  have ha := contents_eq hv
  have hfl : ∀ {g th rms early flight}, Spec.Answered cfg older y g th early →
      Spec.Finishes cfg older y g th rms early flight → c ∈ flight → (c.type = 20 ∧ c = ccs) ∨
      (c.type = 22 ∧ ((c.layer = ⟨.handshake, g.clientHandshake⟩) ∨
       (early = .accepted ∧ ∃ k, Spec.earlySecret cfg g.first .clientEarlyTraffic = some k ∧
         c.layer = ⟨.earlyData, k⟩))) := by
    rintro g th rms early flight - ⟨m, orig, cert, -, -, ⟨cc, eoed, auth, -, h2, h3, h4, rfl⟩, -⟩ hm
    rw [List.append_assoc, List.mem_append, List.mem_append] at hm
    rcases hm with hm | hm | hm
    · have := h2 c hm
      subst this
      exact .inl ⟨rfl, rfl⟩
    · by_cases hq : early = .accepted ∧ cfg.omitEarlyRecordLayer = false
      · obtain ⟨k, k1, rfl⟩ := h3 hq
        rw [List.mem_singleton] at hm
        subst hm
        exact .inr ⟨rfl, .inr ⟨hq.1, k, k1, rfl⟩⟩
      · rw [h4 hq] at hm; cases hm
    · rw [List.mem_singleton] at hm
      subst hm
      exact .inr ⟨rfl, .inl rfl⟩
  have h1c : ∀ {t : Option Nat} {f : Nat} {c' : Content} {rest : List Action}, c ∈ Spec.writes (.write t [c'] f :: rest) →
      Spec.writes rest = [] → c = c' := by
    intro t f c' rest h1 h2
    have : c ∈ [c'] ++ Spec.writes rest := h1
    rw [h2] at this
    simpa using this
  rw [ha] at hc
  cases hd with
  | fail _ _ hf =>
    rw [writes_append, List.mem_append] at hc
    rcases hc with hc | hc
    · rcases farewell_writes hf with h | ⟨l, d, h1, h2⟩
      · rw [h] at hc; cases hc
      · rw [h2, List.mem_singleton] at hc
        subst hc
        exact .inr (.inl ⟨rfl, h1, d, rfl⟩)
    · simp [Spec.writes] at hc
  | close _ h1 _ =>
    simp only [Spec.writes, List.flatMap_cons, List.flatMap_nil, List.append_nil, List.mem_singleton] at hc
    subst hc
    exact .inr (.inl ⟨rfl, h1, 0, rfl⟩)
  | connect h1 _ _ h4 =>
    subst hv
    rw [← ha, h1.layer, List.mem_singleton] at hc
    subst hc
    exact .inr (.inr (.inl ⟨rfl, rfl, rfl, .inl ⟨_, _, h1⟩⟩))
  | retry h0 h1 h2 =>
    obtain ⟨cc, h3, h4⟩ := h1.layer
    simp only [Spec.writes, List.flatMap_cons, List.flatMap_nil, List.append_nil] at hc
    rw [← h2, h3, List.mem_append, List.mem_singleton] at hc
    rcases hc with hc | hc
    · have := h4 c hc
      subst this
      exact .inl ⟨rfl, rfl⟩
    · subst hc
      exact .inr (.inr (.inl ⟨rfl, rfl, rfl, .inr ⟨_, _, _, _, _, h0, h1⟩⟩))
  | finished h1 h2 _ _ _ =>
    rw [writes_append, finalActions_writes, List.mem_append] at hc
    rcases hc with hc | hc
    · rcases hfl h1 h2 hc with h | ⟨h3, h4⟩
      · exact .inl h
      · exact .inr (.inr (.inr (.inl ⟨h3, _, _, _, _, _, h1, h2, hc, h4⟩)))
    · simp [Spec.writes] at hc
  | echRejected h1 h2 _ _ hf _ =>
    rw [writes_append, finalActions_writes, writes_append, List.mem_append, List.mem_append] at hc
    rcases hc with hc | hc | hc
    · rcases hfl h1 h2 hc with h | ⟨h3, h4⟩
      · exact .inl h
      · exact .inr (.inr (.inr (.inl ⟨h3, _, _, _, _, _, h1, h2, hc, h4⟩)))
    · rcases farewell_writes hf with h | ⟨l, d, h1, h2⟩
      · rw [h] at hc; cases hc
      · rw [h2, List.mem_singleton] at hc
        subst hc
        exact .inr (.inl ⟨rfl, h1, d, rfl⟩)
    · simp [Spec.writes] at hc
  | appWrite h1 h2 _ =>
    obtain rfl := h1c hc rfl
    exact .inr (.inr (.inr (.inr (.inr (.inl ⟨rfl, _, _, _, h1.complete, rfl, h1.write, _, _, _, rfl, .inl h2⟩)))))
  | keyUpdateAnswered h1 h2 _ h3 _ _ _ =>
    obtain rfl := h1c (t := none) (f := 0) (rest := []) hc rfl
    exact .inr (.inr (.inr (.inr (.inl ⟨rfl, _, _, _, _, h1.complete, h1.write, rfl⟩))))
  | keyUpdateInitiated h1 h2 _ _ _ _ =>
    obtain rfl := h1c (t := none) (f := 0) (rest := []) hc rfl
    exact .inr (.inr (.inr (.inr (.inl ⟨rfl, _, _, _, _, h1.complete, h1.write, rfl⟩))))
  | closeNotify h1 _ _ _ =>
    obtain rfl := h1c hc rfl
    exact .inr (.inl ⟨rfl, h1.write, 0, rfl⟩)
  | earlyWrite h1 h2 _ h3 =>
    simp only [Spec.writes, List.flatMap_cons, List.flatMap_nil, List.append_nil, List.mem_append,
      List.mem_singleton] at hc
    rcases hc with hc | hc
    · rcases h3 with h3 | h3 <;> rw [h3] at hc
      · cases hc
      · rw [List.mem_singleton] at hc
        subst hc
        exact .inl ⟨rfl, rfl⟩
    · subst hc
      exact .inr (.inr (.inr (.inr (.inr (.inr ⟨rfl, _, h2, rfl, _, _, _, rfl, h1⟩)))))
  | earlyLate h1 h2 h3 _ =>
    obtain rfl := h1c hc rfl
    exact .inr (.inr (.inr (.inr (.inr (.inl ⟨rfl, _, _, _, h1.complete, rfl, h1.write, _, _, _, rfl, .inr ⟨h2, h3⟩⟩)))))
  | _ => simp [Spec.writes] at hc

/-! ## C52: early data -/

/-- C52: what becomes of an early write.  Apart from failures it is written — under the early traffic key of
the one ClientHello so far, while the server has not turned early data down; after the handshake, if the server
has accepted early data, under the application key — or it is handed back to the application as failed, and
then the server has turned early data down and nothing is written. -/
theorem C52_early {cfg : Cfg} (hok : ∀ c a, cfg.hashOf c = .ok a → a.Ok) {newer y older s}
    (hr : Run cfg (newer ++ y :: older) s) {t d f} (ht : y.trig = .app (.earlyAppWrite t d f)) :
    y.acts = [] ∨ (Spec.post y).state = .error ∨
    (∃ k c, Spec.EarlyKey cfg older y.pre k ∧ Spec.CcsOnly c ∧
      Spec.visible y.acts = [.write t (c ++ [⟨⟨.earlyData, k⟩, 23, [d]⟩]) f]) ∨
    (∃ g th, Spec.Current cfg older y.pre g th .accepted ∧
      Spec.visible y.acts = [.write t [⟨g.writeLayer th older, 23, [d]⟩] f]) ∨
    (Spec.EarlyRejected cfg older ∧ Spec.visible y.acts = [.reportEarlyWriteFailed t d f]) := by
  have hd := C61_does hok hr
  have r3 := hr.split.2.2.1
  generalize hv : Spec.visible y.acts = l at hd ⊢
  have hne : ∀ {m orig}, Spec.received y = some (m, orig) → False := by
    intro m orig hh
    unfold Spec.received at hh
    rw [ht] at hh
    split at hh <;> cases hh
  have hsk : y.trig ≠ .sock := by rw [ht]; simp
  cases hd with
  | nothing h => exact .inl h
  | fail _ h _ => exact .inr (.inl h)
  | again h1 h2 => exact .inr (.inl (by rw [h2, h1]))
  | earlyWrite h1 h2 h3 h4 =>
    rw [ht] at h1; cases h1
    exact .inr (.inr (.inl ⟨_, _, h2, h4, rfl⟩))
  | earlyLate h1 h2 h3 _ =>
    rw [ht] at h2; cases h2; subst h3
    exact .inr (.inr (.inr (.inl ⟨_, _, h1, rfl⟩)))
  | earlyFailed h1 h2 _ =>
    rw [ht] at h1; cases h1
    exact .inr (.inr (.inr (.inr ⟨h2, rfl⟩)))
  | close h _ _ => rw [ht] at h; cases h
  | closed h _ _ => rw [ht] at h; cases h
  | connect h _ _ _ => exact absurd (h.connects.1.symm.trans ht) (by simp)
  | retry _ h _ => exact (hne h.received).elim
  | serverHello h => obtain ⟨_, h, _⟩ := h.message; exact absurd h hsk
  | encryptedExtensions _ h _ _ => exact (hne h).elim
  | echRetry _ h _ _ _ _ _ => exact (hne h).elim
  | certificateRequest _ _ h _ _ => exact (hne h).elim
  | certificate _ _ h _ =>
    rcases h with ⟨_, h⟩ | ⟨_, _, h, _⟩ <;> exact (hne h).elim
  | certificateVerify _ _ h _ _ => exact (hne h).elim
  | finished h _ _ _ _ => obtain ⟨_, _, h, _⟩ := h.received; exact (hne h).elim
  | echRejected h _ _ _ _ _ => obtain ⟨_, _, h, _⟩ := h.received; exact (hne h).elim
  | ticket h _ _ => exact (hne h).elim
  | wait h _ _ => exact absurd h hsk
  | data _ h _ _ => exact absurd h hsk
  | appWrite _ h _ => rw [ht] at h; cases h
  | keyUpdate _ h _ _ _ _ _ => exact (hne h).elim
  | keyUpdateAnswered _ h _ _ _ _ _ => exact (hne h).elim
  | keyUpdateInitiated _ h _ _ _ _ => rw [ht] at h; cases h
  | closeNotify _ h _ _ => exact absurd h hsk
  | lateData _ h _ _ _ _ _ => exact absurd h hsk
  | lateClose _ h _ _ => exact absurd h hsk

/-- C52: only early writes are handed back as failed, and only once. -/
theorem C52_failed {cfg : Cfg} (hok : ∀ c a, cfg.hashOf c = .ok a → a.Ok) {newer y older s}
    (hr : Run cfg (newer ++ y :: older) s) {t d f} (hm : .reportEarlyWriteFailed t d f ∈ y.acts) :
    y.trig = .app (.earlyAppWrite t d f) ∧ Spec.EarlyRejected cfg older ∧
    Spec.visible y.acts = [.reportEarlyWriteFailed t d f] ∧ Spec.post y = y.pre := by
  have hd := C61_does hok hr
  have hm' := (mem_visible (by rfl)).2 hm
  generalize Spec.visible y.acts = l at hd hm'
  have hfw : ∀ {w a f'}, Spec.Farewell w a f' → .reportEarlyWriteFailed t d f ∉ f' := by
    intro w a f' hf
    cases hf <;> simp
  cases hd with
  | earlyFailed h1 h2 h3 =>
    simp only [List.mem_singleton, Action.reportEarlyWriteFailed.injEq] at hm'
    obtain ⟨rfl, rfl, rfl⟩ := hm'
    exact ⟨h1, h2, rfl, h3⟩
  | fail _ _ hf => simp [hfw hf] at hm'
  | connect _ h _ h' =>
    subst h'
    rcases h with ⟨-, h⟩ | ⟨psk, t, e, k1, k2, k3, k4, h⟩ <;> simp [h] at hm'
  | echRejected _ _ _ _ hf _ => simp [hfw hf, Spec.finalActions] at hm'
  | finished _ _ _ _ _ => simp [Spec.finalActions] at hm'
  | _ => simp at hm'

end Fizz.ClientSM

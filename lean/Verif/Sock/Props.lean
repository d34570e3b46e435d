import Verif.Sock.Keys

/-!
# The sockets: theorems C74 – C77
-/

namespace Fizz.Sock

open Spec

/-! ## C74: application data is sent once, in order, and early data within its limits -/

/-- As long as the connection has not failed, what was given to the state machine for the peer to see
(early data that was turned down not counted) is a prefix of what the application wrote, byte for
byte and in order; once the handshake is complete it is all of it.  A client that enables early data
must wait for the handshake callback before it writes. -/
theorem C74_order {cfg s} (h : Reach cfg s) (herr : .error ∉ s.log)
    (hw : cfg.server = false → cfg.sendEarly = true → WritesWait s.log) :
    ∃ b, Delivered s.log b ∧ b <+: written s.log ∧ (Complete s.log → b = written s.log) := by
  cases hsv : cfg.server with
  | true =>
    obtain ⟨h1, h2⟩ := h.direct.server hsv
    exact ⟨written s.log, ⟨fun _ => h1.symm, fun _ => by rw [h2, h1]; rfl⟩, List.prefix_refl _, fun _ => rfl⟩
  | false =>
    have st := h.stream hsv herr (hw hsv)
    have hi := h.inv.calls
    by_cases hp0 : s.phase = 0
    · obtain ⟨h1, h2, _⟩ := st.p0 hp0
      refine ⟨[], ⟨fun _ => h2.symm, fun _ => by rw [h1, h2]; rfl⟩, List.nil_prefix, fun c => absurd c (hi.ph0 (.inl hp0))⟩
    · by_cases hp1 : s.phase = 1
      · obtain ⟨e, _, _, h3, h4, _⟩ := st.p1 hp1
        have hc := hi.ph0 (.inr hp1)
        refine ⟨early s.log, ⟨?_, fun _ => by rw [h3]; simp⟩, ⟨_, h4.symm⟩, fun c => absurd c hc⟩
        rintro ⟨n, q, m⟩
        exact absurd ⟨_, n, q, m⟩ hc
      · obtain ⟨_, _, h3, _⟩ := st.p2 hp0 hp1
        exact ⟨written s.log, h3, List.prefix_refl _, fun _ => rfl⟩

/-- A server hands every write on a good socket to the state machine at once, even if the connection
fails later. -/
theorem C74_server {cfg s} (h : Reach cfg s) (hsv : cfg.server = true) :
    app s.log = written s.log ∧ early s.log = [] := h.direct.server hsv

/-- Before the handshake is complete a client that has not failed submits no ordinary application
data: writes are kept back. -/
theorem C74_wait {cfg s} (h : Reach cfg s) (hcl : cfg.server = false) (herr : .error ∉ s.log)
    (hw : cfg.sendEarly = true → WritesWait s.log) (hc : ¬ Complete s.log) : app s.log = [] := by
  have st := h.stream hcl herr hw
  by_cases hp0 : s.phase = 0
  · exact (st.p0 hp0).2.1
  · by_cases hp1 : s.phase = 1
    · obtain ⟨e, _, _, h3, _⟩ := st.p1 hp1
      exact h3
    · exact absurd (h.inv.calls.ph3 hp0 hp1) hc

/-- Early data never exceeds the limit of the session, and is sent only if the state machine allowed
it. -/
theorem C74_limit {cfg s} (h : Reach cfg s) :
    early s.log = [] ∨ ∃ m, .earlyOk m ∈ s.log ∧ (early s.log).length ≤ m := by
  rcases h.earlyInv.lim with ⟨_, w⟩ | ⟨m, w1, w2⟩
  · exact .inl w
  · exact .inr ⟨m, w1, by omega⟩

/-- When the server turns down early data and it may not be sent again (the policy says so, or the
connection is not the one it was written for), the PSK is removed, the connection fails, and the
state machine is given nothing any more. -/
theorem C74_reject {cfg s} (h : Reach cfg s) (hcl : cfg.server = false) (hst : EarlyStarted s.log)
    {pre now old suf} (hl : s.log = pre ++ .success false now old :: suf)
    (hno : ¬ (cfg.policy = .resend ∧ SameParams now old)) :
    .removePsk ∈ suf ∧ .error ∈ suf ∧ ∀ e, .take e ∉ suf := by
  obtain ⟨a, b, c, _⟩ := h.refused hcl hst pre now old suf hl hno
  exact ⟨a, b, c⟩

/-- The comparison made before early data is sent again is exactly equality of protocol version (a
session of a draft version may go on as its final version), cipher, application protocol and both
identities. -/
theorem C74_match (now old : Params) : earlyParametersMatch now old = true ↔ SameParams now old :=
  paramsMatch_iff now old

/-! ## C75: callbacks are called exactly once -/

/-- The handshake callback is called at most once, and only if one was given. -/
theorem C75_handshake_once {cfg s} (h : Reach cfg s) :
    hsCalls s.log ≤ 1 ∧ (.connect true ∉ s.log → hsCalls s.log = 0) := by
  have hi := h.inv.calls
  have h1 := hi.bal
  have h2 := hi.once
  refine ⟨by omega, fun hn => ?_⟩
  have : s.log.countP isConn = 0 := by
    rw [List.countP_eq_zero]
    intro o m
    cases o with
    | connect c => cases c <;> simp_all [isConn]
    | _ => simp [isConn]
  omega

/-- When everything has returned and the handshake is complete or the connection has failed, the
handshake callback has been called. -/
theorem C75_handshake_called {cfg s} (h : Reach cfg s) (hidle : s.stack = []) (hc : .connect true ∈ s.log)
    (hdone : Complete s.log ∨ .error ∈ s.log) : hsCalls s.log = 1 := by
  have hi := h.inv.calls
  have h1 := hi.bal
  have h2 := hi.once
  have h3 : 0 < s.log.countP isConn := List.countP_pos_iff.2 ⟨_, hc, rfl⟩
  have h4 : s.cb = none := by
    rcases hdone with w | w
    · rcases hi.cbOk w with z | z | z
      · exact z
      · rw [hidle] at z; cases z
      · rw [hidle] at z; cases z
    · rcases hi.cbErr w with z | z
      · exact z
      · rw [hidle] at z; cases z
  have h5 : cbNow s = 0 := by simp [cbNow, h4]
  omega

/-- A write callback is reported failed by this layer or handed to the state machine, at most once in
all, and only if that write was made with a callback. -/
theorem C75_write_once {cfg s} (h : Reach cfg s) (i : Nat) :
    s.log.countP (isErr i) + s.log.countP (isTake i) ≤ s.log.countP (isWrite i) ∧ s.log.countP (isWrite i) ≤ 1 := by
  have h1 := h.inv.acc.bal i
  have h2 := h.inv.acc.once i
  unfold St.gone at h1
  exact ⟨by omega, h2⟩

/-- When the connection has failed and everything has returned, no write callback is left waiting. -/
theorem C75_write_reported {cfg s} (h : Reach cfg s) (hidle : s.stack = []) (herr : .error ∈ s.log) (i : Nat) :
    s.log.countP (isErr i) + s.log.countP (isTake i) = s.log.countP (isWrite i) := by
  have hi := h.inv
  have hx : s.extErr = true := by
    rcases hi.calls.err herr with w | ⟨p, _, w⟩
    · exact w
    · rw [hidle] at w; cases w
  obtain ⟨h1, h2, h3⟩ := hi.shape.ext hx
  have h3 : ∀ e ∈ s.queue, e.token = none := h3.resolve_left (by rw [hidle]; simp)
  have hq : toks i (s.queue.map (·.token)) = 0 := by
    unfold toks
    rw [List.count_eq_zero_of_not_mem]
    intro m
    obtain ⟨e, me, he⟩ := List.mem_map.1 m
    rw [h3 e me] at he; cases he
  have hb := hi.acc.bal i
  unfold St.gone St.held at hb
  rw [h1, h2, hq] at hb
  simp [toks] at hb
  omega

/-- A write on a socket that is not good is reported failed. -/
theorem C75_write_refused {cfg s} (h : Reach cfg s) {i d} (hw : .write i d true false ∈ s.log) :
    .wErr i ∈ s.log ∧ s.log.countP (isTake i) = 0 := by
  have h1 := h.direct.refused i d hw
  refine ⟨h1, ?_⟩
  have h2 := C75_write_once h i
  have h3 : 0 < s.log.countP (isErr i) := List.countP_pos_iff.2 ⟨_, h1, by simp [isErr]⟩
  omega

/-! ## C76: key updates by byte count -/

/-- With a threshold, whenever everything has returned fewer bytes than the threshold were submitted
since the last key update. -/
theorem C76_bound {cfg s} (h : Reach cfg s) (hidle : s.stack = []) (ht : cfg.threshold ≠ 0) :
    sinceKey s.log 0 < cfg.threshold := by
  have h1 := h.keys.since
  have h2 := h.keys.low ht
  rw [hidle] at h1
  simp [pending] at h1
  omega

/-- While calls are in progress, only the writes still in progress can exceed it. -/
theorem C76_bound_inside {cfg s} (h : Reach cfg s) (ht : cfg.threshold ≠ 0) :
    sinceKey s.log 0 < cfg.threshold + pending s.stack := by
  have h1 := h.keys.since
  have h2 := h.keys.low ht
  omega

/-- Key updates are not sent for nothing: each stands for as many bytes as the threshold. -/
theorem C76_paced {cfg s} (h : Reach cfg s) : autoKeys s.log * cfg.threshold ≤ (app s.log).length := by
  have := h.keys.auto
  omega

/-- Without a threshold none is sent. -/
theorem C76_off {cfg s} (h : Reach cfg s) (ht : cfg.threshold = 0) : autoKeys s.log = 0 := h.keys.off ht

/-! ## C77: replay safety -/

/-- `onReplaySafe` is called at most once, and only after early data was started, the handshake is
complete, and the early data was accepted or could be sent again. -/
theorem C77_safe {cfg s} (h : Reach cfg s) {pre suf} (hl : s.log = pre ++ .replaySafe :: suf) :
    EarlyStarted pre ∧ (∃ a now old, .success a now old ∈ pre ∧
      (a = true ∨ (cfg.policy = .resend ∧ SameParams now old))) ∧
    .replaySafe ∉ pre ∧ .replaySafe ∉ suf := by
  obtain ⟨a, b⟩ := h.earlyInv.safe pre suf hl
  have h1 := h.earlyInv.once
  have h2 : s.log.countP isRep ≤ 1 := by split at h1 <;> omega
  rw [hl, List.countP_append, List.countP_cons] at h2
  have h3 : isRep .replaySafe = true := rfl
  rw [if_pos h3] at h2
  refine ⟨a, b, fun m => ?_, fun m => ?_⟩
  · have := List.countP_pos_iff (p := isRep).2 ⟨_, m, rfl⟩
    omega
  · have := List.countP_pos_iff (p := isRep).2 ⟨_, m, rfl⟩
    omega

/-- `isReplaySafe` (`AsyncFizzClient-inl.h:192-195`). -/
def St.isReplaySafe (s : St) : Bool := s.early.isNone

/-- A client that started early data says it is replay safe only after the handshake is complete and
the early data was accepted or could be sent again. -/
theorem C77_isReplaySafe {cfg s} (h : Reach cfg s) (hcl : cfg.server = false) (hst : EarlyStarted s.log)
    (hs : s.isReplaySafe = true) :
    ∃ a now old, .success a now old ∈ s.log ∧ (a = true ∨ (cfg.policy = .resend ∧ SameParams now old)) :=
  h.earlyInv.res hcl (by simpa [St.isReplaySafe] using hs) hst

/-- No replay-safety callback is forgotten: when everything has returned, one is still waiting only
while the socket is not replay safe. -/
theorem C77_not_forgotten {cfg s} (h : Reach cfg s) (hidle : s.stack = []) (hr : s.replayCb = true) :
    s.isReplaySafe = false := by
  rcases h.earlyInv.kept hr with w | w
  · cases he : s.early with
    | none => exact absurd he w
    | some e => simp [St.isReplaySafe, he]
  · rw [hidle] at w; cases w

end Fizz.Sock

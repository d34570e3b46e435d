import Verif.Base

/-!
# The client and server sockets — model of `fizz/client/AsyncFizzClient{.h,-inl.h}` and
`fizz/server/AsyncFizzServer{.h,-inl.h}`

The derived classes of `AsyncFizzBase` decide what happens to a write that the state machine cannot
take yet (handshake still running, early data, early data turned down), call the handshake callback,
and tell everybody concerned when the connection fails.  As in `Verif/Async`, the model is a
small-step machine with an explicit call stack.  A frame is

* `out`: a call that has left this class (an application callback, the transport).  While it is on
  top, or the stack is empty, the outside is in control and may call any entry point again;
* `loop`: `processPendingEvents` is running.  Which events the state machine takes and when the loop
  ends is decided by the environment, within the guards of `FizzBase-inl.h:174`;
* `acts`: `visitActions` is running; which actions the state machine returned is decided by the
  environment;
* `count`, `err`, `hsCb`, `replay`, `closeT`: a program point of these classes, executed by `tau`.

Client and server share the model: `cfg.server` selects the code where they differ.

Not modelled: buffers, flags and `aeadOptions` of a write (a write is its bytes), timers, the PSK
cache except `removePsk` after a rejection, `AsyncFizzBase` itself (`Verif/Async`; here its
`deliverError`, `deliverAppData`, `startTransportReads` are calls to the outside), object lifetime,
`setRekeyAfterWriting` (a constant), `fizz_hook_on_handshake_success`, the state machine
(`Verif/ClientSM`, `Verif/Server`; see `St.visit` for what is assumed of it).
-/

namespace Fizz.Sock

/-- `EarlyDataRejectionPolicy` (`fizz/client/EarlyDataRejectionPolicy.h:16-33`). -/
inductive Policy where
  | fatal
  | resend
  deriving DecidableEq, Repr

/-- The parameters compared by `earlyParametersMatch`: those of `State` and of
`EarlyDataParams` (`fizz/client/State.h`).  A certificate is its `getIdentity()`, `none` for a null
pointer. -/
structure Params where
  version : Nat
  cipher : Nat
  alpn : Option Bytes
  serverId : Option Bytes
  clientId : Option Bytes
  deriving DecidableEq, Repr

/-- `certIdentityMatch` (`fizz/client/EarlyDataRejectionPolicy.cpp:14-20`). -/
def certIdentityMatch : Option Bytes → Option Bytes → Bool
  | some a, some b => a == b
  | none, none => true
  | _, _ => false

/-- `earlyParametersMatch` (`fizz/client/EarlyDataRejectionPolicy.cpp:22-56`); `now` is the
negotiated state, `old` is `earlyDataParams()`. -/
def earlyParametersMatch (now old : Params) : Bool :=
  if now.version != old.version && (now.version != 0x0304 || old.version != 0xfb1a) then false
  else if now.cipher != old.cipher then false
  else if now.alpn != old.alpn then false
  else if !certIdentityMatch now.serverId old.serverId then false
  else if !certIdentityMatch now.clientId old.clientId then false
  else true

/-- What does not change: the role, `getSendEarlyData()` of the context, `earlyDataRejectionPolicy_`
and `keyUpdateThreshold_`. -/
structure Cfg where
  server : Bool
  sendEarly : Bool
  policy : Policy
  threshold : Nat

/-- A write kept in this layer: `AppWrite` (`fizz/protocol/Params.h:54-60`). -/
structure W where
  token : Option Nat
  data : Bytes
  deriving DecidableEq, Repr

/-- `detail::PendingEvent` (`fizz/protocol/FizzBase.h:20-35`).  `auto` distinguishes a key update
asked for by `wroteApplicationBytes` from one asked for by the application. -/
inductive Ev where
  | app (token : Option Nat) (data : Bytes)
  | early (token : Option Nat) (data : Bytes)
  | close (immediate : Bool)
  | keyUpdate (auto : Bool)
  | ticket
  deriving DecidableEq, Repr

/-- The write callback attached to an event. -/
def Ev.token : Ev → Option Nat
  | .app t _ => t
  | .early t _ => t
  | _ => none

/-- What can be seen, in order. -/
inductive Obs where
  /-- `connect`/`accept` was called; `cb`: with a callback. -/
  | connect (cb : Bool)
  /-- `writeAppData` was called for write `id`; `cb`: with a callback; `ok`: the socket was good. -/
  | write (id : Nat) (data : Bytes) (cb ok : Bool)
  /-- The event was given to the state machine's queue. -/
  | submit (e : Ev)
  /-- The state machine took the event. -/
  | take (e : Ev)
  /-- The `writeErr` of write `id` was called. -/
  | wErr (id : Nat)
  /-- The `writeSuccess` of write `id` was called by this layer. -/
  | wOk (id : Nat)
  /-- `fizzHandshakeSuccess` / `connectSuccess` was called. -/
  | hsOk
  /-- `fizzHandshakeError` / `connectErr` was called. -/
  | hsErr
  /-- `fizzHandshakeAttemptFallback` was called. -/
  | hsFallback
  /-- The state machine reported early success with this early data limit. -/
  | earlyOk (max : Nat)
  /-- The state machine reported success. -/
  | success (accepted : Bool) (now old : Params)
  /-- The connection started to fail: `deliverAllErrors`. -/
  | error
  /-- The error was delivered to the transport user (`deliverError`). -/
  | errorDone
  | removePsk
  /-- `onReplaySafe` was called. -/
  | replaySafe
  deriving DecidableEq, Repr

/-- The progress of `deliverAllErrors`. -/
inductive Ph where
  | hs
  | unreplay
  | pendHs
  | pendEarly
  | move
  | drain
  | fin
  deriving DecidableEq, Repr

/-- A frame of the call stack. -/
inductive Frame where
  | out
  | loop
  | acts
  /-- `deliverAllErrors` is still to be called -/
  | doFail
  /-- `wroteApplicationBytes(n)` is still to run. -/
  | count (n : Nat)
  | err (p : Ph)
  /-- the handshake callback of `ReportHandshakeSuccess` is still to be called -/
  | hsCb
  /-- the replay-safety callback is still to be called -/
  | replay
  deriving DecidableEq, Repr

/-- `EarlyDataState` (`fizz/client/AsyncFizzClient.h:338-349`). -/
structure Early where
  remaining : Nat
  resend : Bytes := []
  pend : List W := []
  deriving DecidableEq, Repr

/-- The members that matter, the state machine's queue and flags, the transport's flags, the call
stack and the history.  `susp`: the actions in flight are those of a future that has not completed
(`AsyncActions` of the server).  `cb` is `callback_` (`some false`: set to a null pointer), `phase` is how
far the state machine has reported success (0: not, 1: early, 2: fully). -/
structure St where
  connected : Bool := false
  cb : Option Bool := none
  early : Option Early := none
  hsPend : List W := []
  replayCb : Bool := false
  bytes : Nat := 0
  queue : List Ev := []
  extErr : Bool := false
  smErr : Bool := false
  smClosed : Bool := false
  guard : Bool := false
  susp : Bool := false
  inProc : Bool := false
  phase : Nat := 0
  tGood : Bool := true
  tErr : Bool := false
  tConn : Bool := false
  nextId : Nat := 0
  stack : List Frame := []
  log : List Obs := []

/-- Record something. -/
def St.say (s : St) (o : Obs) : St := { s with log := s.log ++ [o] }

/-- Call something. -/
def St.push (s : St) (fs : List Frame) : St := { s with stack := fs ++ s.stack }

/-- `inTerminalState` (`fizz/protocol/FizzBase-inl.h:123-128`). -/
def St.terminal (s : St) : Bool := s.smErr || s.extErr || s.smClosed

/-- `error` (`AsyncFizzClient-inl.h:172-175`, `AsyncFizzServer-inl.h:58-61`). -/
def St.error (s : St) : Bool := s.tErr || s.smErr

/-- `good` (`AsyncFizzClient-inl.h:157-160`, `AsyncFizzServer-inl.h:43-46`). -/
def St.good (s : St) : Bool := !s.error && !s.terminal && s.tGood

/-- `connecting` (`AsyncFizzClient-inl.h:167-170`): `callback_` is an `Optional`, so it counts even
when it holds a null pointer. -/
def St.connecting (s : St) : Bool := s.cb.isSome || s.tConn

/-- `processPendingEvents` up to the loop (`FizzBase-inl.h:163-172`). -/
def St.enter (s : St) : St :=
  if s.inProc then s else St.push { s with inProc := true } [.loop]

/-- `pendingEvents_.push_back` in `appWrite`, `earlyAppWrite`, `appClose`, `initiateKeyUpdate`,
`writeNewSessionTicket` (`FizzBase-inl.h:13-50`). -/
def St.submit (s : St) (e : Ev) : St :=
  St.say { s with queue := s.queue ++ [e] } (.submit e)

/-- Does `wroteApplicationBytes(n)` start a key update (`fizz/protocol/AsyncFizzBase.h:539-541`)? -/
def fires (cfg : Cfg) (bytes n : Nat) : Bool :=
  cfg.threshold != 0 && decide (cfg.threshold ≤ bytes + n)

/-- `wroteApplicationBytes` (`fizz/protocol/AsyncFizzBase.h:538-545`), without running the loop. -/
def St.count (cfg : Cfg) (s : St) (n : Nat) : St :=
  if fires cfg s.bytes n then St.submit { s with bytes := 0 } (.keyUpdate true)
  else { s with bytes := s.bytes + n }

/-- `performAppWrite` (`AsyncFizzClient-inl.h:570-575`), and the end of the server's `writeAppData`
(`AsyncFizzServer-inl.h:232-239`), called from outside: `processPendingEvents` may run before the
bytes are counted. -/
def St.performAppWrite (s : St) (w : W) : St :=
  St.enter (St.push (s.submit (.app w.token w.data)) [.count w.data.length])

/-- `performAppWrite` called from a visitor: `actionGuard_` is set, so neither `appWrite` nor
`initiateKeyUpdate` can take an event (`FizzBase-inl.h:174`) and both return at once. -/
def St.flush1 (cfg : Cfg) (s : St) (w : W) : St :=
  St.count cfg (s.submit (.app w.token w.data)) w.data.length

/-- A flush loop (`AsyncFizzClient-inl.h:594-598`, `613-617`). -/
def St.flush (cfg : Cfg) (s : St) (ws : List W) : St := ws.foldl (St.flush1 cfg) s

/-- Start of `deliverAllErrors` (`AsyncFizzClient-inl.h:413-452`, `AsyncFizzServer-inl.h:267-279`). -/
def St.fail (s : St) : St := St.push (s.say .error) [.err .hs]

/-- `writeErr` of a write given up by this layer. -/
def St.failW (s : St) (t : Option Nat) : St :=
  match t with
  | some i => St.push (s.say (.wErr i)) [.out]
  | none => s

/-- `writeAppData` with early data running (`AsyncFizzClient-inl.h:329-367`). -/
def St.writeEarly (cfg : Cfg) (s : St) (e : Early) (w : W) : St :=
  if !e.pend.isEmpty || decide (e.remaining < w.data.length) then
    { s with early := some { e with remaining := 0, pend := e.pend ++ [w] } }
  else
    let e' : Early :=
      { e with
        resend := if cfg.policy = .resend then e.resend ++ w.data else e.resend
        remaining := e.remaining - w.data.length }
    St.enter (St.submit { s with early := some e' } (.early w.token w.data))

/-- The rest of `writeAppData` on a good socket (`AsyncFizzClient-inl.h:329-391`,
`AsyncFizzServer-inl.h:232-239`). -/
def St.writeGood (cfg : Cfg) (s : St) (w : W) : St :=
  if cfg.server then s.performAppWrite w
  else
    match s.early with
    | some e => s.writeEarly cfg e w
    | none =>
      if s.connecting && !cfg.sendEarly then { s with hsPend := s.hsPend ++ [w] }
      else s.performAppWrite w

/-- `writeAppData` (`AsyncFizzClient-inl.h:313-392`, `AsyncFizzServer-inl.h:215-240`). -/
def St.write (cfg : Cfg) (s : St) (data : Bytes) (cb : Bool) : St :=
  let i := s.nextId
  let s1 := St.say { s with nextId := i + 1 } (.write i data cb s.good)
  if s.good then s1.writeGood cfg ⟨if cb then some i else none, data⟩
  else if cb then St.push (s1.say (.wErr i)) [.out]
  else s1

/-- `fizzClient_.connect` / `fizzServer_.accept`: `addProcessingActions`
(`FizzBase-inl.h:148-157`). -/
def St.startMachine (s : St) : St := St.push { s with guard := true } [.acts]

/-- `connect` (`AsyncFizzClient-inl.h:71-111`, or `113-154` when `viaAddr`), `accept`
(`AsyncFizzServer-inl.h:34-40`).  A server's null callback is `handshakeCallback_ == nullptr`. -/
def St.connect (cfg : Cfg) (s : St) (hasCb viaAddr : Bool) : St :=
  let s1 := St.say { s with connected := true } (.connect hasCb)
  if cfg.server then
    St.startMachine { s1 with cb := if hasCb then some true else none }
  else if viaAddr then
    St.push { s1 with cb := some hasCb } [.out]
  else if s.tGood then
    St.startMachine { s1 with cb := some hasCb }
  else
    St.fail { s1 with cb := some hasCb }

/-- The close family (`AsyncFizzClient-inl.h:230-287`, `AsyncFizzServer-inl.h:101-159`). -/
inductive Close where
  /-- `close` -/
  | normal
  /-- `closeNow`, `closeWithReset` -/
  | now
  /-- `tlsShutdown`; `shutdownWrite` and `shutdownWriteNow` then call the transport -/
  | tls
  deriving DecidableEq, Repr

/-- The close family, as above. -/
def St.close (s : St) : Close → St
  | .normal =>
    if s.tGood then St.enter (s.submit (.close true))
    else St.fail (s.push [.out])
  | .now =>
    if s.tGood then
      St.enter ((s.push [.doFail, .out]).submit (.close true))
    else St.fail (s.push [.out])
  | .tls =>
    if s.tGood then St.enter ((s.push [.out]).submit (.close false))
    else s.push [.out]

/-- The actions of the state machine that matter here. -/
inductive Act where
  | earlyOk (max : Nat)
  | success (accepted : Bool) (now old : Params)
  | error
  | fallback
  | earlyFailed (token : Option Nat)
  /-- `MutateState`: the state after it is `Error` / `Closed` -/
  | mutate (err closed : Bool)
  /-- anything else: `WriteToSocket`, `DeliverAppData`, `WaitForData`, `NewCachedPsk`,
  `SecretAvailable`, `ECHRetryAvailable`, `EndOfData` -/
  | other
  deriving DecidableEq, Repr

/-- `deliverHandshakeError` (`AsyncFizzClient-inl.h:454-489`, `AsyncFizzServer-inl.h:281-288`). -/
def St.hsError (s : St) : St :=
  match s.cb with
  | none => s
  | some true => St.push (St.say { s with cb := none } .hsErr) [.out]
  | some false => { s with cb := none }

/-- Calling the handshake callback on success (`AsyncFizzClient-inl.h:513-532`, `620-639`,
`AsyncFizzServer-inl.h:318-322`, `345-349`). -/
def St.hsSuccess (s : St) : St :=
  match s.cb with
  | none => s
  | some true => St.push (St.say { s with cb := none } .hsOk) [.out]
  | some false => { s with cb := none }

/-- The reaction to full success once the pending writes are flushed
(`AsyncFizzClient-inl.h:600-639`), including `handleEarlyReject` (`540-568`).  The callback is called
by the frame `hsCb`, then `replay`. -/
def St.successEarly (cfg : Cfg) (s : St) (accepted : Bool) (now old : Params) : St :=
  match s.early with
  | none => s.push [.hsCb, .replay]
  | some e =>
    if accepted then
      St.push { s.flush cfg e.pend with early := none } [.hsCb, .replay]
    else if decide (cfg.policy = .resend) && earlyParametersMatch now old then
      let s1 := if e.resend.isEmpty then s else s.flush1 cfg ⟨none, e.resend⟩
      St.push { s1.flush cfg e.pend with early := none } [.hsCb, .replay]
    else
      St.fail (St.push (s.say .removePsk) [.out])

/-- `ReportHandshakeSuccess` of the client (`AsyncFizzClient-inl.h:577-647`). -/
def St.successClient (cfg : Cfg) (s : St) (accepted : Bool) (now old : Params) : St :=
  let ws := s.hsPend
  (St.flush cfg { s with hsPend := [] } ws).successEarly cfg accepted now old

/-- The visitor (`AsyncFizzClient-inl.h:491-705`, `AsyncFizzServer-inl.h:290-408`).
`removePsk` is recorded whether or not there is a PSK identity.  `ReportError` calls
`deliverHandshakeError` with the original exception and then `deliverAllErrors`, which begins with
the same call: since `callback_` is set only by `connect`, the second does nothing, and the model has
one. -/
def St.visit (cfg : Cfg) (s : St) : Act → St
  | .earlyOk m =>
    let s1 := St.say { s with phase := 1 } (.earlyOk m)
    if cfg.server then
      if s1.good then s1.hsSuccess else s1.fail
    else
      St.hsSuccess { s1 with early := some { remaining := m } }
  | .success a now old =>
    let s1 := St.say { s with phase := 2 } (.success a now old)
    if cfg.server then
      if s1.good then s1.hsSuccess else s1.fail
    else s1.successClient cfg a now old
  | .error => s.fail
  | .fallback =>
    match s.cb with
    | some true => if cfg.server then St.push (St.say { s with cb := none } .hsFallback) [.out] else s
    | _ => s
  | .earlyFailed t =>
    match t with
    | some i => St.push (s.say (.wOk i)) [.out]
    | none => s
  | .mutate e c => { s with smErr := e, smClosed := c }
  | .other => s.push [.out]
/-- One iteration of the loop of `moveToErrorState` (`FizzBase-inl.h:77-99`), or its end. -/
def St.drain1 (s : St) (rest : List Frame) : St :=
  match s.queue with
  | [] => { s with stack := .err .fin :: rest }
  | e :: q => St.failW { s with queue := q, stack := .err .drain :: rest } e.token

/-- One iteration over `pendingHandshakeAppWrites_` (`AsyncFizzClient-inl.h:429-436`), or its end. -/
def St.pendHs1 (s : St) (rest : List Frame) : St :=
  match s.hsPend with
  | [] => { s with stack := .err .pendEarly :: rest }
  | w :: ws => St.failW { s with hsPend := ws, stack := .err .pendHs :: rest } w.token

/-- One iteration over `earlyDataState_->pendingAppWrites` (`AsyncFizzClient-inl.h:438-445`), or its
end. -/
def St.pendEarly1 (s : St) (rest : List Frame) : St :=
  match s.early with
  | none => { s with stack := .err .move :: rest }
  | some e =>
    match e.pend with
    | [] => { s with stack := .err .move :: rest }
    | w :: ws =>
      St.failW { s with early := some { e with pend := ws }, stack := .err .pendEarly :: rest } w.token

/-- A step of `deliverAllErrors` (`AsyncFizzClient-inl.h:413-452`; the server's has no writes of its
own to fail and no replay-safety callback, `AsyncFizzServer-inl.h:267-279`). -/
def St.errStep (s : St) (rest : List Frame) : Ph → St
  | .hs => St.hsError { s with stack := .err .unreplay :: rest }
  | .unreplay => { s with replayCb := false, stack := .err .pendHs :: rest }
  | .pendHs => s.pendHs1 rest
  | .pendEarly => s.pendEarly1 rest
  | .move =>
    if s.extErr then { s with stack := .err .fin :: rest }
    else { s with extErr := true, stack := .err .drain :: rest }
  | .drain => s.drain1 rest
  | .fin => St.say { s with stack := .out :: rest } .errorDone

/-- Execute the program point on top of the stack; `none` if it is not one of this class. -/
def St.tau (cfg : Cfg) (s : St) : Option St :=
  match s.stack with
  | .count n :: rest =>
    some (if fires cfg s.bytes n then St.enter (St.count cfg { s with stack := rest } n)
      else St.count cfg { s with stack := rest } n)
  | .doFail :: rest => some (St.fail { s with stack := rest })
  | .err p :: rest => some (s.errStep rest p)
  | .hsCb :: rest => some (St.hsSuccess { s with stack := rest })
  | .replay :: rest =>
    some (if s.replayCb then St.push (St.say { s with stack := rest, replayCb := false } .replaySafe) [.out]
      else { s with stack := rest })
  | _ => none

/-- What can happen next. -/
inductive Op where
  | connect (hasCb viaAddr : Bool)
  /-- `connectSuccess` of the underlying socket (`AsyncFizzClient-inl.h:289-305`) -/
  | sockConnected
  | write (data : Bytes) (cb : Bool)
  | close (k : Close)
  /-- `initiateKeyUpdate` called by the application -/
  | keyUpdate
  /-- `sendTicketWithAppToken` -/
  | ticket
  /-- `setReplaySafetyCallback` -/
  | setReplay (b : Bool)
  /-- `transportError`, `connectErr`, the handshake timeout, `endOfTLS` -/
  | transportError
  /-- `newTransportData`, `resume` -/
  | data
  /-- the transport's `good()`, `error()`, `connecting()` change -/
  | env (good err conn : Bool)
  /-- the outside returns -/
  | ret
  | tau
  /-- the loop of `processPendingEvents` takes the next application event -/
  | take
  /-- the loop runs the state machine on socket data -/
  | sock
  /-- the loop ends -/
  | stop
  | visit (a : Act)
  /-- all actions visited -/
  | done
  /-- the state machine returned a future -/
  | suspend
  /-- the future completed -/
  | resumed

/-- Is the outside in control? -/
def St.outside (s : St) : Bool :=
  match s.stack with
  | [] => true
  | .out :: _ => true
  | _ => false

/-- What is assumed of the state machine's reports: early success at most once, before full success,
and for a client only when early data is enabled; full success at most once, and for a client only
over a connected transport (`Verif/ClientSM`: C30, C52, C61). -/
def St.mayVisit (cfg : Cfg) (s : St) : Act → Bool
  | .earlyOk _ => decide (s.phase = 0) && (cfg.server || cfg.sendEarly)
  | .success _ _ _ => decide (s.phase ≤ 1) && (cfg.server || !s.tConn)
  | _ => true

/-- One step; `none` if it cannot happen, or if the caller broke the rules of the API:
`connect`/`accept` is called once and before anything else, `setReplaySafetyCallback` only while not
replay safe (`AsyncFizzClient-inl.h:197-202`). -/
def step (cfg : Cfg) (s : St) : Op → Option St
  | .connect c v =>
    if s.outside && !s.connected && !s.guard then some (s.connect cfg c v) else none
  | .sockConnected =>
    if s.outside && s.connected && !s.guard && !cfg.server then some s.startMachine else none
  | .write d c => if s.outside && s.connected then some (s.write cfg d c) else none
  | .close k => if s.outside && s.connected then some (s.close k) else none
  | .keyUpdate =>
    if s.outside && s.connected then some (St.enter (s.submit (.keyUpdate false))) else none
  | .ticket =>
    if s.outside && s.connected && cfg.server then some (St.enter (s.submit .ticket)) else none
  | .setReplay b =>
    if s.outside && s.connected && (!b || s.early.isSome) then some { s with replayCb := b } else none
  | .transportError => if s.outside && s.connected then some s.fail else none
  | .data => if s.outside && s.connected then some s.enter else none
  | .env g e c =>
    if s.outside && (!c || s.tConn || !s.connected) then some { s with tGood := g, tErr := e, tConn := c }
    else none
  | .ret =>
    match s.stack with
    | .out :: rest => some { s with stack := rest }
    | _ => none
  | .tau => s.tau cfg
  | .take =>
    match s.stack, s.queue with
    | .loop :: _, e :: q =>
      if !s.guard && !s.terminal then
        some (St.startMachine (St.say { s with queue := q } (.take e)))
      else none
    | _, _ => none
  | .sock =>
    match s.stack with
    | .loop :: _ => if !s.guard && !s.terminal then some s.startMachine else none
    | _ => none
  | .stop =>
    match s.stack with
    | .loop :: rest => some { s with stack := rest, inProc := false }
    | _ => none
  | .visit a =>
    match s.stack with
    | .acts :: _ => if s.mayVisit cfg a then some (s.visit cfg a) else none
    | _ => none
  | .done =>
    match s.stack with
    | .acts :: rest => some (St.enter { s with stack := rest, guard := false })
    | _ => none
  | .suspend =>
    match s.stack with
    | .acts :: rest => if cfg.server then some { s with stack := rest, susp := true } else none
    | _ => none
  | .resumed =>
    if s.outside && s.susp then some (St.push { s with susp := false } [.acts]) else none

/-- `s` is reached from a fresh socket by some history. -/
inductive Reach (cfg : Cfg) : St → Prop where
  | init (g e c : Bool) : Reach cfg { tGood := g, tErr := e, tConn := c }
  | step {s s' o} : Reach cfg s → step cfg s o = some s' → Reach cfg s'

end Fizz.Sock

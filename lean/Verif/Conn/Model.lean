import Verif.Base

/-!
# The connection driver — model of `fizz/protocol/FizzBase{.h,-inl.h}` and of
`fizz/server/FizzServer-inl.h`, `fizz/client/FizzClient-inl.h`

`FizzBase` owns the queue of application events, decides when the protocol state machine may run,
and hands the actions it returns to the visitor.  The visitor is application code: while it runs it
may call any method of the same object again.  The model executes those reentrant calls for real,
so every function takes a fuel argument (`none` = out of fuel).

Everything the environment decides — what the state machine answers, what the callbacks do — is a
function of the whole history so far, so quantifying over it covers every nondeterministic
behaviour.  Object lifetime (`DelayedDestruction`) is not modelled: `actionGuard_` is kept as the
boolean the control flow uses.
-/

namespace Fizz.Conn

/-- `detail::PendingEvent` (`fizz/protocol/FizzBase.h:20-35`): what the application submits.
`token` is the `void*` of `AppWrite`/`EarlyAppWrite` (`fizz/protocol/Params.h:54-66`), `none` when
null; `aeadOptions` are dropped. -/
inductive AppEv where
  | appWrite (token : Option Nat) (data : Bytes) (flags : Nat)
  | earlyAppWrite (token : Option Nat) (data : Bytes) (flags : Nat)
  | appClose (immediate : Bool)
  | newSessionTicket (appToken : Option Bytes)
  | keyUpdate (requestUpdate : UInt8)
  deriving DecidableEq, Repr

/-- The token reported by `moveToErrorState` (`fizz/protocol/FizzBase-inl.h:83-98`). -/
def AppEv.token : AppEv → Option Nat
  | .appWrite t _ _ => t
  | .earlyAppWrite t _ _ => t
  | .appClose _ => none
  | .newSessionTicket _ => none
  | .keyUpdate _ => none

/-- A protocol state machine as the driver sees it: its state, its actions, which states end the
connection (`StateEnum::Error` or `Closed`), and what visiting an action does to the state
(`MutateState`; other actions leave it alone). -/
structure Machine where
  S : Type
  A : Type
  terminal : S → Bool
  apply : A → S → S

/-- Why the state machine is run: data read from the transport, an application event, `accept` /
`connect`, or the SSLv2 fallback of `FizzServer::newTransportData`. -/
inductive Trig where
  | sock
  | app (e : AppEv)
  | accept
  | v2
  deriving DecidableEq, Repr

/-- What the state machine returns: `Actions`, a `SemiFuture<Actions>` that completes later, or an
exception that leaves `processPendingEvents` (only `writeAlert` failing in `handleAppClose*`). -/
inductive Outcome (A : Type) where
  | now (acts : List A)
  | later (acts : List A)
  | escape

/-- The actions of an outcome. -/
def Outcome.acts {A : Type} : Outcome A → List A
  | .now a => a
  | .later a => a
  | .escape => []

/-- The public methods a callback (or anyone else) may call. -/
inductive Call where
  | submit (e : AppEv)
  | waitForData
  | newTransportData
  | moveToErrorState
  | pause
  | resume
  deriving DecidableEq, Repr

/-- One observable step, recorded in order. -/
inductive Entry (A : Type) where
  /-- an application event was submitted -/
  | submit (e : AppEv)
  | wait
  | data
  | pause
  | resume
  /-- `moveToErrorState` was called -/
  | moveErr
  /-- `moveToErrorState` removed `e` from the queue -/
  | drop (e : AppEv)
  /-- the error callback was invoked with this token -/
  | failed (token : Nat)
  /-- the state machine was run -/
  | start (t : Trig)
  /-- an action was visited -/
  | act (a : A)
  /-- all actions of the running event were visited -/
  | done

/-- What the environment decides. -/
structure Env (M : Machine) where
  proc : List (Entry M.A) → M.S → Trig → Outcome M.A
  visit : List (Entry M.A) → M.A → List Call
  onToken : List (Entry M.A) → Nat → List Call
  /-- `looksLikeV2ClientHello(transportReadBuf_)` at this point of the history. -/
  looksV2 : List (Entry M.A) → Bool
  /-- `context->getVersionFallbackEnabled()` of the context given to `accept`; `false` for a
  client. -/
  v2Enabled : Bool

/-- Members of `FizzBase` (`fizz/protocol/FizzBase.h:185-192`), `checkV2Hello_` of `FizzServer`
(`fizz/server/FizzServer.h`), the state, the actions of a future in flight, and the history. -/
structure C (M : Machine) where
  st : M.S
  queue : List AppEv := []
  wait : Bool := true
  guard : Bool := false
  inProc : Bool := false
  extErr : Bool := false
  paused : Bool := false
  checkV2 : Bool := false
  pending : Option (List M.A) := none
  log : List (Entry M.A) := []

variable {M : Machine}

/-- `inTerminalState` (`fizz/protocol/FizzBase-inl.h:123-128`). -/
def C.terminal (c : C M) : Bool := M.terminal c.st || c.extErr

/-- Append to the history. -/
def C.note (c : C M) (e : Entry M.A) : C M := { c with log := c.log ++ [e] }

mutual

/-- A public method: `writeNewSessionTicket`, `initiateKeyUpdate`, `appWrite`, `earlyAppWrite`,
`appClose`, `appCloseImmediate` (`FizzBase-inl.h:13-50`, all push and process), `waitForData`
(`52-55`), `newTransportData` (`57-61`, with `FizzServer::newTransportData`,
`FizzServer-inl.h:27-51`), `moveToErrorState` (`63-100`), `pause` (`102-105`), `resume`
(`107-111`). -/
def call (E : Env M) : Nat → Call → C M → Option (C M)
  | 0, _, _ => none
  | n + 1, .submit e, c =>
    processPending E n { c with queue := c.queue ++ [e], log := c.log ++ [.submit e] }
  | _ + 1, .waitForData, c => some { c with wait := true, log := c.log ++ [.wait] }
  | n + 1, .newTransportData, c =>
    if c.checkV2 && !c.guard && E.looksV2 c.log then
      start E n .v2 { c with guard := true }
    else
      processPending E n { c with checkV2 := false, wait := false, log := c.log ++ [.data] }
  | n + 1, .moveToErrorState, c =>
    if c.extErr then some (c.note .moveErr)
    else drain E n { c with extErr := true, log := c.log ++ [.moveErr] }
  | _ + 1, .pause, c => some { c with paused := true, log := c.log ++ [.pause] }
  | n + 1, .resume, c =>
    processPending E n { c with paused := false, log := c.log ++ [.resume] }

/-- What a callback does: any sequence of calls. -/
def calls (E : Env M) : Nat → List Call → C M → Option (C M)
  | 0, _, _ => none
  | _ + 1, [], c => some c
  | n + 1, k :: ks, c =>
    match call E n k c with
    | none => none
    | some c => calls E n ks c

/-- The loop of `moveToErrorState` (`FizzBase-inl.h:77-99`). -/
def drain (E : Env M) : Nat → C M → Option (C M)
  | 0, _ => none
  | n + 1, c =>
    match c.queue with
    | [] => some c
    | e :: q =>
      match e.token with
      | none => drain E n { c with queue := q, log := c.log ++ [.drop e] }
      | some t =>
        match calls E n (E.onToken (c.log ++ [.drop e, .failed t]) t)
            { c with queue := q, log := c.log ++ [.drop e, .failed t] } with
        | none => none
        | some c => drain E n c

/-- `processPendingEvents` up to the loop (`FizzBase-inl.h:163-172`). -/
def processPending (E : Env M) : Nat → C M → Option (C M)
  | 0, _ => none
  | n + 1, c =>
    if c.inProc then some c
    else
      match loop E n { c with inProc := true } with
      | none => none
      | some c => some { c with inProc := false }

/-- The loop of `processPendingEvents` (`FizzBase-inl.h:174-217`). -/
def loop (E : Env M) : Nat → C M → Option (C M)
  | 0, _ => none
  | n + 1, c =>
    if !c.guard && !c.terminal && !c.paused then
      if !c.wait then
        match start E n .sock { c with guard := true } with
        | none => none
        | some c => loop E n c
      else
        match c.queue with
        | e :: q =>
          match start E n (.app e) { c with guard := true, queue := q } with
          | none => none
          | some c => loop E n c
        | [] => some { c with guard := false }
    else some c

/-- Running the state machine and `startActions` (`FizzServer-inl.h:79-99`,
`FizzClient-inl.h:60-63`); the caller has set `actionGuard_`. -/
def start (E : Env M) : Nat → Trig → C M → Option (C M)
  | 0, _, _ => none
  | n + 1, t, c =>
    match E.proc (c.log ++ [.start t]) c.st t with
    | .now acts => processActions E n acts (c.note (.start t))
    | .later acts => some { c.note (.start t) with pending := some acts }
    | .escape => some (c.note (.start t))

/-- `processActions` (`FizzBase-inl.h:136-146`). -/
def processActions (E : Env M) : Nat → List M.A → C M → Option (C M)
  | 0, _, _ => none
  | n + 1, acts, c =>
    match visitAll E n acts c with
    | none => none
    | some c => processPending E n { c with guard := false, log := c.log ++ [.done] }

/-- `visitActions` (`FizzServer-inl.h:101-137`, `FizzClient-inl.h:65-113`). -/
def visitAll (E : Env M) : Nat → List M.A → C M → Option (C M)
  | 0, _, _ => none
  | _ + 1, [], c => some c
  | n + 1, a :: as, c =>
    match calls E n (E.visit (c.log ++ [.act a]) a)
        { c with st := M.apply a c.st, log := c.log ++ [.act a] } with
    | none => none
    | some c => visitAll E n as c

end

/-- What happens to the connection from outside. -/
inductive Top where
  | call (k : Call)
  /-- `accept` / `connect`: `addProcessingActions` (`FizzBase-inl.h:148-157`,
  `FizzServer-inl.h:16-25`, `FizzClient-inl.h:12-30`).  Calling it while an action is being
  processed violates `FIZZ_DCHECK(!actionGuard_)`; the model ignores such a call. -/
  | accept
  /-- the future in flight completes (`FizzServer-inl.h:88-93`) -/
  | complete

/-- One outside step. -/
def top (E : Env M) (n : Nat) : Top → C M → Option (C M)
  | .call k, c => call E n k c
  | .accept, c => 
    if c.guard then some c
    else start E n .accept { c with guard := true, checkV2 := E.v2Enabled }
  | .complete, c =>
    match c.pending with
    | none => some c
    | some acts => processActions E n acts { c with pending := none }

/-- A whole history: each outside step with its own fuel. -/
def run (E : Env M) : List (Nat × Top) → C M → Option (C M)
  | [], c => some c
  | (n, t) :: ts, c =>
    match top E n t c with
    | none => none
    | some c => run E ts c

/-- A fresh connection. -/
def init (s0 : M.S) : C M := { st := s0 }

/-- `c` is reached from a fresh connection by some history. -/
def Reachable (E : Env M) (s0 : M.S) (c : C M) : Prop :=
  ∃ ts, run E ts (init s0) = some c

end Fizz.Conn

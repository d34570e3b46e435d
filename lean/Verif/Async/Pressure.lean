import Verif.Async.Model

/-!
# Back-pressure: the transport-facing half of `AsyncFizzBase`

`Model.lean` leaves the transport's read buffer to the outside.  Here the read callbacks of the transport
(`AsyncFizzBase.cpp:417-478`), what the derived class takes from the buffer, and the places outside `setReadCB` where reading
is switched on or off are added, so that one can say how much is buffered.

Simplifications: lengths instead of contents for the undecrypted bytes.  Reads of the transport come from the event loop, with
no call of this class in progress; what the derived class does inside the callback is the sequence of steps up to `done`.
`resumeEvents` in `attachEventBase` is whatever steps follow `attach`.
-/

namespace Fizz.Async

/-- The object, whether a read callback of the transport is in progress, and whether it is detached from its event base. -/
structure Sys where
  s : St := {}
  mid : Bool := false
  detached : Bool := false

inductive POp where
  /-- `readDataAvailable(n)` or `readBufferAvailable` with `n` bytes (`AsyncFizzBase.cpp:417-429,436-442`) starts. -/
  | got (n : Nat)
  /-- ... and ends, with `checkBufLen()` (`:429,442`). -/
  | done
  /-- `readZeroCopyDataAvailable` with `n` bytes in all (`:463-478`): no `checkBufLen()` at its end, so what the derived class
  does is the same inside as after the call. -/
  | zeroCopy (n : Nat)
  /-- The derived class takes `c` bytes from `transportReadBuf_` and delivers the application data `d` found in them (if any)
  by `deliverAppData` (`AsyncFizzServer-inl.h:302`, `AsyncFizzClient-inl.h:497`). -/
  | take (c : Nat) (d : Option Bytes)
  /-- `WaitForData` while there is a handshake callback: `startTransportReads()` (`AsyncFizzServer-inl.h:376-379`,
  `AsyncFizzClient-inl.h:675-678`); also `accept` and `connect` (`:39`; `:100,290`). -/
  | wait
  /-- `attachEventBase` (`AsyncFizzBase.h:276-288`). -/
  | attach
  /-- `detachEventBase` (`AsyncFizzBase.h:289-294`). -/
  | detach
  /-- the answer of `good()` changes -/
  | good (b : Bool)
  /-- any other step of `Model.lean` -/
  | other (o : Op)

/-- The effect of a step; the code is cited at `POp`. -/
def Sys.step (x : Sys) : POp → Sys
  | .got n => { x with s := { x.s with tbuf := x.s.tbuf + n }, mid := true }
  | .done => { x with s := Async.step x.s .transportRead, mid := false }
  | .zeroCopy n => { x with s := { x.s with tbuf := x.s.tbuf + n } }
  | .take c d =>
    let s := { x.s with tbuf := x.s.tbuf - c }
    match d with
    | none => { x with s := s }
    | some d => { x with s := Async.step s (.arrive d) }
  | .wait => { x with s := { x.s with reads := true } }
  | .attach =>
    { x with
      s := if x.s.good || x.s.readCb.isSome then { x.s with reads := true } else x.s
      detached := false }
  | .detach => { x with s := { x.s with reads := false }, detached := true }
  | .good b => { x with s := Async.step x.s (.transport b x.s.tbuf) }
  | .other o => { x with s := Async.step x.s o }

/-- When a step can happen.  The transport calls back only while this object is its read callback, from the event loop. -/
def Sys.allowed (x : Sys) : POp → Prop
  | .got _ => x.s.reads = true ∧ x.s.alive = true ∧ x.s.stack = [] ∧ x.mid = false
  | .done => x.mid = true ∧ x.s.alive = true ∧ x.s.stack = []
  | .zeroCopy _ => x.s.reads = true ∧ x.s.alive = true ∧ x.s.stack = [] ∧ x.mid = false
  | .take c d => c ≤ x.s.tbuf ∧ (d.getD []).length ≤ c ∧ Async.allowed x.s (.arrive (d.getD [])) = true
  | .wait => x.s.outside = true ∧ x.s.alive = true
  | .attach => x.s.outside = true ∧ x.s.alive = true ∧ x.detached = true
  | .detach => x.s.outside = true ∧ x.s.alive = true ∧ x.detached = false
  | .good b => Async.allowed x.s (.transport b x.s.tbuf) = true
  | .other o => Async.allowed x.s o = true ∧
    match o with
    | .arrive _ | .transport _ _ | .transportRead => False
    | _ => True

/-- Execution of a list of steps. -/
inductive Sys.Run : Sys → List POp → Sys → Prop where
  | nil (x) : Run x [] x
  | cons {x o ops y} : x.allowed o → Run (x.step o) ops y → Run x (o :: ops) y

end Fizz.Async

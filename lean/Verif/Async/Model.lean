import Verif.Base

/-!
# The transport wrapper — model of `fizz/protocol/AsyncFizzBase.{h,cpp}`

`AsyncFizzBase` sits between the application (an `AsyncTransport` user with read and write
callbacks) and the derived class (`AsyncFizzClient` / `AsyncFizzServer`), which encrypts what it is
given by `writeAppData` and hands decrypted bytes to `deliverAppData`.  Almost every line calls out
to somebody else, and whoever is called may call back in.  The model is therefore a small-step
machine with an explicit call stack: a frame is either a program point of this class (`pc`), which
the machine executes next, or a call that has left this class (`ext`).  While the top frame is an
`ext` frame — or the stack is empty — the outside is in control, and may call any entry point, to
any depth, before it returns.

`QueuedWriteRequest` objects live in a heap of cells linked by pointers, and are freed where the
code says `delete this`; reading a freed cell, or using the object after its destructor ran, sets
`crash`.  So does a failing `FIZZ_CHECK`/`FIZZ_DCHECK`.

Not modelled: `getReadBuffer*` (transport side), zero-copy reads, timeouts, the event base, napi
ids, `endOfTLSCallback_`.  `isBufferMovable()` is a constant of the callback object.  Cells are
never reallocated at an address used before.  `transport_->setReadCB(nullptr)` does not call back.
-/

namespace Fizz.Async

/-- `folly::AsyncSocketException`: the type matters only in being `END_OF_FILE` or not. -/
inductive Ex where
  | eof (tag : Nat)
  | err (code : Nat)
  deriving DecidableEq, Repr

/-- The exception of `setReadCB` on a bad transport (`AsyncFizzBase.cpp:75-78`). -/
def notOpen : Ex := .err 1

/-- The exceptions for a `getReadBuffer()` that misbehaves (`AsyncFizzBase.cpp:269-287`). -/
def badArgs : Ex := .err 2

/-- A read callback: its identity and what `isBufferMovable()` returns. -/
structure Rcb where
  id : Nat
  movable : Bool
  deriving DecidableEq, Repr

/-- `folly::WriteFlags`: the `CORK` bit and the rest. -/
structure Flags where
  cork : Bool
  other : Nat
  deriving DecidableEq, Repr

/-- What can be seen from outside: calls made to the application and to the derived class, and the
calls received from them.  Writes are numbered in the order `writeChain` is called. -/
inductive Obs where
  /-- `setDisablePartialWrites(b)` was called. -/
  | noPartial (b : Bool)
  /-- `writeChain` was called for write `i`; it is queued here. -/
  | wrote (i : Nat) (data : Bytes) (flags : Flags) (cb : Bool)
  /-- `writeChain` was called and went straight to `writeAppData` with the caller's callback. -/
  | direct (i : Nat) (data : Bytes) (flags : Flags) (cb : Bool)
  /-- `writeAppData` is called with a piece of write `i`. -/
  | down (i : Nat) (data : Bytes) (flags : Flags)
  /-- the derived class reports that piece as written. -/
  | compOk (i : Nat)
  /-- the derived class reports that piece as failed. -/
  | compErr (i : Nat) (ex : Ex)
  /-- write `i` is finished: `callback->writeSuccess()` if it has a callback. -/
  | wOk (i : Nat) (called : Bool)
  /-- write `i` is finished: `callback->writeErr(n, ex)` if it has a callback. -/
  | wErr (i : Nat) (n : Nat) (ex : Ex) (called : Bool)
  /-- `setReadCB(c)` is called. -/
  | install (c : Option Rcb)
  /-- the derived class delivers decrypted bytes. -/
  | arrive (d : Bytes)
  /-- `setPreReceivedAppData(d)` is called. -/
  | pre (d : Bytes)
  /-- `c->readDataAvailable` is called, with `d` in the buffer it supplied. -/
  | gave (c : Rcb) (d : Bytes)
  /-- that call returns. -/
  | gaveRet
  /-- `c->readBufferAvailable(d)` is called. -/
  | gaveBuf (c : Rcb) (d : Bytes)
  /-- `c->getReadBuffer()` threw or supplied no buffer. -/
  | bufFail (c : Rcb) (ex : Ex)
  /-- the derived class reports an error. -/
  | error (ex : Ex)
  /-- `c->readEOF()` is called. -/
  | rdEof (c : Rcb)
  /-- `c->readErr(ex)` is called. -/
  | rdErr (c : Rcb) (ex : Ex)
  deriving DecidableEq, Repr

/-- A `QueuedWriteRequest` (`AsyncFizzBase.h:553-599`).  `cb` is whether `callback_` is non-null,
`base` whether `asyncFizzBase_` is. -/
structure Req where
  cb : Bool
  data : Bytes
  flags : Flags
  written : Nat
  entire : Nat
  next : Option Nat
  base : Bool
  deriving DecidableEq, Repr

/-- A program point of the class, or a call that has left it. -/
inductive Frame where
  /-- `deliverAppData(data)` (`AsyncFizzBase.cpp:245-255`). -/
  | deliver (data : Option Bytes)
  /-- the loops of `deliverAppData` (`:257-312`). -/
  | loop (data : Option Bytes)
  /-- `setReadCB` after the delivery (`:69-82`). -/
  | setRest
  /-- `deliverError` (`:319-333`). -/
  | err1 (ex : Ex) (close : Bool)
  /-- `deliverError` after the read callback (`:335-341`). -/
  | err2 (ex : Ex) (close delivered : Bool)
  /-- `deliverError` after the write callbacks (`:343-350`). -/
  | err3 (close delivered : Bool)
  /-- `deliverError` after the transport was closed (`:352-356`). -/
  | err4 (delivered : Bool)
  /-- `QueuedWriteRequest::startWriting` (`:96-114`). -/
  | start (r : Nat)
  /-- the loop of `QueuedWriteRequest::writeErr` (`:159-180`). -/
  | errReq (r : Option Nat) (ex : Ex)
  /-- `QueuedWriteRequest::writeSuccess` (`:132-147`). -/
  | succ (r : Nat)
  /-- `writeSuccess` after the callback (`:148-152`). -/
  | succ2 (next : Option Nat)
  /-- the end of the scope of a `DestructorGuard`. -/
  | unguard
  /-- `destroy` after `transport_->closeNow()` (`:52-54`). -/
  | destroy2
  /-- outside: `c->getReadBuffer()`, with `data` still to deliver. -/
  | inBuf (c : Rcb) (data : Bytes)
  /-- outside: `readDataAvailable`. -/
  | inRead
  /-- outside: any other call that leaves the class. -/
  | out
  deriving DecidableEq, Repr

/-- The fields of `AsyncFizzBase`, the heap of write requests, the call stack and the log.
`good` is what `good()` returns, `tbuf` the length of `transportReadBuf_`, `reads` whether this
object is the transport's read callback; `flying` are the requests given to `writeAppData` whose
completion has not been reported. -/
structure St where
  alive : Bool := true
  destroyCalled : Bool := false
  destroyPending : Bool := false
  good : Bool := true
  tbuf : Nat := 0
  reads : Bool := false
  readCb : Option Rcb := none
  appBuf : Option Bytes := none
  pendingEx : Option Ex := none
  appWritten : Nat := 0
  appReceived : Nat := 0
  noPartial : Bool := false
  tail : Option Nat := none
  imm : Option Nat := none
  secretCb : Bool := false
  heap : Nat → Option Req := fun _ => none
  fresh : Nat := 0
  flying : List Nat := []
  stack : List Frame := []
  log : List Obs := []
  crash : Bool := false

/-- `kMaxBufSize` (`AsyncFizzBase.cpp:23`). -/
def maxBuf : Nat := 64 * 1024

/-- `kPartialWriteThreshold` (`AsyncFizzBase.cpp:29`). -/
def partialThreshold : Nat := 128 * 1024

/-- `size_t` subtraction. -/
def subSize (a b : Nat) : Nat := if b ≤ a then a - b else a + 2 ^ 64 - b

/-- Number of live `DestructorGuard`s. -/
def guards (k : List Frame) : Nat := k.countP (· == .unguard)

namespace St

def push (s : St) (fs : List Frame) : St := { s with stack := fs ++ s.stack }
def say (s : St) (o : Obs) : St := { s with log := s.log ++ [o] }
def crashed (s : St) : St := { s with crash := true }
def setHeap (s : St) (r : Nat) (q : Option Req) : St :=
  { s with heap := fun x => if x = r then q else s.heap x }

/-- `checkBufLen` (`AsyncFizzBase.cpp:486-492`). -/
def checkBufLen (s : St) : St :=
  if s.readCb.isNone && (decide (maxBuf ≤ s.tbuf) ||
      decide (maxBuf ≤ (s.appBuf.getD []).length)) then
    { s with reads := false }
  else s

/-- `~AsyncFizzBase` (`AsyncFizzBase.cpp:41-46`) with `unlinkFromBase` (`:123-125`). -/
def dtor (s : St) : St :=
  let s := { s with reads := false }
  let s := match s.tail with
    | none => s
    | some t => match s.heap t with
      | none => s.crashed
      | some q => s.setHeap t (some { q with base := false })
  { s with alive := false }

/-- Entering `deliverError` (`AsyncFizzBase.cpp:316-319`). -/
def callError (s : St) (ex : Ex) (close : Bool) : St := s.push [.err1 ex close, .unguard]

/-- `advanceOnBase` (`AsyncFizzBase.cpp:183-188`) on request `r`, whose fields are `q`. -/
def advanceOnBase (s : St) (r : Nat) (q : Req) : St :=
  if q.next.isNone && q.base then
    if !s.alive then s.crashed
    else if s.tail = some r then { s with tail := none }
    else s.crashed
  else s

/-- `deliverAppData` up to the loop (`AsyncFizzBase.cpp:245-255`). -/
def deliver (s : St) (data : Option Bytes) : St :=
  match s.appBuf with
  | some b =>
    { s with appReceived := s.appReceived + (data.getD []).length, appBuf := none }.push
      [.loop (some (b ++ data.getD []))]
  | none =>
    { s with appReceived := s.appReceived + (data.getD []).length }.push [.loop data]

/-- The loops of `deliverAppData` from the head of the outer one (`AsyncFizzBase.cpp:257-312`): up
to the next call of the application.  The inner loop's condition is the outer one's plus
`!isBufferMovable()`, so resuming at the outer head after `readDataAvailable` is the same. -/
def loop (s : St) (data : Option Bytes) : St :=
  match s.readCb, data with
  | some c, some d =>
    if c.movable then (s.say (.gaveBuf c d)).push [.out]
    else if d = [] then s.checkBufLen
    else s.push [.inBuf c d]
  | some _, none => s.checkBufLen
  | none, some d => { s with appBuf := some d }.checkBufLen
  | none, none => s.checkBufLen

/-- `setReadCB` after the delivery (`AsyncFizzBase.cpp:69-82`). -/
def setRest (s : St) : St :=
  match s.readCb, s.pendingEx with
  | some _, some ex => { s with pendingEx := none }.callError ex true
  | _, _ =>
    if !s.good then s.callError notOpen true
    else { s with reads := true }.push [.out]

/-- `deliverError`, read callback (`AsyncFizzBase.cpp:319-333`). -/
def err1 (s : St) (ex : Ex) (close : Bool) : St :=
  match s.readCb with
  | some c =>
    ({ s with readCb := none }.say (match ex with
      | .eof _ => .rdEof c
      | .err _ => .rdErr c ex)).push [.out, .err2 ex close true]
  | none =>
    (match s.pendingEx with
      | none => { s with pendingEx := some ex }
      | some _ => s).push [.err2 ex close false]

/-- `deliverError`, the write about to start (`AsyncFizzBase.cpp:335-341`). -/
def err2 (s : St) (ex : Ex) (close delivered : Bool) : St :=
  match s.imm with
  | some r => { s with imm := none }.push [.errReq (some r) ex, .err3 close delivered]
  | none => s.push [.err3 close delivered]

/-- `deliverError`, closing the transport (`AsyncFizzBase.cpp:343-350`). -/
def err3 (s : St) (close delivered : Bool) : St :=
  let s := { s with secretCb := false }
  if close then s.push [.out, .err4 delivered] else s.push [.err4 delivered]

/-- `deliverError`, the end (`AsyncFizzBase.cpp:352-356`). -/
def err4 (s : St) (delivered : Bool) : St :=
  if delivered then { s with pendingEx := none } else s

/-- The call of `writeAppData` (`AsyncFizzBase.cpp:113`). -/
def handDown (s : St) (r : Nat) (buf : Bytes) (flags : Flags) : St :=
  ({ s with flying := s.flying ++ [r] }.say (.down r buf flags)).push [.out]

/-- `startWriting` (`AsyncFizzBase.cpp:96-114`). -/
def startWriting (s : St) (r : Nat) : St :=
  match s.heap r with
  | none => s.crashed
  | some q =>
    if !q.base || !s.alive then s.crashed
    else
      let buf := if !s.noPartial then q.data.take partialThreshold else q.data
      let rest := if !s.noPartial then q.data.drop partialThreshold else []
      let flags := if rest ≠ [] then { q.flags with cork := true } else q.flags
      let s := s.setHeap r (some { q with data := rest, written := q.written + buf.length })
      match s.tail with
      | none => s.crashed
      | some t => match s.heap t with
        | none => s.crashed
        | some qt =>
          let s := s.setHeap t (some { qt with entire := subSize qt.entire buf.length })
          s.handDown r buf flags

/-- The end of `deliverSingleWriteErr` and the loop around it (`AsyncFizzBase.cpp:161-162,176-179`). -/
def errDone (s : St) (r : Nat) (q : Req) (ex : Ex) : St :=
  (s.say (.wErr r q.written ex q.cb)).push
    ((if q.cb then [.out] else []) ++ [.errReq q.next ex])

/-- One round of the loop of `writeErr` (`AsyncFizzBase.cpp:159-180`). -/
def errReq (s : St) (r : Option Nat) (ex : Ex) : St :=
  match r with
  | none => s
  | some r => match s.heap r with
    | none => s.crashed
    | some q =>
      ((s.advanceOnBase r q).setHeap r none).errDone r q ex

/-- The end of `writeSuccess` (`AsyncFizzBase.cpp:142-147`), after `delete this`. -/
def succDone (s : St) (r : Nat) (q : Req) : St :=
  (St.say { s with imm := q.next, crash := s.crash || s.imm.isSome } (.wOk r q.cb)).push
    ((if q.cb then [.out] else []) ++ [.succ2 q.next, .unguard])

/-- `writeSuccess` up to the callback (`AsyncFizzBase.cpp:132-147`). -/
def succ (s : St) (r : Nat) : St :=
  match s.heap r with
  | none => s.crashed
  | some q =>
    if q.data ≠ [] then s.push [.start r]
    else if !q.base || !s.alive then s.crashed
    else
      ((s.advanceOnBase r q).setHeap r none).succDone r q

/-- `writeSuccess` after the callback (`AsyncFizzBase.cpp:148-152`). -/
def succ2 (s : St) (next : Option Nat) : St :=
  match next with
  | none => s
  | some r =>
    if s.imm = some r then { s with imm := none }.push [.start r] else s

/-- The end of a guard's scope: the last one runs a destructor that was waiting
(`folly::DelayedDestruction`). -/
def unguard (s : St) : St :=
  if s.destroyPending && guards s.stack == 0 then s.dtor else s

/-- `destroy` after the transport was closed (`AsyncFizzBase.cpp:52-54`):
`transport_->setReadCB(nullptr)` and `DelayedDestruction::destroy()`. -/
def destroy2 (s : St) : St :=
  let s := { s with reads := false, destroyPending := true }
  if guards s.stack == 0 then s.dtor else s

/-- Execute the program point on top of the stack. -/
def runFrame (s : St) : Frame → St
  | .deliver d => if s.alive then s.deliver d else s.crashed
  | .loop d => if s.alive then s.loop d else s.crashed
  | .setRest => if s.alive then s.setRest else s.crashed
  | .err1 ex c => if s.alive then s.err1 ex c else s.crashed
  | .err2 ex c d => if s.alive then s.err2 ex c d else s.crashed
  | .err3 c d => if s.alive then s.err3 c d else s.crashed
  | .err4 d => if s.alive then s.err4 d else s.crashed
  | .start r => s.startWriting r
  | .errReq r ex => s.errReq r ex
  | .succ r => s.succ r
  | .succ2 n => if s.alive then s.succ2 n else s.crashed
  | .unguard => if s.alive then s.unguard else s.crashed
  | .destroy2 => if s.alive then s.destroy2 else s.crashed
  | .inBuf _ _ => s
  | .inRead => s
  | .out => s

/-- `writeChain` (`AsyncFizzBase.cpp:190-222`) with `append` (`:116-121`) and the constructor of
`QueuedWriteRequest` (`:86-94`).  `buffering`, `shared`, `connecting`, `replaySafe` are what the
transport, the buffer and the derived class answer. -/
def writeChain (s : St) (data : Bytes) (flags : Flags) (cb : Bool)
    (buffering shared connecting replaySafe : Bool) : St :=
  let i := s.fresh
  let s := { s with fresh := i + 1, appWritten := s.appWritten + data.length }
  let large := !s.noPartial && decide (partialThreshold < data.length)
  let needs := (large || buffering) && shared && !connecting && replaySafe
  let q : Req := ⟨cb, data, flags, 0, data.length, none, true⟩
  match s.tail with
  | some t =>
    match s.heap t with
    | none => s.crashed
    | some qt =>
      let s := if qt.next.isSome then s.crashed else s
      let s := s.setHeap i (some { q with entire := q.entire + qt.entire })
      let s := s.setHeap t (some { qt with next := some i, entire := 0 })
      { s with tail := some i }.say (.wrote i data flags cb)
  | none =>
    if needs then
      ({ s with tail := some i }.setHeap i (some q)).say (.wrote i data flags cb)
        |>.push [.start i]
    else (s.say (.direct i data flags cb)).push [.out]

/-- `setReadCB` (`AsyncFizzBase.cpp:63-67`). -/
def setReadCB (s : St) (c : Option Rcb) : St :=
  let s := { s with readCb := c }.say (.install c)
  if c.isSome then
    if s.appBuf.isSome then s.push [.deliver none, .setRest] else s.push [.setRest]
  else s

/-- `setPreReceivedAppData` (`AsyncFizzBase.h:456-462`). -/
def preReceived (s : St) (d : Bytes) : St :=
  { s with
    appReceived := s.appReceived + d.length
    appBuf := some (d ++ s.appBuf.getD []) }.say (.pre d)

end St

/-- What the application's `getReadBuffer` does (`AsyncFizzBase.cpp:265-288`): throws an
`AsyncSocketException`, throws anything else or supplies no room, or supplies room for `n + 1`
bytes. -/
inductive Room where
  | threw (ex : Ex)
  | bad
  | room (n : Nat)
  deriving DecidableEq, Repr

/-- One step of the whole system: the class executes its next program point (`tau`), a call that
left the class returns (`ret`, `retBuf`), or the outside calls in. -/
inductive Op where
  | tau
  | ret
  | retBuf (r : Room)
  | writeChain (data : Bytes) (flags : Flags) (cb : Bool)
      (buffering shared connecting replaySafe : Bool)
  | setReadCB (c : Option Rcb)
  | preReceived (d : Bytes)
  | destroy
  | setNoPartial (b : Bool)
  | setSecretCb (b : Bool)
  | arrive (d : Bytes)
  | error (ex : Ex) (close : Bool)
  | compOk (r : Nat)
  | compErr (r : Nat) (ex : Ex)
  | transport (good : Bool) (tbuf : Nat)
  | transportRead
  deriving DecidableEq, Repr

/-- The outside is in control, and may call in: the top frame is a call that left the class, but
not `getReadBuffer` (assumed not to call back). -/
def St.outside (s : St) : Bool :=
  match s.stack with
  | [] => true
  | .out :: _ => true
  | .inRead :: _ => true
  | _ => false

/-- The effect of a step. -/
def step (s : St) : Op → St
  | .tau =>
    match s.stack with
    | f :: k => { s with stack := k }.runFrame f
    | [] => s
  | .ret =>
    match s.stack with
    | .inRead :: k => { s with stack := k }.say .gaveRet
    | .out :: k => { s with stack := k }
    | _ => s
  | .retBuf r =>
    match s.stack with
    | .inBuf c d :: k =>
      let s := { s with stack := k }
      match r with
      | .threw ex => (s.say (.bufFail c ex)).callError ex true
      | .bad => (s.say (.bufFail c badArgs)).callError badArgs true
      | .room n =>
        let rest := d.drop (n + 1)
        (s.say (.gave c (d.take (n + 1)))).push
          [.inRead, .loop (if rest = [] then none else some rest)]
    | _ => s
  | .writeChain data flags cb b sh c rs => s.writeChain data flags cb b sh c rs
  | .setReadCB c => s.setReadCB c
  | .preReceived d => s.preReceived d
  | .destroy => { s with destroyCalled := true }.push [.out, .destroy2]
  | .setNoPartial b => { s with noPartial := b }.say (.noPartial b)
  | .setSecretCb b => { s with secretCb := b }
  | .arrive d => (s.say (.arrive d)).push [.deliver (some d), .unguard]
  | .error ex close => (s.say (.error ex)).callError ex close
  | .compOk r =>
    ({ s with flying := s.flying.erase r }.say (.compOk r)).push [.succ r]
  | .compErr r ex =>
    ({ s with flying := s.flying.erase r }.say (.compErr r ex)).push [.errReq (some r) ex]
  | .transport good tbuf => { s with good := good, tbuf := tbuf }
  | .transportRead => s.checkBufLen

/-- Frames in which bytes taken from the buffer are still waiting for the application. -/
def Frame.delivering : Frame → Bool
  | .deliver _ => true
  | .loop _ => true
  | .inBuf _ _ => true
  | _ => false

/-- A call of `setReadCB` is in progress that no `DestructorGuard` taken before it protects. -/
def exposed : List Frame → Bool
  | [] => false
  | f :: k => exposed k || (f == .setRest && guards k == 0)

/-- When a step can happen.  The class runs whenever it has control.  Otherwise the outside may
call in, subject to the contract of the interface:

* nobody uses the object once its destructor has run, except that a request already given to
  `writeAppData` may still be failed (not completed);
* a request is completed once, after it was given to `writeAppData`;
* no decrypted data arrives while a read callback is still being fed (`FizzBase` does not run
  reentrantly, C24), and `setPreReceivedAppData` is used before a read callback is set;
* the application does not destroy the object from inside a call that it made to `setReadCB`,
  unless a guard was taken before that call. -/
def allowed (s : St) : Op → Bool
  | .tau => match s.stack with
    | f :: _ => !s.outside && (match f with
      | .inBuf _ _ => false
      | _ => true)
    | [] => false
  | .ret => s.outside && s.stack ≠ []
  | .retBuf _ => match s.stack with
    | .inBuf _ _ :: _ => true
    | _ => false
  | .writeChain _ _ _ _ _ _ _ => s.outside && s.alive
  | .setReadCB _ => s.outside && s.alive
  | .preReceived _ =>
    s.outside && s.alive && !s.stack.any Frame.delivering && s.readCb.isNone
  | .destroy =>
    s.outside && s.alive && !s.destroyCalled && !exposed s.stack
  | .setNoPartial _ => s.outside && s.alive
  | .setSecretCb _ => s.outside && s.alive
  | .arrive _ => s.outside && s.alive && !s.stack.any Frame.delivering
  | .error _ _ => s.outside && s.alive
  | .compOk r => s.outside && s.alive && s.flying.contains r
  | .compErr r _ => s.outside && s.flying.contains r
  | .transport _ _ => s.outside && s.alive
  | .transportRead => s.outside && s.alive

/-- The states that can be reached from a new object. -/
inductive Run : List Op → St → Prop where
  | new : Run [] {}
  | step {ops s} (o : Op) : Run ops s → allowed s o = true → Run (ops ++ [o]) (step s o)

/-- Execute a list of steps, for examples. -/
def execAll (s : St) : List Op → St
  | [] => s
  | o :: os => execAll (step s o) os

end Fizz.Async

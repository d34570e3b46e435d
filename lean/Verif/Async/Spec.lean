import Verif.Async.Model

/-!
# What a user of the transport wrapper relies on

Two small reference machines that only look at the log of calls: `W`, a FIFO of writes, and `R`, a
queue of received bytes.  A log is acceptable if the reference machine can follow it.
-/

namespace Fizz.Async.Spec

open Fizz.Async

/-- A queued write: what is left to hand down, how much was handed down, and whether anything
was. -/
structure Item where
  id : Nat
  cb : Bool
  flags : Flags
  rest : Bytes
  sent : Nat
  started : Bool
  deriving DecidableEq

/-- What the first write of the queue is waiting for. -/
inductive Phase where
  /-- nothing: its next piece may be handed down -/
  | ready
  /-- the completion of a piece -/
  | busy
  /-- it and everything behind it is being failed with `ex` -/
  | failing (ex : Ex)
  deriving DecidableEq

/-- The reference writer. -/
structure W where
  q : List Item := []
  phase : Phase := .ready
  count : Nat := 0
  whole : Bool := false
  errs : List Ex := [notOpen]
  bytes : Nat := 0

/-- The piece of a write that is handed down next: at most 128 KiB, unless the user asked for
whole writes. -/
def piece (whole : Bool) (b : Bytes) : Bytes := if whole then b else b.take 131072

/-- The reference writer follows one call. -/
def W.next (w : W) : Obs → Option W
  | .noPartial b => some { w with whole := b }
  | .wrote i data flags cb =>
    if i = w.count then
      some { w with q := w.q ++ [⟨i, cb, flags, data, 0, false⟩], count := i + 1
                    bytes := w.bytes + data.length }
    else none
  | .direct i data _ _ =>
    if i = w.count ∧ w.q = [] then
      some { w with count := i + 1, bytes := w.bytes + data.length }
    else none
  | .down i data flags =>
    match w.q with
    | [] => none
    | it :: q =>
      if w.phase = .ready ∧ it.id = i ∧ (it.started = false ∨ it.rest ≠ []) ∧
          data = piece w.whole it.rest ∧
          flags = { it.flags with cork := it.flags.cork || decide (data ≠ it.rest) } then
        some { w with
          q := { it with rest := it.rest.drop data.length, sent := it.sent + data.length
                         started := true } :: q
          phase := .busy }
      else none
  | .compOk i =>
    match w.q with
    | [] => none
    | it :: _ => if w.phase = .busy ∧ it.id = i then some { w with phase := .ready } else none
  | .compErr i ex =>
    match w.q with
    | [] => none
    | it :: _ =>
      if w.phase = .busy ∧ it.id = i then some { w with phase := .failing ex } else none
  | .wOk i called =>
    match w.q with
    | [] => none
    | it :: q =>
      if w.phase = .ready ∧ it.id = i ∧ it.started = true ∧ it.rest = [] ∧ called = it.cb then
        some { w with q := q }
      else none
  | .wErr i n ex called =>
    match w.q with
    | [] => none
    | it :: q =>
      if it.id = i ∧ n = it.sent ∧ called = it.cb ∧
          (w.phase = .failing ex ∨
            (w.phase = .ready ∧ it.started = false ∧ ex ∈ w.errs)) then
        some { w with q := q, phase := if q = [] then .ready else .failing ex }
      else none
  | .error ex => some { w with errs := ex :: w.errs }
  | .bufFail _ ex => some { w with errs := ex :: w.errs }
  | _ => some w

/-- The reference writer follows a log. -/
def W.run : W → List Obs → Option W
  | w, [] => some w
  | w, o :: os => (w.next o).bind (fun w => W.run w os)

/-- The reference reader: the bytes received and not yet given to the application, the read
callback that is installed, and how many calls of `readDataAvailable` have not returned. -/
structure R where
  q : Bytes := []
  cb : Option Rcb := none
  busy : Nat := 0
  bytes : Nat := 0

/-- The reference reader follows one call. -/
def R.next (r : R) : Obs → Option R
  | .install c => some { r with cb := c }
  | .arrive d => some { r with q := r.q ++ d, bytes := r.bytes + d.length }
  | .pre d => some { r with q := d ++ r.q, bytes := r.bytes + d.length }
  | .gave c d =>
    if r.cb = some c ∧ d ≠ [] ∧ d <+: r.q then
      some { r with q := r.q.drop d.length, busy := r.busy + 1 }
    else none
  | .gaveRet => if r.busy = 0 then none else some { r with busy := r.busy - 1 }
  | .gaveBuf c d =>
    if r.cb = some c ∧ d = r.q then some { r with q := [] } else none
  | .bufFail c _ => if r.cb = some c then some { r with q := [] } else none
  | .rdEof c =>
    if r.cb = some c ∧ (r.q = [] ∨ r.busy ≠ 0) then some { r with cb := none } else none
  | .rdErr c _ =>
    if r.cb = some c ∧ (r.q = [] ∨ r.busy ≠ 0) then some { r with cb := none } else none
  | _ => some r

/-- The reference reader follows a log. -/
def R.run : R → List Obs → Option R
  | r, [] => some r
  | r, o :: os => (r.next o).bind (fun r => R.run r os)

/-! ## Reading a log directly -/

/-- The writes that were queued, in the order `writeChain` was called. -/
def wroteIds (l : List Obs) : List Nat :=
  l.filterMap fun
    | .wrote i _ _ _ => some i
    | _ => none

/-- The writes that were finished (successfully or not), in order. -/
def finishedIds (l : List Obs) : List Nat :=
  l.filterMap fun
    | .wOk i _ => some i
    | .wErr i _ _ _ => some i
    | _ => none

/-- What the user gave for write `i`. -/
def dataOf (i : Nat) (l : List Obs) : Bytes :=
  (l.filterMap fun
    | .wrote j d _ _ => if j = i then some d else none
    | _ => none).flatten

/-- What was handed down for write `i`. -/
def downOf (i : Nat) (l : List Obs) : Bytes :=
  (l.filterMap fun
    | .down j d _ => if j = i then some d else none
    | _ => none).flatten

/-- Whether the user gave a callback for write `i`. -/
def hasCb (i : Nat) (l : List Obs) : Bool :=
  l.any fun
    | .wrote j _ _ c => j == i && c
    | _ => false

/-- Everything that was handed down, in order. -/
def allDown (l : List Obs) : Bytes :=
  (l.filterMap fun
    | .down _ d _ => some d
    | _ => none).flatten

/-- The decrypted bytes that arrived, in order. -/
def arrived (l : List Obs) : Bytes :=
  (l.filterMap fun
    | .arrive d => some d
    | _ => none).flatten

/-- The bytes given to the application, in order. -/
def given (l : List Obs) : Bytes :=
  (l.filterMap fun
    | .gave _ d => some d
    | .gaveBuf _ d => some d
    | _ => none).flatten

/-- Nobody put bytes in front of the queue and no read callback refused a buffer. -/
def Smooth (l : List Obs) : Prop :=
  ∀ o ∈ l, (∀ d, o ≠ .pre d) ∧ ∀ c ex, o ≠ .bufFail c ex

/-- A read callback was told that reading is over. -/
def Told (o : Obs) : Prop := (∃ c, o = .rdEof c) ∨ ∃ c ex, o = .rdErr c ex

end Fizz.Async.Spec

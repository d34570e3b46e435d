import Verif.Async.Props

/-! # Concrete runs of the transport wrapper -/

namespace Fizz.Async.Example

open Fizz.Async Fizz.Async.Spec

/-- Every step of the list is allowed. -/
def legal (s : St) : List Op → Bool
  | [] => true
  | o :: os => allowed s o && legal (step s o) os

theorem run_of_legal : ∀ (ops done : List Op) (s : St), Run done s → legal s ops = true →
    Run (done ++ ops) (execAll s ops)
  | [], done, s, h, _ => by rw [List.append_nil]; exact h
  | o :: os, done, s, h, hl => by
    unfold legal at hl
    rw [Bool.and_eq_true] at hl
    have := run_of_legal os (done ++ [o]) (step s o) (.step o h hl.1) hl.2
    rw [List.append_assoc] at this
    exact this

theorem run_new {ops : List Op} (h : legal {} ops = true) : Run ops (execAll {} ops) :=
  run_of_legal ops [] {} .new h

def plainFlags : Flags := ⟨false, 0⟩

/-- Three queued writes.  The first is completed in two rounds, and in its callback the application
makes a fourth write and destroys the socket; the rest fail. -/
def writes : List Op :=
  [.writeChain [1, 2, 3] plainFlags true true true false true, .tau,
   .writeChain [4, 5] plainFlags true false false false true,
   .writeChain [6] plainFlags false false false false true, .ret,
   .compOk 0, .tau,
   -- in `writeSuccess` of write 0
   .writeChain [7] plainFlags true false false false true,
   .destroy,
   -- in `closeNow`: the connection reports an error, so the write about to start is failed
   .error (.err 7) false, .tau, .tau, .tau,
   -- in `writeErr` of write 1
   .ret, .tau, .tau,
   -- in `writeErr` of write 3
   .ret, .tau, .tau, .tau, .tau, .ret, .tau, .ret, .tau, .tau]

theorem writes_legal : legal {} writes = true := by decide +kernel

example : (execAll {} writes).log =
    [.wrote 0 [1, 2, 3] plainFlags true, .down 0 [1, 2, 3] plainFlags,
     .wrote 1 [4, 5] plainFlags true, .wrote 2 [6] plainFlags false, .compOk 0, .wOk 0 true,
     .wrote 3 [7] plainFlags true, .error (.err 7), .wErr 1 0 (.err 7) true,
     .wErr 2 0 (.err 7) false, .wErr 3 0 (.err 7) true] := by decide +kernel

example : (execAll {} writes).stack = [] ∧ (execAll {} writes).alive = false := by decide +kernel

/-- The theorems apply to it. -/
example : finishedIds (execAll {} writes).log = [0, 1, 2, 3] :=
  ((C73_fifo (run_new writes_legal)).2.2 (by decide +kernel) (by decide +kernel)).1.trans
    (by decide +kernel)

/-- A write larger than 128 KiB is handed down in two pieces. -/
def big : Bytes := List.replicate 131073 9

theorem big_start : (execAll {} [.writeChain big plainFlags true false true false true, .tau]).log =
    [.wrote 0 big plainFlags true, .down 0 (big.take 131072) ⟨true, 0⟩] := by
  have h1 : big.length = 131073 := List.length_replicate
  have h2 : big.drop 131072 ≠ [] := by
    intro h
    have := congrArg List.length h
    rw [List.length_drop, h1] at this
    simp at this
  have h3 : decide (partialThreshold < big.length) = true := by rw [h1]; rfl
  generalize big = b at *
  have e : execAll {} [.writeChain b plainFlags true false true false true, .tau] =
      step (step {} (.writeChain b plainFlags true false true false true)) .tau := rfl
  have e1 : step {} (.writeChain b plainFlags true false true false true) =
      St.first {} b plainFlags true := by
    show St.writeChain {} b plainFlags true false true false true = _
    unfold St.writeChain
    dsimp only
    rw [h3]
    rfl
  rw [e, e1]
  show (St.startWriting { (St.first {} b plainFlags true) with stack := [] } 0).log = _
  rw [start_eq (s := { (St.first {} b plainFlags true) with stack := [] }) (r := 0) (t := 0)
    (q := ⟨true, b, plainFlags, 0, b.length, none, true⟩) rfl rfl rfl rfl (buf := b.take 131072)
    (rest := b.drop 131072) (flags := ⟨true, 0⟩) rfl rfl (by rw [if_pos h2]; rfl) rfl]
  rfl

/-- Reading: bytes arrive before a callback is installed, the callback supplies small buffers, and is
exchanged while it is being fed. -/
def r1 : Rcb := ⟨1, false⟩
def r2 : Rcb := ⟨2, true⟩

def reads : List Op :=
  [.arrive [1, 2, 3, 4, 5], .tau, .tau, .tau,
   .setReadCB (some r1), .tau, .tau, .retBuf (.room 1),
   -- in `readDataAvailable` of the first callback
   .setReadCB (some r2), .tau, .ret, .ret,
   .tau, .ret, .tau, .ret,
   .arrive [6], .tau, .tau, .ret, .tau,
   .error (.eof 0) true, .tau, .ret, .tau, .tau, .ret, .tau, .tau]

theorem reads_legal : legal {} reads = true := by decide +kernel

example : (execAll {} reads).log =
    [.arrive [1, 2, 3, 4, 5], .install (some r1), .gave r1 [1, 2], .install (some r2), .gaveRet,
     .gaveBuf r2 [3, 4, 5], .arrive [6], .gaveBuf r2 [6], .error (.eof 0), .rdEof r2] := by
  decide +kernel

example : given (execAll {} reads).log <+: arrived (execAll {} reads).log :=
  C72_stream (run_new reads_legal) (by
    have e : (execAll {} reads).log =
      [.arrive [1, 2, 3, 4, 5], .install (some r1), .gave r1 [1, 2], .install (some r2), .gaveRet,
       .gaveBuf r2 [3, 4, 5], .arrive [6], .gaveBuf r2 [6], .error (.eof 0), .rdEof r2] := by
      decide +kernel
    rw [e]
    simp [Smooth])

example : ∃ ops s, Run ops s ∧ s.stack = [] ∧ Smooth s.log ∧ s.readCb = some r1 :=
  ⟨_, _, run_new (ops := [.setReadCB (some r1), .tau, .ret]) (by decide +kernel),
    by decide +kernel, by
      have e : (execAll {} [.setReadCB (some r1), .tau, .ret]).log = [.install (some r1)] := by
        decide +kernel
      rw [e]; simp [Smooth], by decide +kernel⟩

/-- An error reported when nobody listens is kept, and delivered after the bytes. -/
def late : List Op :=
  [.arrive [1, 2], .tau, .tau, .tau, .error (.eof 0) true, .tau, .tau, .tau, .ret, .tau, .tau,
   .setReadCB (some r2), .tau, .tau, .ret, .tau, .tau, .ret, .tau, .tau, .ret, .tau, .tau]

theorem late_legal : legal {} late = true := by decide +kernel

example : (execAll {} late).stack = [] ∧ (execAll {} late).log =
    [.arrive [1, 2], .error (.eof 0), .install (some r2), .gaveBuf r2 [1, 2], .rdEof r2] := by
  decide +kernel

/-- The reference reader lets the end of the stream overtake bytes while a `readDataAvailable` is
running, because the code does: a callback that re-installs itself while being fed is told `readEOF`
although a byte is left, and that byte waits for the next callback. -/
def overtaken : List Op :=
  [.arrive [1, 2], .tau, .tau, .tau, .error (.eof 0) true, .tau, .tau, .tau, .ret, .tau, .tau,
   .setReadCB (some r1), .tau, .tau, .retBuf (.room 0),
   .setReadCB (some r1), .tau, .tau, .ret, .tau, .tau, .ret, .tau, .tau,
   .ret, .tau]

theorem overtaken_legal : legal {} overtaken = true := by decide +kernel

theorem eof_overtakes : Run overtaken (execAll {} overtaken) ∧ (execAll {} overtaken).log =
    [.arrive [1, 2], .error (.eof 0), .install (some r1), .gave r1 [1], .install (some r1),
     .rdEof r1, .gaveRet] ∧ (execAll {} overtaken).appBuf = some [2] :=
  ⟨run_new overtaken_legal, by decide +kernel, by decide +kernel⟩

/-- Why the contract forbids destroying the socket inside the application's own `setReadCB`: that
function takes no `DestructorGuard`, so it goes on with a destroyed object. -/
theorem setReadCB_unguarded :
    (execAll {} [.arrive [1], .tau, .tau, .tau, .setReadCB (some r2), .tau, .tau,
      -- in `readBufferAvailable`
      .destroy, .ret, .tau, .ret, .tau]).crash = true := by decide +kernel

/-- Why it requires that no data arrives while a read callback is being fed: the newer bytes would
overtake the older ones. -/
theorem reentrant_arrival_reorders :
    given (execAll {} [.setReadCB (some r1), .tau, .ret, .arrive [1, 2], .tau, .tau,
      .retBuf (.room 0), .arrive [3], .tau, .tau, .retBuf (.room 0), .ret, .tau, .tau, .ret, .tau,
      .retBuf (.room 0)]).log = [1, 3, 2] := by decide +kernel

end Fizz.Async.Example

import Verif.Sock.TimerProps
import Verif.Sock.Example

/-!
# The handshake timer: concrete runs
-/

namespace Fizz.Sock.TimerExample

open Fizz.Sock Fizz.Sock.Spec Fizz.Sock.Example

/-- Run a list of operations. -/
def trun (cfg : Cfg) : TSt → List TOp → Option TSt
  | t, [] => some t
  | t, o :: os => (tstep cfg t o).bind fun t' => trun cfg t' os

theorem reach_trun {cfg} : ∀ {os t t'}, TReach cfg t → trun cfg t os = some t' → TReach cfg t'
  | [], t, t', h, e => by cases Option.some.inj e; exact h
  | o :: os, t, t', h, e => by
    simp only [trun] at e
    cases hs : tstep cfg t o with
    | none => rw [hs] at e; cases e
    | some u => rw [hs] at e; exact reach_trun (h.step hs) e

def start : TSt := { s := { tGood := true, tErr := false, tConn := false } }

def view (t : TSt) : Bool × List Frame × List TObs := (t.armed, t.s.stack, t.log)

theorem reach_view {cfg os a st l} (h : (trun cfg start os).map view = some (a, st, l)) :
    ∃ t, TReach cfg t ∧ t.armed = a ∧ t.s.stack = st ∧ t.log = l := by
  cases hr : trun cfg start os with
  | none => rw [hr] at h; cases h
  | some t =>
    rw [hr] at h
    have := Option.some.inj h
    exact ⟨t, reach_trun (.init true false false) hr, congrArg (·.1) this, congrArg (·.2.1) this, congrArg (·.2.2) this⟩

/-- The rest of an error, with nothing queued and a callback to call. -/
def drain : List TOp :=
  [.other .tau, .other .ret, .other .tau, .other .tau, .other .tau, .other .tau, .other .tau, .other .tau, .other .ret]

/-- The ClientHello is sent, nothing comes back. -/
def waiting : List TOp := [.connect true false 500, .other (.visit .other), .other .ret, .other .done, .other .stop]

/-- C105_pending's hypotheses: at rest, undecided. -/
example : ∃ t, TReach plain t ∧ t.armed = true ∧ t.s.stack = [] ∧ t.log = [.obs (.connect true), .started] :=
  reach_view (os := waiting) (by decide +kernel)

/-- The limit passes: the callback hears of it. -/
example : ∃ t, TReach plain t ∧ t.armed = false ∧ t.s.stack = [] ∧
    t.log = [.obs (.connect true), .started, .fired, .obs .error, .obs .hsErr, .obs .errorDone] :=
  reach_view (os := waiting ++ [.expire] ++ drain) (by decide +kernel)

/-- A handshake that completes in time: the timer is off, and cannot expire. -/
def quick : List TOp :=
  [.connect true false 500, .other (.visit (.success true p p)), .other .tau, .other .ret, .other .tau, .other .done, .other .stop]

example : ∃ t, TReach plain t ∧ t.armed = false ∧ t.s.stack = [] ∧
    t.log = [.obs (.connect true), .started, .obs (.success true p p), .obs .hsOk] :=
  reach_view (os := quick) (by decide +kernel)

example : (trun plain start (quick ++ [.expire])).isNone = true := by decide +kernel

/-- No limit, no timer. -/
example : (trun plain start ([.connect true false 0, .expire])).isNone = true := by decide +kernel

/-- On a bad transport `connect` without an address starts no timer. -/
example : ((trun plain { s := { tGood := false } } [.connect true false 500]).map fun t => (t.armed, t.log)) =
    some (false, [.obs (.connect true), .obs .error]) := by decide +kernel

/-- After early success the callback is used up, so an error does not cancel the timer: it is still
scheduled once the connection is dead, and when it expires the error is delivered a second time. -/
def lingers : List TOp :=
  [.connect true false 500, .other (.visit (.earlyOk 4)), .other .ret, .other .done, .other .stop, .other .transportError,
   .other .tau, .other .tau, .other .tau, .other .tau, .other .tau, .other .tau, .other .tau, .other .ret]

example : ∃ t, TReach client t ∧ t.armed = true ∧ t.s.stack = [] ∧
    t.log = [.obs (.connect true), .started, .obs (.earlyOk 4), .obs .hsOk, .obs .error, .obs .errorDone] :=
  reach_view (os := lingers) (by decide +kernel)

example : ((trun client start (lingers ++ [.expire])).map (·.log)) =
    some [.obs (.connect true), .started, .obs (.earlyOk 4), .obs .hsOk, .obs .error, .obs .errorDone, .fired, .obs .error] := by
  decide +kernel

end Fizz.Sock.TimerExample

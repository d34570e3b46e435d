import Verif.Conn.Model

/-!
# What a history says — the vocabulary of C24 and C25

These read a history (a list of observable steps) without looking at the driver.
-/

namespace Fizz.Conn.Spec
open Fizz.Conn
variable {A : Type}

/-- The application events submitted, in order. -/
def submitted : List (Entry A) → List AppEv :=
  List.filterMap fun | .submit e => some e | _ => none

/-- The application events handed to the state machine, in order. -/
def handed : List (Entry A) → List AppEv :=
  List.filterMap fun | .start (.app e) => some e | _ => none

/-- The application events discarded by `moveToErrorState`, in order. -/
def dropped : List (Entry A) → List AppEv :=
  List.filterMap fun | .drop e => some e | _ => none

/-- The tokens for which the error callback was invoked, in order. -/
def failedTokens : List (Entry A) → List Nat :=
  List.filterMap fun | .failed t => some t | _ => none

/-- The actions visited, in order. -/
def visited : List (Entry A) → List A :=
  List.filterMap fun | .act a => some a | _ => none

/-- Is the connection paused: was `pause` the last of `pause`/`resume`? -/
def paused (L : List (Entry A)) : Bool :=
  L.foldl (fun b e => match e with | .pause => true | .resume => false | _ => b) false

/-- May there be unprocessed transport data: was `newTransportData` the last of
`newTransportData`/`waitForData`? -/
def dataAvailable (L : List (Entry A)) : Bool :=
  L.foldl (fun b e => match e with | .data => true | .wait => false | _ => b) false

/-- Was `moveToErrorState` called? -/
def errored (L : List (Entry A)) : Bool :=
  L.foldl (fun b e => match e with | .moveErr => true | _ => b) false

/-- Is an event still being worked on: did the state machine start without all its actions having
been visited yet? -/
def busy (L : List (Entry A)) : Bool :=
  L.foldl (fun b e => match e with | .start _ => true | .done => false | _ => b) false

/-- The protocol state after the visited actions. -/
def stateAfter (M : Machine) (s0 : M.S) (L : List (Entry M.A)) : M.S :=
  (visited L).foldl (fun s a => M.apply a s) s0

/-- Add an action to the most recent block. -/
def addAct (a : A) : List (Trig × List A) → List (Trig × List A)
  | [] => []
  | (t, as) :: older => (t, as ++ [a]) :: older

/-- The events worked on, most recent first, each with the actions visited for it. -/
def blocks (L : List (Entry A)) : List (Trig × List A) :=
  L.foldl (fun bs e => match e with
    | .start t => (t, []) :: bs
    | .act a => addAct a bs
    | _ => bs) []

/-- A finished execution of a state machine, most recent event first, ending in a state: application
events and socket data are only processed in a state that is not terminal, and all actions of each
event are applied in order.  `proc s t o` says that the machine may answer `o` to `t` in state
`s`. -/
inductive Exec (M : Machine) (proc : M.S → Trig → Outcome M.A → Prop) (s0 : M.S) :
    List (Trig × List M.A) → M.S → Prop where
  | nil : Exec M proc s0 [] s0
  | step {bs s t o} : Exec M proc s0 bs s →
      (t = .sock ∨ (∃ e, t = .app e) → M.terminal s = false) →
      proc s t o →
      Exec M proc s0 ((t, o.acts) :: bs) (o.acts.foldl (fun s a => M.apply a s) s)

/-- An execution of which the most recent event may still have actions to be applied. -/
def ExecPrefix (M : Machine) (proc : M.S → Trig → Outcome M.A → Prop) (s0 : M.S)
    (bs : List (Trig × List M.A)) : Prop :=
  bs = [] ∨ ∃ t as older s o, bs = (t, as) :: older ∧ Exec M proc s0 older s ∧
    (t = .sock ∨ (∃ e, t = .app e) → M.terminal s = false) ∧ proc s t o ∧ as <+: o.acts

end Fizz.Conn.Spec

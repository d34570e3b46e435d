import Verif.Async.Model
import Verif.KeyLog.Model

/-!
# C106: the secret callback

A layer over `Verif/Async/Model`: which secret callback is installed (`secretCallback_`,
`fizz/protocol/AsyncFizzBase.h:299-305,655`), and the `SecretAvailable` actions of the state machine
(`fizz/server/AsyncFizzServer-inl.h:407-418`, `fizz/client/AsyncFizzClient-inl.h:700-712`), which call
`AsyncFizzBase::secretAvailable`.  The state machine runs only while the class is not: a secret may come
whenever the outside is in control.  Not modelled: that a callback is a pointer to something that may
have been destroyed.
-/

namespace Fizz.Async.Secrets

open Fizz.Async Fizz.KeyLog Fizz.Text

/-- What can be seen. -/
inductive Seen where
  /-- `setSecretCallback` is called; `none`: with a null pointer -/
  | set (c : Option Nat)
  /-- the derived class reports an error (`deliverError`) -/
  | error (ex : Ex)
  /-- `deliverError` has told the read callback and the write callbacks, and goes on to the secret
  callback -/
  | failed
  /-- the state machine announces a secret -/
  | secret (t : SecretType) (b : Bytes)
  /-- a function of callback `c` is called with a secret -/
  | told (c : Nat) (k : Callback) (b : Bytes)
  deriving DecidableEq

/-- The object, the secret callback and the history. -/
structure W where
  s : St := {}
  cb : Option Nat := none
  log : List Seen := []

/-- What can happen. -/
inductive Act where
  /-- anything of `Verif/Async/Model` but `setSecretCallback` -/
  | base (o : Op)
  | set (c : Option Nat)
  | secret (t : SecretType) (b : Bytes)

/-- What a step of the class shows here: an error is reported; the program point `err3` of
`deliverError` (`fizz/protocol/AsyncFizzBase.cpp:343-350`) is reached. -/
def marks (s : St) : Op → List Seen
  | .error ex _ => [.error ex]
  | .tau =>
    match s.stack with
    | .err3 _ _ :: _ => [.failed]
    | _ => []
  | _ => []

/-- When a step can happen. -/
def W.allowed (w : W) : Act → Bool
  | .base (.setSecretCb _) => false
  | .base o => Async.allowed w.s o
  | .set c => Async.allowed w.s (.setSecretCb c.isSome)
  | .secret _ _ => w.s.outside && w.s.alive

/-- The calls made for a secret: `secretAvailable` (`fizz/protocol/AsyncFizzBase.cpp:609-615`). -/
def calls (cb : Option Nat) (t : SecretType) (b : Bytes) : List Seen :=
  match cb with
  | some c => (secretAvailable true t b).map fun p => .told c p.1 p.2
  | none => []

/-- One step.  `secretCallback_` is null when `secretCb` of the model is false. -/
def W.step (w : W) : Act → W
  | .base o =>
    let s := Async.step w.s o
    { s := s, cb := if s.secretCb then w.cb else none, log := w.log ++ marks w.s o }
  | .set c => { s := Async.step w.s (.setSecretCb c.isSome), cb := c, log := w.log ++ [.set c] }
  | .secret t b => { w with log := w.log ++ .secret t b :: calls w.cb t b }

/-- Reached from a new object. -/
inductive Reach : W → Prop where
  | new : Reach {}
  | step {w} (a : Act) : Reach w → w.allowed a = true → Reach (w.step a)

namespace Spec

/-- The callback that secrets go to: the last one set, until a failure has been dealt with. -/
def installed (log : List Seen) : Option Nat :=
  log.foldl (fun c o => match o with
    | .set c' => c'
    | .failed => none
    | _ => c) none

end Spec

end Fizz.Async.Secrets

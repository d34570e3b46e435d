import Verif.Sock.Model

/-!
# The client's handshake timer

`AsyncFizzClient::connect` may be given a time limit for the handshake.  This is a layer over
`Verif/Sock/Model`: each step of the socket is annotated with what it does to `handshakeTimeout_`
(`fizz/protocol/AsyncFizzBase.h:37-52`, `653`), a one-shot `folly::AsyncTimeout`, and one step is
added: the timer expires.  `AsyncFizzServer` starts no timer.

Not modelled: time itself (a running timer may expire whenever the outside is in control, or never),
`attachTimeoutManager`, `detachTimeoutManager`, the destructor of `AsyncTimeout`.
-/

namespace Fizz.Sock

/-- What can be seen, with the timer. -/
inductive TObs where
  | obs (o : Obs)
  /-- `startHandshakeTimeout` was called -/
  | started
  /-- the timer expired: `handshakeTimeoutExpired` was called -/
  | fired
  deriving DecidableEq

/-- A socket, whether `handshakeTimeout_` is scheduled, and the history. -/
structure TSt where
  s : St
  armed : Bool := false
  log : List TObs := []

/-- What can happen. -/
inductive TOp where
  /-- `connect` with a time limit in milliseconds, 0 for none -/
  | connect (hasCb viaAddr : Bool) (timeout : Nat)
  /-- anything else on the socket -/
  | other (o : Op)
  /-- the timer expires -/
  | expire

/-- Does `connect` start the timer (`AsyncFizzClient-inl.h:82-98`, `137-139`)?  Without an address,
only on a transport that is good. -/
def starts (cfg : Cfg) (s : St) (viaAddr : Bool) (timeout : Nat) : Bool :=
  !cfg.server && decide (timeout ≠ 0) && (viaAddr || s.tGood)

/-- Does this step cancel the timer?  `ReportHandshakeSuccess` does (`AsyncFizzClient-inl.h:578-580`);
`deliverHandshakeError` does when `callback_` is still set (`455-458`). -/
def stops (cfg : Cfg) (s : St) : Op → Bool
  | .visit (.success _ _ _) => !cfg.server
  | .tau =>
    match s.stack with
    | .err .hs :: _ => s.cb.isSome
    | _ => false
  | _ => false

/-- What a step added to the history. -/
def news (s s' : St) : List TObs := (s'.log.drop s.log.length).map .obs

/-- One step.  `expire` is `handshakeTimeoutExpired` (`fizz/protocol/AsyncFizzBase.cpp:496-500`): it calls
`transportError`. -/
def tstep (cfg : Cfg) (t : TSt) : TOp → Option TSt
  | .connect c v ms =>
    (step cfg t.s (.connect c v)).map fun s' =>
      { s := s', armed := t.armed || starts cfg t.s v ms,
        log := t.log ++ news t.s s' ++ (if starts cfg t.s v ms then [.started] else []) }
  | .other (.connect _ _) => none
  | .other o =>
    (step cfg t.s o).map fun s' =>
      { s := s', armed := t.armed && !stops cfg t.s o, log := t.log ++ news t.s s' }
  | .expire =>
    if t.armed then
      (step cfg t.s .transportError).map fun s' =>
        { s := s', armed := false, log := t.log ++ .fired :: news t.s s' }
    else none

/-- Reached from a fresh socket. -/
inductive TReach (cfg : Cfg) : TSt → Prop where
  | init (g e c : Bool) : TReach cfg { s := { tGood := g, tErr := e, tConn := c } }
  | step {t t' o} : TReach cfg t → tstep cfg t o = some t' → TReach cfg t'

namespace Spec

/-- The history without the timer. -/
def base : List TObs → List Obs
  | [] => []
  | .obs o :: l => o :: base l
  | _ :: l => base l

end Spec

end Fizz.Sock

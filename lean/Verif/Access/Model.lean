import Verif.ClientSM.Trace

/-!
# What a client socket says about the connection — model of the accessors of
`fizz/client/AsyncFizzClient-inl.h` 181-218 and of `fizz/client/EarlyDataRejectionPolicy.cpp`

While early data is open (`earlyDataState_` is set) the accessors answer from the session that is being resumed
(`State::earlyDataParams()`), afterwards from the negotiated state.  The socket is modelled by what the accessors
read: the state of the state machine, whether `earlyDataState_` is set, and whether the socket has failed because
early data was turned down.  It visits the actions the state machine returns, one by one; the application may ask
between any two of them.

Not modelled here: everything else a visit does (writes, callbacks: `Verif/Sock`, `Verif/Async`).
-/

namespace Fizz.Access
open Fizz.ClientSM
open Fizz.Server (deref)

/-- `EarlyDataRejectionPolicy` (`fizz/client/EarlyDataRejectionPolicy.h:16-33`). -/
inductive Policy where
  | fatalConnectionError
  | automaticResend
  deriving DecidableEq, Repr

/-- What does not change: the policy, and `Cert::getIdentity()`. -/
structure Setup where
  policy : Policy
  identity : Cert → Bytes

/-- The members that the accessors read. -/
structure Sock where
  state : St := {}
  /-- `earlyDataState_.hasValue()` -/
  early : Bool := false
  /-- The socket was failed with EARLY_DATA_REJECTED. -/
  rejected : Bool := false

/-- `certIdentityMatch` (`fizz/client/EarlyDataRejectionPolicy.cpp:14-20`): null pointers are compared as
pointers. -/
def certIdentityMatch (e : Setup) (a b : Option Cert) : Bool :=
  match a, b with
  | some x, some y => e.identity x == e.identity y
  | none, none => true
  | _, _ => false

/-- `earlyParametersMatch` (`fizz/client/EarlyDataRejectionPolicy.cpp:22-56`). -/
def earlyParametersMatch (e : Setup) (s : St) : Res Bool := do
  let version ← deref s.version
  let p ← deref s.earlyDataParams
  if version ≠ p.version ∧ (version ≠ 0x0304 ∨ p.version ≠ 0xfb1a) then pure false
  else do
    let cipher ← deref s.cipher
    if cipher ≠ p.cipher then pure false
    else if s.alpn ≠ p.alpn then pure false
    else if !certIdentityMatch e s.serverCert p.serverCert then pure false
    else if !certIdentityMatch e s.clientCert p.clientCert then pure false
    else pure true

/-- `handleEarlyReject` (`fizz/client/AsyncFizzClient-inl.h:540-568`), without the resending: whether it returns an
exception. -/
def handleEarlyReject (e : Setup) (s : St) : Res Bool :=
  match e.policy with
  | .fatalConnectionError => pure true
  | .automaticResend => do
    let same ← earlyParametersMatch e s
    pure !same

/-- The early data part of the visit of `ReportHandshakeSuccess` (`fizz/client/AsyncFizzClient-inl.h:598-618`).
After a rejection the visit returns early and `earlyDataState_` stays. -/
def onSuccess (e : Setup) (accepted : Bool) (k : Sock) : Res Sock :=
  if k.early then do
    if accepted then pure { k with early := false }
    else do
      let failed ← handleEarlyReject e k.state
      if failed then pure { k with rejected := true } else pure { k with early := false }
  else pure k

/-- `AsyncFizzClientT::ActionMoveVisitor`: `ReportEarlyHandshakeSuccess`
(`fizz/client/AsyncFizzClient-inl.h:513-517`), `ReportHandshakeSuccess` (577-648), `MutateState` (681-684). -/
def visit (e : Setup) (k : Sock) : Action → Res Sock
  | .mutate f => pure { k with state := f k.state }
  | .reportEarlyHandshakeSuccess _ => pure { k with early := true }
  | .reportHandshakeSuccess accepted => onSuccess e accepted k
  | _ => pure k

/-- Visiting actions in order. -/
def visitAll (e : Setup) : Sock → List Action → Res Sock
  | k, [] => .ok k
  | k, a :: as =>
    match visit e k a with
    | .ok k => visitAll e k as
    | .error f => .error f

/-- `getPeerCertificate` (`fizz/client/AsyncFizzClient-inl.h:182-186`). -/
def getPeerCertificate (k : Sock) : Res (Option Cert) :=
  if k.early then do
    let p ← deref k.state.earlyDataParams
    pure p.serverCert
  else pure k.state.serverCert

/-- `getSelfCertificate` (`fizz/client/AsyncFizzClient-inl.h:188-192`). -/
def getSelfCertificate (k : Sock) : Res (Option Cert) :=
  if k.early then do
    let p ← deref k.state.earlyDataParams
    pure p.clientCert
  else pure k.state.clientCert

/-- `getApplicationProtocol` (`fizz/client/AsyncFizzClient-inl.h:206-222`): empty if there is none. -/
def getApplicationProtocol (k : Sock) : Res Bytes :=
  if k.early then do
    let p ← deref k.state.earlyDataParams
    pure (p.alpn.getD [])
  else pure (k.state.alpn.getD [])

/-- `isReplaySafe` (`fizz/client/AsyncFizzClient-inl.h:194-197`). -/
def isReplaySafe (k : Sock) : Bool := !k.early

end Fizz.Access

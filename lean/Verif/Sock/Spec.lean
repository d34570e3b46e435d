import Verif.Sock.Model

/-!
# What the sockets promise, in terms of the observable history
-/

namespace Fizz.Sock.Spec

open Fizz.Sock

/-- The bytes of one accepted write. -/
def writtenBy : Obs → Bytes
  | .write _ d _ true => d
  | _ => []

/-- Everything the application wrote while the socket was good, in order. -/
def written (log : List Obs) : Bytes := log.flatMap writtenBy

/-- The early application data of one entry. -/
def earlyBy : Obs → Bytes
  | .submit (.early _ d) => d
  | _ => []

/-- The early application data given to the state machine, in order. -/
def early (log : List Obs) : Bytes := log.flatMap earlyBy

/-- The application data of one entry. -/
def appBy : Obs → Bytes
  | .submit (.app _ d) => d
  | _ => []

/-- The (non-early) application data given to the state machine, in order. -/
def app (log : List Obs) : Bytes := log.flatMap appBy

/-- The server turned down early data, or none was offered. -/
def Rejected (log : List Obs) : Prop := ∃ now old, .success false now old ∈ log

/-- Handshake complete. -/
def Complete (log : List Obs) : Prop := ∃ a now old, .success a now old ∈ log

/-- Early data was started. -/
def EarlyStarted (log : List Obs) : Prop := ∃ m, .earlyOk m ∈ log

/-- What the connection has given to the state machine for the peer to see: early data counts unless
the server turned it down. -/
def Delivered (log : List Obs) (bytes : Bytes) : Prop :=
  (Rejected log → bytes = app log) ∧ (¬ Rejected log → bytes = early log ++ app log)

/-- Every accepted write came after the handshake callback was due: the application of a client that
enables early data waits to be told. -/
def WritesWait (log : List Obs) : Prop :=
  ∀ pre i d c suf, log = pre ++ .write i d c true :: suf → EarlyStarted pre ∨ Complete pre

/-- Rejected early data may be sent again: the policy says so, and nothing the application could have
relied on has changed (RFC 8446 §4.2.10: "…only if the same parameters…"). -/
structure SameParams (now old : Params) : Prop where
  version : now.version = old.version ∨ (now.version = 0x0304 ∧ old.version = 0xfb1a)
  cipher : now.cipher = old.cipher
  alpn : now.alpn = old.alpn
  server : now.serverId = old.serverId
  client : now.clientId = old.clientId

/-- One call of the handshake callback. -/
def isHs : Obs → Bool
  | .hsOk => true
  | .hsErr => true
  | .hsFallback => true
  | _ => false

/-- How often the handshake callback was called. -/
def hsCalls (log : List Obs) : Nat := log.countP isHs

/-- Write `i` was submitted with a callback. -/
def isWrite (i : Nat) : Obs → Bool
  | .write j _ true _ => j == i
  | _ => false

/-- The `writeErr` of write `i` was called by this layer. -/
def isErr (i : Nat) : Obs → Bool
  | .wErr j => j == i
  | _ => false

/-- The state machine took the event that carries the callback of write `i`. -/
def isTake (i : Nat) : Obs → Bool
  | .take e => e.token == some i
  | _ => false

/-- Bytes of application data given to the state machine since the last key update. -/
def sinceKey : List Obs → Nat → Nat
  | [], n => n
  | .submit (.app _ d) :: l, n => sinceKey l (n + d.length)
  | .submit (.keyUpdate _) :: l, _ => sinceKey l 0
  | _ :: l, n => sinceKey l n

/-- Key updates asked for by the byte count. -/
def autoKeys (log : List Obs) : Nat := log.countP (· == .submit (.keyUpdate true))

end Fizz.Sock.Spec

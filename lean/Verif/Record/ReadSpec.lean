import Verif.Record.ReadModel

/-!
# Vocabulary for the reading properties (specification side)
-/

namespace Fizz.Record
open Fizz.Codec

/-! ### A receiving endpoint driven by a transport -/

/-- The transport delivers bytes, or the endpoint asks for the next event. -/
inductive Op where
  | feed (data : Bytes)
  | poll

/-- All bytes delivered by a schedule. -/
def delivered : List Op → Bytes
  | [] => []
  | .feed d :: ops => d ++ delivered ops
  | .poll :: ops => delivered ops

/-- A receiving endpoint: live with a reader, buffered socket bytes and the events so far; or
finished by close_notify (`none`) or by an error. -/
inductive Session where
  | live (r : Reader) (buf : Bytes) (events : List Event)
  | dead (events : List Event) (why : Option Failure)

/-- The user of the record layer, who may install another read layer (or change its settings) in
reaction to the events received so far; `readEvent` is called again only afterwards, as in
`fizz/protocol/FizzBase-inl.h`. -/
abbrev React := List Event → Reader → Reader

/-- One step of an endpoint. -/
def Session.step (react : React) : Session → Op → Session
  | .live r buf evs, .feed d => .live r (buf ++ d) evs
  | .live r buf evs, .poll =>
    match readEvent r buf with
    | .needMore _ r' rest => .live r' rest evs
    | .again r' rest => .live r' rest evs
    | .fail f => .dead evs (some f)
    | .done (.closeNotify ign) _ _ => .dead (evs ++ [.closeNotify ign]) none
    | .done ev r' rest => .live (react (evs ++ [ev]) r') rest (evs ++ [ev])
  | .dead evs w, _ => .dead evs w

/-- A schedule. -/
def Session.exec (react : React) (s : Session) (ops : List Op) : Session :=
  ops.foldl (Session.step react) s

/-- Events as the peer's protocol sees them: the payload of close_notify is whatever happened to be
buffered behind it, and is ignored. -/
def Event.visible : Event → Event
  | .closeNotify _ => .closeNotify []
  | e => e

/-- A failure without its human readable message. -/
def eraseMsg : Failure → Failure
  | .err _ a c => .err "" a c
  | f => f

/-- Failures that lead to the same alert: equal up to the human readable message. -/
def sameFailure (a b : Option Failure) : Prop := a.map eraseMsg = b.map eraseMsg

/-- Same events delivered, same fate. -/
def Session.Same : Session → Session → Prop
  | .live _ _ e, .live _ _ e' => e = e'
  | .dead e w, .dead e' w' => e.map Event.visible = e'.map Event.visible ∧ sameFailure w w'
  | _, _ => False

/-- Nothing more can be delivered from the bytes received so far. -/
def Session.Quiescent (react : React) (s : Session) : Prop :=
  Session.Same s (s.step react .poll)

/-! ### Records and handshake framing -/

/-- `ms` are the next records the layer hands out. -/
inductive Reads : Layer → Bytes → List TLSMessage → Layer → Bytes → Prop
  | nil (l b) : Reads l b [] l b
  | cons {l b m l1 b1 ms l2 b2} : l.read b = .done m l1 b1 → Reads l1 b1 ms l2 b2 →
      Reads l b (m :: ms) l2 b2

/-- `orig` is one framed handshake message: type, 24-bit length, that many bytes, which parse as
`m`. -/
def Framed (orig : Bytes) (m : HsMsg) : Prop :=
  ∃ t a b c body, orig = t :: a :: b :: c :: body ∧ body.length = be24 a b c ∧
    parseHandshake t body = .ok m

/-- Successive successful calls of `readEvent`. -/
inductive Polls : Reader → Bytes → List Event → Reader → Bytes → Prop
  | nil (r b) : Polls r b [] r b
  | cons {r b e r1 b1 es r2 b2} : readEvent r b = .done e r1 b1 → Polls r1 b1 es r2 b2 →
      Polls r b (e :: es) r2 b2

/-- Records an encrypted reader in state `st` drops: the one-byte change_cipher_spec and, in skip
mode only, records its AEAD rejects for the current sequence number. -/
inductive Dropped (st : EncRd) : Bytes → Prop
  | nil : Dropped st []
  | ccs {h : Header} {tail} : h.t = 20 → h.length = 1 → Dropped st tail →
      Dropped st (h.bytes ++ [1] ++ tail)
  | rejected {h : Header} {ct tail a} : h.t ≠ 20 → ct.length = h.length → st.skipFailed = true →
      st.aead = some a → a.tryDecrypt (if st.useAD then some h.bytes else none) st.seq ct = .ok none →
      Dropped st tail → Dropped st (h.bytes ++ ct ++ tail)

end Fizz.Record

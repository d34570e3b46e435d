import Verif.Record.ReadProps

/-!
# Record-aligned reading — model of the transport side of `fizz/protocol/AsyncFizzBase.{h,cpp}`

`setHandshakeRecordAlignedReads` promises that at the end of the handshake "the next byte in the
underlying transport's buffer is guaranteed to be aligned on a record boundary"; kernel TLS relies on
it.  The promise is kept (or not) by three parts together: `getReadBuffer`, which bounds what the
transport may read by `readSizeHint_`; `WaitForData`, which sets `readSizeHint_` to the size hint of the
record layer; and the record layer, which computes it (`Verif/Record`).  This file puts them together.

Not modelled here: vectored reads (`getReadBuffers`) and zero-copy reads, which do not look at the hint
for the data they take.
-/

namespace Fizz.Async.Aligned
open Fizz.Record

/-- The options of the wrapper (`AsyncFizzBase.h:140,150,338-378,644-647`). -/
structure Opts where
  /-- `alignedRecordReads_` -/
  alignedRecords : Bool := false
  /-- `handshakeAligned_` -/
  handshakeAligned : Bool := false
  /-- `preallocFromRecordHint_` -/
  preallocFromHint : Bool := false
  /-- `readBufferMinReadSize` -/
  minRead : Nat := 1460
  /-- `readBufferAllocationSize` -/
  alloc : Nat := 4000

/-- `setHandshakeRecordAlignedReads` (`AsyncFizzBase.h:338-345`); the second component is
`readSizeHint_`. -/
def setHandshakeAligned (o : Opts) (hint : Nat) (flag : Bool) : Opts × Nat :=
  ({ o with handshakeAligned := flag }, if flag then 5 else hint)

/-- A buffer offered to the transport: `space` bytes are reserved, the transport may write `len`. -/
structure Offer where
  space : Nat
  len : Nat

/-- `readLimit` of `getReadBuffer` (`AsyncFizzBase.cpp:366-368`). -/
def readLimit (hint chain : Nat) : Nat :=
  let readRemaining := max hint chain - chain
  if 0 < readRemaining then readRemaining else hint

/-- `getReadBuffer` (`AsyncFizzBase.cpp:359-406`).  `room min new` is the size of the space that
`IOBufQueue::preallocate(min, new)` reserves, `hint` is `readSizeHint_`, `chain` the length of what is
buffered. -/
def getReadBuffer (o : Opts) (room : Nat → Nat → Nat) (hint chain : Nat) : Offer :=
  let limit := readLimit hint chain
  if o.alignedRecords ∧ 0 < limit then
    let space := room limit limit
    ⟨space, min space limit⟩
  else
    let allocSize := if o.preallocFromHint then max o.alloc hint else o.alloc
    let space := room o.minRead allocSize
    ⟨space, if o.handshakeAligned then min o.minRead hint else space⟩

/-- The connection as far as reading is concerned: the record layer with its buffer and the events it
delivered, `readSizeHint_`, whether the last thing that happened was `WaitForData`, and (for the
specification) every byte taken from the transport. -/
structure St where
  sess : Session
  hint : Nat
  waiting : Bool
  got : Bytes

/-- What was read but not yet consumed (`transportReadBuf_`). -/
def St.buf (s : St) : Bytes :=
  match s.sess with
  | .live _ b _ => b
  | .dead _ _ => []

/-- A read of the transport under options `o`, or one turn of the event loop. -/
inductive Op where
  | recv (o : Opts) (room : Nat → Nat → Nat) (d : Bytes)
  | poll

/-- `readDataAvailable` (`AsyncFizzBase.cpp:417-429`) and one turn of `processPendingEvents`
(`FizzBase-inl.h:174-226`): read an event and react to it, or `WaitForData`
(`ServerProtocol.cpp:197`, `ClientProtocol.cpp:234`, `AsyncFizzServer-inl.h:374`,
`AsyncFizzClient-inl.h:674`). -/
def St.step (react : React) (s : St) : Op → St
  | .recv _ _ d => { s with sess := s.sess.step react (.feed d), waiting := false, got := s.got ++ d }
  | .poll =>
    match s.sess with
    | .dead _ _ => s
    | .live r buf _ =>
      match readEvent r buf with
      | .needMore h _ _ => { s with sess := s.sess.step react .poll, hint := h, waiting := true }
      | _ => { s with sess := s.sess.step react .poll }

/-- What may happen.  The transport delivers no more than it was offered.  The loop reads only when data
may be available.  With `sync` the loop always runs until `WaitForData` before the transport is read
again; without it, processing of an event may be suspended (a future) and the transport is read
meanwhile. -/
def Allowed (sync : Bool) (s : St) : Op → Prop
  | .recv o room d => d.length ≤ (getReadBuffer o room s.hint s.buf.length).len ∧
      (s.waiting = true ∨ sync = false)
  | .poll => s.waiting = false

/-- Executions in which every read of the transport is made with record alignment turned on. -/
inductive Exec (react : React) (sync : Bool) : St → List Op → St → Prop
  | nil (s) : Exec react sync s [] s
  | snoc {s ops s' op} : Exec react sync s ops s' → Allowed sync s' op →
      (∀ o room d, op = .recv o room d → o.alignedRecords = true ∨ o.handshakeAligned = true) →
      Exec react sync s (ops ++ [op]) (s'.step react op)

/-! ### Specification -/

/-- One whole record: a header and as many bytes as it says. -/
def IsRecord (b : Bytes) : Prop :=
  ∃ (hd : Header) (body : Bytes), b = hd.bytes ++ body ∧ body.length = hd.length

/-- A sequence of whole records. -/
def Records (b : Bytes) : Prop := ∃ rs : List Bytes, (∀ r ∈ rs, IsRecord r) ∧ b = rs.flatten

/-- At most one record: part of a header, or a header and no more than its body. -/
def AtMostOne (b : Bytes) : Prop :=
  b.length < 5 ∨ ∃ (hd : Header) (body : Bytes), b = hd.bytes ++ body ∧ body.length ≤ hd.length

end Fizz.Async.Aligned

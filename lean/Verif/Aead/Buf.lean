import Verif.Base

/-!
# Chains of buffers and cursors over them

What `fizz/crypto/aead/IOBufUtil.h` sees of `folly::IOBuf` and `folly::io::Cursor`: a chain is the
list of the contents of its buffers, a pointer into it is a buffer index and an offset, and a cursor
only ever moves forward.  Every read and write goes through `readAt`/`writeAt`, which are undefined
behaviour when they leave the buffer they start in; so "never writes past a buffer" is the statement
that no such outcome is reached.  (`folly` itself is not part of `/repo`: the cursor operations follow
`folly/io/Cursor.h`.)
-/

namespace Fizz.Aead

/-- A `folly::IOBuf` chain as the contents of its buffers, head first. -/
abbrev Chain := List Bytes

/-- Lengths of the buffers of a chain. -/
def lens (c : Chain) : List Nat := c.map List.length

/-- Reading `n` bytes at `buffer i + off` (`IOBuf::data()`). -/
def readAt (c : Chain) (i off n : Nat) : Res Bytes :=
  match c[i]? with
  | none => .error (.ub "no such buffer")
  | some b =>
    if off + n ≤ b.length then .ok ((b.drop off).take n) else .error (.ub "read past the buffer")

/-- Writing `d` at `buffer i + off` (`IOBuf::writableData()`).  Writing nothing touches no memory, so
any address will do. -/
def writeAt (c : Chain) (i off : Nat) (d : Bytes) : Res Chain :=
  match d with
  | [] => .ok c
  | _ =>
    match c[i]? with
    | none => .error (.ub "no such buffer")
    | some b =>
      if off + d.length ≤ b.length then
        .ok (c.set i (b.take off ++ d ++ b.drop (off + d.length)))
      else .error (.ub "write past the buffer")

/-- `folly::io::Cursor`/`RWPrivateCursor`: the current buffer and the position in it. -/
structure Cur where
  i : Nat
  o : Nat
  deriving DecidableEq, Repr

/-- `Cursor::length()`: bytes left in the current buffer. -/
def Cur.length (ls : List Nat) (c : Cur) : Nat := ls.getD c.i 0 - c.o

/-- `Cursor::tryAdvanceBuffer()`: to the start of the next buffer, or to the end of the last one. -/
def Cur.tryAdvance (ls : List Nat) (c : Cur) : Bool × Cur :=
  if c.i + 1 < ls.length then (true, ⟨c.i + 1, 0⟩) else (false, ⟨c.i, ls.getD c.i 0⟩)

/-- The loop of `Cursor::peekBytes()`: past empty buffers, as long as there is a next one. -/
def Cur.peekLoop (ls : List Nat) : Nat → Cur → Cur
  | 0, c => c
  | n+1, c =>
    if c.length ls = 0 then
      match c.tryAdvance ls with
      | (true, c') => Cur.peekLoop ls n c'
      | (false, c') => c'
    else c

/-- `Cursor::peekBytes()`: where the cursor stands afterwards (the range returned is the rest of the
buffer it stands in).  There are never more than `ls.length` buffers to advance over. -/
def Cur.peek (ls : List Nat) (c : Cur) : Cur := Cur.peekLoop ls ls.length c

/-- `Cursor::isAtEnd()`: nothing left here nor in any later buffer. -/
def Cur.isAtEnd (ls : List Nat) (c : Cur) : Bool :=
  c.length ls == 0 && (ls.drop (c.i + 1)).all (· == 0)

/-- The loop of `Cursor::skip(n)`: over as many buffers as needed; if the position reached is the end of
a buffer the cursor goes to the next one (`advanceBufferIfEmpty`).  `fuel` bounds the number of
buffers. -/
def Cur.skipLoop (ls : List Nat) : Nat → Cur → Nat → Res Cur
  | 0, _, _ => .error .outOfRange
  | fuel+1, c, n =>
    if c.length ls < n then
      match c.tryAdvance ls with
      | (true, c') => Cur.skipLoop ls fuel c' (n - c.length ls)
      | (false, _) => .error .outOfRange
    else
      let c' : Cur := ⟨c.i, c.o + n⟩
      if c'.length ls = 0 then .ok (c'.tryAdvance ls).2 else .ok c'

/-- `Cursor::skip(n)`. -/
def Cur.skip (ls : List Nat) (c : Cur) (n : Nat) : Res Cur := Cur.skipLoop ls (ls.length + 1) c n

/-- The loop of `RWCursor::push(buf, len)`: fills the current buffer, then goes on in the next; a
`std::out_of_range` when the chain is full.  `fuel` bounds the number of buffers. -/
def pushLoop : Nat → Chain → Cur → Bytes → Res (Chain × Cur)
  | 0, _, _, _ => .error .outOfRange
  | fuel+1, m, c, d =>
    let available := c.length (lens m)
    if d.length ≤ available then do
      let m ← writeAt m c.i c.o d
      .ok (m, ⟨c.i, c.o + d.length⟩)
    else do
      let m ← writeAt m c.i c.o (d.take available)
      match c.tryAdvance (lens m) with
      | (true, c') => pushLoop fuel m c' (d.drop available)
      | (false, _) => .error .outOfRange

/-- `RWCursor::push(buf, len)`; nothing happens for an empty range. -/
def push (m : Chain) (c : Cur) (d : Bytes) : Res (Chain × Cur) :=
  if d.length = 0 then .ok (m, c) else pushLoop (m.length + 1) m c d

end Fizz.Aead

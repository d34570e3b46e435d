import Verif.Base

/-!
# Codec primitives — model of `namespace detail` in `fizz/record/Types-inl.h`

A `folly::io::Cursor` is modelled by the bytes still to be read; a `folly::io::Appender` by the
bytes appended.  Every `Buf` is the concatenation of its chain; a null `Buf` is treated as the
code treats it (see the individual encoders).
-/

namespace Fizz.Codec

/-- A read through a cursor: consumes a prefix of the remaining bytes, or fails. -/
def Rd (α : Type) := Bytes → Res (α × Bytes)

instance : Monad Rd where
  pure a := fun inp => .ok (a, inp)
  bind m f := fun inp => match m inp with
    | .ok (a, rest) => f a rest
    | .error e => .error e

/-- Failing read. -/
def Rd.fail {α} (e : Failure) : Rd α := fun _ => .error e

/-- `Cursor::totalLength()`. -/
def remaining : Rd Nat := fun inp => .ok (inp.length, inp)

/-- `Cursor::pull(buf, n)` / `Cursor::clone(buf, n)` / `Cursor::readFixedString(n)`:
throws `std::out_of_range` when fewer than `n` bytes remain. -/
def pull (n : Nat) : Rd Bytes := fun inp =>
  if n ≤ inp.length then .ok (inp.take n, inp.drop n) else .error .outOfRange

/-- `Cursor::skip(n)`: as `pull`, dropping the bytes. -/
def skip (n : Nat) : Rd Unit := do let _ ← pull n; pure ()

/-- `Cursor::readBE<uintN>` for an `n`-byte integer; also `readBits24`
(`fizz/record/Types-inl.h:254-261`, 3 bytes). -/
def readBE (n : Nat) : Rd Nat := do
  let b ← pull n
  pure (beDec b)

/-- The length-prefix types: `uint8_t`, `uint16_t`, `uint32_t` and `detail::bits24`
(`fizz/record/Types-inl.h:18-20`). -/
inductive Width where
  | u8 | u16 | u24 | u32
  deriving DecidableEq, Repr

/-- `sizeof(N)`, resp. `bits24::size` (`fizz/record/Types-inl.h:18-20`). -/
def Width.bytes : Width → Nat
  | .u8 => 1 | .u16 => 2 | .u24 => 3 | .u32 => 4

/-- The failure raised when a length does not fit: `folly::to<N>(len)` throws
`folly::ConversionError`; `checkWithin24bits` (`fizz/record/Types-inl.h:106-116`) fails with
"Overflow 24 bit type". -/
def Width.overflow : Width → Failure
  | .u24 => Failure.rt "Overflow 24 bit type"
  | _ => .conversion

/-- `out.writeBE<N>(folly::to<N>(len))` / `writeBits24` (`fizz/record/Types-inl.h:119-128`). -/
def writeLen (w : Width) (len : Nat) : Res Bytes :=
  if len < 256 ^ w.bytes then .ok (beEnc w.bytes len) else .error w.overflow

/-- `writeBuf<N>` (`fizz/record/Types-inl.h:194-203`, `221-231` for bits24).  A null `Buf` is
encoded like an empty one, so both are `[]` here. -/
def writeBuf (w : Width) (buf : Bytes) : Res Bytes := do
  let l ← writeLen w buf.length
  pure (l ++ buf)

/-- `getBufSize<N>` (`fizz/record/Types-inl.h:34-42`). -/
def getBufSize (w : Width) (buf : Bytes) : Nat := w.bytes + buf.length

/-- The element loop of `writeVector`. -/
def writeAll {α} (wr : α → Res Bytes) : List α → Res Bytes
  | [] => .ok []
  | a :: as => do
    let b ← wr a
    let bs ← writeAll wr as
    pure (b ++ bs)

/-- `writeVector<N>` (`fizz/record/Types-inl.h:135-181`): a first pass sums `getSize`, the length
prefix is written, then the elements. -/
def writeVector {α} (w : Width) (size : α → Nat) (wr : α → Res Bytes) (data : List α) :
    Res Bytes := do
  let l ← writeLen w ((data.map size).sum)
  let body ← writeAll wr data
  pure (l ++ body)

/-- `readBuf<N>` (`fizz/record/Types-inl.h:263-275`): value and the size it returns. -/
def readBuf (w : Width) : Rd (Bytes × Nat) := do
  let len ← readBE w.bytes
  let b ← pull len
  pure (b, w.bytes + len)

/-- The `while (consumed < len)` loop of `readVector` and the check after it.  `fuel` bounds the
number of iterations; running out of fuel is reported as `ub` (non-termination) and is proved
impossible when `fuel ≥ len`. -/
def readLoop {α} (elem : Rd (α × Nat)) (len : Nat) : Nat → Nat → Rd (List α)
  | fuel, consumed =>
    if consumed < len then
      match fuel with
      | 0 => Rd.fail (.ub "readVector does not terminate")
      | fuel + 1 => do
        let (a, lenRead) ← elem
        let as ← readLoop elem len fuel (consumed + lenRead)
        pure (a :: as)
    else if consumed ≠ len then Rd.fail (Failure.rt "Invalid data length supplied")
    else pure []

/-- `readVector<N>` (`fizz/record/Types-inl.h:323-386`).  The elements are read from the cursor
itself, not from a sub-cursor limited to `len` bytes. -/
def readVector {α} (w : Width) (elem : Rd (α × Nat)) : Rd (List α × Nat) := do
  let len ← readBE w.bytes
  let avail ← remaining
  if avail < len then Rd.fail (.err "Not enough data" none .stdOutOfRange)
  else do
    let out ← readLoop elem len len 0
    pure (out, len + w.bytes)

/-- `Reader<U>::read` for `uint8_t` or an enum over it (`fizz/record/Types-inl.h:284-316`): C++
keeps any value of the underlying type. -/
def readU8 : Rd (UInt8 × Nat) := do let v ← readBE 1; pure (UInt8.ofNat v, 1)
/-- Same, 16 bits. -/
def readU16 : Rd (UInt16 × Nat) := do let v ← readBE 2; pure (UInt16.ofNat v, 2)
/-- Same, 32 bits. -/
def readU32 : Rd (UInt32 × Nat) := do let v ← readBE 4; pure (UInt32.ofNat v, 4)
/-- Same, 64 bits. -/
def readU64 : Rd (UInt64 × Nat) := do let v ← readBE 8; pure (UInt64.ofNat v, 8)

/-- `Writer<U>::write` (`fizz/record/Types-inl.h:76-103`). -/
def writeU8 (v : UInt8) : Res Bytes := .ok (beEnc 1 v.toNat)
/-- Same, 16 bits. -/
def writeU16 (v : UInt16) : Res Bytes := .ok (beEnc 2 v.toNat)
/-- Same, 32 bits. -/
def writeU32 (v : UInt32) : Res Bytes := .ok (beEnc 4 v.toNat)
/-- Same, 64 bits. -/
def writeU64 (v : UInt64) : Res Bytes := .ok (beEnc 8 v.toNat)

/-- `Sizer<U>::getSize` for integers and enums (`fizz/record/Types-inl.h:22-32`). -/
def sizeU8 (_ : UInt8) : Nat := 1
/-- Same, 16 bits. -/
def sizeU16 (_ : UInt16) : Nat := 2

/-- The generic `decode(T&, Error&, unique_ptr<IOBuf>&&)` (`fizz/record/Types-inl.h:850-862`):
decode through a cursor, then insist that the cursor is at the end. -/
def decodeAll {α} (rd : Rd α) (buf : Bytes) : Res α :=
  match rd buf with
  | .error e => .error e
  | .ok (a, rest) =>
    if rest.isEmpty then .ok a else .error (Failure.rt "didn't read entire message")

end Fizz.Codec

import Verif.Aead.Buf

/-!
# `transformBuffer` and `transformBufferBlocks`

Model of `fizz/crypto/aead/IOBufUtil.h`.  The function handed in is a state transformer
`func : σ → Bytes → Res (Bytes × σ)`: given its state and the bytes at the input pointer it returns the
bytes it stores at the output pointer, or an error.  `src = some c` is a separate input chain `c`;
`src = none` means that `in` and `out` are the same chain, so that reads see earlier writes.
-/

namespace Fizz.Aead

variable {σ : Type}

/-- The chain reads come from. -/
def source (src : Option Chain) (out : Chain) : Chain := src.getD out

/-- Local variables of `transformBuffer` (`IOBufUtil.h:48-50`): the memory of `out`, `currentOut`,
`offset` and the state of `func`. -/
structure TB (σ : Type) where
  out : Chain
  cur : Nat
  off : Nat
  st : σ

/-- The inner loop, `IOBufUtil.h:57-70`, for input buffer `k` of which `remaining` bytes are left.
`next()` of the last buffer is the first one.  The loop never ends if `out` has only empty buffers: with
`fuel` the model stops it as undefined behaviour; the fuel given by the caller suffices whenever `out`
is long enough (that is what C37 shows). -/
def innerLoop (src : Option Chain) (func : σ → Bytes → Res (Bytes × σ)) (k : Nat) :
    Nat → Nat → TB σ → Res (TB σ)
  | 0, _, _ => .error (.ub "endless loop")
  | fuel+1, remaining, t =>
    if remaining = 0 then .ok t
    else do
      let outLen := (lens t.out).getD t.cur 0
      let selected := min (outLen - t.off) remaining
      let len := (lens (source src t.out)).getD k 0
      let d ← readAt (source src t.out) k (len - remaining) selected
      let (o, s) ← func t.st d
      let out ← writeAt t.out t.cur t.off o
      if t.off + selected = outLen then
        innerLoop src func k fuel (remaining - selected) ⟨out, (t.cur + 1) % out.length, 0, s⟩
      else
        innerLoop src func k fuel (remaining - selected) ⟨out, t.cur, t.off + selected, s⟩

/-- The outer loop, `IOBufUtil.h:54-72`, over input buffers `k, k+1, ...` (`n` left). -/
def outerLoop (src : Option Chain) (func : σ → Bytes → Res (Bytes × σ)) :
    Nat → Nat → TB σ → Res (TB σ)
  | 0, _, t => .ok t
  | n+1, k, t => do
    let len := (lens (source src t.out)).getD k 0
    let t ← innerLoop src func k (len + t.out.length + 1) len t
    outerLoop src func n (k + 1) t

/-- `transformBuffer` (`IOBufUtil.h:46-73`): the memory of `out` and the state of `func` afterwards. -/
def transformBuffer (src : Option Chain) (out : Chain) (func : σ → Bytes → Res (Bytes × σ)) (s : σ) :
    Res (Chain × σ) := do
  let t ← outerLoop src func (source src out).length 0 ⟨out, 0, 0, s⟩
  .ok (t.out, t.st)

/-- `kTransformBufferBlocksMaxBlocksize` (`IOBufUtil.h:86`). -/
def kMaxBlock : Nat := 128

/-- Local variables of `transformBufferBlocks` (`IOBufUtil.h:104-110`). -/
structure TBB (σ : Type) where
  out : Chain
  output : Cur
  input : Cur
  buffered : Nat
  block : Bytes
  st : σ

/-- A write of `o` into `blockBuffer` (128 bytes on the stack). -/
def intoBlock (block o : Bytes) : Res Bytes :=
  if o.length ≤ block.length then .ok (o ++ block.drop o.length)
  else .error (.ub "write past blockBuffer")

/-- One iteration, `IOBufUtil.h:114-183`. -/
def blockStep (src : Option Chain) (func : σ → Bytes → Res (Bytes × σ)) (bs : Nat) (t : TBB σ) :
    Res (TBB σ) := do
  let inp := source src t.out
  let input := t.input.peek (lens inp)
  let inputLen := input.length (lens inp)
  let output := t.output.peek (lens t.out)
  let outputLen := output.length (lens t.out)
  if inputLen + t.buffered < bs then do
    let d ← readAt inp input.i input.o inputLen
    let (o, s) ← func t.st d
    let block ← intoBlock t.block o
    let input ← input.skip (lens inp) inputLen
    .ok ⟨t.out, output, input, t.buffered + inputLen, block, s⟩
  else if outputLen < bs then do
    let d ← readAt inp input.i input.o (bs - t.buffered)
    let (o, s) ← func t.st d
    let block ← intoBlock t.block o
    let (out, output) ← push t.out output (block.take bs)
    let input ← input.skip (lens inp) (bs - t.buffered)
    .ok ⟨out, output, input, 0, block, s⟩
  else do
    let numShared := min outputLen (inputLen + t.buffered)
    let numBlock := numShared - numShared % bs
    let maxToTake := (numBlock - t.buffered) + (bs - 1)
    let numToTake := min inputLen maxToTake
    let d ← readAt inp input.i input.o numToTake
    let (o, s) ← func t.st d
    let out ← writeAt t.out output.i output.o o
    let input ← input.skip (lens inp) numToTake
    let output ← output.skip (lens out) o.length
    .ok ⟨out, output, input, (t.buffered + numToTake) % bs, t.block, s⟩

/-- The loop, `IOBufUtil.h:113-184`.  Every iteration takes at least one byte of input, so `fuel` = the
length of the input + 1 is enough (shown with C37). -/
def blockLoop (src : Option Chain) (func : σ → Bytes → Res (Bytes × σ)) (bs : Nat) :
    Nat → TBB σ → Res (TBB σ)
  | 0, _ => .error (.ub "endless loop")
  | fuel+1, t =>
    if t.input.isAtEnd (lens (source src t.out)) then .ok t
    else do
      let t ← blockStep src func bs t
      blockLoop src func bs fuel t

/-- `transformBufferBlocks` (`IOBufUtil.h:87-187`): the memory of `out`, the output cursor and the state
of `func` afterwards.  The assertions on the number of bytes written are debug-only and left out. -/
def transformBufferBlocks (src : Option Chain) (out : Chain) (func : σ → Bytes → Res (Bytes × σ))
    (bs : Nat) (s : σ) : Res (Chain × Cur × σ) :=
  if bs = 0 ∨ kMaxBlock < bs then
    .error (.err "invalid transformBufferBlocks blockSize" none .stdOutOfRange)
  else do
    let t ← blockLoop src func bs ((source src out).flatten.length + 1)
      ⟨out, ⟨0, 0⟩, ⟨0, 0⟩, 0, List.replicate kMaxBlock 0, s⟩
    .ok (t.out, t.output, t.st)

/-- `trimStart` (`IOBufUtil.cpp:34-44`). -/
def trimStart : Chain → Nat → Chain
  | [], _ => []
  | b :: bs, n =>
    let amt := min b.length n
    if n - amt = 0 then b.drop amt :: bs else b.drop amt :: trimStart bs (n - amt)

/-- The loop of `trimBytes` (`IOBufUtil.cpp:19-31`) on the chain in reverse order: what is left, and the
bytes cut off (`none`: the loop would wrap around to the last buffer and, with every byte gone, never
end). -/
def trimBytesRev : Chain → Nat → Option (Chain × Bytes)
  | [], _ => none
  | b :: bs, n =>
    let toTrim := min n b.length
    let cut := b.drop (b.length - toTrim)
    if n - toTrim = 0 then some (b.take (b.length - toTrim) :: bs, cut)
    else do
      let (rest, more) ← trimBytesRev bs (n - toTrim)
      some (b.take (b.length - toTrim) :: rest, more ++ cut)

/-- `trimBytes` (`IOBufUtil.cpp:15-32`): the chain left and the bytes copied to `trimmed`. -/
def trimBytes (c : Chain) (n : Nat) : Res (Chain × Bytes) :=
  match trimBytesRev c.reverse n with
  | none => .error (.ub "trimBytes: not enough bytes")
  | some (r, t) => .ok (r.reverse, t)

end Fizz.Aead

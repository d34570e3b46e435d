import Verif.Base

/-!
# Sliding bloom replay cache — model of `fizz/server/SlidingBloomReplayCache.{h,cpp}`

The bit buffer `bitBuf_` is a function from indices to cells; every access is at an index reduced
modulo `bitSize_`, or (clearing) at every index.  `bitSize_ = 0` (a zero rate or TTL) makes the
reduction undefined; it is excluded by hypothesis where it matters.  The hash functions are
parameters.  The floating point computation of `bitSize_` is not modelled.
-/

namespace Fizz.Bloom

/-- `kBucketCount` (`fizz/server/SlidingBloomReplayCache.cpp:27`). -/
def kBucketCount : Nat := 12

/-- `SlidingBloomReplayCache` data members (`fizz/server/SlidingBloomReplayCache.h:57-66`). -/
structure Cache where
  bitSize : Nat
  hashers : List (Bytes → UInt64)
  cells : Nat → UInt64
  cur : Nat

/-- The constructor (`fizz/server/SlidingBloomReplayCache.cpp:78-91`): all cells zero, bucket 0. -/
def Cache.init (bitSize : Nat) (hashers : List (Bytes → UInt64)) : Cache :=
  ⟨bitSize, hashers, fun _ => 0, 0⟩

/-- `bucketWidthInMs_` (`fizz/server/SlidingBloomReplayCache.cpp:75-76`). -/
def bucketWidthMs (ttlInSecs : Nat) : Nat := ttlInSecs * 1000 / kBucketCount + 1

/-- `bitBuf_[idx] |= mask`. -/
def orCell (cells : Nat → UInt64) (idx : Nat) (mask : UInt64) : Nat → UInt64 :=
  fun j => if j = idx then cells j ||| mask else cells j

/-- The mask of a bucket: `static_cast<CellType>(1) << bucket`. -/
def bucketMask (b : Nat) : UInt64 := 1 <<< UInt64.ofNat b

/-- `hasher(query) % bitSize_`. -/
def Cache.idx (c : Cache) (h : Bytes → UInt64) (q : Bytes) : Nat := (h q).toNat % c.bitSize

/-- `set` (`fizz/server/SlidingBloomReplayCache.cpp:108-120`). -/
def Cache.set (c : Cache) (q : Bytes) : Cache :=
  { c with cells := c.hashers.foldl (fun cells h => orCell cells (c.idx h q) (bucketMask c.cur)) c.cells }

/-- `test` (`fizz/server/SlidingBloomReplayCache.cpp:122-136`). -/
def Cache.test (c : Cache) (q : Bytes) : Bool :=
  (c.hashers.foldl (fun ret h => ret &&& c.cells (c.idx h q)) (0xffffffffffffffff : UInt64)) != 0

/-- `testAndSet` (`fizz/server/SlidingBloomReplayCache.cpp:138-154`): one pass, reading each cell
just before setting it. -/
def Cache.testAndSet (c : Cache) (q : Bytes) : Cache × Bool :=
  let r := c.hashers.foldl
    (fun (p : UInt64 × (Nat → UInt64)) h =>
      (p.1 &&& p.2 (c.idx h q), orCell p.2 (c.idx h q) (bucketMask c.cur)))
    ((0xffffffffffffffff : UInt64), c.cells)
  ({ c with cells := r.2 }, r.1 != 0)

/-- `clearBucket` (`fizz/server/SlidingBloomReplayCache.cpp:169-177`). -/
def Cache.clearBucket (c : Cache) (b : Nat) : Cache :=
  { c with cells := fun i => if i < c.bitSize then c.cells i &&& ~~~ bucketMask b else c.cells i }

/-- `clear`, run by `timeoutExpired` (`fizz/server/SlidingBloomReplayCache.cpp:179-190`). -/
def Cache.clear (c : Cache) : Cache :=
  { c.clearBucket ((c.cur + 1) % kBucketCount) with cur := (c.cur + 1) % kBucketCount }

/-! ## Histories (specification vocabulary) -/

/-- What happens to a cache: a query is checked, or the bucket timer fires.  (`check`
`fizz/server/SlidingBloomReplayCache.cpp:156-167` runs `testAndSet` on the event base, as does the
timer, so they are serial.) -/
inductive Op where
  | check (q : Bytes)
  | tick
  deriving DecidableEq

/-- The state after an operation. -/
def Cache.step (c : Cache) : Op → Cache
  | .check q => (c.testAndSet q).1
  | .tick => c.clear

/-- The state after a history. -/
def Cache.run (c : Cache) (ops : List Op) : Cache := ops.foldl Cache.step c

/-- The answer of `check q` after a history: `true` is MaybeReplay, `false` NotReplay. -/
def answer (bitSize : Nat) (hashers : List (Bytes → UInt64)) (history : List Op) (q : Bytes) : Bool :=
  (((Cache.init bitSize hashers).run history).testAndSet q).2

/-- Number of timer firings in a history. -/
def ticks (ops : List Op) : Nat := ops.count .tick

end Fizz.Bloom

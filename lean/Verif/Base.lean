/-!
# Base: bytes, failures, big-endian integers

Shared vocabulary of the model.
-/

namespace Fizz

/-- A byte string: the data content of a `folly::IOBuf` chain. -/
abbrev Bytes := List UInt8

/-- `fizz/util/Status.h:127-137` `Error::Category`. -/
inductive Cat where
  | verifier | fizz | outerExtensions | stdRuntime | stdOverflow | stdLogic
  | stdOutOfRange | stdBadAlloc | unknown
  deriving DecidableEq, Repr

/-- The ways a modelled call can fail.
* `err`: `Status::Fail` with an `Error` (`fizz/util/Status.h:115-228`), or a thrown
  `FizzException`; message, alert and category are kept.
* `outOfRange`: `std::out_of_range` thrown by `folly::io::Cursor` on underflow.
* `conversion`: `folly::ConversionError` thrown by `folly::to<N>(len)`.
* `emptyOptional`: `folly::OptionalEmptyException` thrown by dereferencing an empty
  `folly::Optional`.
* `abort`: a failed `FIZZ_CHECK` or `FIZZ_LOG(FATAL)` ends the process.
* `ub`: undefined behaviour (null dereference, non-termination ...). -/
inductive Failure where
  | err (msg : String) (alert : Option UInt8) (cat : Cat)
  | outOfRange
  | conversion
  | emptyOptional
  | abort
  | ub (why : String)
  deriving DecidableEq, Repr

abbrev Res := Except Failure

instance {α} [DecidableEq α] : DecidableEq (Res α)
  | .ok a, .ok b => if h : a = b then isTrue (by rw [h]) else isFalse (by simpa using h)
  | .error a, .error b => if h : a = b then isTrue (by rw [h]) else isFalse (by simpa using h)
  | .ok _, .error _ => isFalse (by simp)
  | .error _, .ok _ => isFalse (by simp)

/-- `Error::error(const char*)` (`fizz/util/Status.h:165-171`): category StdRuntime, no alert. -/
def Failure.rt (msg : String) : Failure := .err msg none .stdRuntime

/-- `Error::error(msg, alert)` (`fizz/util/Status.h:143-152`): category Fizz. -/
def Failure.fizz (msg : String) (alert : Option UInt8) : Failure := .err msg alert .fizz

@[simp] theorem Res.ok_bind {α β} (a : α) (f : α → Res β) :
    ((Except.ok a : Res α) >>= f) = f a := rfl
@[simp] theorem Res.error_bind {α β} (e : Failure) (f : α → Res β) :
    ((Except.error e : Res α) >>= f) = Except.error e := rfl
@[simp] theorem Res.pure_eq {α} (a : α) : (pure a : Res α) = Except.ok a := rfl
@[simp] theorem Res.throw_eq {α} (e : Failure) : (throw e : Res α) = Except.error e := rfl

theorem Res.bind_eq_ok {α β} {x : Res α} {f : α → Res β} {b : β} :
    (x >>= f) = Except.ok b ↔ ∃ a, x = Except.ok a ∧ f a = Except.ok b := by
  cases x <;> simp

/-! ## Big-endian integers -/

/-- `Appender::writeBE<N>` for an `n`-byte unsigned integer (value reduced mod `256^n`). -/
def beEnc : Nat → Nat → Bytes
  | 0, _ => []
  | n+1, v => UInt8.ofNat (v / 256 ^ n) :: beEnc n v

/-- Value of a big-endian byte string. -/
def beDec : Bytes → Nat
  | [] => 0
  | b :: bs => b.toNat * 256 ^ bs.length + beDec bs

@[simp] theorem beEnc_length (n v : Nat) : (beEnc n v).length = n := by
  induction n with
  | zero => rfl
  | succ n ih => simp [beEnc, ih]

theorem beDec_lt (bs : Bytes) : beDec bs < 256 ^ bs.length := by
  induction bs with
  | nil => simp [beDec]
  | cons b bs ih =>
    have hb := b.toNat_lt
    simp only [beDec, List.length_cons, Nat.pow_succ]
    calc b.toNat * 256 ^ bs.length + beDec bs
        < b.toNat * 256 ^ bs.length + 256 ^ bs.length := by omega
      _ = (b.toNat + 1) * 256 ^ bs.length := by rw [Nat.add_mul, Nat.one_mul]
      _ ≤ 256 * 256 ^ bs.length := Nat.mul_le_mul_right _ (by omega)
      _ = 256 ^ bs.length * 256 := Nat.mul_comm _ _

theorem beDec_beEnc_mod (n v : Nat) : beDec (beEnc n v) = v % 256 ^ n := by
  induction n with
  | zero => simp [beDec, beEnc, Nat.mod_one]
  | succ n ih =>
    have h8 : (UInt8.ofNat (v / 256 ^ n)).toNat = v / 256 ^ n % 256 := by
      simp [UInt8.toNat_ofNat']
    simp only [beEnc, beDec, beEnc_length, ih, h8]
    rw [Nat.pow_succ, Nat.mod_mul, Nat.mul_comm, Nat.add_comm]

theorem beDec_beEnc {n v : Nat} (h : v < 256 ^ n) : beDec (beEnc n v) = v := by
  rw [beDec_beEnc_mod, Nat.mod_eq_of_lt h]

theorem beEnc_add_mul (n v k : Nat) : beEnc n (k * 256 ^ n + v) = beEnc n v := by
  induction n generalizing k with
  | zero => rfl
  | succ n ih =>
    simp only [beEnc]
    have e : k * 256 ^ (n+1) + v = (k * 256) * 256 ^ n + v := by
      rw [Nat.pow_succ, Nat.mul_assoc, Nat.mul_comm (256 ^ n) 256]
    rw [e, ih]
    congr 1
    rw [Nat.add_comm, Nat.add_mul_div_right _ _ (Nat.pow_pos (by decide))]
    apply UInt8.toNat_inj.mp
    simp

theorem beEnc_beDec (bs : Bytes) : beEnc bs.length (beDec bs) = bs := by
  induction bs with
  | nil => rfl
  | cons b bs ih =>
    simp only [List.length_cons, beEnc, beDec]
    rw [beEnc_add_mul, ih]
    congr 1
    rw [Nat.add_comm, Nat.add_mul_div_right _ _ (Nat.pow_pos (by decide)),
      Nat.div_eq_of_lt (beDec_lt bs)]
    simp

theorem beEnc_inj {n a b : Nat} (ha : a < 256 ^ n) (hb : b < 256 ^ n)
    (h : beEnc n a = beEnc n b) : a = b := by
  rw [← beDec_beEnc ha, ← beDec_beEnc hb, h]

end Fizz

import Verif.Base

/-!
# `std::chrono` arithmetic used by tickets and PSKs

`system_clock::time_point` is a signed 64-bit count of nanoseconds (libstdc++); a model time is an
`Int`, and every arithmetic operation that leaves the signed 64-bit range is reported as undefined
behaviour.
-/

namespace Fizz.Time

/-- Range of `int64_t`. -/
def InI64 (v : Int) : Prop := -(2 ^ 63) ≤ v ∧ v < 2 ^ 63

instance (v : Int) : Decidable (InI64 v) := inferInstanceAs (Decidable (_ ∧ _))

/-- Signed 64-bit arithmetic: out of range is undefined behaviour. -/
def checked (v : Int) : Res Int := if InI64 v then .ok v else .error (.ub "signed overflow")

/-- Nanoseconds per second. -/
def nsPerSec : Int := 1000000000

/-- `duration_cast<seconds>(ns)`: truncates towards zero. -/
def toSeconds (ns : Int) : Int := ns.tdiv nsPerSec

/-- Conversion `int64_t` to `uint64_t`. -/
def toU64 (v : Int) : UInt64 := UInt64.ofNat (v % 2 ^ 64).toNat

/-- Conversion `uint64_t` to `int64_t` (two's complement). -/
def toI64 (v : UInt64) : Int := if v.toNat < 2 ^ 63 then v.toNat else (v.toNat : Int) - 2 ^ 64

/-- `time_point<system_clock>(std::chrono::seconds(seconds))`. -/
def fromSeconds (seconds : UInt64) : Res Int := checked (toI64 seconds * nsPerSec)

theorem toI64_toU64 {v : Int} (h : InI64 v) : toI64 (toU64 v) = v := by
  unfold InI64 at h
  have e : (toU64 v).toNat = (v % 2 ^ 64).toNat := by
    unfold toU64
    rw [UInt64.toNat_ofNat']
    apply Nat.mod_eq_of_lt
    have : v % 2 ^ 64 < 2 ^ 64 := Int.emod_lt_of_pos _ (by decide)
    omega
  unfold toI64
  rw [e]
  split <;> omega

theorem toSeconds_bounds (t : Int) :
    toSeconds t * nsPerSec ≤ max t 0 ∧ min t 0 ≤ toSeconds t * nsPerSec := by
  unfold toSeconds nsPerSec
  have h1 := Int.tdiv_mul_le (a := t) (b := 1000000000)
  have : t = 1000000000 * t.tdiv 1000000000 + t.tmod 1000000000 := (Int.mul_tdiv_add_tmod t _).symm
  rcases Int.le_total 0 t with h | h
  · have h2 := Int.tmod_nonneg 1000000000 h
    have h3 := Int.tdiv_nonneg h (b := 1000000000) (by decide)
    omega
  · have h2 : t.tmod 1000000000 ≤ 0 := by
      have := Int.tmod_nonneg (a := -t) 1000000000 (by omega)
      rw [Int.neg_tmod] at this; omega
    have h3 : t.tdiv 1000000000 ≤ 0 := by
      have := Int.tdiv_nonneg (a := -t) (b := 1000000000) (by omega) (by decide)
      rw [Int.neg_tdiv] at this; omega
    omega

theorem fromSeconds_toSeconds {t : Int} (h : InI64 t) :
    fromSeconds (toU64 (toSeconds t)) = .ok (toSeconds t * nsPerSec) := by
  have hb := toSeconds_bounds t
  unfold InI64 at h
  have h2 : InI64 (toSeconds t) := by
    unfold InI64
    unfold nsPerSec at hb
    omega
  unfold fromSeconds checked
  rw [toI64_toU64 h2, if_pos]
  unfold InI64; omega

end Fizz.Time

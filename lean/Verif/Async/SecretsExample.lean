import Verif.Async.SecretsProps

/-!
# C106: examples
-/

namespace Fizz.Async.Secrets

open Fizz.Async Fizz.KeyLog Fizz.Text Spec

/-- Run a list of steps as long as they can happen. -/
def exec (w : W) : List Act → Option W
  | [] => some w
  | a :: l => if w.allowed a then exec (w.step a) l else none

theorem exec_reach {w : W} (h : Reach w) : ∀ (l : List Act) {w' : W}, exec w l = some w' → Reach w'
  | [], _, e => by cases e; exact h
  | a :: l, _, e => by
    unfold exec at e
    split at e
    next ha => exact exec_reach (.step a h ha) l e
    · cases e

/-- A callback is set, a secret comes, an error is reported and dealt with, another secret comes. -/
def acts : List Act :=
  [.set (some 3), .secret (.app .clientAppTraffic) [1, 2], .base (.error (.err 7) true), .base .tau,
   .base .tau, .base .tau, .base .ret, .base .tau, .base .tau, .secret (.app .serverAppTraffic) [5]]

/-- The first secret is told, the second is not. -/
example : ∃ w, exec {} acts = some w ∧ Reach w ∧ w.s.stack = [] ∧ ∃ k, visit (.app .clientAppTraffic) = some k ∧
    w.log = [.set (some 3), .secret (.app .clientAppTraffic) [1, 2], .told 3 k [1, 2], .error (.err 7),
      .failed, .secret (.app .serverAppTraffic) [5]] := by
  have h : ∃ w, exec {} acts = some w ∧ w.s.stack = [] ∧ ∃ k, visit (.app .clientAppTraffic) = some k ∧
    w.log = [.set (some 3), .secret (.app .clientAppTraffic) [1, 2], .told 3 k [1, 2], .error (.err 7),
      .failed, .secret (.app .serverAppTraffic) [5]] := ⟨_, rfl, rfl, _, rfl, rfl⟩
  obtain ⟨w, e, h⟩ := h
  exact ⟨w, e, exec_reach .new _ e, h⟩

/-- A callback set from inside `readErr` is lost: the failure that is being delivered still clears
it. -/
def lost : List Act :=
  [.base (.setReadCB (some ⟨1, false⟩)), .base .tau, .base .ret, .base (.error (.err 7) false),
   .base .tau, .set (some 4), .base .ret, .base .tau, .base .tau, .base .tau, .base .tau]

example : ∃ w, exec {} lost = some w ∧ Reach w ∧ w.s.stack = [] ∧ w.cb = none ∧
    w.log = [.error (.err 7), .set (some 4), .failed] := by
  have h : ∃ w, exec {} lost = some w ∧ w.s.stack = [] ∧ w.cb = none ∧
    w.log = [.error (.err 7), .set (some 4), .failed] := ⟨_, rfl, rfl, rfl, rfl⟩
  obtain ⟨w, e, h⟩ := h
  exact ⟨w, e, exec_reach .new _ e, h⟩

end Fizz.Async.Secrets

import Verif.Base

/-!
# What "the cipher sees the input in order, exactly once" means

Independent of the model: a function with state is fed a list of pieces, and its outputs are
collected in order.
-/

namespace Fizz.Aead.Spec

variable {σ : Type}

/-- Hand the pieces to `func` one after the other; collect what it puts out; stop at the first
error. -/
def feed (func : σ → Bytes → Res (Bytes × σ)) : σ → List Bytes → Res (List Bytes × σ)
  | s, [] => .ok ([], s)
  | s, p :: ps =>
    match func s p with
    | .error e => .error e
    | .ok (o, s1) =>
      match feed func s1 ps with
      | .error e => .error e
      | .ok (os, s2) => .ok (o :: os, s2)

/-- The states `func` can get into from `s0`. -/
inductive Reach (func : σ → Bytes → Res (Bytes × σ)) (s0 : σ) : σ → Prop
  | start : Reach func s0 s0
  | call {s d o s'} : Reach func s0 s → func s d = .ok (o, s') → Reach func s0 s'

/-- Started in `s0`, the function always writes as many bytes as it reads. -/
def SameLength (func : σ → Bytes → Res (Bytes × σ)) (s0 : σ) : Prop :=
  ∀ s d o s', Reach func s0 s → func s d = .ok (o, s') → o.length = d.length

/-- Started in `s0`, the function writes only whole blocks of `bs` bytes and holds back fewer than `bs`
bytes (`held`). -/
def WholeBlocks (bs : Nat) (held : σ → Nat) (func : σ → Bytes → Res (Bytes × σ)) (s0 : σ) : Prop :=
  ∀ s d o s', Reach func s0 s → func s d = .ok (o, s') →
    o.length + held s' = held s + d.length ∧ held s' < bs ∧ bs ∣ o.length

end Fizz.Aead.Spec

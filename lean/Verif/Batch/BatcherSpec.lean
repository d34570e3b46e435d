import Verif.Batch.Batcher
import Verif.Batch.MerkleSpec

/-!
# Specification of the batcher

The calls of each slot (one for all threads, or one per thread) are cut into batches of `threshold`
messages, in order.
-/

namespace Fizz.Batch.Spec
open Fizz Fizz.Crypto

/-- The slot a thread's messages go to: `SynchronizedBatcher` has one for all threads, `ThreadLocalBatcher` one for
each. -/
def place (cfg : BatcherCfg) (thread : Nat) : Nat := if cfg.shared then 0 else thread

/-- The messages added to a slot, each with its random leaf, in order. -/
def history (cfg : BatcherCfg) (slot : Nat) : List BEv → List (Bytes × Bytes)
  | [] => []
  | .add th m r :: es => if place cfg th = slot then (m, r) :: history cfg slot es else history cfg slot es
  | .start _ _ :: es => history cfg slot es
  | .answer _ _ _ :: es => history cfg slot es

/-- The `g`-th batch. -/
def batch {α : Type} (T : Nat) (l : List α) (g : Nat) : List α := (l.drop (g * T)).take T

/-- The leaves of a batch: each message and then its random leaf. -/
def leaves (l : List (Bytes × Bytes)) : List Bytes := l.flatMap fun x => [x.1, x.2]

/-- The bytes to be signed for a root (draft-ietf-tls-batch-signing section 4). -/
def toBeSigned (scheme : UInt16) (root : Bytes) : Bytes :=
  List.replicate 64 0x20 ++ ("TLS batch signature".toList.map fun c => UInt8.ofNat c.toNat) ++ [0] ++
    beEnc 2 scheme.toNat ++ root

/-- The batch has been handed to the signer before. -/
def Asked (cfg : BatcherCfg) (s g : Nat) (evs : List BEv) : Prop :=
  ∃ a b, evs = a ++ .start s g :: b ∧ (g + 1) * cfg.threshold ≤ (history cfg s a).length

end Fizz.Batch.Spec

import Verif.Record.WriteModel
import Verif.Record.ReadSpec

/-!
# Specification vocabulary for writing records (C04 – C07)
-/

namespace Fizz.Record

/-- A correct AEAD: sealing always succeeds, adds exactly `overhead` bytes, and opening with the
same associated data and sequence number gives the plaintext back, in some fragmentation. -/
structure Aead.Correct (a : Aead) : Prop where
  seals : ∀ ad seq pt, ∃ ct, a.encrypt ad seq pt = .ok ct
  size : ∀ ad seq pt ct, a.encrypt ad seq pt = .ok ct → ct.length = pt.length + a.overhead
  opens : ∀ ad seq pt ct, a.encrypt ad seq pt = .ok ct →
    ∃ chain : List Bytes, chain ≠ [] ∧ chain.flatten = pt ∧ a.tryDecrypt ad seq ct = .ok (some chain)

/-- Any sequence of writes on one layer; stops at the first failure. -/
def writeAll (w : EncWr) : List (UInt8 × List Bytes) → EncWr × Res Bytes
  | [] => (w, .ok [])
  | (t, chain) :: ws =>
    match encWrite w t chain with
    | (w', _, .error f) => (w', .error f)
    | (w', _, .ok out) =>
      match writeAll w' ws with
      | (w'', .error f) => (w'', .error f)
      | (w'', .ok out') => (w'', .ok (out ++ out'))

/-- Everything that can be done to an encrypted write layer. -/
inductive WOp where
  | write (type : UInt8) (chain : List Bytes)
  | setMaxRecord (n : UInt16)
  | setPolicy (p : Policy)
  | setAead (a : Aead)
  | useAdditionalData (b : Bool)

/-- One operation on an encrypted write layer: the new state, the AEAD calls made.  A refused
`setAead`/`setMaxRecord` leaves the layer as it is; after a failed `write` the caller may go on. -/
def EncWr.step (w : EncWr) : WOp → EncWr × List SealCall
  | .write t c => ((encWrite w t c).1, (encWrite w t c).2.1)
  | .setMaxRecord n => match w.setMaxRecord n with
    | .ok w' => (w', [])
    | .error _ => (w, [])
  | .setPolicy p => ({ w with policy := p }, [])
  | .setAead a => match w.setAead a with
    | .ok w' => (w', [])
    | .error _ => (w, [])
  | .useAdditionalData b => ({ w with useAD := b }, [])

/-- A history: the state reached and all AEAD calls made, in order. -/
def EncWr.history (w : EncWr) : List WOp → EncWr × List SealCall
  | [] => (w, [])
  | op :: ops => (((w.step op).1.history ops).1, (w.step op).2 ++ ((w.step op).1.history ops).2)

/-- A record header as RFC 8446 §5.2 has it: application_data, 0x0303, 16-bit big-endian length. -/
def wireHeader (length : Nat) : Bytes :=
  [23, 3, 3, UInt8.ofNat (length / 256), UInt8.ofNat (length % 256)]

/-- A sequence of records as they appear on the wire, given their ciphertexts. -/
def wire : List Bytes → Bytes
  | [] => []
  | ct :: cts => wireHeader ct.length ++ ct ++ wire cts

end Fizz.Record

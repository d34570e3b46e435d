import Verif.Access.Props
import Verif.Agree.World

/-! # C103: examples — what clients say in whole connections -/

namespace Fizz.Access.Example
open Fizz Fizz.ClientSM Fizz.Agree.World

/-- Replay safe, failed, whether the peer's and our certificates are present, and the protocol. -/
structure View where
  safe : Bool
  failed : Bool
  peer : Bool
  self : Bool
  alpn : Bytes
  deriving DecidableEq

def view (k : Sock) : Res View := do
  let p ← getPeerCertificate k
  let s ← getSelfCertificate k
  let a ← getApplicationProtocol k
  pure ⟨isReplaySafe k, k.rejected, p.isSome, s.isSome, a⟩

def look (e : Setup) (acts : List Action) : Option View :=
  match (do let k ← visitAll e {} acts; view k : Res View) with
  | .ok v => some v
  | .error _ => none

def ident : Cert → Bytes
  | .inl _ => [0]
  | .inr _ => [1]

def steps (w : Agree.World.W) (n : Nat) : List Action := actions (w.hC.drop (w.hC.length - n))

/-- Early data accepted: after the first step not replay safe, at the end replay safe, with the same certificates. -/
example : look ⟨.fatalConnectionError, ident⟩ (steps (play (setup2 true) early) 1) = some ⟨false, false, true, true, []⟩ ∧
    look ⟨.fatalConnectionError, ident⟩ (steps (play (setup2 true) early) 100) = some ⟨true, false, true, true, []⟩ := by
  decide +kernel

/-- Early data rejected: with one policy the connection fails, with the other it goes on. -/
example : look ⟨.fatalConnectionError, ident⟩ (steps (play (setup2 false) earlyRejected) 100) =
      some ⟨false, true, true, true, []⟩ ∧
    look ⟨.automaticResend, ident⟩ (steps (play (setup2 false) earlyRejected) 100) = some ⟨true, false, true, true, []⟩ := by
  decide +kernel

/-- The hypotheses of the theorems: the history is a run, the application has been told, the session is a resumption. -/
theorem early_facts : Spec.EarlyTold (actions (play (setup2 true) early).hC) ∧
    Spec.Succeeded (actions (play (setup2 true) early).hC) ∧
    Run (setup2 true).cfgC (play (setup2 true) early).hC (play (setup2 true) early).sC ∧
    ∃ psk, (setup2 true).cfgC.cachedPsk = some psk ∧ ClientSM.Spec.PskAuth psk := by
  have h : ∃ a ∈ actions (play (setup2 true) early).hC,
      (match a with | .reportEarlyHandshakeSuccess _ => true | _ => false) = true := by decide +kernel
  have h' : ∃ a ∈ actions (play (setup2 true) early).hC,
      (match a with | .reportHandshakeSuccess _ => true | _ => false) = true := by decide +kernel
  have hp : ((setup2 true).cfgC.cachedPsk.map (·.type)) = some .resumption := by decide +kernel
  refine ⟨?_, ?_, (play_ok (setup2 true) early).1, ?_⟩
  · obtain ⟨a, h1, h2⟩ := h
    cases a <;> first | exact ⟨_, h1⟩ | cases h2
  · obtain ⟨a, h1, h2⟩ := h'
    cases a <;> first | exact ⟨_, h1⟩ | cases h2
  · cases hc : (setup2 true).cfgC.cachedPsk with
    | none => rw [hc] at hp; cases hp
    | some psk =>
      rw [hc] at hp
      exact ⟨psk, rfl, by simpa [ClientSM.Spec.PskAuth] using Or.inr (Option.some.inj hp)⟩

end Fizz.Access.Example

import Verif.Alerts.Step
import Verif.Agree.World

/-!
# Alerts: examples

Two ends that cannot agree (the setup is that of `Verif/Agree/World.lean`, with one value of one end's configuration
changed), and what they report.
-/

namespace Fizz.Alerts.Examples
open Fizz.Codec Fizz.Crypto Fizz.Agree.World Fizz.Agree

/-- The alerts the client has reported. -/
def alertsC (w : W) : List (Option UInt8) :=
  (ClientSM.actions w.hC).filterMap fun | .reportError a => some a | _ => none
/-- The alerts the server has reported. -/
def alertsS (w : W) : List (Option UInt8) :=
  (Server.actions w.hS).filterMap fun | .reportError a => some a | _ => none
/-- The alerts of both. -/
def go (u : Setup) (l : List Op) : List (Option UInt8) × List (Option UInt8) := (alertsC (play u l), alertsS (play u l))

/-- Someone changes a Finished on its way to the client. -/
def tamperFinished (w : W) : W := { w with toC := w.toC.map fun
  | .handshake (.finished m) o => .handshake (.finished ⟨m.verify_data ++ [0]⟩) o
  | e => e }
/-- The first message on its way to the client arrives twice. -/
def again (w : W) : W := { w with toC := w.toC.take 1 ++ w.toC }

/-- The beginning of a handshake. -/
def start : List Op := [.server .accept, .client .accept, .serverReads]

/-- No cipher suite, version or group in common, no application protocol where one is required: the server says so, and
the client reports an error without an alert.  A signature scheme that was not offered, ECH rejected, a second
HelloRetryRequest, a wrong Finished, a wrong signature: the client says so. -/
theorem alerts :
    go { setup with cfgS := { cfgS with supportedCiphers := [[0x1303]] } } full = ([none], [some 40]) ∧
    go { setup with cfgS := { cfgS with supportedVersions := [0x0305] } } full = ([none], [some 70]) ∧
    go { setup with cfgS := { cfgS with supportedGroups := [30] } } full = ([none], [some 40]) ∧
    go { setup with cfgS := { cfgS with alpnMode := .required } } full = ([none], [some 120]) ∧
    go { setup with cfgC := { cfgC with supportedSigSchemes := [0x0804] } } full = ([some 47], [none]) ∧
    go { setup with cfgC := { cfgC with requireAlpn := true } } full = ([some 120], [none]) ∧
    go (setup4 false) ech = ([some 121], []) ∧
    alertsC ([Op.clientReads, .clientReads].foldl (act setup3) (again (play setup3 start))) = [some 10] ∧
    alertsC ((List.replicate 6 Op.clientReads).foldl (act setup) (tamperFinished (play setup start))) = [some 20] ∧
    alertsC ((List.replicate 6 Op.clientReads).foldl (act setup) (tamper (play setup start))) = [some 51] := by
  decide +kernel

/-- What `C102_client_report` says of the first client above that is answered by a server without its signature
scheme: the scheme is not one of its own, or a failure without an alert, or from outside. -/
example {i : ClientSM.StepIn} {s : ClientSM.St} {t : Conn.Trig}
    (h : .reportError (some 47) ∈ (ClientSM.step { cfgC with supportedSigSchemes := [0x0804] } i s t).acts)
    (hs : s.state = .expectingCertificateVerify) (m : CertificateVerify) (o u)
    (hi : i.sock = .event (.handshake (.certificateVerify m) o) u) (ht : t = .sock)
    (hf : i.inp.fault = none) (ho : ∀ f, ¬ ClientSpec.Supplied { cfgC with supportedSigSchemes := [0x0804] } i.inp f) :
    m.algorithm ≠ 0x0804 := by
  have hok : ∀ c a, ({ cfgC with supportedSigSchemes := [0x0804] } : ClientSM.Cfg).hashOf c = .ok a → a.Ok := by
    intro c a h; cases h; exact toyHash_ok
  have hc := ClientProps.C102_client_report hok h
  clear h
  subst ht
  generalize hn : (47 : UInt8) = n at hc
  cases hc with
  | record _ _ h => rw [hi] at h; cases h
  | closing _ h => cases h
  | ech_required => exact absurd hn (by decide)
  | outside f _ h =>
    rcases h with h | h
    · rw [hf] at h; cases h
    · exact absurd h (ho f)
  | unnamed => exact absurd hn (by decide)
  | reason p u' _ he hr =>
    cases he with
    | sock e u' h =>
      rw [hi] at h
      cases h
      cases hr with
      | unexpected _ h => exact absurd hn (by decide)
      | scheme _ _ h => simpa using h
      | bad_certificate => exact absurd hn (by decide)

end Fizz.Alerts.Examples

import Verif.Channel.First
import Verif.Channel.Props
import Verif.Agree.Props

/-!
# From the handshake to the applications: the whole connection (C78)

The pieces put together: a client that has reported success and the server whose Finished it accepted have the same
application keys (C58), announce them as their first ones, climb the same ladder from there, and so what the one
application is given is what the other one wrote.
-/

namespace Fizz.Channel
open Fizz.Codec Fizz.Record Fizz.Agree Fizz.Agree.Spec

/-- What both ends do with one direction of the connection: the application is given a prefix of what the other one
wrote, and when it is told that there is nothing more, all of it. -/
def Faithful (given wrote : Bytes) (ended : Prop) : Prop := given <+: wrote ∧ (ended → given = wrote)

/-- **The whole connection.**  A client has reported success, having accepted a Finished message that is the end of the
flight of a server with the same hash function, and nowhere in the two computations of it does that function collide.
Then, whatever either application does afterwards and whatever the network does short of forging, each application is
given a prefix of what the other one wrote, and all of it if it is told that nothing more will come.  No assumption is
made about the keys of the two ends. -/
theorem C78_connected {cfgC : ClientSM.Cfg} (hokC : ∀ c a, cfgC.hashOf c = .ok a → a.Ok) {newer y older sC}
    (hrC : ClientSM.Run cfgC (newer ++ y :: older) sC) {b : Bool}
    (hs : ClientSM.Action.reportHandshakeSuccess b ∈ y.acts)
    {cfgS : Server.Cfg} (hokS : ∀ c a, cfgS.hashOf c = .ok a → a.Ok) {hS sS} (hrS : Server.Run cfgS hS sS)
    {g₀ : Server.Spec.Neg} (hf : Server.Spec.Fixed cfgS hS g₀) :
    ∃ gc m orig gs, ClientSM.Spec.Fixed cfgC older gc ∧ ClientSM.Spec.received y = some (.finished m, orig) ∧
      Server.Spec.Fixed cfgS hS gs ∧
      ∀ {flight : Bytes}, gs.hash = gc.hash → Parses orig (.finished m) → gs.rest = flight ++ orig →
        NoClash gc.hash.spec
          (finishedQueries gc.hash.spec gc.inputs "s hs traffic" (clientHellos gc)
            (ClientSM.Spec.transcript cfgC older))
          (finishedQueries gc.hash.spec gs.inputs "s hs traffic" (serverHellos gs)
            (serverHellos gs ++ flight)) →
        ∀ {aeadOf : Bytes → Aead},
          (Link aeadOf (ClientSM.Hist.keys .clientAppTraffic (newer ++ y :: older))
              (Server.Hist.keys .clientAppTraffic hS)
              (ClientSM.Hist.sent .appTraffic (newer ++ y :: older)) (Server.Hist.arrived .appTraffic hS) →
            Faithful (Server.Hist.delivered .appTraffic hS) (ClientSM.Hist.wrote .appTraffic (newer ++ y :: older))
              (Server.Hist.ended .appTraffic hS)) ∧
          (Link aeadOf (Server.Hist.keys .serverAppTraffic hS)
              (ClientSM.Hist.keys .serverAppTraffic (newer ++ y :: older))
              (Server.Hist.sent .appTraffic hS) (ClientSM.Hist.arrived .appTraffic (newer ++ y :: older)) →
            Faithful (ClientSM.Hist.delivered .appTraffic (newer ++ y :: older)) (Server.Hist.wrote .appTraffic hS)
              (ClientSM.Hist.ended .appTraffic (newer ++ y :: older))) := by
  obtain ⟨gc, m, orig, c1, c2, c3, c4, c5, c6⟩ := ClientSM.success_first hokC hrC hs
  have hg : ∃ gs, Server.Spec.Fixed cfgS hS gs ∧
      ∀ Z, (Server.Hist.keys .clientAppTraffic hS)[0]? = some Z → Z = gs.clientApp 0 := by
    rcases Server.client_first hokS hrS with h0 | ⟨g, hg, h0⟩
    · exact ⟨g₀, hf, fun Z hZ => by rw [h0] at hZ; simp at hZ⟩
    · exact ⟨g, hg, fun Z hZ => by rw [h0] at hZ; exact (Option.some.inj hZ).symm⟩
  obtain ⟨gs, s1, s2⟩ := hg
  obtain ⟨s3, s4⟩ := Server.fixed_first hokS hrS s1
  refine ⟨gc, m, orig, gs, c1, c2, s1, ?_⟩
  intro flight hh hpo hrest hn aeadOf
  obtain ⟨-, -, -, -, -, a1, a2, -⟩ := agree_of hokC c1 c3 s1 hh hpo hrest hn
  have k1 : SameStart (ClientSM.Hist.keys .clientAppTraffic (newer ++ y :: older))
      (Server.Hist.keys .clientAppTraffic hS) := by
    intro Z Y hZ hY
    rw [c4, a1] at hY
    rw [s2 Z hZ, Option.some.inj hY]
  have k2 : SameStart (Server.Hist.keys .serverAppTraffic hS)
      (ClientSM.Hist.keys .serverAppTraffic (newer ++ y :: older)) := by
    intro Z Y hZ hY
    rw [c5, a2] at hZ
    rw [s3] at hY
    rw [← Option.some.inj hZ, Option.some.inj hY]
  have k3 : SameHash (ClientSM.hashUsed cfgC sC) (Server.hashUsed cfgS sS) := by
    intro u v hu hv
    rw [c6] at hu
    rw [s4, hh] at hv
    rw [← Option.some.inj hu, Option.some.inj hv]
  exact ⟨fun hl => ⟨C78_to_server hokC hrC hokS hrS k3 k1 hl,
      fun he => (C78_complete_server hokC hrC hokS hrS k3 k1 hl he).1⟩,
    fun hl => ⟨C78_to_client hokC hrC hokS hrS k3 k2 hl,
      fun he => (C78_complete_client hokC hrC hokS hrS k3 k2 hl he).1⟩⟩

end Fizz.Channel

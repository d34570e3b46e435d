import Verif.Channel.Keys

/-!
# End to end: what an application is given is a prefix of what the peer's application wrote (C78)
-/

namespace Fizz.Channel
open Fizz.Codec Fizz.Record
open Fizz.Server (Level)

/-- The keys of one end and those of the other are the same, as far as they go. -/
def SameKeys (kw kr : List Bytes) : Prop := ∀ (i : Nat) Z Y, kr[i]? = some Z → kw[i]? = some Y → Z = Y

/-- The two ends use the same hash, as far as they have chosen one. -/
def SameHash (a b : Option Crypto.Spec.Hash) : Prop := ∀ x y, a = some x → b = some y → x = y

/-- The two ends climb the same ladder of keys: if their first application keys agree, and their hashes, all keys do. -/
theorem C78_keys {cfgC : ClientSM.Cfg} (hokC : ∀ c a, cfgC.hashOf c = .ok a → a.Ok) {hC sC}
    (hrC : ClientSM.Run cfgC hC sC) {cfgS : Server.Cfg} (hokS : ∀ c a, cfgS.hashOf c = .ok a → a.Ok) {hS sS}
    (hrS : Server.Run cfgS hS sS) (hh : SameHash (ClientSM.hashUsed cfgC sC) (Server.hashUsed cfgS sS)) :
    (SameStart (ClientSM.Hist.keys .clientAppTraffic hC) (Server.Hist.keys .clientAppTraffic hS) →
      SameKeys (ClientSM.Hist.keys .clientAppTraffic hC) (Server.Hist.keys .clientAppTraffic hS)) ∧
    (SameStart (Server.Hist.keys .serverAppTraffic hS) (ClientSM.Hist.keys .serverAppTraffic hC) →
      SameKeys (Server.Hist.keys .serverAppTraffic hS) (ClientSM.Hist.keys .serverAppTraffic hC)) := by
  obtain ⟨c1, c2⟩ := ClientSM.run_climbed hokC hrC
  obtain ⟨s1, s2⟩ := Server.run_climbed hokS hrS
  exact ⟨climbed_agree s2 c1 fun x y hx hy => (hh y x hy hx).symm, climbed_agree c2 s1 hh⟩

/-- **Client to server.**  Whatever the network does short of forging, what the server has given to its application is a
prefix of what the client's application wrote: nothing is invented, lost in the middle, repeated, reordered or put
together differently, over any number of KeyUpdates in either direction. -/
theorem C78_to_server {cfgC : ClientSM.Cfg} (hokC : ∀ c a, cfgC.hashOf c = .ok a → a.Ok) {hC sC}
    (hrC : ClientSM.Run cfgC hC sC) {cfgS : Server.Cfg} (hokS : ∀ c a, cfgS.hashOf c = .ok a → a.Ok) {hS sS}
    (hrS : Server.Run cfgS hS sS) (hh : SameHash (ClientSM.hashUsed cfgC sC) (Server.hashUsed cfgS sS))
    (h0 : SameStart (ClientSM.Hist.keys .clientAppTraffic hC) (Server.Hist.keys .clientAppTraffic hS))
    {aeadOf : Bytes → Aead}
    (hl : Link aeadOf (ClientSM.Hist.keys .clientAppTraffic hC) (Server.Hist.keys .clientAppTraffic hS)
      (ClientSM.Hist.sent .appTraffic hC) (Server.Hist.arrived .appTraffic hS)) :
    Server.Hist.delivered .appTraffic hS <+: ClientSM.Hist.wrote .appTraffic hC := by
  have h := deliver hl.overhead (ClientSM.run_sender hokC hrC) (Server.run_receiver hokS hrS) hl.writer hl.reader
    ((C78_keys hokC hrC hokS hrS hh).1 h0) hl.carries
  rw [ClientSM.run_wrote hokC hrC]
  exact (Server.run_delivers hrS .appTraffic).2.1.trans h.1

/-- **Server to client.** -/
theorem C78_to_client {cfgC : ClientSM.Cfg} (hokC : ∀ c a, cfgC.hashOf c = .ok a → a.Ok) {hC sC}
    (hrC : ClientSM.Run cfgC hC sC) {cfgS : Server.Cfg} (hokS : ∀ c a, cfgS.hashOf c = .ok a → a.Ok) {hS sS}
    (hrS : Server.Run cfgS hS sS) (hh : SameHash (ClientSM.hashUsed cfgC sC) (Server.hashUsed cfgS sS))
    (h0 : SameStart (Server.Hist.keys .serverAppTraffic hS) (ClientSM.Hist.keys .serverAppTraffic hC))
    {aeadOf : Bytes → Aead}
    (hl : Link aeadOf (Server.Hist.keys .serverAppTraffic hS) (ClientSM.Hist.keys .serverAppTraffic hC)
      (Server.Hist.sent .appTraffic hS) (ClientSM.Hist.arrived .appTraffic hC)) :
    ClientSM.Hist.delivered .appTraffic hC <+: Server.Hist.wrote .appTraffic hS := by
  have h := deliver hl.overhead (Server.run_sender hokS hrS) (ClientSM.run_receiver hokC hrC) hl.writer hl.reader
    ((C78_keys hokC hrC hokS hrS hh).2 h0) hl.carries
  rw [Server.run_wrote hokS hrS]
  exact (ClientSM.run_delivers hokC hrC .appTraffic).2.1.trans h.1

/-- **No truncation.**  If the server tells its application that the client will send nothing more, the application has
all the client's application ever wrote, and the last thing the client wrote is an alert. -/
theorem C78_complete_server {cfgC : ClientSM.Cfg} (hokC : ∀ c a, cfgC.hashOf c = .ok a → a.Ok) {hC sC}
    (hrC : ClientSM.Run cfgC hC sC) {cfgS : Server.Cfg} (hokS : ∀ c a, cfgS.hashOf c = .ok a → a.Ok) {hS sS}
    (hrS : Server.Run cfgS hS sS) (hh : SameHash (ClientSM.hashUsed cfgC sC) (Server.hashUsed cfgS sS))
    (h0 : SameStart (ClientSM.Hist.keys .clientAppTraffic hC) (Server.Hist.keys .clientAppTraffic hS))
    {aeadOf : Bytes → Aead}
    (hl : Link aeadOf (ClientSM.Hist.keys .clientAppTraffic hC) (Server.Hist.keys .clientAppTraffic hS)
      (ClientSM.Hist.sent .appTraffic hC) (Server.Hist.arrived .appTraffic hS))
    (he : Server.Hist.ended .appTraffic hS) :
    Server.Hist.delivered .appTraffic hS = ClientSM.Hist.wrote .appTraffic hC ∧
    ∃ Z data, (ClientSM.Hist.sent .appTraffic hC).getLast? = some (Z, (21, data)) := by
  have h := deliver hl.overhead (ClientSM.run_sender hokC hrC) (Server.run_receiver hokS hrS) hl.writer hl.reader
    ((C78_keys hokC hrC hokS hrS hh).1 h0) hl.carries
  obtain ⟨-, h1, h2⟩ := (Server.run_delivers hrS .appTraffic).2.2 he
  obtain ⟨h3, c, h4, h5⟩ := h.2 h2
  rw [ClientSM.run_wrote hokC hrC, h1]
  refine ⟨h3, ?_⟩
  rw [List.getLast?_map] at h4
  obtain ⟨⟨Z, t, d⟩, h6, rfl⟩ := Option.map_eq_some_iff.1 h4
  cases h5.1
  exact ⟨Z, d, h6⟩

/-- **No truncation**, for the client. -/
theorem C78_complete_client {cfgC : ClientSM.Cfg} (hokC : ∀ c a, cfgC.hashOf c = .ok a → a.Ok) {hC sC}
    (hrC : ClientSM.Run cfgC hC sC) {cfgS : Server.Cfg} (hokS : ∀ c a, cfgS.hashOf c = .ok a → a.Ok) {hS sS}
    (hrS : Server.Run cfgS hS sS) (hh : SameHash (ClientSM.hashUsed cfgC sC) (Server.hashUsed cfgS sS))
    (h0 : SameStart (Server.Hist.keys .serverAppTraffic hS) (ClientSM.Hist.keys .serverAppTraffic hC))
    {aeadOf : Bytes → Aead}
    (hl : Link aeadOf (Server.Hist.keys .serverAppTraffic hS) (ClientSM.Hist.keys .serverAppTraffic hC)
      (Server.Hist.sent .appTraffic hS) (ClientSM.Hist.arrived .appTraffic hC))
    (he : ClientSM.Hist.ended .appTraffic hC) :
    ClientSM.Hist.delivered .appTraffic hC = Server.Hist.wrote .appTraffic hS ∧
    ∃ Z data, (Server.Hist.sent .appTraffic hS).getLast? = some (Z, (21, data)) := by
  have h := deliver hl.overhead (Server.run_sender hokS hrS) (ClientSM.run_receiver hokC hrC) hl.writer hl.reader
    ((C78_keys hokC hrC hokS hrS hh).2 h0) hl.carries
  obtain ⟨-, h1, h2⟩ := (ClientSM.run_delivers hokC hrC .appTraffic).2.2 he
  obtain ⟨h3, c, h4, h5⟩ := h.2 h2
  rw [Server.run_wrote hokS hrS, h1]
  refine ⟨h3, ?_⟩
  rw [List.getLast?_map] at h4
  obtain ⟨⟨Z, t, d⟩, h6, rfl⟩ := Option.map_eq_some_iff.1 h4
  cases h5.1
  exact ⟨Z, d, h6⟩

/-- **Early data.**  What the server gives to its application as early data is a prefix of what the client's application
wrote as early data. -/
theorem C78_early {cfgC : ClientSM.Cfg} (hokC : ∀ c a, cfgC.hashOf c = .ok a → a.Ok) {hC sC}
    (hrC : ClientSM.Run cfgC hC sC) {cfgS : Server.Cfg} (hokS : ∀ c a, cfgS.hashOf c = .ok a → a.Ok) {hS sS}
    (hrS : Server.Run cfgS hS sS)
    (h0 : SameKeys (ClientSM.Hist.keys .clientEarlyTraffic hC) (Server.Hist.keys .clientEarlyTraffic hS))
    {aeadOf : Bytes → Aead}
    (hl : Link aeadOf (ClientSM.Hist.keys .clientEarlyTraffic hC) (Server.Hist.keys .clientEarlyTraffic hS)
      (ClientSM.Hist.sent .earlyData hC) (Server.Hist.arrived .earlyData hS)) :
    Server.Hist.delivered .earlyData hS <+: ClientSM.Hist.wrote .earlyData hC := by
  have h := deliver hl.overhead (ClientSM.run_sender_early hokC hrC) (Server.run_receiver_early hokS hrS) hl.writer
    hl.reader h0 hl.carries
  rw [ClientSM.run_wrote hokC hrC]
  exact (Server.run_delivers hrS .earlyData).2.1.trans h.1

end Fizz.Channel

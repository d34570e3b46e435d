import Verif.Agree.Params

/-! # C58: the server accepts the client's Finished -/

namespace Fizz.Agree
open Fizz Fizz.Codec Fizz.Crypto Fizz.Crypto.Spec Fizz.KS.Spec Fizz.Agree.Spec

theorem hsBytes_append (a b : List Server.Content) :
    Server.Spec.handshakeBytes (a ++ b) = Server.Spec.handshakeBytes a ++ Server.Spec.handshakeBytes b := by
  simp [Server.Spec.handshakeBytes]

theorem hsBytes_ccs : ∀ {c : List Server.Content}, (∀ k ∈ c, k = ClientSM.ccs) →
    Server.Spec.handshakeBytes c = []
  | [], _ => rfl
  | k :: c, h => by
    have h1 := h k (by simp)
    subst h1
    have : Server.Spec.handshakeBytes (ClientSM.ccs :: c) = Server.Spec.handshakeBytes c := by
      simp [Server.Spec.handshakeBytes, ClientSM.ccs, Server.content]
    rw [this]
    exact hsBytes_ccs (fun x hx => h x (by simp [hx]))

/-- C58: when a server reports success, and the Finished message it has accepted is the one a client (using
the same hash function) has sent at the end of its second flight (`FlightOk`; by `C61_does` that is what a
client answers the server's Finished with), the two have the same PSK and key exchange secrets, the same
messages through the ServerHello, the same messages through the client's Finished; and therefore the same
handshake keys and the same resumption master secret. -/
theorem C58_server {cfgS : Server.Cfg} (hok : ∀ c a, cfgS.hashOf c = .ok a → a.Ok) {newer y older s}
    (hr : Server.Run cfgS (newer ++ y :: older) s) (hs : Server.Action.reportHandshakeSuccess ∈ y.acts) :
    ∃ gs m orig, Server.Spec.Fixed cfgS older gs ∧ Server.Spec.received y = some (.finished m, orig) ∧
      ∀ {cfgC : ClientSM.Cfg} {inp : ClientSM.Inp} {hC : List ClientSM.Step} {gc : ClientSM.Spec.Neg}
        {base pre : Bytes} {early : ClientSM.EarlyDataType} {flight : List Server.Content} {cert : Option ClientSM.Cert},
        ClientSM.Spec.FlightOk cfgC inp gc hC base early flight cert → gc.hash = gs.hash →
        Parses orig (.finished m) → Server.Spec.handshakeBytes flight = pre ++ orig →
        NoClash gs.hash.spec
          (finishedQueries gs.hash.spec gs.inputs "c hs traffic" (serverHellos gs)
            (Server.Spec.transcript cfgS older))
          (finishedQueries gs.hash.spec gc.inputs "c hs traffic" (clientHellos gc) (base ++ pre)) →
        SameInputs gs.hash.spec gs.inputs gc.inputs ∧ serverHellos gs = clientHellos gc ∧
        Server.Spec.transcript cfgS older = base ++ pre ∧
        gs.clientHandshake = gc.clientHandshake ∧ gs.serverHandshake = gc.serverHandshake ∧
        masterValue gs.hash.spec gs.inputs (gs.hash.digest (Server.Spec.transcript cfgS older ++ orig))
            .resumptionMaster =
          masterValue gc.hash.spec gc.inputs (gc.hash.digest (base ++ Server.Spec.handshakeBytes flight))
            .resumptionMaster := by
  obtain ⟨gs, m, orig, h1, h2, -, -, h5, -⟩ := Server.C26_success hok hr hs
  refine ⟨gs, m, orig, h1, h2, ?_⟩
  intro cfgC inp hC gc base pre early flight cert hf hh hpo hfl hn
  have ok : gs.hash.Ok := by
    obtain ⟨_, _, _, -, hn⟩ := h1
    exact hok _ _ hn.hash
  rw [parses_finished hpo] at hfl ⊢
  obtain ⟨c, eoed, auth, -, hc, -, -, rfl⟩ := hf
  have e0 : Server.Spec.handshakeBytes [(⟨⟨.handshake, gc.clientHandshake⟩, 22, [auth ++
      Codec.Spec.handshake (.finished ⟨Server.Spec.finishedMac gc.hash.spec gc.clientHandshake
        (gc.hash.digest (base ++ Server.Spec.handshakeBytes eoed ++ auth))⟩)]⟩ : Server.Content)] = auth ++
      Codec.Spec.handshake (.finished ⟨Server.Spec.finishedMac gc.hash.spec gc.clientHandshake
        (gc.hash.digest (base ++ Server.Spec.handshakeBytes eoed ++ auth))⟩) := by
    simp [Server.Spec.handshakeBytes]
  have e1 := hfl
  rw [hsBytes_append, hsBytes_append, hsBytes_ccs hc, List.nil_append, e0, ← List.append_assoc] at e1
  obtain ⟨rfl, e2⟩ := finished_end (by rw [h5, mac_len ok]; simp only; rw [hh, mac_len ok]) e1
  simp only at e2
  rw [h5, hh] at e2
  have e4 : gc.clientHandshake = DeriveSecret gs.hash.spec (KS.Spec.handshake gs.hash.spec gc.inputs) "c hs traffic"
      (gs.hash.digest (clientHellos gc)) := by
    unfold ClientSM.Spec.Neg.clientHandshake ClientSM.Spec.Neg.thServerHello
    rw [hh]; rfl
  rw [e4, List.append_assoc] at e2
  obtain ⟨a1, a2, a3⟩ := finished_inj ok hn e2.symm
  obtain ⟨a4, a5⟩ := SameInputs.eq a1
  refine ⟨a1, a2, a3, ?_, ?_, ?_⟩
  · unfold ClientSM.Spec.Neg.clientHandshake Server.Spec.Neg.clientHandshake handshakeValue
    rw [hh]
    simp only [a4]
    unfold ClientSM.Spec.Neg.thServerHello Server.Spec.Neg.thServerHello
    rw [hh]
    exact congrArg (fun b => DeriveSecret _ _ _ (gs.hash.digest b)) a2
  · unfold ClientSM.Spec.Neg.serverHandshake Server.Spec.Neg.serverHandshake handshakeValue
    rw [hh]
    simp only [a4]
    unfold ClientSM.Spec.Neg.thServerHello Server.Spec.Neg.thServerHello
    rw [hh]
    exact congrArg (fun b => DeriveSecret _ _ _ (gs.hash.digest b)) a2
  · rw [hfl, hh]
    unfold masterValue
    simp only [a5, a3, List.append_assoc]

end Fizz.Agree

import Verif.Agree.Mac
import Verif.Codec.Props
import Verif.Codec.ExtProps
import Verif.ClientSM.Props
import Verif.Server.Props2

/-!
# C58: a client and a server that accept each other's Finished agree

Hypothesis about the hash function: between the inputs the one side hashes for this Finished message and
those the other side hashes, there is no collision (`Spec.NoClash`).
-/

namespace Fizz.Agree
open Fizz Fizz.Codec Fizz.Crypto Fizz.Crypto.Spec Fizz.KS.Spec Fizz.Agree.Spec

/-! ## Framing -/

/-- One message with its header. -/
def Framed (b : Bytes) : Prop := ∃ t body, body.length < 2 ^ 24 ∧ b = t :: vec .u24 body

theorem framed_inj {a b x y : Bytes} (ha : Framed a) (hb : Framed b) (h : a ++ x = b ++ y) :
    a = b ∧ x = y := by
  obtain ⟨t, p, hp, rfl⟩ := ha
  obtain ⟨u, q, hq, rfl⟩ := hb
  simp only [vec, List.cons_append, List.cons.injEq, List.append_assoc] at h
  obtain ⟨rfl, h⟩ := h
  obtain ⟨h1, h2⟩ := List.append_inj h (by simp)
  have hl := beEnc_inj (by simpa [Width.bytes] using hp) (by simpa [Width.bytes] using hq) h1
  obtain ⟨rfl, rfl⟩ := List.append_inj h2 hl
  exact ⟨rfl, rfl⟩

theorem framed_handshake {m : HsMsg} (h : Codec.Spec.Encodable m) : Framed (Codec.Spec.handshake m) :=
  ⟨_, _, h.2, rfl⟩

theorem framed_hash {d : Bytes} (h : d.length < 2 ^ 24) : Framed (Server.Spec.messageHash d) := ⟨_, d, h, rfl⟩

theorem Spec.Parses.framed {o m} (h : Parses o m) : Framed o := by
  obtain ⟨t, b, h1, h2, -⟩ := h
  exact ⟨t, b, h1, h2⟩

theorem frame_parts {t u : UInt8} {a b : Bytes} (ha : a.length < 2 ^ 24) (hb : b.length < 2 ^ 24)
    (h : (t :: vec .u24 a : Bytes) = u :: vec .u24 b) : t = u ∧ a = b := by
  simp only [vec, List.cons.injEq] at h
  obtain ⟨rfl, h⟩ := h
  obtain ⟨-, h2⟩ := List.append_inj h (by simp)
  exact ⟨rfl, h2⟩

/-- An encoding decodes to the message encoded. -/
theorem parses_encoded {o : Bytes} {m m' : HsMsg} (h : Parses o m) (he : Codec.Spec.Encodable m')
    (hm : Codec.Spec.Modern m') (ho : o = Codec.Spec.handshake m') : m = m' := by
  obtain ⟨t, b, h1, rfl, h2⟩ := h
  obtain ⟨rfl, rfl⟩ := frame_parts h1 he.2 ho
  rw [parseHandshake_of_fits m' he.1 hm] at h2
  exact (Except.ok.inj h2).symm

theorem parses_finished {o : Bytes} {m : Finished} (h : Parses o (.finished m)) :
    o = Codec.Spec.handshake (.finished m) := by
  obtain ⟨t, b, h1, rfl, h2⟩ := h
  obtain ⟨rfl, -, -, rfl | ⟨c, h, -⟩⟩ := C02_strict _ _ _ h2
  · rfl
  · cases h

theorem finished_end {a b : Bytes} {m m' : Finished} (hl : m.verify_data.length = m'.verify_data.length)
    (h : a ++ Codec.Spec.handshake (.finished m) = b ++ Codec.Spec.handshake (.finished m')) :
    a = b ∧ m.verify_data = m'.verify_data := by
  have hb : ∀ m : Finished, Codec.Spec.handshake (.finished m) = (20 :: beEnc 3 m.verify_data.length) ++ m.verify_data :=
    fun _ => rfl
  obtain ⟨h1, h2⟩ := List.append_inj' h (by rw [hb, hb]; simp [hl])
  refine ⟨h1, ?_⟩
  rw [hb, hb] at h2
  exact (List.append_inj' h2 hl).2

theorem mac_len {h : HashAlg} (ok : h.Ok) (k t : Bytes) : (Server.Spec.finishedMac h.spec k t).length = h.hashLen :=
  ok.len _

/-! ## The client accepts the server's Finished -/

/-- Two ends with the same Finished message of the server. -/
theorem agree_of {cfgC : ClientSM.Cfg} (hok : ∀ c a, cfgC.hashOf c = .ok a → a.Ok) {older : List ClientSM.Step}
    {gc : ClientSM.Spec.Neg} {m : Finished} {orig : Bytes} (h1 : ClientSM.Spec.Fixed cfgC older gc)
    (h5 : m.verify_data = Server.Spec.finishedMac gc.hash.spec gc.serverHandshake
      (gc.hash.digest (ClientSM.Spec.transcript cfgC older)))
    {cfgS : Server.Cfg} {hS : List Server.Step} {gs : Server.Spec.Neg} {flight : Bytes}
    (hf : Server.Spec.Fixed cfgS hS gs) (hh : gs.hash = gc.hash) (hpo : Parses orig (.finished m))
    (hrest : gs.rest = flight ++ orig)
    (hn : NoClash gc.hash.spec
          (finishedQueries gc.hash.spec gc.inputs "s hs traffic" (clientHellos gc)
            (ClientSM.Spec.transcript cfgC older))
          (finishedQueries gc.hash.spec gs.inputs "s hs traffic" (serverHellos gs)
            (serverHellos gs ++ flight))) :
        SameInputs gc.hash.spec gc.inputs gs.inputs ∧ clientHellos gc = serverHellos gs ∧
        ClientSM.Spec.transcript cfgC older = serverHellos gs ++ flight ∧
        gc.clientHandshake = gs.clientHandshake ∧ gc.serverHandshake = gs.serverHandshake ∧
        (∀ n, gc.clientApp (gc.hash.digest (ClientSM.Spec.transcript cfgC older ++ orig)) n = gs.clientApp n) ∧
        (∀ n, gc.serverApp (gc.hash.digest (ClientSM.Spec.transcript cfgC older ++ orig)) n = gs.serverApp n) ∧
        masterValue gc.hash.spec gc.inputs (gc.hash.digest (ClientSM.Spec.transcript cfgC older ++ orig))
          .exporterMaster = masterValue gs.hash.spec gs.inputs gs.thServerFinished .exporterMaster := by
  have ok : gc.hash.Ok := by
    obtain ⟨_, _, _, -, hn⟩ := h1
    exact hok _ _ hn.hash
  rw [parses_finished hpo] at hrest ⊢
  obtain ⟨_, x, _, -, hneg⟩ := hf
  obtain ⟨ee, req, cert, cv, hro⟩ := hneg.rest
  have e1 := hro.all
  rw [hrest] at e1
  obtain ⟨rfl, e2⟩ := finished_end (by rw [h5, mac_len ok]; simp only; rw [hh, mac_len ok]) e1
  simp only at e2
  rw [h5, hh] at e2
  have e3 : gs.before ++ gs.used.2 ++ gs.serverHello ++ ee ++ req ++ cert ++ cv =
      serverHellos gs ++ (ee ++ req ++ cert ++ cv) := by simp [serverHellos]
  rw [e3] at e2
  have e4 : gs.serverHandshake = DeriveSecret gc.hash.spec (KS.Spec.handshake gc.hash.spec gs.inputs) "s hs traffic"
      (gc.hash.digest (serverHellos gs)) := by
    unfold Server.Spec.Neg.serverHandshake Server.Spec.Neg.thServerHello
    rw [hh]; rfl
  rw [e4] at e2
  obtain ⟨a1, a2, a3⟩ := finished_inj ok hn e2
  obtain ⟨a4, a5⟩ := SameInputs.eq a1
  have hth : gc.hash.digest (ClientSM.Spec.transcript cfgC older ++ Codec.Spec.handshake (.finished m)) =
      gs.thServerFinished := by
    unfold Server.Spec.Neg.thServerFinished
    rw [hh, a3, hrest]
    simp [serverHellos]
  refine ⟨a1, a2, a3, ?_, ?_, ?_, ?_, ?_⟩
  · unfold ClientSM.Spec.Neg.clientHandshake Server.Spec.Neg.clientHandshake handshakeValue
    rw [hh]
    simp only [a4]
    unfold ClientSM.Spec.Neg.thServerHello Server.Spec.Neg.thServerHello
    rw [hh]
    exact congrArg (fun b => DeriveSecret _ _ _ (gc.hash.digest b)) a2
  · unfold ClientSM.Spec.Neg.serverHandshake Server.Spec.Neg.serverHandshake handshakeValue
    rw [hh]
    simp only [a4]
    unfold ClientSM.Spec.Neg.thServerHello Server.Spec.Neg.thServerHello
    rw [hh]
    exact congrArg (fun b => DeriveSecret _ _ _ (gc.hash.digest b)) a2
  · intro n
    rw [hth]
    unfold ClientSM.Spec.Neg.clientApp Server.Spec.Neg.clientApp clientTraffic ClientSM.Spec.Neg.app Server.Spec.Neg.app
    rw [hh]
    simp only [a5]
  · intro n
    rw [hth]
    unfold ClientSM.Spec.Neg.serverApp Server.Spec.Neg.serverApp serverTraffic ClientSM.Spec.Neg.app Server.Spec.Neg.app
    rw [hh]
    simp only [a5]
  · rw [hth, hh]
    unfold masterValue
    simp only [a5]

/-- C58: when a client reports success, and the Finished message it has accepted is the one a server (using
the same hash function) has sent, the two have the same PSK and key exchange secrets, the same messages
through the ServerHello, the same messages through the server's whole flight; and therefore the same
handshake keys, the same application keys of every generation, and the same exporter secret. -/
theorem C58_client {cfgC : ClientSM.Cfg} (hok : ∀ c a, cfgC.hashOf c = .ok a → a.Ok) {newer y older s}
    (hr : ClientSM.Run cfgC (newer ++ y :: older) s) {b : Bool}
    (hs : ClientSM.Action.reportHandshakeSuccess b ∈ y.acts) :
    ∃ gc m orig, ClientSM.Spec.Fixed cfgC older gc ∧ ClientSM.Spec.received y = some (.finished m, orig) ∧
      ∀ {cfgS : Server.Cfg} {hS : List Server.Step} {gs : Server.Spec.Neg} {flight : Bytes},
        Server.Spec.Fixed cfgS hS gs → gs.hash = gc.hash → Parses orig (.finished m) →
        gs.rest = flight ++ orig →
        NoClash gc.hash.spec
          (finishedQueries gc.hash.spec gc.inputs "s hs traffic" (clientHellos gc)
            (ClientSM.Spec.transcript cfgC older))
          (finishedQueries gc.hash.spec gs.inputs "s hs traffic" (serverHellos gs)
            (serverHellos gs ++ flight)) →
        SameInputs gc.hash.spec gc.inputs gs.inputs ∧ clientHellos gc = serverHellos gs ∧
        ClientSM.Spec.transcript cfgC older = serverHellos gs ++ flight ∧
        gc.clientHandshake = gs.clientHandshake ∧ gc.serverHandshake = gs.serverHandshake ∧
        (∀ n, gc.clientApp (gc.hash.digest (ClientSM.Spec.transcript cfgC older ++ orig)) n = gs.clientApp n) ∧
        (∀ n, gc.serverApp (gc.hash.digest (ClientSM.Spec.transcript cfgC older ++ orig)) n = gs.serverApp n) ∧
        masterValue gc.hash.spec gc.inputs (gc.hash.digest (ClientSM.Spec.transcript cfgC older ++ orig))
          .exporterMaster = masterValue gs.hash.spec gs.inputs gs.thServerFinished .exporterMaster := by
  obtain ⟨gc, m, orig, early, h1, h2, -, -, h5, -⟩ := ClientSM.C30_success hok hr hs
  exact ⟨gc, m, orig, h1, h2, fun hf hh hpo hrest hn => agree_of hok h1 h5 hf hh hpo hrest hn⟩

end Fizz.Agree

import Verif.Agree.Params
import Verif.Ech.AcceptProps

/-!
# Acceptance of ECH in a connection (C69)
-/

namespace Fizz.Ech
open Fizz Fizz.Codec Fizz.Crypto Fizz.Agree

/-- C69: a server whose ECH confirmation is `setAcceptConfirmation` changes nothing of its ServerHello but the random,
which is what C58 assumes. -/
theorem C69_transparent (hist : List Server.Step) (hconf : ∀ x ∈ hist, ∃ h : HashAlg, h.Ok ∧ x.env.inp.echConfirm = setConfirmation h) :
    Agree.Spec.ConfirmsRandom hist := by
  intro x hx cr t a b hb
  obtain ⟨h, ok, he⟩ := hconf x hx
  rw [he] at hb
  obtain ⟨⟨r, hr, -⟩, -⟩ := C69_agree h ok _ _ _ _ hb
  exact ⟨r, hr⟩

/-- C69 for whole connections: when a server that has accepted ECH answers with its ServerHello, a client that receives
this ServerHello, uses the same hash function, and whose inner hellos are the ones the server has used, takes ECH for
accepted. -/
theorem C69_connection {cfgS : Server.Cfg} {cfgC : ClientSM.Cfg} {olderS z gs olderC x gc}
    (hS : Server.Spec.Negotiated cfgS olderS z gs) (hC : ClientSM.Spec.Negotiated cfgC olderC x gc)
    (ok : gs.hash.Ok) (hacc : (Server.Spec.post z).echStatus = .accepted) (hcfg : cfgC.hasEchConfigs = true)
    (hconf : z.env.inp.echConfirm = setConfirmation gs.hash) (hcheck : x.env.inp.echAccepted = checkAccepted gs.hash)
    (hdec : ∀ m o, ClientSM.Spec.received x = some (m, o) → Agree.Spec.Parses o m)
    (hello : gc.serverHello = gs.serverHello)
    (htr : (ClientSM.Spec.transcripts cfgC olderC).2 = gs.before ++ gs.used.2)
    (hrandom : gc.offer.random = gs.used.1.random) : gc.ech = true := by
  obtain ⟨sh, s1, s2, -, s4⟩ := hS.serverHello
  have s5 := s4 hacc
  rw [hconf] at s5
  obtain ⟨⟨r, hr, -⟩, hok⟩ := C69_agree gs.hash ok _ _ _ _ s5
  obtain ⟨m, ht, hsock, -, -, -, -, -, -, -, -, -, -, -, -, hno⟩ := hC.message
  have hrec : ClientSM.Spec.received x = some (.serverHello m, gc.serverHello) := by
    have hne : x.acts.isEmpty = false := by
      cases ha : x.acts with
      | nil =>
        have := hC.secrets
        simp [ClientSM.Spec.announced, ha] at this
      | cons a l => rfl
    simp [ClientSM.Spec.received, ht, hsock, hne]
  have hm : m = sh := by
    refine serverHello_parsed (hdec _ _ hrec) s2 ?_ (by rw [hello, s1])
    rw [hr]; rfl
  cases he : gc.ech with
  | true => rfl
  | false =>
    have := (hno hcfg he).1
    rw [hcheck, hrandom, htr, hm, hok] at this
    cases this

end Fizz.Ech

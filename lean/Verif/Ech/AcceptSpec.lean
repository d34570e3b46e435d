import Verif.Ech.Accept
import Verif.Crypto.KeyScheduleSpec

/-!
# The acceptance confirmation of draft-ietf-tls-esni, section 7.2

`accept_confirmation = HKDF-Expand-Label(HKDF-Extract(0, ClientHelloInner.random), "ech accept confirmation",
transcript_ech_conf, 8)`, where the last message of the transcript has zeros in place of the confirmation.
-/

namespace Fizz.Ech.Spec
open Fizz Fizz.Codec Fizz.Crypto Fizz.Crypto.Spec

def acceptance (h : Hash) (random : Bytes) (label : String) (messages : Bytes) : Bytes :=
  ExpandLabel h (Extract h (List.replicate h.L 0) random) (KS.Spec.ascii label) (h.H messages) 8

/-- The ServerHello with zeros for the last eight bytes of its random. -/
def zeroed (m : ServerHello) : ServerHello :=
  { m with random := ⟨m.random.val.take 24 ++ List.replicate 8 0, by simp [m.random.len]⟩ }

/-- The HelloRetryRequest with eight zeros as the data of its ECH extension. -/
def zeroedHrr (m : HelloRetryRequest) : HelloRetryRequest :=
  { m with extensions := m.extensions.map fun x =>
      if x.extension_type = 0xfe0d then ⟨0xfe0d, List.replicate 8 0⟩ else x }

/-- The confirmation for a ServerHello sent after the given (inner) transcript. -/
def confirmation (h : Hash) (random : Random) (transcript : Bytes) (m : ServerHello) : Bytes :=
  acceptance h random.val "ech accept confirmation" (transcript ++ Codec.Spec.handshake (.serverHello (zeroed m)))

def confirmationHrr (h : Hash) (random : Random) (transcript : Bytes) (m : HelloRetryRequest) : Bytes :=
  acceptance h random.val "hrr ech accept confirmation"
    (transcript ++ Codec.Spec.handshake (.helloRetryRequest (zeroedHrr m)))

end Fizz.Ech.Spec

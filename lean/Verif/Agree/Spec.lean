import Verif.Server.Spec
import Verif.ClientSM.Spec
import Verif.Agree.NoClash

/-!
# Specification: what it takes for two Finished messages to be the same

The verify_data of a Finished message is computed by a fixed list of applications of the hash function.
`finishedQueries` lists the inputs of all of them: the transcript, the transcript through the ServerHello,
and two for every HMAC of the key schedule (RFC 8446 sections 4.4.4 and 7.1, RFC 2104).
-/

namespace Fizz.Agree.Spec
open Fizz Fizz.Crypto.Spec Fizz.KS.Spec

/-- The two inputs of the hash function in `HMAC(k, t)`. -/
def hmacQueries (h : Hash) (k t : Bytes) : List Bytes :=
  [xorAll 0x5c (padKey h k) ++ h.H (xorAll 0x36 (padKey h k) ++ t), xorAll 0x36 (padKey h k) ++ t]

/-- Those in `HKDF-Expand-Label(secret, label, ctx, Hash.length)`, which is one HMAC. -/
def labelQueries (h : Hash) (secret : Bytes) (label : String) (ctx : Bytes) : List Bytes :=
  hmacQueries h secret
    (Codec.Spec.hkdfLabel (UInt16.ofNat h.L) (ascii label) ctx [116, 108, 115, 49, 51, 32] ++ [1])

/-- Those in the verify_data of a Finished message: `hello` are the messages through the ServerHello,
`msgs` all before the Finished, `label` is that of the handshake traffic secret of the sender. -/
def finishedQueries (h : Hash) (i : Inputs) (label : String) (hello msgs : Bytes) : List Bytes :=
  [hello, msgs] ++
  hmacQueries h (zero h) (i.psk.getD (zero h)) ++
  labelQueries h (early h i.psk) "derived" (h.H []) ++
  hmacQueries h (DeriveSecret h (early h i.psk) "derived" (h.H [])) (i.ecdhe.getD (zero h)) ++
  labelQueries h (handshake h i) label (h.H hello) ++
  labelQueries h (DeriveSecret h (handshake h i) label (h.H hello)) "finished" [] ++
  hmacQueries h (DeriveSecret h (DeriveSecret h (handshake h i) label (h.H hello)) "finished" [])
    (h.H msgs)

/-- Two connections have the same inputs of the key schedule (an absent one counts as zeros). -/
def SameInputs (h : Hash) (i j : Inputs) : Prop :=
  i.psk.getD (zero h) = j.psk.getD (zero h) ∧ i.ecdhe.getD (zero h) = j.ecdhe.getD (zero h)

/-- The bytes are one handshake message, which decodes to `m`. -/
def Parses (orig : Bytes) (m : Codec.HsMsg) : Prop :=
  ∃ t body, body.length < 2 ^ 24 ∧ orig = t :: Codec.vec .u24 body ∧ Codec.parseHandshake t body = .ok m

/-- The messages through the ServerHello, as the client has them, and as the server has them. -/
def clientHellos (g : ClientSM.Spec.Neg) : Bytes := g.before ++ g.serverHello
def serverHellos (g : Server.Spec.Neg) : Bytes := g.before ++ g.used.2 ++ g.serverHello

end Fizz.Agree.Spec

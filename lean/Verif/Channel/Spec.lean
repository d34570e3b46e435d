import Verif.Record.WriteSpec

/-!
# One direction of one key over a hostile network (specification side of C78)

The sender protects contents with an AEAD, one after the other, starting at sequence number 0.  The
receiver starts with a fresh read layer for the same AEAD and is handed arbitrary buffers.  The only
assumption about the network is the one an AEAD is for: a ciphertext in those buffers that the AEAD opens
for a sequence number was made by the sender for that sequence number.
-/

namespace Fizz.Channel
open Fizz.Codec Fizz.Record

/-- What is handed to a write layer in one piece: content type and buffer chain. -/
abbrev Item := UInt8 × List Bytes

/-- A sender whose next sequence number is `seq` writes these contents, each of which succeeds, and in doing so
makes these calls of its AEAD.  The padding policy, the record size and the use of additional data may
change from one write to the next. -/
inductive Sealed (a : Aead) : UInt64 → List Item → List SealCall → Prop where
  | nil {seq} : Sealed a seq [] []
  | write {w w' : EncWr} {t chain calls out rest more} :
      w.aead = some a → 0 < w.maxRecord.toNat → w.maxRecord.toNat ≤ 2 ^ 14 → (t = 21 ∨ t = 22 ∨ t = 23) →
      encWrite w t chain = (w', calls, .ok out) → Sealed a w'.seq rest more →
      Sealed a w.seq ((t, chain) :: rest) (calls ++ more)

/-- Nothing in the buffer is a forgery: whenever a record in it opens for some sequence number, the sender has
sealed just that plaintext for just that sequence number. -/
def Genuine (a : Aead) (calls : List SealCall) (buf : Bytes) : Prop :=
  ∀ (hd : Header) (ct : Bytes), hd.bytes ++ ct <:+: buf → ∀ (ad : Option Bytes) (seq : UInt64) (chain : List Bytes),
    (ad = some hd.bytes ∨ ad = none) → a.tryDecrypt ad seq ct = .ok (some chain) →
    ∃ c ∈ calls, c.seq = seq ∧ c.plaintext = chain.flatten

/-- A read layer is handed one buffer after the other, all of which are `ok`, and gives these events. -/
inductive Reading (ok : Bytes → Prop) : Reader → List Event → Prop where
  | nil {r} : Reading ok r []
  | wait {r r' buf h rest es} : ok buf → readEvent r buf = .needMore h r' rest → Reading ok r' es →
      Reading ok r es
  | event {r r' buf e rest es} : ok buf → readEvent r buf = .done e r' rest → Reading ok r' es →
      Reading ok r (e :: es)

/-- `es` came out of a fresh read layer, on a network without forgeries, after `cs` was sealed. -/
def Carries (a : Aead) (cs : List Item) (es : List Event) : Prop :=
  ∃ calls, Sealed a 0 cs calls ∧
    ∃ st : EncRd, st.aead = some a ∧ st.seq = 0 ∧ Reading (Genuine a calls) ⟨.enc st, []⟩ es

/-- What belongs to a key. -/
def forKey {α} (Z : Bytes) (l : List (Bytes × α)) : List α := (l.filter (·.1 = Z)).map (·.2)

/-- The network between a writer that announced the keys `kw`, in this order, and wrote `sent` under them, and a
reader that announced the keys `kr` and to which `arrived` arrived under them.  Every key is used once, and what
comes out of a key came through a fresh read layer on a network without forgeries.  Nothing else is assumed about
the network: it may drop, delay, repeat, reorder, cut and corrupt whatever it likes. -/
structure Link (aeadOf : Bytes → Aead) (kw kr : List Bytes) (sent : List (Bytes × Item))
    (arrived : List (Bytes × Event)) : Prop where
  /-- The AEADs expand by at most 255 bytes. -/
  overhead : ∀ Z, (aeadOf Z).overhead ≤ 255
  writer : kw.Nodup
  reader : kr.Nodup
  carries : ∀ Z ∈ kr, Carries (aeadOf Z) (forKey Z sent) (forKey Z arrived)

/-- Lists begin alike, if they begin. -/
def SameStart (kw kr : List Bytes) : Prop := ∀ Z Y, kr[0]? = some Z → kw[0]? = some Y → Z = Y

/-- The application data in some contents. -/
def appBytes (cs : List Item) : Bytes := (cs.filter (·.1 = 23)).flatMap (·.2.flatten)

/-- The handshake messages in some contents. -/
def handshakeBytes (cs : List Item) : Bytes := (cs.filter (·.1 = 22)).flatMap (·.2.flatten)

/-- The application data among the events. -/
def appData : List Event → Bytes
  | [] => []
  | .appData d :: es => d ++ appData es
  | _ :: es => appData es

/-- The handshake messages among the events, as received. -/
def handshakes : List Event → Bytes
  | [] => []
  | .handshake _ orig :: es => orig ++ handshakes es
  | _ :: es => handshakes es

/-- The event says that the peer has closed its side, or has failed. -/
def Final : Event → Prop
  | .closeNotify _ => True
  | .alert _ => True
  | _ => False

end Fizz.Channel

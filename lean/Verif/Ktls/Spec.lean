import Verif.Ktls.Model
import Verif.Record.WriteSpec
import Verif.Aead.Ideal

/-! # Kernel TLS: specification -/

namespace Fizz.Ktls.Spec

open Fizz.Codec Fizz.Record

/-! ## The kernel's side -/

/-- What the kernel keeps of the structure it is given. -/
structure Info where
  key : Bytes
  salt : Bytes
  iv : Bytes
  seq : Nat
  deriving DecidableEq

/-- `struct tls12_crypto_info_aes_gcm_128` and `_256` of `<linux/tls.h>`: version and cipher (16 bits each,
little endian), iv (8 bytes), key (16 or 32 bytes), salt (4 bytes), record sequence number (8 bytes, big
endian).  A structure of another size is refused, and so is another version. -/
def parse (b : Bytes) : Option Info :=
  let kl := if (b.drop 2).take 2 = [51, 0] then 16 else if (b.drop 2).take 2 = [52, 0] then 32 else 0
  if b.take 2 = [4, 3] ∧ kl ≠ 0 ∧ b.length = 4 + 8 + kl + 4 + 8 then
    some ⟨(b.drop 12).take kl, (b.drop (12 + kl)).take 4, (b.drop 4).take 8, beDec (b.drop (16 + kl))⟩
  else none

/-- Exclusive or. -/
def xor (a b : Bytes) : Bytes := List.zipWith (· ^^^ ·) a b

/-- The kernel's nonce of the `n`th record after the keys were set (RFC 8446 §5.3 with salt and iv as the
12-byte IV). -/
def Info.nonce (i : Info) (n : Nat) : Bytes :=
  xor (i.salt ++ i.iv) ([0, 0, 0, 0] ++ beEnc 8 (i.seq + n))

/-- The record the kernel sends as the `n`th, with the cipher `A`. -/
def Info.record (i : Info) (A : Bytes → Fizz.Aead.Ideal) (n : Nat) (type : UInt8) (content : Bytes) :
    Bytes :=
  let header := wireHeader (content.length + 1 + (A i.key).tagLen)
  let s := (A i.key).sealing (i.nonce n) header (content ++ [type])
  header ++ (s.1 ++ s.2)

/-- What the kernel makes of the body of the `n`th record it receives: type and content, or nothing. -/
def Info.opened (i : Info) (A : Bytes → Fizz.Aead.Ideal) (n : Nat) (header body : Bytes) :
    Option (UInt8 × Bytes) :=
  let t := body.length - (A i.key).tagLen
  if body.length < (A i.key).tagLen then none
  else match (A i.key).opening (i.nonce n) header (body.take t) (body.drop t) with
    | none => none
    | some p =>
      match p.reverse.dropWhile (· == 0) with
      | [] => none
      | type :: rest => some (type, rest.reverse)

/-! ## The library's side -/

/-- The library's cipher object for a key and an IV, as C37 establishes it: nonces by `createIV`, no
associated data meaning an empty string. -/
def lib (A : Fizz.Aead.Ideal) (iv : Bytes) : Aead where
  overhead := A.tagLen
  encrypt ad seq pt := do
    let n ← createIV seq iv.length iv
    let s := A.sealing n (ad.getD []) pt
    .ok (s.1 ++ s.2)
  tryDecrypt ad seq ct := do
    let n ← createIV seq iv.length iv
    if ct.length < A.tagLen then .ok none
    else match A.opening n (ad.getD []) (ct.take (ct.length - A.tagLen)) (ct.drop (ct.length - A.tagLen)) with
      | none => .ok none
      | some p => .ok (some [p])

/-- Parameters the kernel can be given: AES-GCM with a key of its length and a 12-byte IV. -/
def Supported (p : Params) (key iv : Bytes) : Prop :=
  p.key = ⟨some key, some iv⟩ ∧ iv.length = 12 ∧
  ((p.ciphersuite = 0x1301 ∧ key.length = 16) ∨ (p.ciphersuite = 0x1302 ∧ key.length = 32))

/-! ## What a peer sends -/

/-- The kernel's answers for one record: its content in non-empty pieces (the application's buffers may be
small), each with the type. -/
def pieces (type : UInt8) (ps : List Bytes) : List Recv := ps.map (.bytes (some (true, type)))

/-- Something the peer sent: application data, or one ticket in a handshake message of its own. -/
inductive Sent
  | app (ps : List Bytes)
  | ticket (t : NewSessionTicket) (wire : Bytes) (ps : List Bytes)

/-- The pieces are what was sent; the ticket's message is whole and not longer than the limit. -/
def Sent.Ok : Sent → Prop
  | .app _ => True
  | .ticket t wire ps => Framed wire (.newSessionTicket t) ∧ wire.length ≤ 4 + 128 * 1024 ∧
      ps.flatten = wire ∧ [] ∉ ps

/-- The kernel's answers, with any number of `wouldBlock` in between left out. -/
def Sent.recvs : Sent → List Recv
  | .app ps => pieces 23 ps
  | .ticket _ _ ps => pieces 22 ps

/-- Application bytes. -/
def Sent.app? : Sent → Bytes
  | .app ps => ps.flatten
  | .ticket .. => []

/-- Tickets. -/
def Sent.tickets : Sent → List NewSessionTicket
  | .app _ => []
  | .ticket t _ _ => [t]

/-- Application data among the kernel's answers. -/
def appOf (rs : List Recv) : Bytes :=
  rs.flatMap fun
    | .bytes (some (true, type)) d => if type = 23 then d else []
    | _ => []

/-- Handshake data among the kernel's answers. -/
def handshakeOf (rs : List Recv) : Bytes :=
  rs.flatMap fun
    | .bytes (some (true, type)) d => if type = 22 then d else []
    | _ => []

end Fizz.Ktls.Spec

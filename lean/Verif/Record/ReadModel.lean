import Verif.Codec.Messages

/-!
# Record layers, reading side — model

`fizz/record/PlaintextRecordLayer.cpp`, `fizz/record/EncryptedRecordLayer.cpp`,
`fizz/record/RecordLayer.cpp`.

The socket buffer (`folly::IOBufQueue`) is its byte content: the code only looks at it through
`Cursor`, `chainLength`, `split`, `trimStart`, `move`, which do not see chain boundaries.
Decrypted data is a chain (`List Bytes`) because the padding removal walks the chain.
After a failure the connection is dead (see `Fsm`), so the layer state left behind by a failing
call is not recorded.
-/

namespace Fizz.Record
open Fizz.Codec

/-- `ContentType` (`fizz/record/Types.h:43-49`). -/
def ContentType.change_cipher_spec : UInt8 := 20
/-- `ContentType` (`fizz/record/Types.h:43-49`). -/
def ContentType.alert : UInt8 := 21
/-- `ContentType` (`fizz/record/Types.h:43-49`). -/
def ContentType.handshake : UInt8 := 22
/-- `ContentType` (`fizz/record/Types.h:43-49`). -/
def ContentType.application_data : UInt8 := 23

/-- `AlertDescription::illegal_parameter` (`fizz/record/Alerts.h`). -/
def illegal_parameter : UInt8 := 47

/-- `TLSMessage` (`fizz/record/Types.h:51-54`). -/
structure TLSMessage where
  type : UInt8
  fragment : Bytes
  deriving DecidableEq, Repr

/-- The `Aead` interface (`fizz/crypto/aead/Aead.h:60-290`), as used by the record layer:
`encrypt`/`tryDecrypt` with associated data (or null) and a sequence number.  A decrypted buffer
is a non-empty chain.  The cryptography is a parameter. -/
structure Aead where
  /-- `getCipherOverhead()` -/
  overhead : Nat
  encrypt : Option Bytes → UInt64 → Bytes → Res Bytes
  tryDecrypt : Option Bytes → UInt64 → Bytes → Res (Option (List Bytes))

/-- `Aead::decrypt` (`fizz/crypto/aead/Aead.h:214-234`). -/
def Aead.decrypt (a : Aead) (ad : Option Bytes) (seq : UInt64) (ct : Bytes) : Res (List Bytes) :=
  match a.tryDecrypt ad seq ct with
  | .error f => .error f
  | .ok none => .error (Failure.rt "decryption failed")
  | .ok (some p) => .ok p

/-- Result of one iteration of a `while (true)` reading loop.
* `needMore hint st rest`: the function returned none with a size hint
* `again`: `continue`
* `done`: the function returned a value
* `fail`: the function returned an error.
`st` is the layer state afterwards, `rest` the bytes left in the queue. -/
inductive Iter (σ α : Type) where
  | needMore (hint : Nat) (st : σ) (rest : Bytes)
  | again (st : σ) (rest : Bytes)
  | done (a : α) (st : σ) (rest : Bytes)
  | fail (f : Failure)

/-- `while (true) body`, with fuel; running out of fuel is the distinct outcome `ub` (it is proved
that it does not happen). -/
def loop {σ α : Type} (body : σ → Bytes → Iter σ α) : Nat → σ → Bytes → Iter σ α
  | 0, _, _ => .fail (.ub "loop does not terminate")
  | n+1, st, buf =>
    match body st buf with
    | .again st' rest => loop body n st' rest
    | .needMore h st' rest => .needMore h st' rest
    | .done a st' rest => .done a st' rest
    | .fail f => .fail f

/-- `readBE<uint16_t>` of two bytes. -/
def be16 (a b : UInt8) : Nat := a.toNat * 256 + b.toNat

/-- The five header bytes of a record. -/
structure Header where
  t : UInt8
  v1 : UInt8
  v2 : UInt8
  l1 : UInt8
  l2 : UInt8
  deriving DecidableEq, Repr

/-- `length` as read from the header. -/
def Header.length (h : Header) : Nat := be16 h.l1 h.l2

/-- The bytes of the header. -/
def Header.bytes (h : Header) : Bytes := [h.t, h.v1, h.v2, h.l1, h.l2]

/-- What happens to one complete record. -/
inductive RecAct (σ α : Type) where
  | skip (st : σ)
  | deliver (a : α) (st : σ)
  | fail (f : Failure)

/-- The common skeleton of the two reading loops (`fizz/record/PlaintextRecordLayer.cpp:28-102`,
`fizz/record/EncryptedRecordLayer.cpp:27-122`): with fewer than 5 bytes ask for the rest of the
header; run the header checks `hdr` (which also see the first ten buffered bytes, for an error
message); if the record is incomplete ask for the rest of it; otherwise remove it from the queue
and process it with `act`. -/
def recordBody {σ α : Type} (hdr : σ → Header → Bytes → Res σ) (act : σ → Header → Bytes → RecAct σ α)
    (st : σ) (buf : Bytes) : Iter σ α :=
  match buf with
  | t :: v1 :: v2 :: l1 :: l2 :: body =>
    let h : Header := ⟨t, v1, v2, l1, l2⟩
    match hdr st h (buf.take 10) with
    | .error f => .fail f
    | .ok st' =>
      if body.length < h.length then .needMore (h.length - body.length) st' buf
      else match act st' h (body.take h.length) with
        | .skip st'' => .again st'' (body.drop h.length)
        | .deliver a st'' => .done a st'' (body.drop h.length)
        | .fail f => .fail f
  | _ => .needMore (5 - buf.length) st buf

/-- One hexadecimal digit. -/
def hexDigit (n : Nat) : Char := "0123456789abcdef".toList.getD n '?'

/-- `folly::hexlify`. -/
def hexlify (b : Bytes) : String :=
  String.ofList (b.flatMap fun x => [hexDigit (x.toNat / 16), hexDigit (x.toNat % 16)])

/-! ## Plaintext -/

/-- State of `PlaintextReadRecordLayer` (`fizz/record/PlaintextRecordLayer.h:42-45`). -/
structure PlainRd where
  skipEncrypted : Bool := false
  receivedVersion : Option UInt16 := none
  deriving DecidableEq, Repr

/-- `kMaxPlaintextRecordSize` (`fizz/record/PlaintextRecordLayer.cpp:19`). -/
def kMaxPlaintextRecordSize : Nat := 0x4000

/-- The checks of `PlaintextReadRecordLayer::read` on the header
(`fizz/record/PlaintextRecordLayer.cpp:37-80`). Encrypted records to be skipped pass without
further checks. -/
def plainHeader (st : PlainRd) (h : Header) (first10 : Bytes) : Res PlainRd :=
  if st.skipEncrypted = true ∧ h.t = ContentType.application_data then .ok st
  else
    let st := if h.t ≠ ContentType.change_cipher_spec then { st with skipEncrypted := false } else st
    if h.t ≠ ContentType.handshake ∧ h.t ≠ ContentType.alert ∧
        h.t ≠ ContentType.change_cipher_spec then
      .error (Failure.rt ("received plaintext content type " ++ toString h.t.toNat ++
        ", header: " ++ hexlify first10))
    else
      let st := { st with receivedVersion := some (UInt16.ofNat (be16 h.v1 h.v2)) }
      if kMaxPlaintextRecordSize < h.length then
        .error (Failure.rt "received too long plaintext record")
      else if h.length = 0 then .error (Failure.rt "received empty plaintext record")
      else .ok st

/-- A complete plaintext record (`fizz/record/PlaintextRecordLayer.cpp:49-50,87-101`).
`application_data` gets here only when it is to be skipped. -/
def plainRecord (st : PlainRd) (h : Header) (fragment : Bytes) : RecAct PlainRd TLSMessage :=
  if h.t = ContentType.application_data then .skip st
  else if h.t = ContentType.change_cipher_spec then
    if fragment = [1] then .skip st
    else .fail (Failure.fizz "received ccs" (some illegal_parameter))
  else .deliver ⟨h.t, fragment⟩ st

/-- One iteration of `PlaintextReadRecordLayer::read`
(`fizz/record/PlaintextRecordLayer.cpp:28-102`). -/
def plainBody : PlainRd → Bytes → Iter PlainRd TLSMessage := recordBody plainHeader plainRecord

/-- `PlaintextReadRecordLayer::read` (`fizz/record/PlaintextRecordLayer.cpp:23-103`). -/
def plainRead (st : PlainRd) (buf : Bytes) : Iter PlainRd TLSMessage :=
  loop plainBody (buf.length + 1) st buf

/-! ## Encrypted -/

/-- State of `EncryptedReadRecordLayer` (`fizz/record/EncryptedRecordLayer.h:85-91`). -/
structure EncRd where
  aead : Option Aead
  seq : UInt64 := 0
  skipFailed : Bool := false
  useAD : Bool := true

/-- `kMaxEncryptedRecordSize` (`fizz/record/EncryptedRecordLayer.cpp:18`). -/
def kMaxEncryptedRecordSize : Nat := 0x4000 + 256

/-- `std::numeric_limits<uint64_t>::max()`. -/
def maxSeq : UInt64 := 0xffffffffffffffff

/-- The checks of `getDecryptedBuf` on the header
(`fizz/record/EncryptedRecordLayer.cpp:44-54`). -/
def encHeaderCheck (st : EncRd) (h : Header) (_ : Bytes) : Res EncRd :=
  if h.length = 0 then .error (Failure.rt "received 0 length encrypted record")
  else if kMaxEncryptedRecordSize < h.length then
    .error (Failure.rt "received too long encrypted record")
  else .ok st

/-- The associated data: the header as received
(`fizz/record/EncryptedRecordLayer.cpp:39-42,99,116`). -/
def EncRd.ad (st : EncRd) (h : Header) : Option Bytes := if st.useAD then some h.bytes else none

/-- A complete encrypted record (`fizz/record/EncryptedRecordLayer.cpp:62-121`). The alert
description is shown as a number. -/
def encRecord (st : EncRd) (h : Header) (encrypted : Bytes) : RecAct EncRd (List Bytes) :=
  if h.t = ContentType.alert ∧ h.length = 2 then
    .fail (Failure.rt ("received plaintext alert in encrypted record: " ++
      toString (beDec ((encrypted.drop 1).take 1))))
  else if h.t = ContentType.change_cipher_spec then
    if encrypted = [1] then .skip st
    else .fail (Failure.fizz "received ccs" (some illegal_parameter))
  else if st.seq = maxSeq then .fail (Failure.rt "max read seq num")
  else match st.aead with
    | none => .fail (.ub "null aead")
    | some a =>
      if st.skipFailed then
        match a.tryDecrypt (st.ad h) st.seq encrypted with
        | .error f => .fail f
        | .ok none => .skip st
        | .ok (some p) => .deliver p { st with seq := st.seq + 1, skipFailed := false }
      else
        match a.decrypt (st.ad h) st.seq encrypted with
        | .error f => .fail f
        | .ok p => .deliver p { st with seq := st.seq + 1 }

/-- One iteration of `EncryptedReadRecordLayer::getDecryptedBuf`
(`fizz/record/EncryptedRecordLayer.cpp:27-122`). -/
def encBody : EncRd → Bytes → Iter EncRd (List Bytes) := recordBody encHeaderCheck encRecord

/-- `EncryptedReadRecordLayer::getDecryptedBuf`
(`fizz/record/EncryptedRecordLayer.cpp:22-123`). -/
def getDecryptedBuf (st : EncRd) (buf : Bytes) : Iter EncRd (List Bytes) :=
  loop encBody (buf.length + 1) st buf

/-- The padding removal loop of `EncryptedReadRecordLayer::read`
(`fizz/record/EncryptedRecordLayer.cpp:139-158`) on the chain in reverse order: trailing zero
bytes are trimmed from the last buffer, then the one before it ..., the first non-zero byte is the
content type.  The second argument holds the buffers already passed. -/
def stripRev : List Bytes → List Bytes → Option (UInt8 × List Bytes)
  | [], _ => none
  | b :: prev, after =>
    match b.reverse.dropWhile (· == 0) with
    | [] => stripRev prev ([] :: after)
    | c :: cs => some (c, prev.reverse ++ cs.reverse :: after)

/-- Content type and content of a decrypted record
(`fizz/record/EncryptedRecordLayer.cpp:138-181`). -/
def openInner (chain : List Bytes) : Res TLSMessage :=
  if chain = [] then .error (.ub "null decrypted buffer")
  else match stripRev chain.reverse [] with
  | none => .error (Failure.rt "No content type found")
  | some (t, ch) =>
    if t ≠ ContentType.handshake ∧ t ≠ ContentType.alert ∧ t ≠ ContentType.application_data then
      .error (Failure.rt ("received encrypted content type " ++ toString t.toNat))
    else if ch.flatten = [] ∧ t ≠ ContentType.application_data then
      .error (Failure.rt "received empty fragment")
    else .ok ⟨t, ch.flatten⟩

/-- `EncryptedReadRecordLayer::read` (`fizz/record/EncryptedRecordLayer.cpp:125-182`). -/
def encRead (st : EncRd) (buf : Bytes) : Iter EncRd TLSMessage :=
  match getDecryptedBuf st buf with
  | .needMore h st' rest => .needMore h st' rest
  | .again st' rest => .again st' rest
  | .fail f => .fail f
  | .done chain st' rest =>
    match openInner chain with
    | .ok m => .done m st' rest
    | .error f => .fail f

/-! ## Both layers -/

/-- A `ReadRecordLayer`: one of the two implementations. -/
inductive Layer where
  | plain (p : PlainRd)
  | enc (e : EncRd)

/-- Lift a state change through an `Iter`. -/
def Iter.mapSt {σ τ α : Type} (f : σ → τ) : Iter σ α → Iter τ α
  | .needMore h s r => .needMore h (f s) r
  | .again s r => .again (f s) r
  | .done a s r => .done a (f s) r
  | .fail e => .fail e

/-- The virtual call `ReadRecordLayer::read` (`fizz/record/RecordLayer.h:99-103`). -/
def Layer.read (l : Layer) (buf : Bytes) : Iter Layer TLSMessage :=
  match l with
  | .plain p => (plainRead p buf).mapSt .plain
  | .enc e => (encRead e buf).mapSt .enc

/-! ## Events -/

/-- `kMaxHandshakeSize` (`fizz/record/Types.h:76`). -/
def kMaxHandshakeSize : Nat := 0x20000

/-- 24-bit big-endian length. -/
def be24 (a b c : UInt8) : Nat := a.toNat * 65536 + b.toNat * 256 + c.toNat

/-- Outcome of `decodeHandshakeMessage`: a message with its original encoding and the remaining
unparsed bytes, or none. -/
inductive HsOut where
  | none
  | msg (m : HsMsg) (original : Bytes) (rest : Bytes)

/-- `ReadRecordLayer::decodeHandshakeMessage` (`fizz/record/RecordLayer.cpp:153-217`). -/
def decodeHandshakeMessage (u : Bytes) : Res HsOut :=
  match u with
  | t :: a :: b :: c :: body =>
    if kMaxHandshakeSize < be24 a b c then .error (Failure.rt "handshake record too big")
    else if body.length < be24 a b c then .ok .none
    else match parseHandshake t (body.take (be24 a b c)) with
      | .error f => .error f
      | .ok m => .ok (.msg m (t :: a :: b :: c :: body.take (be24 a b c)) (body.drop (be24 a b c)))
  | _ => .ok .none

/-- The `Param` values `readEvent` can return (`fizz/record/RecordLayer.cpp:21-116`). -/
inductive Event where
  | handshake (m : HsMsg) (originalEncoding : Bytes)
  | alert (a : Alert)
  | closeNotify (ignored : Bytes)
  | appData (data : Bytes)
  deriving DecidableEq

/-- A `ReadRecordLayer` with its `unparsedHandshakeData_` (`fizz/record/RecordLayer.h:161-162`). -/
structure Reader where
  layer : Layer
  unparsed : Bytes := []

/-- `AlertDescription::close_notify` (`fizz/record/Alerts.h`). -/
def close_notify : UInt8 := 0

/-- One iteration of the loop of `readEvent` (`fizz/record/RecordLayer.cpp:37-115`). -/
def eventBody (r : Reader) (buf : Bytes) : Iter Reader Event :=
  match r.layer.read buf with
  | .needMore h l rest => .needMore h { r with layer := l } rest
  | .again l rest => .again { r with layer := l } rest
  | .fail f => .fail f
  | .done m l rest =>
    if r.unparsed ≠ [] ∧ m.type ≠ ContentType.handshake then
      .fail (Failure.rt "spliced handshake data")
    else if m.type = ContentType.alert then
      match decodeAlert m.fragment with
      | .error f => .fail f
      | .ok a =>
        if a.description = close_notify then .done (.closeNotify rest) { r with layer := l } []
        else .done (.alert a) { r with layer := l } rest
    else if m.type = ContentType.handshake then
      match decodeHandshakeMessage (r.unparsed ++ m.fragment) with
      | .error f => .fail f
      | .ok .none => .again ⟨l, r.unparsed ++ m.fragment⟩ rest
      | .ok (.msg hm orig u') => .done (.handshake hm orig) ⟨l, u'⟩ rest
    else if m.type = ContentType.application_data then
      .done (.appData m.fragment) { r with layer := l } rest
    else .fail (Failure.rt "unknown content type")

/-- `ReadRecordLayer::readEvent` (`fizz/record/RecordLayer.cpp:21-116`). -/
def readEvent (r : Reader) (buf : Bytes) : Iter Reader Event :=
  if r.unparsed ≠ [] then
    match decodeHandshakeMessage r.unparsed with
    | .error f => .fail f
    | .ok (.msg hm orig u') => .done (.handshake hm orig) { r with unparsed := u' } buf
    | .ok .none => loop eventBody (buf.length + 1) r buf
  else loop eventBody (buf.length + 1) r buf

/-- `ReadRecordLayer::hasUnparsedHandshakeData` (`fizz/record/RecordLayer.cpp:218-220`). -/
def Reader.hasUnparsed (r : Reader) : Bool := !r.unparsed.isEmpty

end Fizz.Record

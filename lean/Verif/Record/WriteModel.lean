import Verif.Record.ReadModel

/-!
# Record layers, writing side — model

`fizz/record/PlaintextRecordLayer.cpp`, `fizz/record/EncryptedRecordLayer.cpp`,
`fizz/record/BufAndPaddingPolicy.cpp`, `fizz/crypto/aead/CryptoUtil.h`.

Outgoing data is a chain (`List Bytes`): the record boundaries depend on its fragmentation.
-/

namespace Fizz.Record

/-! ## Plaintext -/

/-- The fragmentation loop of `PlaintextWriteRecordLayer::write`
(`fizz/record/PlaintextRecordLayer.cpp:138-157`), with fuel. -/
def plainChunks (type : UInt8) (version : UInt16) : Nat → Bytes → Bytes
  | 0, _ => []
  | n+1, data =>
    if data = [] then []
    else
      let frag := data.take kMaxPlaintextRecordSize
      beEnc 1 type.toNat ++ beEnc 2 version.toNat ++
        beEnc 2 (UInt16.ofNat frag.length).toNat ++ frag ++
        plainChunks type version n (data.drop kMaxPlaintextRecordSize)

/-- `PlaintextWriteRecordLayer::write(ret, err, msg, recordVersion)`
(`fizz/record/PlaintextRecordLayer.cpp:128-164`); null data is the empty string. -/
def plainWriteV (msg : TLSMessage) (version : UInt16) : Res Bytes :=
  if msg.type = ContentType.application_data then
    .error (Failure.rt "refusing to send plaintext application data")
  else .ok (plainChunks msg.type version (msg.fragment.length + 1) msg.fragment)

/-- `PlaintextWriteRecordLayer::write` (`fizz/record/PlaintextRecordLayer.cpp:109-115`). -/
def plainWrite (msg : TLSMessage) : Res Bytes := plainWriteV msg 0x0303

/-- `PlaintextWriteRecordLayer::writeInitialClientHello`
(`fizz/record/PlaintextRecordLayer.cpp:117-126`). -/
def writeInitialClientHello (encoded : Bytes) : Res Bytes :=
  plainWriteV ⟨ContentType.handshake, encoded⟩ 0x0301

/-! ## Buffer splitting and padding -/

/-- `folly::IOBufQueue::splitAtMost(n)` on a chain: whole buffers while they fit, then a part of
the next one. -/
def splitAtMost : Nat → List Bytes → List Bytes × List Bytes
  | 0, q => ([], q)
  | _+1, [] => ([], [])
  | n+1, b :: q =>
    if b.length ≤ n+1 then
      let r := splitAtMost (n+1 - b.length) q
      (b :: r.1, r.2)
    else ([b.take (n+1)], b.drop (n+1) :: q)

/-- `folly::IOBufQueue::empty()`: no byte in the chain. -/
def queueEmpty (q : List Bytes) : Bool := q.all (·.isEmpty)

/-- `kMinSuggestedRecordSize` (`fizz/record/BufAndPaddingPolicy.h:18`). -/
def kMinSuggestedRecordSize : Nat := 1500

/-- `getBufToEncrypt` (`fizz/record/BufAndPaddingPolicy.cpp:13-21`): the buffer to encrypt and the
remaining queue.  The queue is not empty when it is called. -/
def getBufToEncrypt (q : List Bytes) (maxRecord : UInt16) : List Bytes × List Bytes :=
  match q with
  | [] => ([], [])
  | b :: q' =>
    if maxRecord.toNat < b.length then splitAtMost maxRecord.toNat (b :: q')
    else if kMinSuggestedRecordSize ≤ b.length then ([b], q')
    else splitAtMost (min maxRecord.toNat kMinSuggestedRecordSize) (b :: q')

/-- `BufAndPaddingPolicy` implementations (`fizz/record/BufAndPaddingPolicy.h:41-86`). -/
inductive Policy where
  | modulo (m : UInt16)
  | const (n : UInt16)
  deriving DecidableEq, Repr

/-- `getBufAndPaddingToEncrypt` (`fizz/record/BufAndPaddingPolicy.cpp:23-46`), in `uint16_t`
arithmetic as in the code. -/
def Policy.apply (p : Policy) (q : List Bytes) (maxRecord : UInt16) :
    List Bytes × List Bytes × UInt16 :=
  let r := getBufToEncrypt q maxRecord
  let len := UInt16.ofNat r.1.flatten.length
  match p with
  | .modulo m => (r.1, r.2, if m > 0 then (maxRecord - len) % m else 0)
  | .const n => (r.1, r.2, if n > 0 then min n (maxRecord - len) else 0)

/-! ## Encrypted -/

/-- State of `EncryptedWriteRecordLayer` (`fizz/record/EncryptedRecordLayer.h:148-155`,
`useAdditionalData_` `fizz/record/RecordLayer.h:259`). -/
structure EncWr where
  aead : Option Aead
  seq : UInt64 := 0
  policy : Policy := .const 0
  maxRecord : UInt16 := 0x4000
  useAD : Bool := true

/-- One call of `Aead::encrypt`. -/
structure SealCall where
  ad : Option Bytes
  seq : UInt64
  plaintext : Bytes
  deriving DecidableEq, Repr

/-- `TLSInnerPlaintext`: content, content type, zero padding
(`fizz/record/EncryptedRecordLayer.cpp:205-222`; both branches produce these bytes). -/
def innerPlaintext (data : Bytes) (type : UInt8) (pad : Nat) : Bytes :=
  data ++ type :: List.replicate pad 0

/-- Record header (`fizz/record/EncryptedRecordLayer.cpp:231-239`), the length truncated to
`uint16_t` as in the code. -/
def encHeader (ciphertextLength : Nat) : Bytes :=
  beEnc 1 ContentType.application_data.toNat ++ beEnc 2 0x0303 ++
    beEnc 2 (UInt16.ofNat ciphertextLength).toNat

/-- The loop of `EncryptedWriteRecordLayer::write`
(`fizz/record/EncryptedRecordLayer.cpp:199-267`), with fuel.  Returns the new layer state, the
calls made to the AEAD, and the bytes or the error.  `seqNum_++` happens before the AEAD is
called, so the number is used up even when the AEAD fails. -/
def encWriteLoop (a : Aead) (type : UInt8) :
    Nat → EncWr → List Bytes → EncWr × List SealCall × Res Bytes
  | 0, w, _ => (w, [], .error (.ub "loop does not terminate"))
  | n+1, w, q =>
    if queueEmpty q then (w, [], .ok [])
    else
      let r := w.policy.apply q w.maxRecord
      let pt := innerPlaintext r.1.flatten type r.2.2.toNat
      if w.seq = maxSeq then (w, [], .error (Failure.rt "max write seq num"))
      else
        let header := encHeader (pt.length + a.overhead)
        let ad := if w.useAD then some header else none
        let call : SealCall := ⟨ad, w.seq, pt⟩
        let w' := { w with seq := w.seq + 1 }
        match a.encrypt ad w.seq pt with
        | .error f => (w', [call], .error f)
        | .ok ct =>
          let k := encWriteLoop a type n w' r.2.1
          (k.1, call :: k.2.1, k.2.2.map fun out => header ++ ct ++ out)

/-- `EncryptedWriteRecordLayer::write` (`fizz/record/EncryptedRecordLayer.cpp:188-279`). -/
def encWrite (w : EncWr) (type : UInt8) (chain : List Bytes) : EncWr × List SealCall × Res Bytes :=
  match w.aead with
  | none => (w, [], .error (.ub "null aead"))
  | some a => encWriteLoop a type (chain.flatten.length + 1) w chain

/-- `EncryptedWriteRecordLayer::setAead` (`fizz/record/EncryptedRecordLayer.h:106-115`). -/
def EncWr.setAead (w : EncWr) (a : Aead) : Res EncWr :=
  if w.seq ≠ 0 then .error (Failure.rt "aead set after write") else .ok { w with aead := some a }

/-- `EncryptedReadRecordLayer::setAead` (`fizz/record/EncryptedRecordLayer.h:33-42`). -/
def EncRd.setAead (r : EncRd) (a : Aead) : Res EncRd :=
  if r.seq ≠ 0 then .error (Failure.rt "aead set after read") else .ok { r with aead := some a }

/-- `EncryptedWriteRecordLayer::setMaxRecord` (`fizz/record/EncryptedRecordLayer.h:122-126`): a
failed `FIZZ_CHECK_GT` aborts the process; the upper bound is only checked in debug builds. -/
def EncWr.setMaxRecord (w : EncWr) (size : UInt16) : Res EncWr :=
  if size = 0 then .error (.ub "CHECK failed: size > 0") else .ok { w with maxRecord := size }

/-! ## Nonces -/

/-- `XOR` (`fizz/crypto/aead/IOBufUtil.cpp:46-51`). -/
def xorBytes (a b : Bytes) : Bytes := List.zipWith (· ^^^ ·) a b

/-- `createIV` (`fizz/crypto/aead/CryptoUtil.h:19-30`): zero prefix, big-endian sequence number,
xor with the traffic IV.  An IV shorter than 8 bytes underflows `prefixLength`; a traffic IV of
another length fails a `FIZZ_CHECK`. -/
def createIV (seqNum : UInt64) (ivLength : Nat) (trafficIv : Bytes) : Res Bytes :=
  if ivLength < 8 then .error (.ub "prefixLength underflow")
  else if trafficIv.length ≠ ivLength then .error (.ub "CHECK failed: sizes equal")
  else .ok (xorBytes trafficIv (List.replicate (ivLength - 8) 0 ++ beEnc 8 seqNum.toNat))

end Fizz.Record

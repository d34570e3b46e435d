import Verif.Record.WriteModel

/-!
# Kernel TLS

Model of `fizz/experimental/ktls/KTLS.cpp`, of the conversion in
`fizz/experimental/ktls/AsyncFizzBaseKTLS.h` and of reading in
`fizz/experimental/ktls/AsyncKTLSSocket.cpp`.  What the kernel does is a parameter (answers of
`setsockopt` and `recvmsg`) or, where the claims need it, part of the specification.
-/

namespace Fizz.Ktls

open Fizz.Codec Fizz.Record

/-! ## Handing the keys over -/

/-- `TrafficKey` (`fizz/crypto/aead/Aead.h:17-24`), the chains as byte strings; either may be null. -/
structure TrafficKey where
  key : Option Bytes
  iv : Option Bytes
  deriving DecidableEq

/-- `RecordLayerState` (`fizz/record/RecordLayer.h:32-35`). -/
structure RecordLayerState where
  key : Option TrafficKey
  sequence : Option UInt64

/-- `KTLSCryptoParams` (`KTLS.h:36-58`). -/
structure Params where
  ciphersuite : UInt16
  key : TrafficKey
  recordSeq : UInt64

/-- `KTLSParameterLayout` (`KTLS.cpp:32-38`). -/
structure Layout where
  keyLength : Nat
  ivLength : Nat
  allocationSize : Nat
  cipherType : UInt16

/-- `sizeof(struct tls_crypto_info)`: two 16-bit numbers. -/
def kCryptoInfoSize : Nat := 4

/-- `TLS_CIPHER_AES_GCM_*_IV_SIZE`, `*_SALT_SIZE`, `*_REC_SEQ_SIZE` (`<linux/tls.h>`,
`LinuxKTLS.h:96-118`); the same for both ciphers. -/
def kIVSize : Nat := 8
@[inherit_doc kIVSize] def kSaltSize : Nat := 4
@[inherit_doc kIVSize] def kRecSeqSize : Nat := 8

/-- `getKTLSLayout` (`KTLS.cpp:56-80`) with `CRYPTO_INFO_SIZE` (`KTLS.cpp:52-54`). -/
def layout (suite : UInt16) : Option Layout :=
  if suite = 0x1301 then some ⟨16, 12, kCryptoInfoSize + kIVSize + 16 + kSaltSize + kRecSeqSize, 51⟩
  else if suite = 0x1302 then some ⟨32, 12, kCryptoInfoSize + kIVSize + 32 + kSaltSize + kRecSeqSize, 52⟩
  else none

/-- `KTLSCryptoParams::fromRecordState` (`KTLS.cpp:82-94`); `TrafficKey::clone` dereferences both
pointers (`Aead.h:21-23`). -/
def fromRecordState (suite : UInt16) (s : RecordLayerState) : Res Params :=
  match s.key, s.sequence with
  | some ⟨some k, some iv⟩, some n => .ok ⟨suite, ⟨some k, some iv⟩, n⟩
  | some _, some _ => .error (.ub "null IOBuf")
  | _, _ => .error (Failure.rt "invalid record state for ktls")

/-- A 16-bit number in the byte order of the machines kTLS runs on. -/
def le16 (n : UInt16) : Bytes := [UInt8.ofNat (n.toNat % 256), UInt8.ofNat (n.toNat / 256)]

/-- `TLS_1_3_VERSION`. -/
def kTLS13 : UInt16 := 0x0304

/-- `KTLSCryptoParams::toSockoptFormat` (`KTLS.cpp:96-183`): `none` for null.  Writing more than was
allocated throws (`folly::io::Appender` without growth). -/
def toSockopt (p : Params) : Res (Option Bytes) :=
  match layout p.ciphersuite with
  | none => .ok none
  | some l =>
    match p.key.iv, p.key.key with
    | some iv, some key =>
      if iv.length ≠ l.ivLength then .ok none
      else if key.length ≠ l.keyLength then .ok none
      else
        let out := le16 kTLS13 ++ le16 l.cipherType ++ iv.drop 4 ++ key ++ iv.take 4 ++
          beEnc 8 p.recordSeq.toNat
        if l.allocationSize < out.length then .error .outOfRange else .ok (some out)
    | _, _ => .ok none

/-- The `setsockopt` calls. -/
inductive Call
  | ulp
  | rx (info : Bytes)
  | tx (info : Bytes)
  | noPad (on : Bool)
  deriving DecidableEq

/-- What `platformSupportsKTLS` and the `setsockopt` calls answer. -/
structure Kernel where
  supported : Bool
  ulp : Bool
  rx : Bool
  tx : Bool

/-- `KTLSNetworkSocket::tryEnableKTLS` (`KTLS.cpp:280-333`): the calls made, those that failed included as
the last one, and the error if any. -/
def tryEnable (k : Kernel) (rx tx : Params) (noPad : Bool) : Res (List Call × Option String) :=
  if ¬ k.supported then .ok ([], some "platform does not support ktls")
  else if rx.ciphersuite ≠ tx.ciphersuite then
    .ok ([], some "conflicting cipher suites in ktls cryptographic parameters")
  else do
    let rxs ← toSockopt rx
    let txs ← toSockopt tx
    match rxs, txs with
    | some r, some t =>
      if ¬ k.ulp then pure ([.ulp], some "failed to enable tls ulp")
      else if ¬ k.rx then pure ([.ulp, .rx r], some "could not configure ktls rx")
      else if ¬ k.tx then pure ([.ulp, .rx r, .tx t], some "could not configure ktls tx")
      else pure ([.ulp, .rx r, .tx t, .noPad noPad], none)
    | _, _ => pure ([], some "invalid ktls cryptographic parameters")

/-- `KTLSNetworkSocket::tryEnableKTLS` for receiving only (`KTLS.cpp:335-376`). -/
def tryEnableRx (k : Kernel) (rx : Params) (noPad : Bool) : Res (List Call × Option String) :=
  if ¬ k.supported then .ok ([], some "platform does not support ktls")
  else do
    match ← toSockopt rx with
    | some r =>
      if ¬ k.ulp then pure ([.ulp], some "failed to enable tls ulp")
      else if ¬ k.rx then pure ([.ulp, .rx r], some "could not configure ktls rx")
      else pure ([.ulp, .rx r, .noPad noPad], none)
    | none => pure ([], some "invalid ktls cryptographic parameters")

/-- What `tryConvertKTLSBase` uses of the fizz socket.  `readCB` is its read callback. -/
structure FizzSock where
  good : Bool
  connecting : Bool
  hasSocket : Bool
  cipher : UInt16
  read : RecordLayerState
  write : RecordLayerState
  readCB : Option Nat
  ownsWriteLayer : Bool := true
  attached : Bool := true

/-- The new socket. -/
structure KSock where
  readCB : Option Nat
  writeInKernel : Bool

/-- The choice of directions in `tryConvertKTLSBase` (`AsyncFizzBaseKTLS.h:129-138`). -/
def enable (k : Kernel) (s : FizzSock) (rx : Params) (both noPad : Bool) : Res (List Call × Option String) :=
  if both then do
    let tx ← fromRecordState s.cipher s.write
    tryEnable k rx tx noPad
  else tryEnableRx k rx noPad

/-- `tryConvertKTLSBase` (`AsyncFizzBaseKTLS.h:68-176`): the fizz socket afterwards, the calls made, and the
new socket or the error.  `both` is `AsyncKTLSSocketType::Both`.  Certificates and the ticket handler are
not in this function. -/
def convert (k : Kernel) (s : FizzSock) (both noPad : Bool) :
    Res (FizzSock × List Call × Except String KSock) :=
  if ¬ s.good ∨ s.connecting then .ok (s, [], .error "convertKTLS failed: fizz socket in bad state")
  else if ¬ s.hasSocket then
    .ok (s, [], .error "convertKTLS failed: underlying transport does not have associated socket")
  else do
    let rx ← fromRecordState s.cipher s.read
    let (calls, err) ← enable k s rx both noPad
    match err with
    | some e => pure (s, calls, .error e)
    | none => pure ({ s with readCB := none, attached := false, ownsWriteLayer := both }, calls,
        .ok ⟨s.readCB, both⟩)

/-! ## Reading -/

/-- What `recvmsg` answers: would block, an error, end of stream, or bytes with the control message (`none`
if there is none; otherwise whether it is a record type, and the type).  Bytes are never empty. -/
inductive Recv
  | wouldBlock
  | error
  | eof
  | bytes (cmsg : Option (Bool × UInt8)) (data : Bytes)

/-- `AsyncSocket::ReadResult`. -/
inductive Result
  | blocking
  | error (msg : String)
  | eof
  | data (bytes : Bytes)
  /-- the call ended with an exception of the ticket callback -/
  | thrown (f : Failure)

/-- A `TLSCallback`: what `receivedNewSessionTicket` throws for a ticket, if anything. -/
abbrev Handler := NewSessionTicket → Option Failure

/-- The members used for reading (`AsyncKTLSSocket.h:151-160`), and the tickets the callback was given. -/
structure Sock where
  callback : Option Handler
  unparsed : Option Bytes := none
  received : Nat := 0
  tickets : List NewSessionTicket := []

/-- `processAlert` (`AsyncKTLSSocket.cpp:143-185`): bytes after the alert are not looked at. -/
def processAlert (s : Sock) (payload : Bytes) : Sock × Result :=
  match readAlert payload with
  | .error _ => (s, .error "error decoding alert received by ktls (buffer too small)")
  | .ok (a, _) =>
    if a.description = close_notify then (s, .eof)
    else (s, .error "kTLS received alert from peer: ")

/-- `processHandshakeData`, the message being there (`AsyncKTLSSocket.cpp:248-284`).  The callback is called
outside the function's `try`. -/
def processMessage (s : Sock) (h : Handler) : HsMsg → Sock × Result
  | .keyUpdate _ => (s, .error "ktls does not support key_updates")
  | .newSessionTicket t =>
    ({ s with tickets := s.tickets ++ [t] }, match h t with | none => .blocking | some f => .thrown f)
  | _ => (s, .error "ktls received unexpected handshake content")

/-- `processHandshakeData` (`AsyncKTLSSocket.cpp:187-285`): one message is taken; what follows it in the
payload, or in the bytes saved, is dropped. -/
def processHandshake (s : Sock) (h : Handler) (payload : Bytes) : Sock × Result :=
  match s.unparsed with
  | none =>
    match decodeHandshakeMessage payload with
    | .error _ => (s, .error "error decoding handshake data received by ktls: ")
    | .ok .none => ({ s with unparsed := some payload }, .blocking)
    | .ok (.msg m _ _) => processMessage s h m
  | some u =>
    match decodeHandshakeMessage (u ++ payload) with
    | .error _ => ({ s with unparsed := some (u ++ payload) },
        .error "error decoding handshake data received by ktls: ")
    | .ok .none => ({ s with unparsed := some (u ++ payload) }, .blocking)
    | .ok (.msg m _ _) => processMessage { s with unparsed := none } h m

/-- `handleNonApplicationData` (`AsyncKTLSSocket.cpp:102-141`). -/
def handleOther (s : Sock) (type : UInt8) (payload : Bytes) : Sock × Result :=
  if s.unparsed.isSome ∧ type ≠ ContentType.handshake then
    (s, .error "kTLS received non handshake data while currently processing handshake data")
  else if type = ContentType.alert then processAlert s payload
  else if type = ContentType.handshake then
    match s.callback with
    | none => (s, .error "kTLS received handshake data without a tls callback implementation to handle")
    | some h => processHandshake s h payload
  else (s, .error "kTLS received unknown record type: ")

/-- `performReadMsg` (`AsyncKTLSSocket.cpp:21-100`). -/
def performRead (s : Sock) : Recv → Sock × Result
  | .wouldBlock => (s, .blocking)
  | .error => (s, .error "")
  | .eof => (s, .eof)
  | .bytes none _ => (s, .error "kTLS internal error: no content type")
  | .bytes (some (false, _)) _ => (s, .error "kTLS internal error: unknown cmsg")
  | .bytes (some (true, type)) data =>
    if type = ContentType.application_data then
      if s.unparsed.isSome then (s, .error "kTLS received spliced post-handshake data")
      else ({ s with received := s.received + data.length }, .data data)
    else handleOther s type data

/-- How `folly::AsyncSocket` uses `performReadMsg`: bytes go to the read callback; an error, the end of
stream or an exception ends reading (`over`).  `app` is what the application was given. -/
structure Conn where
  sock : Sock
  app : Bytes := []
  over : Option Result := none

/-- What `AsyncSocket` does with the result of a call. -/
def Conn.take (c : Conn) : Sock × Result → Conn
  | (s, .blocking) => { c with sock := s }
  | (s, .data b) => { c with sock := s, app := c.app ++ b }
  | (s, r) => { c with sock := s, over := some r }

/-- One call. -/
def Conn.step (c : Conn) (r : Recv) : Conn :=
  match c.over with
  | some _ => c
  | none => c.take (performRead c.sock r)

/-- A history. -/
def Conn.run (c : Conn) (rs : List Recv) : Conn := rs.foldl Conn.step c

end Fizz.Ktls

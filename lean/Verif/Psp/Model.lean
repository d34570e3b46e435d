import Verif.Codec.Prim

/-!
# PSP upgrade of a connection

Model of `fizz/experimental/psp/PSP.cpp`.  The transport, the kernel and the event base act through
events; what the object does to them is recorded as effects.  Every call the object makes into the
transport is the last thing a member function does, so a callback made synchronously inside the call is
the same as one made right after it.
-/

namespace Fizz.Psp

open Fizz.Codec

/-- `struct SA` (`fizz/experimental/psp/PSP.h:38-42`). -/
structure SA where
  psp_version : UInt8
  spi : UInt32
  key : Bytes
  deriving DecidableEq

/-! ## Messages -/

/-- `kPSPV0SAMsgSize` (`PSP.cpp:15-18`): 4 + 1 + 3 + 32. -/
def kSAMsgSize : Nat := 40

/-- `AsyncPSPV0Tag` (`PSP.cpp:29-32`). -/
def tagError : UInt8 := 0
@[inherit_doc tagError] def tagSA : UInt8 := 1

/-- `makeErrorTLV` (`PSP.cpp:39-48`). -/
def errorTLV (code : UInt8) : Bytes := [tagError, 1, code]

/-- `keyLength` (`PSP.cpp:384-395`). -/
def keyLength (v : UInt8) : Option Nat :=
  if v = 0 ∨ v = 2 then some 16 else if v = 1 ∨ v = 3 then some 32 else none

/-- `encodeTLV` (`PSP.cpp:397-416`): a key longer than 32 bytes aborts, a shorter one is filled up with
zeros. -/
def encodeTLV (sa : SA) : Res Bytes :=
  if 32 < sa.key.length then .error .abort
  else .ok (tagSA :: UInt8.ofNat kSAMsgSize :: (beEnc 4 sa.spi.toNat ++
    (sa.psp_version :: 0 :: 0 :: 0 :: (sa.key ++ List.replicate (32 - sa.key.length) 0))))

/-- `tryDecodeSA` (`PSP.cpp:418-443`). -/
def decodeSA (buf : Bytes) : Res SA :=
  if buf.length < kSAMsgSize then .error (.rt "invalid message")
  else do
    let (spi, r1) ← readBE 4 buf
    let (v, r2) ← readBE 1 r1
    let (_, r3) ← pull 3 r2
    match keyLength (UInt8.ofNat v) with
    | none => .error (.rt "invalid or unsupported psp version")
    | some n => do
      let (key, _) ← pull n r3
      pure ⟨UInt8.ofNat v, UInt32.ofNat spi, key⟩

/-- `readTLV` (`PSP.cpp:445-462`): tag and message, if the buffer has a whole one; the rest stays in the
buffer. -/
def readTLV : Bytes → Option (UInt8 × Bytes × Bytes)
  | tag :: len :: rest =>
    if rest.length < len.toNat then none
    else some (tag, rest.take len.toNat, rest.drop len.toNat)
  | _ => none

/-! ## The operation -/

/-- `AsyncPSPUpgradeImpl::State` (`PSP.cpp:351-357`). -/
inductive Phase
  | init | rxAssocCompleted | writeSACompleted | readData | txAssocCompleted
  deriving DecidableEq

/-- What the object does to its surroundings. -/
inductive Eff
  | rxAssoc
  | txAssoc (sa : SA)
  | write (bytes : Bytes)
  | close
  | success
  | failure (msg : String)
  deriving DecidableEq

/-- Members (`PSP.cpp:358-368`), and what the surroundings remember: that reads are delivered, that a write
with this object as callback is outstanding, that the timer runs, that the kernel has not yet answered.
`async` is `asyncState_` (the kernel's answers are dropped without it). -/
structure St where
  awaiter : Bool := false
  transport : Bool := true
  fd : Bool := true
  phase : Phase := .init
  readBuf : Bytes := []
  ioErr : Option String := none
  async : Bool := false
  sa : Option (Except String SA) := none
  tx : Option (Except String Unit) := none
  reading : Bool := false
  writing : Bool := false
  timer : Bool := false
  rxPending : Bool := false
  txPending : Bool := false

/-- `prepareForTerminalCallback` (`PSP.cpp:330-350`): closing the transport calls back an outstanding write,
which only leaves its error, the awaiter being gone. -/
def prepare (s : St) : St × List Eff :=
  ({ s with awaiter := false, async := false, timer := false,
            reading := if s.transport then false else s.reading,
            writing := if s.transport then false else s.writing,
            ioErr := if s.transport ∧ s.writing then some "closed" else s.ioErr },
   if s.transport then [.close] else [])

/-- `error` (`PSP.cpp:321-329`): calling a null awaiter is undefined. -/
def fail (s : St) (msg : String) (sendError : Option UInt8 := none) : Res (St × List Eff) :=
  if s.awaiter then
    .ok ((prepare s).1,
      (match sendError with
        | some c => if s.transport then [.write (errorTLV c)] else []
        | none => []) ++ (prepare s).2 ++ [.failure msg])
  else .error (.ub "null awaiter")

/-- `resume`, in the phase `ReadData` with a whole message (`PSP.cpp:209-250`). -/
def onTLV (s : St) (tag : UInt8) (msg rest : Bytes) : Res (St × List Eff) :=
  if tag = tagSA then
    match decodeSA msg with
    | .error _ => fail { s with readBuf := rest, reading := false }
        "psp upgrade failure: peer invalid sa message"
    | .ok sa =>
      .ok ({ s with readBuf := rest, reading := false, phase := .txAssocCompleted, txPending := true },
        [.txAssoc sa])
  else if tag = tagError then
    if msg.length ≠ 1 then fail { s with readBuf := rest, reading := false }
        "psp upgrade failure: peer sent invalid error message"
    else fail { s with readBuf := rest, reading := false } "psp upgrade failure: peer signaled error"
  else fail { s with readBuf := rest, reading := false }
      "psp upgrade failure: peer sent unknown protocol message"

/-- `resume` (`PSP.cpp:141-269`).  `timeout` is whether one was asked for. -/
def resume (s : St) (timeout : Bool) : Res (St × List Eff) :=
  match s.phase with
  | .init =>
    let s := { s with async := true, reading := false, sa := none, tx := none }
    if ¬ s.fd then fail s "psp upgrade failure: invalid socket" (some 0)
    else .ok ({ s with timer := timeout, phase := .rxAssocCompleted, rxPending := true }, [.rxAssoc])
  | .rxAssocCompleted =>
    if ¬ s.async then .error (.ub "null asyncState_")
    else match s.sa with
      | some (.error _) => fail s "psp upgrade failure: psp_rx_assoc failed" (some 1)
      | some (.ok sa) =>
        match encodeTLV sa with
        | .error e => .error e
        | .ok tlv => .ok ({ s with phase := .writeSACompleted, writing := true }, [.write tlv])
      | none => .error (.ub "empty Try")
  | .writeSACompleted =>
    if s.ioErr.isSome then fail s "psp upgrade failure: write sa failed"
    else .ok ({ s with phase := .readData, reading := true }, [])
  | .readData =>
    if s.ioErr.isSome then fail s "psp upgrade failure: read peer sa I/O error"
    else match readTLV s.readBuf with
      | none => .ok (s, [])
      | some (tag, msg, rest) => onTLV s tag msg rest
  | .txAssocCompleted =>
    if ¬ s.async then .error (.ub "null asyncState_")
    else match s.tx with
      | some (.error _) => fail s "psp upgrade failure: psp_tx_assoc failure"
      | some (.ok ()) =>
        let s := { s with transport := false }
        if s.awaiter then .ok ((prepare s).1, (prepare s).2 ++ [.success])
        else .error (.ub "null awaiter")
      | none => .error (.ub "empty Try")

/-- What happens to the object. -/
inductive Event
  | start (timeout : Bool)
  | rxDone (sa : Except String SA)
  | wrote
  | writeErr (msg : String)
  | data (bytes : Bytes)
  | eof
  | readErr (msg : String)
  | timeout
  | txDone (r : Except String Unit)
  | destroy

/-- The member functions: `start` (`PSP.cpp:109-115`), the continuations of `rxAssoc` and `txAssoc`
(`PSP.cpp:166-172`, `242-248`), the write and read callbacks (`PSP.cpp:275-319`), the timer
(`PSP.cpp:137-139`) and the destructor (`PSP.cpp:103-108`). -/
def step (s : St) : Event → Res (St × List Eff)
  | .start timeout =>
    if s.awaiter then .error .abort else resume { s with awaiter := true } timeout
  | .rxDone r =>
    if s.async then resume { s with rxPending := false, sa := some r } s.timer
    else .ok ({ s with rxPending := false }, [])
  | .txDone r =>
    if s.async then resume { s with txPending := false, tx := some r } s.timer
    else .ok ({ s with txPending := false }, [])
  | .wrote =>
    if s.awaiter then resume { s with writing := false } s.timer else .ok ({ s with writing := false }, [])
  | .writeErr m =>
    if s.awaiter then resume { s with writing := false, ioErr := some m } s.timer
    else .ok ({ s with writing := false, ioErr := some m }, [])
  | .data b => resume { s with readBuf := s.readBuf ++ b } s.timer
  | .eof => resume { s with ioErr := some "readEOF()" } s.timer
  | .readErr m => resume { s with ioErr := some m } s.timer
  | .timeout => fail s "psp upgrade timeout"
  | .destroy => if s.awaiter then fail s "psp upgrade cancelled" else .ok (s, [])

/-- When the surroundings may do what: the contract of transport, kernel, timer and caller (who calls
`start` once and destroys the object once). -/
def Enabled (s : St) (past : List Event) : Event → Prop
  | .start _ => (∀ t, .start t ∉ past) ∧ .destroy ∉ past
  | .rxDone _ => s.rxPending = true
  | .txDone _ => s.txPending = true
  | .wrote | .writeErr _ => s.writing = true
  | .data _ | .eof | .readErr _ => s.reading = true
  | .timeout => s.timer = true
  | .destroy => .destroy ∉ past

/-- Histories: events and effects so far. -/
inductive Run (s₀ : St) : St → List Event → List Eff → Prop
  | nil : Run s₀ s₀ [] []
  | snoc {s t : St} {es : List Event} {fs gs : List Eff} {e : Event} : Run s₀ s es fs → Enabled s es e →
    step s e = .ok (t, gs) → Run s₀ t (es ++ [e]) (fs ++ gs)

end Fizz.Psp

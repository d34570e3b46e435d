import Verif.Server.Props2

/-!
# Concrete connections

Three complete connections of a small server (toy hash, toy key exchange), run in the model: they meet
the hypotheses of the theorems about histories of the server (C26 … C29, C44 … C49).  In the first the
client must show a certificate, sends data, updates keys, gets an answer and a second ticket; in the
second it resumes with early data; in the third it is sent a HelloRetryRequest first.
-/

namespace Fizz.Server.Example
open Fizz.Codec Fizz.Crypto
open Fizz.Conn (Trig)
open Fizz.Ticket (ResumptionState)

/-- Run a script: every entry looks at the state and says what happens next. -/
def drive (cfg : Cfg) : List (St → Trig × StepIn) → List Step × St
  | [] => ([], {})
  | f :: rest =>
    let (h, s) := drive cfg rest
    let (t, i) := f s
    let o := step cfg i s t
    if terminal s then (h, s) else (⟨t, i, s, o.acts⟩ :: h, applyAll o.acts s)

theorem drive_run (cfg : Cfg) (l) : Run cfg (drive cfg l).1 (drive cfg l).2 := by
  induction l with
  | nil => exact .nil
  | cons f rest ih =>
    unfold drive
    cases hs : terminal (drive cfg rest).2 with
    | true => simpa [hs] using ih
    | false =>
      simp only [hs, Bool.false_eq_true, if_false]
      exact .step ih (fun _ => hs) rfl

/-- What can be seen of an action. -/
inductive Seen where
  | wrote (kinds : List (Level × UInt8)) | delivered (d : Bytes) | success | earlySuccess | failed
  | ended | other
  deriving DecidableEq

/-- What can be seen of an action. -/
def seen : Action → List Seen
  | .mutate _ => []
  | .secretAvailable .. => []
  | .write _ cs _ => [.wrote (cs.map fun c => (c.layer.level, c.type))]
  | .deliver d => [.delivered d]
  | .reportHandshakeSuccess => [.success]
  | .reportEarlyHandshakeSuccess => [.earlySuccess]
  | .reportError _ => [.failed]
  | .endOfData _ => [.ended]
  | _ => [.other]

/-- What can be seen of a history, oldest step first. -/
def trace (h : List Step) : List (List Seen) := h.reverse.map fun x => x.acts.flatMap seen

def zeros : Random := ⟨List.replicate 32 0, rfl⟩
def ones : Random := ⟨List.replicate 32 1, rfl⟩

def serverCert : CertManager.Cert := ⟨1, [97], [], [0x0403]⟩
def clientCert : PeerCert := ⟨[98], some [48, 1]⟩

def ticket : ResumptionState where
  version := 0x0304
  cipher := 0x1301
  resumptionSecret := [9, 9]
  serverCert := some serverCert
  clientCert := some clientCert
  alpn := none
  ticketAgeAdd := 100
  ticketIssueTime := 0
  appToken := []
  handshakeTime := 0

def cfg : Cfg where
  supportedVersions := [0x0304]
  supportedCiphers := [[0x1301]]
  supportedGroups := [29, 23]
  supportedPskModes := [1]
  supportedSigSchemes := [0x0403]
  supportedAlpns := []
  clientAuthMode := .required
  acceptEarlyData_ := true
  hasTicketCipher := true
  hasReplayCache := true
  hashOf := fun _ => .ok toyHash
  getOuterEch := fun _ => .ok none
  getInnerEch := fun _ => .ok none

def inp : Inp where
  cookieDecrypt := fun _ => .ok none
  ticketDecrypt := fun b => .ok (.resumption, if b = [1, 2, 3] then some ticket else none)
  replayCheck := fun _ => .ok .notReplay
  validateToken := fun _ => true
  echDecrypt := fun _ => .ok none
  echDecryptHrr := fun m _ => .ok (m, [])
  echConfirm := fun _ _ => .ok
  echConfirmHrr := fun _ _ => .ok
  kex := fun _ share => .ok ([7], 5 :: share)
  random := ones
  extraExtensions := fun _ => .ok []
  getCert := fun _ _ => .ok (some (serverCert, 0x0403))
  certMessage := fun _ _ => .ok (Codec.Spec.handshake (.certificate ⟨[], [⟨[48, 0], []⟩]⟩))
  sign := fun _ _ t => .ok (1 :: t)
  verifierExtensions := .ok []
  makePeerCert := fun e _ => .ok ⟨[98], some e.cert_data⟩
  verifySig := fun _ _ t sig => if sig = 2 :: t then .ok () else .error (Failure.fizz "bad signature" (some 51))
  verifyChain := fun _ => .ok none
  ticketEncrypt := fun _ => .ok (some ([6, 6], 3600))

/-- Receive a message. -/
def recv (m : HsMsg) : Trig × StepIn :=
  (.sock, { inp := inp, sock := .event (.handshake m (Codec.Spec.handshake m)) false })
/-- Receive application data. -/
def recvData (d : Bytes) : St → Trig × StepIn := fun _ => (.sock, { inp := inp, sock := .event (.appData d) false })
def accept : St → Trig × StepIn := fun _ => (.accept, { inp := inp })

/-- A ClientHello with a key share for group `g`. -/
def hello (g : UInt16) (more : List Extension) : ClientHello where
  random := zeros
  legacy_session_id := []
  cipher_suites := [0x1302, 0x1301]
  legacy_compression_methods := [0]
  extensions :=
    [Codec.Spec.supportedVersionsWire ⟨[0x0304]⟩, Codec.Spec.supportedGroupsWire ⟨[23, 29]⟩,
     Codec.Spec.clientKeyShareWire ⟨[⟨g, [3, 3]⟩]⟩, Codec.Spec.signatureAlgorithmsWire ⟨[0x0403]⟩,
     Codec.Spec.pskKeyExchangeModesWire ⟨[1]⟩] ++ more

/-- The Finished a client sends in a state. -/
def finished (s : St) : Trig × StepIn :=
  recv (.finished ⟨match s.hs, s.clientHandshakeSecret with
    | some c, some k => (match finishedData toyHash c k with | .ok b => b | .error _ => [])
    | _, _ => []⟩)

/-- The CertificateVerify a client sends in a state. -/
def certVerify (s : St) : Trig × StepIn :=
  recv (.certificateVerify ⟨0x0403, match s.hs with
    | some c => 2 :: transcriptHash toyHash c
    | none => []⟩)

/-- A full handshake with a client certificate, data both ways, a requested key update, a second
ticket and an orderly end (most recent first). -/
def full : List (St → Trig × StepIn) :=
  [fun _ => (.sock, { inp := inp, sock := .event (.closeNotify []) false }),
   recvData [22],
   fun _ => (.app (.newSessionTicket none), { inp := inp }),
   fun _ => recv (.keyUpdate ⟨1⟩),
   fun _ => (.app (.appWrite none [33] 0), { inp := inp }),
   recvData [11],
   finished, certVerify,
   fun _ => recv (.certificate ⟨[], [⟨[48, 1], []⟩]⟩),
   fun _ => recv (.clientHello (hello 29 [])), accept]

example : Run cfg (drive cfg full).1 (drive cfg full).2 := drive_run _ _


/-- A ClientHello that offers the ticket and early data; the binder is made with the PSK. -/
def resumeHello : ClientHello :=
  let offer (b : Bytes) := hello 29 [Codec.Spec.clientEarlyDataWire ⟨⟩,
    Codec.Spec.clientPresharedKeyWire ⟨[⟨[1, 2, 3], 100⟩], [⟨b⟩]⟩]
  let enc := Codec.Spec.handshake (.clientHello (offer [0, 0]))
  let key := KS.Spec.earlyValue toyHash.spec (some [9, 9]) (toyHash.digest []) .resumptionPskBinder
  match finishedData toyHash ⟨0x1301, enc.take (enc.length - 5)⟩ key with
  | .ok b => offer b
  | .error _ => offer []

/-- Resumption with early data. -/
def resume : List (St → Trig × StepIn) :=
  [recvData [22], finished, fun _ => recv .endOfEarlyData, recvData [11],
   fun _ => recv (.clientHello resumeHello), accept]

/-- A HelloRetryRequest: the client's first share is for a group we like less. -/
def retry : List (St → Trig × StepIn) :=
  [recvData [11], finished, certVerify, fun _ => recv (.certificate ⟨[], [⟨[48, 1], []⟩]⟩),
   fun _ => recv (.clientHello (hello 29 [])), fun _ => recv (.clientHello (hello 23 [])), accept]

/-- A client that does not show the certificate the server requires. -/
def noCert : List (St → Trig × StepIn) :=
  [finished, fun _ => recv (.certificate ⟨[], []⟩), fun _ => recv (.clientHello (hello 29 [])), accept]

/-- The history of `full` contains a success (C26, C29), delivered and written data (C26, C45), an
answered KeyUpdate (C48), tickets (C49), and ends in Closed (C28) with the alert. -/
example : trace (drive cfg full).1 =
    [[], [.wrote [(.plaintext, 22), (.handshake, 22)]], [], [], [.wrote [(.appTraffic, 22)], .success],
     [.delivered [11]], [.wrote [(.appTraffic, 23)]], [.wrote [(.appTraffic, 22)]],
     [.wrote [(.appTraffic, 22)]], [.delivered [22]], [.wrote [(.appTraffic, 21)], .ended]] ∧
    (drive cfg full).2.clientCert = some clientCert ∧ (drive cfg full).2.state = .closed ∧
    (Spec.updatesReceived (drive cfg full).1, Spec.updatesSent (drive cfg full).1) = (1, 1) := by
  decide +kernel

/-- In `resume` early data is accepted (C27) and delivered (C26). -/
example : trace (drive cfg resume).1 =
    [[], [.wrote [(.plaintext, 22), (.handshake, 22)], .earlySuccess], [.delivered [11]], [],
     [.wrote [(.appTraffic, 22)], .success], [.delivered [22]]] ∧
    (drive cfg resume).2.clientCert = some clientCert := by
  decide +kernel

/-- In `retry` a HelloRetryRequest is sent (C47). -/
example : trace (drive cfg retry).1 =
    [[], [.wrote [(.plaintext, 22)]], [.wrote [(.plaintext, 22), (.handshake, 22)]], [], [],
     [.wrote [(.appTraffic, 22)], .success], [.delivered [11]]] ∧
    ((drive cfg (retry.drop 5)).2.state, (drive cfg (retry.drop 5)).2.group) =
      (.expectingClientHello, some 29) := by
  decide +kernel

/-- In `noCert` the handshake fails, with one alert (C28), and the last entry is not run. -/
example : trace (drive cfg noCert).1 =
    [[], [.wrote [(.plaintext, 22), (.handshake, 22)]], [.wrote [(.appTraffic, 21)], .failed]] ∧
    (drive cfg noCert).2.state = .error := by
  decide +kernel

/-- The secrets announced in `resume` and `full` (C50), by name, oldest first. -/
example : ((drive cfg resume).1.reverse.map fun x => (Spec.announced x).map Prod.fst) =
    [[], [.clientEarlyTraffic, .clientHandshakeTraffic, .serverHandshakeTraffic, .serverAppTraffic], [], [],
     [.clientAppTraffic], []] ∧
    ((drive cfg full).1.reverse.map fun x => (Spec.announced x).map Prod.fst) =
    [[], [.clientHandshakeTraffic, .serverHandshakeTraffic, .serverAppTraffic], [], [], [.clientAppTraffic],
     [], [], [.serverAppTraffic, .clientAppTraffic], [], [], []] := by
  decide +kernel

/-- In the middle and at the end of connections the accessors of C46 are set. -/
example : ((drive cfg (full.drop 1)).2.state, (drive cfg (full.drop 1)).2.version,
    (drive cfg (full.drop 1)).2.cipher, (drive cfg (full.drop 1)).2.group) =
      (.acceptingData, some 0x0304, some 0x1301, some 29) ∧
    ((drive cfg (resume.drop 3)).2.state, (drive cfg (resume.drop 3)).2.earlyDataType) =
      (.acceptingEarlyData, some .accepted) := by
  decide +kernel

end Fizz.Server.Example

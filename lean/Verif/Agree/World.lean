import Verif.Agree.Server
import Verif.Server.Example

/-!
# A client and a server connected to each other

Both state machines, run against each other in the model with a toy hash, key exchange and signature: what
one writes, the other receives.  The runs below meet the hypotheses of the theorems about histories of the
client (C30, C31, C51 … C63), and those of C58.
-/

namespace Fizz.Agree.World
open Fizz Fizz.Codec Fizz.Crypto
open Fizz.Conn (Trig)
open Fizz.Server (Content Level)

/-- Cut handshake bytes into messages. -/
def frames : Nat → Bytes → List Record.Event
  | n + 1, t :: a :: b :: c :: rest =>
    let len := (a.toNat * 256 + b.toNat) * 256 + c.toNat
    let body := rest.take len
    match parseHandshake t body with
    | .ok m => .handshake m (t :: vec .u24 body) :: frames n (rest.drop len)
    | .error _ => []
  | _, _ => []

/-- What a peer receives of a content. -/
def events (c : Content) : List Record.Event :=
  if c.type = 22 then frames c.data.flatten.length c.data.flatten
  else if c.type = 23 then [.appData c.data.flatten]
  else if c.type = 21 then (match c.data.flatten with | [_, 0] => [.closeNotify []] | [_, d] => [.alert ⟨2, d⟩] | _ => [])
  else []

/-- The two ends, and what is on the way. -/
structure W where
  hC : List ClientSM.Step := []
  sC : ClientSM.St := {}
  hS : List Server.Step := []
  sS : Server.St := {}
  toC : List Record.Event := []
  toS : List Record.Event := []

/-- What happens next: the application of an end does something, an end reads, or something on the way is
lost. -/
inductive Op where
  | client (t : Trig)
  | server (t : Trig)
  | clientReads
  | serverReads
  | lost

/-- The configurations of the two ends. -/
structure Setup where
  cfgC : ClientSM.Cfg
  inpC : ClientSM.Inp
  cfgS : Server.Cfg
  inpS : Server.Inp

def clientStep (u : Setup) (w : W) (t : Trig) (sock : Server.SockIn) : W :=
  if ClientSM.terminal w.sC then w else
  let o := ClientSM.step u.cfgC { inp := u.inpC, sock := sock } w.sC t
  { w with
    hC := ⟨t, { inp := u.inpC, sock := sock }, w.sC, o.acts⟩ :: w.hC
    sC := ClientSM.applyAll o.acts w.sC
    toS := w.toS ++ (ClientSM.Spec.writes o.acts).flatMap events }

def serverStep (u : Setup) (w : W) (t : Trig) (sock : Server.SockIn) : W :=
  if Server.terminal w.sS then w else
  let o := Server.step u.cfgS { inp := u.inpS, sock := sock } w.sS t
  { w with
    hS := ⟨t, { inp := u.inpS, sock := sock }, w.sS, o.acts⟩ :: w.hS
    sS := Server.applyAll o.acts w.sS
    toC := w.toC ++ (Server.Spec.writes o.acts).flatMap events }

/-- What is first on the way. -/
def next : List Record.Event → Server.SockIn
  | [] => .needData
  | e :: _ => .event e false

def act (u : Setup) (w : W) : Op → W
  | .client t => clientStep u w t .needData
  | .server t => serverStep u w t .needData
  | .clientReads => { clientStep u w .sock (next w.toC) with toC := w.toC.drop 1 }
  | .serverReads => { serverStep u w .sock (next w.toS) with toS := w.toS.drop 1 }
  | .lost => { w with toS := w.toS.drop 1 }

def play (u : Setup) (l : List Op) : W := l.foldl (act u) {}

/-- Both ends' histories are histories. -/
def Ok (u : Setup) (w : W) : Prop := ClientSM.Run u.cfgC w.hC w.sC ∧ Server.Run u.cfgS w.hS w.sS

theorem clientStep_ok {u w} (h : Ok u w) (t sock) : Ok u (clientStep u w t sock) := by
  unfold clientStep
  split
  · exact h
  · rename_i ht
    exact ⟨.step h.1 (fun _ => by simpa using ht) rfl, h.2⟩

theorem serverStep_ok {u w} (h : Ok u w) (t sock) : Ok u (serverStep u w t sock) := by
  unfold serverStep
  split
  · exact h
  · rename_i ht
    exact ⟨h.1, .step h.2 (fun _ => by simpa using ht) rfl⟩

theorem act_ok {u w} (h : Ok u w) (o : Op) : Ok u (act u w o) := by
  cases o with
  | client t => exact clientStep_ok h _ _
  | server t => exact serverStep_ok h _ _
  | clientReads => exact clientStep_ok h _ _
  | serverReads => exact serverStep_ok h _ _
  | lost => exact h

/-- Every play is an execution of the client and one of the server. -/
theorem play_ok (u : Setup) (l : List Op) : Ok u (play u l) := by
  unfold play
  suffices h : ∀ w, Ok u w → Ok u (l.foldl (act u) w) from h {} ⟨.nil, .nil⟩
  induction l with
  | nil => exact fun w h => h
  | cons o l ih => exact fun w h => ih _ (act_ok h o)

/-- What can be seen of an action of the client. -/
inductive Seen where
  | wrote (kinds : List (Level × UInt8)) | delivered (d : Bytes) | success (early : Bool)
  | earlySuccess (max : UInt32) | earlyFailed (d : Bytes) | failed (alert : Option UInt8)
  | ended | ticket | secret (k : ClientSM.SecretKind) | echRetry (n : Nat) | other
  deriving DecidableEq

def seen : ClientSM.Action → List Seen
  | .mutate _ => []
  | .secretAvailable k _ => [.secret k]
  | .write _ cs _ => [.wrote (cs.map fun c => (c.layer.level, c.type))]
  | .deliver d => [.delivered d]
  | .reportHandshakeSuccess b => [.success b]
  | .reportEarlyHandshakeSuccess n => [.earlySuccess n]
  | .reportEarlyWriteFailed _ d _ => [.earlyFailed d]
  | .reportError a => [.failed a]
  | .endOfData _ => [.ended]
  | .newCachedPsk _ => [.ticket]
  | .echRetryAvailable _ l => [.echRetry l.length]
  | .waitForData => [.other]

/-- What can be seen of a client, oldest step first. -/
def trace (h : List ClientSM.Step) : List (List Seen) := h.reverse.map fun x => x.acts.flatMap seen

/-! ## The setup -/

def eights : Random := ⟨List.replicate 32 8, rfl⟩
def twos : Random := ⟨List.replicate 32 2, rfl⟩

def cfgC : ClientSM.Cfg where
  supportedVersions := [0x0304]
  supportedCiphers := [0x1302, 0x1301]
  supportedSigSchemes := [0x0403]
  supportedGroups := [29, 23]
  defaultShares := [29]
  supportedPskModes := [1]
  supportedAlpns := []
  hasCertManager := true
  hasVerifier := true
  sni := some [97]
  hashOf := fun _ => .ok toyHash

def ourCert : CertManager.Cert := ⟨2, [98], [], [0x0403]⟩

/-- The inner ClientHello in an outer one. -/
def openInner (m : ClientHello) : Option (ClientHello × Bytes) :=
  match m.extensions.find? (fun e => e.extension_type == 0xfe0d) with
  | some ⟨_, 0 :: t :: _ :: _ :: _ :: b⟩ =>
    (match parseHandshake t b with
     | .ok (.clientHello m) => some (m, t :: vec .u24 b)
     | _ => none)
  | _ => none

def inpC : ClientSM.Inp where
  random := Server.Example.zeros
  random2 := twos
  sessionId := twos
  keyShare := fun g => .ok [g.toUInt8, 3]
  kex := fun _ ours peer => .ok (ours ++ peer)
  extraExtensions := .ok []
  onEncryptedExtensions := fun _ => .ok ()
  echSetup := .ok [112]
  echEncrypt := fun inner _ _ => .ok (0 :: Codec.Spec.handshake (.clientHello inner))
  greaseEch := fun _ => .ok [0, 0]
  greasePsk := fun _ => .ok none
  greasePskHrr := .ok
  echAccepted := fun _ _ m => .ok (m.random == eights)
  echAcceptedHrr := fun _ _ _ => .ok false
  echRetry := fun es => .ok (if es.any (fun e => e.extension_type == 0xfe0d) then some [[1, 2]] else none)
  getCert := fun _ _ _ => .ok (some (ourCert, 0x0403))
  certMessage := fun _ => .ok ⟨[], [⟨[48, 1], []⟩]⟩
  sign := fun _ _ t => .ok (2 :: t)
  decompress := fun _ => .error (Failure.rt "none")
  makePeerCert := fun e _ => .ok ⟨[97], some e.cert_data⟩
  verifySig := fun _ _ t sig => if sig = 1 :: t then .ok () else .error (Failure.fizz "bad signature" (some 51))
  verifyChain := fun _ => .ok none

def cfgS : Server.Cfg := { Server.Example.cfg with
  getOuterEch := fun es => .ok (match es.find? (fun e => e.extension_type == 0xfe0d) with
    | some ⟨_, 0 :: _⟩ => some ⟨⟨1, 1⟩, 0, []⟩
    | _ => none)
  getInnerEch := fun es => .ok (match es.find? (fun e => e.extension_type == 0xfe0d) with
    | some ⟨_, [1]⟩ => some ()
    | _ => none) }

def inpS : Server.Inp := { Server.Example.inp with
  kex := fun _ share => .ok ([7], share ++ [7])
  echDecrypt := fun m => .ok ((openInner m).map fun p => (p.1, p.2, 0))
  echConfirm := fun _ _ m => .ok { m with random := eights } }

def setup : Setup := ⟨cfgC, inpC, cfgS, inpS⟩

/-- A full handshake with both certificates, data both ways, key updates started by either end, a ticket, and
an orderly end. -/
def full : List Op :=
  [.server .accept, .client .accept, .serverReads] ++ List.replicate 6 .clientReads ++
  List.replicate 3 .serverReads ++
  [.clientReads, .client (.app (.appWrite none [33] 0)), .serverReads, .server (.app (.appWrite none [44] 0)),
   .clientReads, .client (.app (.keyUpdate 1)), .serverReads, .clientReads,
   .client (.app (.appWrite none [34] 0)), .serverReads,
   .server (.app (.appWrite none [45] 0)), .clientReads, .client (.app (.appClose false)), .serverReads, .clientReads]

/-- The PSK the client has been given. -/
def pskOf (w : W) : Option ClientSM.Psk :=
  (ClientSM.actions w.hC).findSome? fun | .newCachedPsk p => some p | _ => none

/-- The server accepts that ticket, and what it knows of it. -/
def ticketOf (w : W) : Ticket.ResumptionState :=
  { Server.Example.ticket with resumptionSecret := ((pskOf w).map (·.secret)).getD [] }

/-- The second connection: resumption with early data. -/
def setup2 (accept : Bool) : Setup where
  cfgC := { cfgC with sendEarlyData := true, cachedPsk := (pskOf (play setup full)).map fun p =>
    { p with maxEarlyDataSize := 100 } }
  inpC := inpC
  cfgS := { cfgS with acceptEarlyData_ := accept }
  inpS := { inpS with ticketDecrypt := fun b => .ok (.resumption, if b = [6, 6] then some { ticketOf (play setup full) with ticketAgeAdd := 0 } else none) }

def early : List Op :=
  [.server .accept, .client .accept, .client (.app (.earlyAppWrite none [55] 0)), .serverReads, .serverReads] ++
   List.replicate 4 .clientReads ++ List.replicate 3 .serverReads ++ [.clientReads]

/-- The server does not accept early data, and skips it (its record layer does). -/
def earlyRejected : List Op :=
  [.server .accept, .client .accept, .client (.app (.earlyAppWrite none [55] 0)), .serverReads, .lost,
   .client (.app (.earlyAppWrite none [56] 0)), .lost] ++
   List.replicate 4 .clientReads ++ List.replicate 3 .serverReads ++ [.clientReads]

/-- The server prefers another group. -/
def setup3 : Setup := { setup with
  cfgC := { cfgC with compatMode := true }, cfgS := { cfgS with supportedGroups := [23] } }

def retried : List Op :=
  [.server .accept, .client .accept, .serverReads, .clientReads, .serverReads] ++ List.replicate 6 .clientReads ++
   List.replicate 3 .serverReads ++ [.clientReads]

/-- Encrypted ClientHello, accepted or not. -/
def setup4 (accepted : Bool) : Setup := { setup with
  cfgC := { cfgC with hasEchConfigs := true }, cfgS := { cfgS with hasEchDecrypter := accepted } }

def ech : List Op :=
  [.server .accept, .client .accept, .serverReads] ++ List.replicate 6 .clientReads ++
   List.replicate 3 .serverReads ++ [.clientReads]

/-- Someone changes the last byte of the first message the client is waiting for. -/
def tampered : List Op := [.server .accept, .client .accept, .serverReads, .clientReads, .clientReads]
def tamper (w : W) : W := { w with toC := w.toC.map fun
  | .handshake (.certificateVerify m) o => .handshake (.certificateVerify { m with signature := m.signature ++ [0] }) o
  | e => e }

theorem tamper_ok {u w} (h : Ok u w) : Ok u (tamper w) := h

/-! ## What happens -/

/-- Success (C30), delivered data (C51), written data (C57), key updates (C54), a ticket (C55), an orderly end
(C53). -/
theorem full_trace : trace (play setup full).hC =
    [[.wrote [(.plaintext, 22)]], [.secret .serverHandshakeTraffic, .secret .clientHandshakeTraffic],
     [], [], [], [],
     [.secret .serverAppTraffic, .secret .clientAppTraffic, .secret .exporterMaster, .secret .resumptionMaster,
      .wrote [(.handshake, 22)], .success false],
     [.ticket], [.wrote [(.appTraffic, 23)]], [.delivered [44]],
     [.secret .clientAppTraffic, .wrote [(.appTraffic, 22)]], [.secret .serverAppTraffic],
     [.wrote [(.appTraffic, 23)]], [.delivered [45]], [.wrote [(.appTraffic, 21)]], [.ended]] ∧
    (play setup full).sC.state = .closed ∧ (play setup full).sS.state = .closed ∧
    Server.Example.trace (play setup full).hS =
    [[], [.wrote [(.plaintext, 22), (.handshake, 22)]], [], [], [.wrote [(.appTraffic, 22)], .success],
     [.delivered [33]], [.wrote [(.appTraffic, 23)]], [.wrote [(.appTraffic, 22)]], [.delivered [34]],
     [.wrote [(.appTraffic, 23)]], [.wrote [(.appTraffic, 21)], .ended]] := by
  decide +kernel

/-- Early data accepted (C52). -/
theorem early_trace : trace (play (setup2 true) early).hC =
    [[.wrote [(.plaintext, 22)], .secret .clientEarlyTraffic, .earlySuccess 100, .secret .earlyExporter],
     [.wrote [(.earlyData, 23)]], [.secret .serverHandshakeTraffic, .secret .clientHandshakeTraffic], [],
     [.secret .serverAppTraffic, .secret .clientAppTraffic, .secret .exporterMaster, .secret .resumptionMaster,
      .wrote [(.earlyData, 22), (.handshake, 22)], .success true], [.other], [.ticket]] ∧
    (play (setup2 true) early).sC.state = .established ∧
    (play (setup2 true) early).sC.pskType = some .resumption ∧
    Server.Example.trace (play (setup2 true) early).hS =
    [[], [.wrote [(.plaintext, 22), (.handshake, 22)], .earlySuccess], [.delivered [55]], [],
     [.wrote [(.appTraffic, 22)], .success], [.other]] := by
  decide +kernel

/-- Early data rejected (C52). -/
theorem earlyRejected_trace : trace (play (setup2 false) earlyRejected).hC =
    [[.wrote [(.plaintext, 22)], .secret .clientEarlyTraffic, .earlySuccess 100, .secret .earlyExporter],
     [.wrote [(.earlyData, 23)]], [.wrote [(.earlyData, 23)]],
     [.secret .serverHandshakeTraffic, .secret .clientHandshakeTraffic], [],
     [.secret .serverAppTraffic, .secret .clientAppTraffic, .secret .exporterMaster, .secret .resumptionMaster,
      .wrote [(.handshake, 22)], .success false], [.other], [.ticket]] ∧
    (play (setup2 false) earlyRejected).sC.earlyDataType = some .rejected := by
  decide +kernel

/-- A HelloRetryRequest (C59), with a change_cipher_spec (C63). -/
theorem retried_trace : trace (play setup3 retried).hC =
    [[.wrote [(.plaintext, 22)]], [.wrote [(.plaintext, 20), (.plaintext, 22)]],
     [.secret .serverHandshakeTraffic, .secret .clientHandshakeTraffic], [], [], [], [],
     [.secret .serverAppTraffic, .secret .clientAppTraffic, .secret .exporterMaster, .secret .resumptionMaster,
      .wrote [(.handshake, 22)], .success false], [.ticket]] ∧
    (play setup3 retried).sC.group = some 23 ∧ (play setup3 retried).sS.group = some 23 := by
  decide +kernel

/-- ECH accepted (C60): the server has seen the name that was encrypted. -/
theorem ech_trace : trace (play (setup4 true) ech).hC =
    [[.wrote [(.plaintext, 22)]], [.secret .serverHandshakeTraffic, .secret .clientHandshakeTraffic], [], [], [], [],
     [.secret .serverAppTraffic, .secret .clientAppTraffic, .secret .exporterMaster, .secret .resumptionMaster,
      .wrote [(.handshake, 22)], .success false], [.ticket]] ∧
    (play (setup4 true) ech).sS.echStatus = .accepted := by
  decide +kernel

/-- ECH rejected: after its second flight the client ends the connection (C30, C60). -/
theorem echRejected_trace : trace (play (setup4 false) ech).hC =
    [[.wrote [(.plaintext, 22)]], [.secret .serverHandshakeTraffic, .secret .clientHandshakeTraffic], [], [], [], [],
     [.secret .serverAppTraffic, .secret .clientAppTraffic, .secret .exporterMaster, .secret .resumptionMaster,
      .wrote [(.handshake, 22)], .wrote [(.handshake, 21)], .failed (some 121)]] ∧
    (play (setup4 false) ech).sC.state = .error := by
  decide +kernel

/-- A signature that is not the server's: the client fails, with one alert, and reports no success. -/
theorem tampered_trace :
    let w := [Op.clientReads, .clientReads, .clientReads, .clientReads].foldl (act setup) (tamper (play setup tampered))
    trace w.hC = [[.wrote [(.plaintext, 22)]], [.secret .serverHandshakeTraffic, .secret .clientHandshakeTraffic],
      [], [], [], [.wrote [(.handshake, 21)], .failed (some 51)]] ∧ w.sC.state = .error := by
  decide +kernel

/-! ## Agreement -/

/-- The two ends before they close the connection: same parameters, same keys (C58). -/
theorem full_agree :
    let w := play setup (full.take 22)
    w.sC.version = w.sS.version ∧ w.sC.cipher = w.sS.cipher ∧ w.sC.group = w.sS.group ∧
    w.sC.exporterMasterSecret = w.sS.exporterMasterSecret ∧ w.sC.exporterMasterSecret.isSome ∧
    w.sC.resumptionSecret = some w.sS.resumptionMasterSecret ∧
    w.sC.read.map (·.secret) = w.sS.write.map (·.secret) ∧ w.sC.read.isSome ∧
    w.sS.read.map (·.secret) = w.sC.write.map (·.secret) ∧ w.sS.read.isSome := by
  decide +kernel

/-- The history of the client when it has read all up to the Finished, and that of the server when it has
sent its flight and, later, when it has read all up to the client's Finished. -/
def clientReady : List ClientSM.Step := (play setup (full.take 8)).hC
def serverReady : List Server.Step := (play setup (full.take 11)).hS

/-- The messages through the ServerHello. -/
def helloBytes : Bytes := ClientSM.Spec.transcript cfgC (play setup (full.take 4)).hC
def inputs : KS.Spec.Inputs := ⟨none, some [29, 3, 7]⟩

instance (h : Crypto.Spec.Hash) (P Q : List Bytes) : Decidable (Spec.NoClash h P Q) :=
  inferInstanceAs (Decidable (∀ a ∈ P, ∀ b ∈ Q, h.H a = h.H b → a = b))

/-- The hypothesis of `C58_client` and `C58_server` about the hash function holds here, although the toy hash
has two bytes only. -/
theorem noClash :
    Spec.NoClash toyHash.spec
      (Spec.finishedQueries toyHash.spec inputs "s hs traffic" helloBytes (ClientSM.Spec.transcript cfgC clientReady))
      (Spec.finishedQueries toyHash.spec inputs "s hs traffic" helloBytes (ClientSM.Spec.transcript cfgC clientReady)) ∧
    Spec.NoClash toyHash.spec
      (Spec.finishedQueries toyHash.spec inputs "c hs traffic" helloBytes (Server.Spec.transcript cfgS serverReady))
      (Spec.finishedQueries toyHash.spec inputs "c hs traffic" helloBytes (Server.Spec.transcript cfgS serverReady)) ∧
    (play setup (full.take 8)).sC.serverHandshakeSecret =
      some (KS.Spec.DeriveSecret toyHash.spec (KS.Spec.handshake toyHash.spec inputs) "s hs traffic"
        (toyHash.digest helloBytes)) ∧
    (play setup (full.take 8)).sC.state = .expectingFinished ∧
    (play setup (full.take 11)).sS.state = .expectingFinished ∧
    (∃ m, (ClientSM.Spec.transcript cfgC clientReady ++ m).isPrefixOf (Server.Spec.transcript cfgS serverReady) = true ∧
      m.length > 0) := by
  refine ⟨by decide +kernel, by decide +kernel, by decide +kernel, by decide +kernel, by decide +kernel, ?_⟩
  exact ⟨((Server.Spec.transcript cfgS serverReady).drop (ClientSM.Spec.transcript cfgC clientReady).length).take 6,
    by decide +kernel, by decide +kernel⟩

end Fizz.Agree.World

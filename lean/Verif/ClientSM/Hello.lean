import Verif.ClientSM.State

/-!
# The client state machine: ClientHello, HelloRetryRequest, ServerHello

Model of `fizz/client/ClientProtocol.cpp:466-2099`.
-/

namespace Fizz.ClientSM
open Fizz.Codec Fizz.Crypto
open Fizz.Server (Level RLayer WLayer Content KeyExchangeType HsCtx content deref derefPtr check
  ksState ksSecret transcriptHash finishedData psk_ke)
open Fizz.Client (CachedPsk PskType)

/-! ## Connect -/

/-- The checks of `validatePsk` that apply to resumption tickets
(`fizz/client/ClientProtocol.cpp:492-508`).  The difference of two time points is a checked 64-bit
number. -/
def freshPsk (cfg : Cfg) (now : Int) (psk : Psk) : Res Bool :=
  if psk.type = .resumption then
    if psk.ticketExpirationTime < now then .ok false
    else do
      let age ← Time.checked (now - psk.ticketHandshakeTime)
      if cfg.maxPskHandshakeLife < age then pure false
      else pure (decide (psk.ticketHandshakeTime ≤ now))
  else .ok true

/-- `validatePsk` (`fizz/client/ClientProtocol.cpp:466-508`). -/
def validatePsk (cfg : Cfg) (now : Int) : Res (Option Psk) :=
  match cfg.cachedPsk with
  | none => .ok none
  | some psk =>
    if psk.version ∉ cfg.supportedVersions then .ok none
    else if psk.cipher ∉ cfg.supportedCiphers then .ok none
    else do
      let ok ← freshPsk cfg now psk
      pure (if ok then some psk else none)

/-- Which shares to send (`fizz/client/ClientProtocol.cpp:976-994`). -/
def selectShares (cfg : Cfg) : Option Psk → List UInt16
  | none => cfg.defaultShares
  | some psk =>
    match psk.group with
    | some g =>
      if cfg.sendKeyShare ≠ .alwaysDefaultShares ∧ g ∈ cfg.supportedGroups then [g]
      else cfg.defaultShares
    | none => if cfg.sendKeyShare = .whenNecessary then [] else cfg.defaultShares

/-- `std::map::emplace`: sorted by group, the first one wins. -/
def insertShare (g : UInt16) (share : Bytes) : List (UInt16 × Bytes) → List (UInt16 × Bytes)
  | [] => [(g, share)]
  | (g', share') :: l =>
    if g < g' then (g, share) :: (g', share') :: l
    else if g = g' then (g', share') :: l
    else (g', share') :: insertShare g share l

/-- `getKeyExchangers` (`fizz/client/ClientProtocol.cpp:510-522`). -/
def makeShares (inp : Inp) : List UInt16 → List (UInt16 × Bytes) → Res (List (UInt16 × Bytes))
  | [], acc => .ok acc
  | g :: gs, acc => do
    let share ← inp.keyShare g
    makeShares inp gs (insertShare g share acc)

/-- `getEarlyDataParams` (`fizz/client/ClientProtocol.cpp:737-763`). -/
def getEarlyDataParams (cfg : Cfg) : Option Psk → Option EarlyDataParams
  | none => none
  | some psk =>
    if cfg.sendEarlyData = false then none
    else if psk.maxEarlyDataSize = 0 then none
    else if (match psk.alpn with | some a => decide (a ∈ cfg.supportedAlpns) | none => true) then
      some ⟨psk.version, psk.cipher, psk.serverCert, psk.clientCert, psk.alpn, []⟩
    else none

/-- An extension that is sent only sometimes. -/
def optExt (b : Bool) (r : Res Extension) : Res (List Extension) :=
  if b then do
    let e ← r
    pure [e]
  else .ok []

/-- The server_name extension (`fizz/client/ClientProtocol.cpp:546-552`). -/
def sniExt : Option Bytes → Res (List Extension)
  | some n => optExt true (encodeServerNameList ⟨[{ hostname := n }]⟩)
  | none => .ok []

/-- The cookie extension (`fizz/client/ClientProtocol.cpp:615-621`). -/
def cookieExt : Option Bytes → Res (List Extension)
  | some c => optExt true (encodeCookie ⟨c⟩)
  | none => .ok []

/-- The application's own extensions (`fizz/client/ClientProtocol.cpp:630-636`). -/
def extraExt (cfg : Cfg) (inp : Inp) : Res (List Extension) :=
  if cfg.hasExtensions then inp.extraExtensions else .ok []

/-- The extensions of a ClientHello (`fizz/client/ClientProtocol.cpp:546-636`). -/
def helloExtensions (cfg : Cfg) (inp : Inp) (shares : List (UInt16 × Bytes)) (sni : Option Bytes)
    (early : Bool) (cookie : Option Bytes) : Res (List Extension) := do
  let sni ← sniExt sni
  let versions ← encodeSupportedVersions ⟨cfg.supportedVersions⟩
  let groups ← encodeSupportedGroups ⟨cfg.supportedGroups⟩
  let share ← encodeClientKeyShare ⟨shares.map fun s => ⟨s.1, s.2⟩⟩
  let algs ← encodeSignatureAlgorithms ⟨cfg.supportedSigSchemes⟩
  let alpn ← optExt (!cfg.supportedAlpns.isEmpty)
    (encodeProtocolNameList ⟨cfg.supportedAlpns.map fun n => ⟨n⟩⟩)
  let modes ← optExt (!cfg.supportedPskModes.isEmpty) (encodePskKeyExchangeModes ⟨cfg.supportedPskModes⟩)
  let earlyData ← optExt early (encodeClientEarlyData ⟨⟩)
  let cookie ← cookieExt cookie
  let comp ← optExt (!cfg.decompressionAlgorithms.isEmpty)
    (encodeCertificateCompressionAlgorithms ⟨cfg.decompressionAlgorithms⟩)
  let extra ← extraExt cfg inp
  pure (sni ++ [versions, groups, share, algs] ++ alpn ++ modes ++ earlyData ++ cookie ++ comp ++ extra)

/-- `getClientHello` (`fizz/client/ClientProtocol.cpp:524-640`). -/
def getClientHello (cfg : Cfg) (inp : Inp) (random : Random) (shares : List (UInt16 × Bytes))
    (sni : Option Bytes) (early : Bool) (sessionId : Bytes) (cookie : Option Bytes) :
    Res ClientHello := do
  let exts ← helloExtensions cfg inp shares sni early cookie
  pure { legacy_version := 0x0303, random := random, legacy_session_id := sessionId
         cipher_suites := cfg.supportedCiphers, legacy_compression_methods := [0], extensions := exts }

/-- The obfuscated age of a PSK (`fizz/client/ClientProtocol.cpp:648-657`): the conversion to a 32-bit
number wraps, as does the addition. -/
def obfuscatedAge (psk : Psk) (now : Int) : Res UInt32 :=
  if psk.type = .resumption then do
    let age ← Time.checked (now - psk.ticketIssueTime)
    pure (UInt32.ofInt (Client.toMillis age) + psk.ticketAgeAdd)
  else .ok 0

/-- The pre_shared_key extension with this binder (`fizz/client/ClientProtocol.cpp:642-670`). -/
def pskOffer (psk : Psk) (age : UInt32) (binder : Bytes) : ClientPresharedKey :=
  ⟨[⟨psk.psk, age⟩], [⟨binder⟩]⟩

/-- Adding an extension at the end of a ClientHello. -/
def addExt (c : ClientHello) (e : Extension) : ClientHello :=
  { c with extensions := c.extensions ++ [e] }

/-- A ClientHello with its binder, as sent. -/
structure Bound where
  chlo : ClientHello
  encoded : Bytes
  ks : KS.KS
  ctx : HsCtx

/-- `encodeAndAddBinders` (`fizz/client/ClientProtocol.cpp:676-735`), with the hash `h` of the key
scheduler and handshake context.  `split` of a negative length does not occur: the binders are part of
the encoding. -/
def encodeAndAddBinders (cfg : Cfg) (h : HashAlg) (chlo : ClientHello) (psk : Psk) (ctx : HsCtx)
    (now : Int) : Res Bound := do
  let ks ← ksState (KS.deriveEarlySecret h {} psk.secret)
  let binderKey ← ksSecret (KS.getEarly h ks
    (if psk.type = .external then .externalPskBinder else .resumptionPskBinder) h.blankHash)
  let age ← obfuscatedAge psk now
  let hp ← cfg.hashOf psk.cipher
  let ext ← encodeClientPresharedKey (pskOffer psk age (List.replicate hp.hashLen 0))
  let binderLength ← getBinderLength (addExt chlo ext)
  let pre ← encodeHandshake (.clientHello (addExt chlo ext))
  let ctxPrefix := ctx.append (pre.take (pre.length - binderLength))
  let binder ← finishedData h ctxPrefix binderKey
  let ext2 ← encodeClientPresharedKey (pskOffer psk age binder)
  let encoded ← encodeHandshake (.clientHello (addExt chlo ext2))
  pure ⟨addExt chlo ext2, encoded, ks, ctxPrefix.append (encoded.drop (encoded.length - binderLength))⟩

/-- `encodeExtension` of an encrypted_client_hello (`fizz/protocol/ech/ECHExtensions-inl.h:16-53`). -/
def echExt (r : Res Bytes) : Res Extension := do
  let b ← r
  pure ⟨0xfe0d, b⟩

/-- The ECH extension of the first ClientHello before the PSK is added: the inner marker or GREASE
(`fizz/client/ClientProtocol.cpp:1047-1071`).  `encodeExtension(InnerECHClientHello)` is one byte. -/
def firstEchExt (cfg : Cfg) (inp : Inp) : Res (List Extension) :=
  if cfg.hasEchConfigs then .ok [⟨0xfe0d, [1]⟩]
  else if cfg.greaseEch = some .uniformRandom then optExt true (echExt (inp.greaseEch 0))
  else .ok []

/-- The early secrets: traffic and exporter (`fizz/client/ClientProtocol.cpp:1093-1130`). -/
def earlySecrets (h : HashAlg) (b : Bound) : Res (Bytes × Bytes) := do
  let traffic ← ksSecret (KS.getEarly h b.ks .clientEarlyTraffic (transcriptHash h b.ctx))
  let exporter ← ksSecret (KS.getEarly h b.ks .earlyExporter (transcriptHash h b.ctx))
  pure (traffic, exporter)

/-- The early secrets when early data is attempted. -/
def optEarlySecrets (early : Bool) (h : HashAlg) (b : Bound) : Res (Option (Bytes × Bytes)) :=
  if early then do
    let p ← earlySecrets h b
    pure (some p)
  else .ok none

/-- The ClientHello, its encoding and the early secrets (`fizz/client/ClientProtocol.cpp:1073-1135`). -/
def offer (cfg : Cfg) (inp : Inp) (chlo : ClientHello) (early : Bool) :
    Option Psk → Res (ClientHello × Bytes × Option (Bytes × Bytes))
  | none => do
    let e ← encodeHandshake (.clientHello chlo)
    pure (chlo, e, none)
  | some psk => do
    let h ← cfg.hashOf psk.cipher
    let b ← encodeAndAddBinders cfg h chlo psk ⟨psk.cipher, []⟩ inp.now2
    let s ← optEarlySecrets early h b
    pure (b.chlo, b.encoded, s)

/-- `removeExtension` (`fizz/client/ClientProtocol.cpp:846-854`): the first of its type. -/
def removeExt (t : UInt16) : List Extension → List Extension
  | [] => []
  | e :: es => if e.extension_type = t then es else e :: removeExt t es

/-- `replaceOrAddExtension` (`fizz/client/ClientProtocol.cpp:856-873`). -/
def replaceExt (n : Extension) : List Extension → List Extension
  | [] => [n]
  | e :: es => if e.extension_type = n.extension_type then n :: es else e :: replaceExt n es

/-- The GREASE PSK of the outer ClientHello (`fizz/client/ClientProtocol.cpp:934-938`). -/
def greaseExt : Option ClientPresharedKey → Res (List Extension)
  | some g => optExt true (encodeClientPresharedKey g)
  | none => .ok []

/-- `constructEncryptedClientHello` (`fizz/client/ClientProtocol.cpp:875-942`). -/
def encryptHello (inp : Inp) (first : Bool) (inner : ClientHello) (random : Random) (name : Bytes)
    (grease : Option ClientPresharedKey) : Res ClientHello := do
  let exts := removeExt 41 (removeExt 0xfe0d inner.extensions)
  let exts := if first then removeExt 42 exts else exts
  let sni ← encodeServerNameList ⟨[{ hostname := name }]⟩
  let outer : ClientHello := { inner with random := random, extensions := replaceExt sni exts }
  let ech ← echExt (inp.echEncrypt inner outer grease)
  let g ← greaseExt grease
  pure { outer with extensions := outer.extensions ++ [ech] ++ g }

/-- What is sent in the end, and what of it has to do with ECH. -/
structure Final where
  encoded : Bytes
  requested : List UInt16 := []
  random : Random
  sni : Option Bytes
  ech : Option EchState := none

/-- The ECH part of Connect (`fizz/client/ClientProtocol.cpp:1138-1175`). -/
def echConnect (cfg : Cfg) (inp : Inp) (chlo : ClientHello) (encoded : Bytes) (name : Bytes) :
    Res Final := do
  let grease ← inp.greasePsk chlo
  let outer ← encryptHello inp true chlo inp.random2 name grease
  let e ← encodeHandshake (.clientHello outer)
  pure { encoded := e, random := inp.random2, sni := some name
         ech := some { encodedInner := some encoded, sni := cfg.sni, random := inp.random
                       greasePsk := grease } }

/-- GREASE with a computed payload (`fizz/client/ClientProtocol.cpp:1176-1195`): the extension is added
after the PSK, whose binder is not recomputed. -/
def greaseConnect (cfg : Cfg) (inp : Inp) (chlo : ClientHello) (encoded : Bytes) : Res Final := do
  let g ← echExt (inp.greaseEch encoded.length)
  let e ← encodeHandshake (.clientHello (addExt chlo g))
  pure { encoded := e, requested := [0xfe0d], random := inp.random, sni := cfg.sni }

/-- The ClientHello that is sent (`fizz/client/ClientProtocol.cpp:1138-1195`). -/
def finalHello (cfg : Cfg) (inp : Inp) (chlo : ClientHello) (encoded : Bytes) (name : Option Bytes) :
    Res Final :=
  match name with
  | some name => echConnect cfg inp chlo encoded name
  | none =>
    if cfg.greaseEch = some .computed then greaseConnect cfg inp chlo encoded
    else .ok { encoded := encoded, random := inp.random, sni := cfg.sni }

/-- `setupECH` (`fizz/client/ClientProtocol.cpp:810-844`): the public name. -/
def setupEch (cfg : Cfg) (inp : Inp) : Res (Option Bytes) :=
  if cfg.hasEchConfigs then do
    let n ← inp.echSetup
    pure (some n)
  else .ok none

/-- Everything Connect has put together. -/
structure Connected where
  psk : Option Psk
  params : Option EarlyDataParams
  shares : List (UInt16 × Bytes)
  sessionId : Bytes
  requested : List UInt16
  early : Option (Bytes × Bytes)
  final : Final

/-- The `legacy_session_id` (`fizz/client/ClientProtocol.cpp:998-1005`). -/
def sessionId (cfg : Cfg) (inp : Inp) : Bytes := if cfg.compatMode then inp.sessionId.val else []

/-- The requested extension types (`fizz/client/ClientProtocol.cpp:1041-1045`, `1053`, `1070`, `1079`,
`1192`). -/
def requestedTypes (chlo : ClientHello) (ech : List Extension) (psk : Option Psk) : List UInt16 :=
  chlo.extensions.map (·.extension_type) ++ ech.map (fun _ => 0xfe0d) ++
    (if psk.isSome then [41] else [])

/-- The handler of Connect up to the actions (`fizz/client/ClientProtocol.cpp:958-1206`). -/
def prepareConnect (cfg : Cfg) (inp : Inp) : Res Connected := do
  let psk ← validatePsk cfg inp.now
  let params := getEarlyDataParams cfg psk
  let shares ← makeShares inp (selectShares cfg psk) []
  let name ← setupEch cfg inp
  let chlo ← getClientHello cfg inp inp.random shares cfg.sni params.isSome (sessionId cfg inp) none
  let ech ← firstEchExt cfg inp
  let (chlo', encoded, early) ← offer cfg inp { chlo with extensions := chlo.extensions ++ ech }
    params.isSome psk
  let final ← finalHello cfg inp chlo' encoded name
  pure ⟨psk, params, shares, sessionId cfg inp, requestedTypes chlo ech psk ++ final.requested, early,
    final⟩

/-- `saveState` of Connect (`fizz/client/ClientProtocol.cpp:1208-1249`). -/
def saveConnect (c : Connected) (s : St) : St :=
  { s with
    echState := c.final.ech, encodedClientHello := some c.final.encoded
    read := some ⟨.plaintext, [], false⟩, write := some ⟨.plaintext, []⟩
    keyExchangers := some c.shares, sni := c.final.sni, clientRandom := some c.final.random
    legacySessionId := c.sessionId, attemptedPsk := c.psk, requestedExtensions := some c.requested
    earlyDataType := some (if c.params.isSome then .attempted else .notAttempted) }

/-- The early data part of the state (`fizz/client/ClientProtocol.cpp:1254-1259`). -/
def saveEarly (cfg : Cfg) (p : EarlyDataParams) (traffic exporter : Bytes) (s : St) : St :=
  { s with
    earlyDataParams := some { p with earlyExporterSecret := exporter }
    earlyWrite := if cfg.omitEarlyRecordLayer then none else some ⟨.earlyData, traffic⟩ }

/-- The actions of Connect (`fizz/client/ClientProtocol.cpp:1251-1270`). -/
def connectActions (cfg : Cfg) (c : Connected) : List Action :=
  let w : Action := .write none [content ⟨.plaintext, []⟩ 22 c.final.encoded] 0
  match c.params, c.early with
  | some p, some (traffic, exporter) =>
    [.mutate (saveConnect c), .mutate (saveEarly cfg p traffic exporter), w,
      .secretAvailable .clientEarlyTraffic traffic,
      .reportEarlyHandshakeSuccess ((c.psk.map (·.maxEarlyDataSize)).getD 0),
      .secretAvailable .earlyExporter exporter, transition .expectingServerHello]
  | _, _ => [.mutate (saveConnect c), w, transition .expectingServerHello]

/-- `Uninitialized`, `Connect` (`fizz/client/ClientProtocol.cpp:953-1272`). -/
def onConnect (cfg : Cfg) (inp : Inp) : Res (List Action) := do
  let c ← prepareConnect cfg inp
  pure (connectActions cfg c)

/-! ## Messages of the server -/

/-- `checkDuplicateExtensions` (`fizz/protocol/Protocol.h:194-211`). -/
def noDuplicates (exts : List Extension) : Res Unit :=
  check (decide (exts.map (·.extension_type)).Nodup) "duplicate extension" (some 47)

/-- `checkAllowedExtensions` for a ServerHello (`fizz/protocol/Protocol.h:126-145`). -/
def checkShloExtensions (exts : List Extension) (requested : List UInt16) : Res Unit := do
  check (exts.all fun e => decide (e.extension_type ∈ requested ∧
    (e.extension_type = 51 ∨ e.extension_type = 41 ∨ e.extension_type = 43)))
    "unexpected extension in shlo" (some 47)
  noDuplicates exts

/-- `checkAllowedExtensions` for a HelloRetryRequest (`fizz/protocol/Protocol.h:147-171`). -/
def checkHrrExtensions (exts : List Extension) (requested : List UInt16) : Res Unit := do
  check (exts.all fun e => decide (e.extension_type = 44 ∨ e.extension_type = 51 ∨
    e.extension_type = 43 ∨ (e.extension_type = 0xfe0d ∧ e.extension_type ∈ requested)))
    "unexpected extension in hrr" (some 47)
  noDuplicates exts

/-- `checkAllowedExtensions` for EncryptedExtensions (`fizz/protocol/Protocol.h:93-124`). -/
def checkEeExtensions (exts : List Extension) (requested : List UInt16) : Res Unit := do
  check (exts.all fun e => decide (e.extension_type ∉ ([13, 51, 41, 45, 44, 43] : List UInt16) ∧
    e.extension_type ∈ requested)) "unexpected extension in ee" (some 47)
  noDuplicates exts

/-- `getAndValidateVersionAndCipher` (`fizz/client/ClientProtocol.cpp:1275-1319`). -/
def getVersionAndCipher (cfg : Cfg) (legacyVersion : UInt16) (compression : UInt8) (cipher : UInt16)
    (exts : List Extension) : Res UInt16 := do
  check (decide (legacyVersion = 0x0303)) "received server legacy version" (some 70)
  check (decide (compression = 0)) "compression method not null" (some 47)
  match ← getServerSupportedVersions exts with
  | none => .error (Failure.fizz "no supported versions in shlo" (some 70))
  | some v => do
    check (decide (v.selected_version ∈ cfg.supportedVersions)) "received unsupported server version"
      (some 70)
    check (decide (cipher ∈ cfg.supportedCiphers)) "server choose unsupported cipher suite" (some 40)
    pure v.selected_version

/-- Looking up a share by group. -/
def findShare (g : UInt16) : List (UInt16 × Bytes) → Option Bytes
  | [] => none
  | (g', b) :: l => if g' = g then some b else findShare g l

/-- The key exchange of `negotiateParameters` (`fizz/client/ClientProtocol.cpp:1337-1352`): group, our
share, the server's share. -/
def negotiateExchange (exts : List Extension) (shares : List (UInt16 × Bytes)) :
    Res (Option (UInt16 × Bytes × Bytes)) := do
  match ← getServerKeyShare exts with
  | none => pure none
  | some k =>
    match findShare k.server_share.group shares with
    | none => .error (Failure.fizz "server choose unsupported group" (some 40))
    | some own => pure (some (k.server_share.group, own, k.server_share.key_exchange))

/-- Comparing the hash functions of two cipher suites (`getHashFunction`).  Two hash functions are
compared by the hash algorithms they select. -/
def sameHash (cfg : Cfg) (a b : UInt16) : Res Bool := do
  let ha ← cfg.hashOf a
  let hb ← cfg.hashOf b
  pure (ha.hashLen == hb.hashLen && ha.blockSize == hb.blockSize && ha.blankHash == hb.blankHash)

/-- `NegotiatedPsk` (`fizz/client/ClientProtocol.cpp:1375-1390`). -/
structure NegotiatedPsk where
  type : PskType
  mode : Option UInt8 := none
  serverCert : Option Cert := none
  clientCert : Option Cert := none

/-- The PSK key exchange mode of a ServerHello (`fizz/client/ClientProtocol.cpp:1439-1440`). -/
def pskMode (hasExchange : Bool) : UInt8 := if hasExchange then 1 else psk_ke

/-- `negotiatePsk` when a PSK was offered and selected (`fizz/client/ClientProtocol.cpp:1417-1453`). -/
def acceptPsk (cfg : Cfg) (psk : Psk) (selected : UInt16) (version cipher : UInt16)
    (hasExchange : Bool) : Res NegotiatedPsk := do
  check (decide (selected = 0)) "server accepted non-0 psk" (some 47)
  check (decide (version = psk.version)) "different version in psk" (some 40)
  let same ← sameHash cfg cipher psk.cipher
  check same "incompatible cipher in psk" (some 40)
  check (decide (pskMode hasExchange ∈ cfg.supportedPskModes)) "server choose unsupported psk mode"
    (some 40)
  pure ⟨psk.type, some (pskMode hasExchange), psk.serverCert, psk.clientCert⟩

/-- `negotiatePsk` (`fizz/client/ClientProtocol.cpp:1393-1455`). -/
def negotiatePsk (cfg : Cfg) (attempted : Option Psk) (exts : List Extension) (version cipher : UInt16)
    (hasExchange : Bool) : Res NegotiatedPsk := do
  match attempted, ← getServerPresharedKey exts with
  | none, some _ => .error (Failure.fizz "server accepted unattempted psk" (some 47))
  | none, none =>
    pure { type := if cfg.supportedPskModes.isEmpty then .notSupported else .notAttempted }
  | some _, none => pure { type := .rejected }
  | some psk, some sel => acceptPsk cfg psk sel.selected_identity version cipher hasExchange

/-- The early secret of the connection (`fizz/client/ClientProtocol.cpp:1522-1525`). -/
def earlyStage (h : HashAlg) (mode : Option UInt8) (attempted : Option Psk) : Res KS.KS :=
  match mode with
  | none => .ok {}
  | some _ => do
    let psk ← deref attempted
    ksState (KS.deriveEarlySecret h {} psk.secret)

/-- The handshake secret (`fizz/client/ClientProtocol.cpp:1527-1550`). -/
def handshakeStage (h : HashAlg) (inp : Inp) (ks : KS.KS) : Option (UInt16 × Bytes × Bytes) → Res KS.KS
  | some (g, own, peer) => do
    let shared ← inp.kex g own peer
    ksState (KS.deriveHandshakeSecretEcdhe h ks shared)
  | none => ksState (KS.deriveHandshakeSecret h ks)

/-- The transcript of the inner ClientHello (`fizz/client/ClientProtocol.cpp:1565-1577`). -/
def innerContext (s : St) (cipher : UInt16) (e : EchState) : Res HsCtx :=
  match s.hs with
  | some _ => derefPtr e.hs
  | none => do
    let b ← derefPtr e.encodedInner
    pure ⟨cipher, b⟩

/-- The transcript of the ClientHello sent (`fizz/client/ClientProtocol.cpp:1565-1580`). -/
def outerContext (s : St) (cipher : UInt16) : Res HsCtx :=
  match s.hs with
  | some c => .ok c
  | none => do
    let b ← deref s.encodedClientHello
    pure ⟨cipher, b⟩

/-- Has the server accepted ECH (`fizz/client/ClientProtocol.cpp:1583-1618`)?  The transcript to go on
with, and the new ECH status. -/
def resolveEch (inp : Inp) (s : St) (cipher : UInt16) (m : ServerHello) :
    Res (HsCtx × Option EchStatus) := do
  let outer ← outerContext s cipher
  match s.echState with
  | none => pure (outer, none)
  | some e => do
    let inner ← innerContext s cipher e
    let accepted ← inp.echAccepted e.random inner.transcript m
    check (decide (e.status = .requested ∨ (accepted = true ↔ e.status = .accepted)))
      "ech acceptance mismatch between hrr and shlo" (some 47)
    pure (if accepted then (inner, some .accepted) else (outer, some .rejected))

/-- What the ServerHello fixes. -/
structure Shlo where
  version : UInt16
  cipher : UInt16
  exchange : Option (UInt16 × Bytes × Bytes)
  psk : NegotiatedPsk
  ks : KS.KS
  hs : HsCtx
  ech : Option EchStatus
  clientSecret : Bytes
  serverSecret : Bytes
  handshakeTime : Int

/-- The checks of the ServerHello handler before any key is computed
(`fizz/client/ClientProtocol.cpp:1469-1516`). -/
def negotiateShlo (cfg : Cfg) (s : St) (m : ServerHello) :
    Res (UInt16 × Option (UInt16 × Bytes × Bytes) × NegotiatedPsk) := do
  let requested ← deref s.requestedExtensions
  checkShloExtensions m.extensions requested
  let version ← getVersionAndCipher cfg m.legacy_version m.legacy_compression_method m.cipher_suite
    m.extensions
  let shares ← deref s.keyExchangers
  let exchange ← negotiateExchange m.extensions shares
  check (decide (m.legacy_session_id_echo = some s.legacySessionId)) "session id echo mismatch" (some 47)
  check (decide (s.version = none ∨ s.version = some version)) "version does not match" (some 40)
  check (decide (s.cipher = none ∨ s.cipher = some m.cipher_suite)) "cipher does not match" (some 40)
  let psk ← negotiatePsk cfg s.attemptedPsk m.extensions version m.cipher_suite exchange.isSome
  check (exchange.isSome || decide (psk.mode = some psk_ke)) "server did not send share" (some 40)
  pure (version, exchange, psk)

/-- The time of the handshake (`fizz/client/ClientProtocol.cpp:1686-1691`). -/
def shloTime (inp : Inp) (mode : Option UInt8) (attempted : Option Psk) : Res Int :=
  match mode with
  | none => .ok inp.now
  | some _ => do
    let psk ← deref attempted
    pure psk.ticketHandshakeTime

/-- `ExpectingServerHello`, `ServerHello` up to the actions
(`fizz/client/ClientProtocol.cpp:1457-1691`). -/
def processShlo (cfg : Cfg) (inp : Inp) (s : St) (unparsed : Bool) (m : ServerHello) (orig : Bytes) :
    Res Shlo := do
  let (version, exchange, psk) ← negotiateShlo cfg s m
  let h ← cfg.hashOf m.cipher_suite
  let ks ← earlyStage h psk.mode s.attemptedPsk
  let ks ← handshakeStage h inp ks exchange
  let (ctx, ech) ← resolveEch inp s m.cipher_suite m
  check (!(decide (ech = some .rejected) && isPskAccepted psk.type))
    "ech rejected but server accepted psk" (some 47)
  check (!unparsed) "data after server hello" (some 10)
  let hc ← cfg.hashOf ctx.cipher
  let client ← ksSecret (KS.getHandshake h ks .clientHandshakeTraffic (transcriptHash hc (ctx.append orig)))
  let server ← ksSecret (KS.getHandshake h ks .serverHandshakeTraffic (transcriptHash hc (ctx.append orig)))
  let time ← shloTime inp psk.mode s.attemptedPsk
  pure ⟨version, m.cipher_suite, exchange, psk, ks, ctx.append orig, ech, client, server, time⟩

/-- The client authentication known from a PSK (`fizz/client/ClientProtocol.cpp:1677-1684`). -/
def pskAuth (psk : NegotiatedPsk) : Option ClientAuthType :=
  if isPskAccepted psk.type then
    some (if psk.clientCert.isSome then .stored else .notRequested)
  else none

/-- The key exchange type (`fizz/client/ClientProtocol.cpp:1528-1550`). -/
def shloKexType (s : St) (exchange : Option (UInt16 × Bytes × Bytes)) : KeyExchangeType :=
  match exchange with
  | some _ => s.keyExchangeType.getD .oneRtt
  | none => .none

/-- The ECH part of the state after the ServerHello (`fizz/client/ClientProtocol.cpp:1731-1738`). -/
def shloEch (ech : Option EchStatus) (s : St) : St :=
  match ech, s.echState with
  | some st, some e =>
    { s with
      echState := some { e with status := st, encodedInner := none, hs := none }
      sni := if st = .accepted then e.sni else s.sni
      clientRandom := if st = .accepted then some e.random else s.clientRandom }
  | _, _ => s

/-- The state after the ServerHello (`fizz/client/ClientProtocol.cpp:1712-1730`). -/
def saveShlo (r : Shlo) (s : St) : St :=
  shloEch r.ech { s with
    ks := some r.ks, read := some ⟨.handshake, r.serverSecret, false⟩
    write := some ⟨.handshake, r.clientSecret⟩, hs := some r.hs, version := some r.version
    cipher := some r.cipher, group := r.exchange.map (·.1), encodedClientHello := none
    keyExchangers := none, attemptedPsk := none, clientHandshakeSecret := some r.clientSecret
    serverHandshakeSecret := some r.serverSecret, keyExchangeType := some (shloKexType s r.exchange)
    pskType := some r.psk.type, pskMode := r.psk.mode, serverCert := r.psk.serverCert
    clientCert := r.psk.clientCert, clientAuth := pskAuth r.psk, handshakeTime := some r.handshakeTime }

/-- `ExpectingServerHello`, `ServerHello` (`fizz/client/ClientProtocol.cpp:1457-1744`). -/
def onServerHello (cfg : Cfg) (inp : Inp) (s : St) (unparsed : Bool) (m : ServerHello) (orig : Bytes) :
    Res (List Action) := do
  let r ← processShlo cfg inp s unparsed m orig
  pure [.mutate (saveShlo r), .secretAvailable .serverHandshakeTraffic r.serverSecret,
    .secretAvailable .clientHandshakeTraffic r.clientSecret, transition .expectingEncryptedExtensions]

/-! ## HelloRetryRequest -/

/-- The group a HelloRetryRequest selects (`fizz/client/ClientProtocol.cpp:1768-1779`). -/
def hrrGroup (cfg : Cfg) (exts : List Extension) : Res (Option UInt16) := do
  match ← getHelloRetryRequestKeyShare exts with
  | none => pure none
  | some k => do
    check (decide (k.selected_group ∈ cfg.supportedGroups)) "server choose unsupported group in hrr"
      (some 40)
    pure (some k.selected_group)

/-- The PSK offered again (`fizz/client/ClientProtocol.cpp:1836-1845`). -/
def hrrPsk (cfg : Cfg) (cipher : UInt16) : Option Psk → Res (Option Psk)
  | none => .ok none
  | some psk => do
    let same ← sameHash cfg cipher psk.cipher
    pure (if same then some psk else none)

/-- `getHrrKeyExchangers` (`fizz/client/ClientProtocol.cpp:1784-1801`). -/
def hrrShares (inp : Inp) (previous : List (UInt16 × Bytes)) :
    Option UInt16 → Res (List (UInt16 × Bytes))
  | none => .ok previous
  | some g => do
    check (findShare g previous).isNone "hrr selected already-sent group" (some 47)
    makeShares inp [g] []

/-- `message_hash` of a first ClientHello, and the HelloRetryRequest
(`fizz/client/ClientProtocol.cpp:1906-1921`). -/
def hrrContext (h : HashAlg) (cipher : UInt16) (hello : Bytes) : Res HsCtx := do
  let m ← frameHandshake HandshakeType.message_hash (h.digest hello)
  pure ⟨cipher, m⟩

/-- The ECH part of a retry: the inner transcript through the HelloRetryRequest, the new status and the
new GREASE PSK (`fizz/client/ClientProtocol.cpp:1923-1983`). -/
structure EchRetry where
  ech : EchState
  inner : HsCtx
  status : EchStatus
  grease : Option ClientPresharedKey

/-- A new GREASE PSK if there was one. -/
def newGrease (inp : Inp) : Option ClientPresharedKey → Res (Option ClientPresharedKey)
  | none => .ok none
  | some g => do
    let g' ← inp.greasePskHrr g
    pure (some g')

/-- `fizz/client/ClientProtocol.cpp:1923-1983`; see `EchRetry`. -/
def echRetry (inp : Inp) (h : HashAlg) (cipher : UInt16) (m : HelloRetryRequest) (orig : Bytes) :
    Option EchState → Res (Option EchRetry)
  | none => .ok none
  | some e => do
    let b ← derefPtr e.encodedInner
    let ctx ← hrrContext h cipher b
    let accepted ← inp.echAcceptedHrr e.random ctx.transcript m
    let grease ← newGrease inp e.greasePsk
    pure (some ⟨e, ctx.append orig, if accepted then .accepted else .rejected, grease⟩)

/-- The second ClientHello with its PSK binder (`fizz/client/ClientProtocol.cpp:1985-2007`). -/
def retryOffer (cfg : Cfg) (inp : Inp) (h : HashAlg) (chlo : ClientHello) (ctx : HsCtx) :
    Option Psk → Res (ClientHello × Bytes)
  | none => do
    let e ← encodeHandshake (.clientHello chlo)
    pure (chlo, e)
  | some psk => do
    let b ← encodeAndAddBinders cfg h chlo psk ctx inp.now2
    pure (b.chlo, b.encoded)

/-- The ECH of the second ClientHello (`fizz/client/ClientProtocol.cpp:2009-2035`): what is sent, and
the new ECH state. -/
def retryFinal (inp : Inp) (s : St) (chlo : ClientHello) (encoded : Bytes) :
    Option EchRetry → Res (Bytes × Option EchState)
  | none => .ok (encoded, none)
  | some r => do
    let random ← deref s.clientRandom
    let name ← deref s.sni
    let outer ← encryptHello inp false chlo random name r.grease
    let e ← encodeHandshake (.clientHello outer)
    pure (e, some { r.ech with
      status := r.status, encodedInner := some encoded, greasePsk := r.grease
      hs := some (r.inner.append encoded) })

/-- What a retry has put together. -/
structure Retry where
  version : UInt16
  cipher : UInt16
  psk : Option Psk
  shares : List (UInt16 × Bytes)
  requested : List UInt16
  encoded : Bytes
  hs : HsCtx
  ech : Option EchState

/-- The inner marker of a retry. -/
def retryEchExt (s : St) : List Extension := if s.echState.isSome then [⟨0xfe0d, [1]⟩] else []

/-- The second ClientHello before the PSK (`fizz/client/ClientProtocol.cpp:1859-1904`). -/
def retryHello (cfg : Cfg) (inp : Inp) (s : St) (shares : List (UInt16 × Bytes))
    (cookie : Option Bytes) : Res ClientHello := do
  let random ← deref s.clientRandom
  getClientHello cfg inp ((s.echState.map (·.random)).getD random) shares
    (match s.echState with | some e => e.sni | none => s.sni) false s.legacySessionId cookie

/-- The cookie of a HelloRetryRequest. -/
def hrrCookie (exts : List Extension) : Res (Option Bytes) := do
  match ← getCookie exts with
  | none => pure none
  | some c => pure (some c.cookie)

/-- The checks of the HelloRetryRequest handler (`fizz/client/ClientProtocol.cpp:1814-1834`): version,
group and cookie. -/
def negotiateHrr (cfg : Cfg) (s : St) (m : HelloRetryRequest) :
    Res (UInt16 × Option UInt16 × Option Bytes) := do
  let requested ← deref s.requestedExtensions
  checkHrrExtensions m.extensions requested
  check s.keyExchangeType.isNone "two HRRs" (some 10)
  let version ← getVersionAndCipher cfg m.legacy_version m.legacy_compression_method m.cipher_suite
    m.extensions
  let group ← hrrGroup cfg m.extensions
  let cookie ← hrrCookie m.extensions
  pure (version, group, cookie)

/-- The requested extensions of a retry (`fizz/client/ClientProtocol.cpp:1872`, `1898-1900`, `1987`). -/
def retryRequested (s : St) (chlo : ClientHello) (psk : Option Psk) : List UInt16 :=
  (if s.echState.isSome then [0xfe0d] else []) ++ chlo.extensions.map (·.extension_type) ++
    (if psk.isSome then [41] else [])

/-- `ExpectingServerHello`, `HelloRetryRequest` up to the actions
(`fizz/client/ClientProtocol.cpp:1803-2040`). -/
def processHrr (cfg : Cfg) (inp : Inp) (s : St) (m : HelloRetryRequest) (orig : Bytes) :
    Res Retry := do
  let (version, group, cookie) ← negotiateHrr cfg s m
  let psk ← hrrPsk cfg m.cipher_suite s.attemptedPsk
  let previous ← deref s.keyExchangers
  let shares ← hrrShares inp previous group
  let chlo ← retryHello cfg inp s shares cookie
  let h ← cfg.hashOf m.cipher_suite
  let hello ← deref s.encodedClientHello
  let ctx ← hrrContext h m.cipher_suite hello
  let ech ← echRetry inp h m.cipher_suite m orig s.echState
  let (chlo', encoded) ← retryOffer cfg inp h
    { chlo with extensions := chlo.extensions ++ retryEchExt s }
    ((ech.map (·.inner)).getD (ctx.append orig)) psk
  let (sent, e) ← retryFinal inp s chlo' encoded ech
  pure ⟨version, m.cipher_suite, psk, shares, retryRequested s chlo psk, sent,
    (ctx.append orig).append sent, e⟩

/-- The state after a HelloRetryRequest (`fizz/client/ClientProtocol.cpp:2071-2094`). -/
def saveRetry (cfg : Cfg) (r : Retry) (s : St) : St :=
  { s with
    version := some r.version, cipher := some r.cipher
    earlyDataType := if s.earlyDataType = some .attempted then some .rejected else s.earlyDataType
    earlyWrite := none, encodedClientHello := some r.encoded, echState := r.ech
    sni := match r.ech with | some e => if e.status = .accepted then e.sni else s.sni | none => s.sni
    clientRandom := match r.ech with
      | some e => if e.status = .accepted then some e.random else s.clientRandom
      | none => s.clientRandom
    keyExchangers := some r.shares, hs := some r.hs, keyExchangeType := some .helloRetryRequest
    attemptedPsk := r.psk, requestedExtensions := some r.requested, sentCCS := sentCcs cfg s }

/-- `ExpectingServerHello`, `HelloRetryRequest` (`fizz/client/ClientProtocol.cpp:1803-2099`). -/
def onHelloRetryRequest (cfg : Cfg) (inp : Inp) (s : St) (m : HelloRetryRequest) (orig : Bytes) :
    Res (List Action) := do
  let r ← processHrr cfg inp s m orig
  let w ← derefPtr s.write
  pure [.mutate (saveRetry cfg r), .write none (firstCcs cfg s ++ [content w 22 r.encoded]) 0,
    transition .expectingServerHello]

end Fizz.ClientSM

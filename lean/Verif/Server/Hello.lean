import Verif.Server.State
import Verif.Server.Negotiate

/-!
# The server state machine: the ClientHello

Model of the static functions of `fizz/server/ServerProtocol.cpp:520-1410` and of the handler of
`Event::ClientHello` (`fizz/server/ServerProtocol.cpp:1412-2410`), split where the C++ code waits for
futures.
-/

namespace Fizz.Server
open Fizz.Codec Fizz.Crypto Fizz.Negotiate
open Fizz.Ticket (CookieState ResumptionState)

/-- `getCookieState` (`fizz/server/ServerProtocol.cpp:546-581`). -/
def getCookieState (cfg : Cfg) (inp : Inp) (chlo : ClientHello) : Res (Option CookieState) := do
  match ← getCookie chlo.extensions with
  | none => pure none
  | some cookie => do
    check cfg.hasCookieCipher "no cookie cipher" (some 110)
    match ← inp.cookieDecrypt cookie.cookie with
    | none => .error (Failure.fizz "could not decrypt cookie" (some 51))
    | some cs => do
      check (cs.echCipherSuite.isSome == cs.echConfigId.isSome) "cookie has incomplete ech params"
        (some 80)
      pure (some cs)

/-- `getSNI` (`fizz/server/ServerProtocol.cpp:1228-1238`). -/
def getSni (chlo : ClientHello) : Res (Option Bytes) := do
  match ← getServerNameList chlo.extensions with
  | some l => pure (l.server_name_list.head?.map (·.hostname))
  | none => pure none

/-- The ClientHello the handshake goes on with, its encoding, and what is known about ECH. -/
structure Hello where
  chlo : ClientHello
  orig : Bytes
  echStatus : EchStatus
  echState : Option EchState
  deriving DecidableEq

/-- The three parts of `processECHHRR` that depend on where the previous ECH parameters are
(`fizz/server/ServerProtocol.cpp:1272-1313`). -/
def processEchHrrChecked (inp : Inp) (cookie : Option CookieState) (s : St) (chlo : ClientHello)
    (orig : Bytes) (ech : Option OuterEch) : Res (EchStatus × UInt8 × ClientHello × Bytes) :=
  if s.echStatus = .accepted then do
    let st ← deref s.echState
    let e ← deref ech
    check (st.cipherSuite = e.cipherSuite) "ech hrr cipher suite mismatch" (some 47)
    check (st.configId = e.configId) "ech hrr config id mismatch" (some 47)
    let (c, o) ← inp.echDecryptHrr chlo (.inl st.hpkeContext)
    pure (.accepted, e.configId, c, o)
  else
    match cookie with
    | none => pure (s.echStatus, 0, chlo, orig)
    | some ck =>
      match ck.echCipherSuite with
      | none => pure (s.echStatus, 0, chlo, orig)
      | some suite => do
        let e ← deref ech
        check (suite = e.cipherSuite) "ech hrr cipher suite mismatch" (some 47)
        let id ← deref ck.echConfigId
        check (id = e.configId) "ech hrr config id mismatch" (some 47)
        let (c, o) ← inp.echDecryptHrr chlo (.inr ck.echEnc)
        pure (.accepted, e.configId, c, o)

/-- `processECHHRR` (`fizz/server/ServerProtocol.cpp:1240-1318`). -/
def processEchHrr (cfg : Cfg) (inp : Inp) (cookie : Option CookieState) (s : St)
    (chlo : ClientHello) (orig : Bytes) : Res (EchStatus × UInt8 × ClientHello × Bytes) := do
  let ech ← cfg.getOuterEch chlo.extensions
  let cookieHasEch := match cookie with | some c => c.echCipherSuite.isSome | none => false
  if s.echStatus = .accepted || cookieHasEch then do
    check cfg.hasEchDecrypter "ech accepted but no decrypter set up" (some 80)
    match ech with
    | none => .error (Failure.fizz "ech not sent for hrr" (some 109))
    | some e => do
      check e.enc.isEmpty "hrr ech enc not empty" (some 47)
      processEchHrrChecked inp cookie s chlo orig ech
  else processEchHrrChecked inp cookie s chlo orig ech

/-- `processECH` for a first ClientHello (`fizz/server/ServerProtocol.cpp:1363-1391`). -/
def processEchFirst (cfg : Cfg) (inp : Inp) (s : St) (chlo : ClientHello) (orig : Bytes) :
    Res Hello := do
  match findExtension chlo.extensions 0xfe0d with
  | none => pure ⟨chlo, orig, s.echStatus, none⟩
  | some _ => do
    let e ← cfg.getOuterEch chlo.extensions
    let e ← deref e
    let sni ← getSni chlo
    let st : EchState := ⟨e.cipherSuite, e.configId, none, sni⟩
    if cfg.hasEchDecrypter then do
      match ← inp.echDecrypt chlo with
      | some (c, o, ctx) => pure ⟨c, o, .accepted, some { st with hpkeContext := some ctx }⟩
      | none => pure ⟨chlo, orig, .rejected, some st⟩
    else pure ⟨chlo, orig, s.echStatus, some st⟩

/-- `processECH` for a ClientHello after a retry (`fizz/server/ServerProtocol.cpp:1351-1361`). -/
def processEchRetry (cfg : Cfg) (inp : Inp) (cookie : Option CookieState) (s : St)
    (chlo : ClientHello) (orig : Bytes) : Res Hello := do
  let (st, id, c, o) ← processEchHrr cfg inp cookie s chlo orig
  pure ⟨c, o, st, some (match s.echState with
    | some e => { e with configId := id }
    | none => { configId := id })⟩

/-- The two cases of `processECH` (`fizz/server/ServerProtocol.cpp:1351`). -/
def processEchAny (cfg : Cfg) (inp : Inp) (cookie : Option CookieState) (s : St)
    (chlo : ClientHello) (orig : Bytes) : Res Hello :=
  if s.hs.isSome || cookie.isSome then processEchRetry cfg inp cookie s chlo orig
  else processEchFirst cfg inp s chlo orig

/-- `processECH` (`fizz/server/ServerProtocol.cpp:1341-1410`). -/
def processEch (cfg : Cfg) (inp : Inp) (cookie : Option CookieState) (s : St)
    (chlo : ClientHello) (orig : Bytes) : Res Hello := do
  let h ← processEchAny cfg inp cookie s chlo orig
  if h.echStatus = .accepted then do
    match ← cfg.getInnerEch h.chlo.extensions with
    | none => .error (Failure.fizz "inner clienthello missing encrypted_client_hello" (some 109))
    | some _ => pure h
  else pure h

/-- `negotiateVersion` (`fizz/server/ServerProtocol.cpp:529-544`). -/
def negotiateVersion (cfg : Cfg) (chlo : ClientHello) : Res (Option UInt16) := do
  match ← getSupportedVersions chlo.extensions with
  | none => pure none
  | some v => pure (negotiateFlat cfg.supportedVersions v.versions)

/-- `validateClientHello` (`fizz/server/ServerProtocol.cpp:517-527`). -/
def validateClientHello (chlo : ClientHello) : Res Unit := do
  check (chlo.legacy_compression_methods = [0]) "client compression methods not exactly NULL"
    (some 47)
  check (decide (chlo.extensions.map (·.extension_type)).Nodup) "duplicate extension" (some 47)

/-- `negotiateCipher` (`fizz/server/ServerProtocol.cpp:704-712`). -/
def negotiateCipher (cfg : Cfg) (chlo : ClientHello) : Res UInt16 :=
  match negotiateTiers cfg.supportedCiphers chlo.cipher_suites with
  | none => .error (Failure.fizz "no cipher match" (some 40))
  | some c => .ok c

/-- `verifyCookieState` (`fizz/server/ServerProtocol.cpp:583-600`). -/
def verifyCookieState (cookie : Option CookieState) (version cipher : UInt16) : Res Unit :=
  match cookie with
  | none => .ok ()
  | some c => do
    check (c.version = version) "version mismatch with cookie" (some 70)
    check (c.cipher = cipher) "cipher mismatch with cookie" (some 40)

/-- The mode part of `getResumptionState` (`fizz/server/ServerProtocol.cpp:633-636`). -/
def negotiatePskMode (cfg : Cfg) (modes : Option PskKeyExchangeModes) : Option UInt8 :=
  match modes with
  | none => none
  | some m => negotiateFlat cfg.supportedPskModes m.modes

/-- `ResumptionStateResult` after its future has completed. -/
structure ResumptionResult where
  pskType : PskType
  resState : Option ResumptionState := none
  pskMode : Option UInt8 := none
  obfuscatedAge : Option UInt32 := none
  deriving DecidableEq

/-- `getResumptionState` (`fizz/server/ServerProtocol.cpp:619-666`). -/
def getResumptionState (cfg : Cfg) (inp : Inp) (chlo : ClientHello) : Res ResumptionResult := do
  let psks ← getClientPresharedKey chlo.extensions
  let modes ← getPskKeyExchangeModes chlo.extensions
  check (!(psks.isSome && modes.isNone)) "no psk modes" (some 109)
  let pskMode := negotiatePskMode cfg modes
  match psks with
  | none =>
    if pskMode.isNone then pure { pskType := .notSupported } else pure { pskType := .notAttempted }
  | some p =>
    match p.identities with
    | [] => pure { pskType := .notAttempted }
    | ident :: _ =>
      if cfg.hasTicketCipher = false then pure { pskType := .rejected }
      else if pskMode.isNone then pure { pskType := .rejected }
      else do
        let (t, r) ← inp.ticketDecrypt ident.psk_identity
        pure ⟨t, r, pskMode, some ident.obfuscated_ticket_age⟩

/-- `getReplayCacheResult` (`fizz/server/ServerProtocol.cpp:668-682`). -/
def getReplayCacheResult (cfg : Cfg) (inp : Inp) (chlo : ClientHello) (version : UInt16) :
    Res ReplayCacheResult := do
  let ext ← getClientEarlyData chlo.extensions
  if cfg.acceptEarlyData version = false || cfg.hasReplayCache = false || ext.isNone then
    pure .notChecked
  else inp.replayCheck chlo.random.val

/-- What is known after the first part of the handler. -/
structure Part1 where
  hello : Hello
  cookie : Option CookieState
  version : UInt16
  cipher : UInt16
  res : ResumptionResult
  replay : ReplayCacheResult

/-- The version fallback (`fizz/server/ServerProtocol.cpp:1447-1490`); `writeInitialClientHello` is
the record header `16 03 01 length` (`fizz/record/PlaintextRecordLayer.cpp`), which is part of the
bytes handed over. -/
def fallbackActions (chlo : ClientHello) (orig : Bytes) : Res (List Action) := do
  let sni ← getSni chlo
  pure [transition .error, .attemptVersionFallback orig sni]

/-- The first part of the handler, up to the ticket and replay cache futures
(`fizz/server/ServerProtocol.cpp:1417-1526`): either the version fallback or the first part's
results. -/
def part1Negotiated (cfg : Cfg) (inp : Inp) (s : St) (cookie : Option CookieState) (h : Hello)
    (version : UInt16) : Res Part1 := do
  let _ ← derefPtr s.write
  validateClientHello h.chlo
  let cipher ← negotiateCipher cfg h.chlo
  check (decide (s.cipher = none ∨ s.cipher = some cipher)) "cipher mismatch with previous negotiation"
    (some 47)
  verifyCookieState cookie version cipher
  let res ← getResumptionState cfg inp h.chlo
  let replay ← getReplayCacheResult cfg inp h.chlo version
  pure ⟨h, cookie, version, cipher, res, replay⟩

/-- No version in common (`fizz/server/ServerProtocol.cpp:1447-1494`). -/
def noVersion (cfg : Cfg) (h : Hello) : Res (List Action) := do
  let early ← getClientEarlyData h.chlo.extensions
  check early.isNone "supported version mismatch with early data" (some 70)
  if cfg.versionFallbackEnabled then fallbackActions h.chlo h.orig
  else .error (Failure.fizz "supported version mismatch" (some 70))

/-- `fizz/server/ServerProtocol.cpp:1417-1526`; see `part1Negotiated`. -/
def part1 (cfg : Cfg) (inp : Inp) (s : St) (unparsed : Bool) (chlo : ClientHello) (orig : Bytes) :
    Res (List Action ⊕ Part1) := do
  let cookie ← getCookieState cfg inp chlo
  check (!(s.hs.isSome && cookie.isSome)) "cookie after statefull hrr" (some 47)
  let h ← processEch cfg inp cookie s chlo orig
  check (!unparsed) "data after client hello" (some 10)
  let version ← negotiateVersion cfg h.chlo
  check (decide (s.version = none ∨ s.version = version)) "version mismatch with previous negotiation"
    (some 47)
  match version with
  | none => do
    let acts ← noVersion cfg h
    pure (.inl acts)
  | some v => do
    let p ← part1Negotiated cfg inp s cookie h v
    pure (.inr p)

/-- `validateResumptionState` (`fizz/server/ServerProtocol.cpp:684-702`).  Two hash functions are
compared by the hash algorithms they select. -/
def sameHash (cfg : Cfg) (a b : UInt16) : Res Bool := do
  let ha ← cfg.hashOf a
  let hb ← cfg.hashOf b
  pure (ha.hashLen == hb.hashLen && ha.blockSize == hb.blockSize && ha.blankHash == hb.blankHash)

/-- `validateResumptionState` (`fizz/server/ServerProtocol.cpp:684-702`). -/
def validateResumptionState (cfg : Cfg) (r : ResumptionState) (version cipher : UInt16) :
    Res Bool :=
  if r.version ≠ version then .ok false else sameHash cfg r.cipher cipher

/-- The PSK in use after validation (`fizz/server/ServerProtocol.cpp:1541-1556`). -/
def acceptPsk (cfg : Cfg) (r : ResumptionResult) (version cipher : UInt16) :
    Res (PskType × Option ResumptionState × Option UInt8) :=
  match r.resState with
  | none => .ok (r.pskType, none, none)
  | some rs => do
    let ok ← validateResumptionState cfg rs version cipher
    if ok then pure (r.pskType, some rs, r.pskMode) else pure (.rejected, none, none)

/-- The transcript before the ClientHello (`fizz/server/ServerProtocol.cpp:742-771`). -/
def baseContext (chlo : ClientHello) (cookie : Option CookieState) (hs : Option HsCtx)
    (cipher : UInt16) : Res HsCtx :=
  match cookie with
  | some ck => do
    let m ← frameHandshake HandshakeType.message_hash ck.chloHash
    let ext ← getCookie chlo.extensions
    let cookieExt ← deref ext
    let hrr ← Ticket.getStatelessHelloRetryRequest ck.version ck.cipher ck.group cookieExt.cookie
    pure ⟨cipher, m ++ hrr⟩
  | none =>
    match hs with
    | some c => .ok c
    | none => .ok ⟨cipher, []⟩

/-- `setupSchedulerAndContext` with a PSK (`fizz/server/ServerProtocol.cpp:773-829`). -/
def verifyBinder (h : HashAlg) (chlo : ClientHello) (orig : Bytes) (rs : ResumptionState)
    (pskType : PskType) (ctx : HsCtx) : Res (KS.KS × HsCtx) := do
  let ks ← ksState (KS.deriveEarlySecret h {} rs.resumptionSecret)
  let binderKey ← ksSecret (KS.getEarly h ks
    (if pskType = .external then .externalPskBinder else .resumptionPskBinder) h.blankHash)
  let binderLength ← getBinderLength chlo
  let ctxPrefix := ctx.append (orig.take (orig.length - binderLength))
  let psks ← getClientPresharedKey chlo.extensions
  match psks with
  | none => .error (Failure.fizz "no binders" (some 47))
  | some p =>
    match p.binders with
    | [] => .error (Failure.fizz "no binders" (some 47))
    | b :: _ => do
      let expected ← finishedData h ctxPrefix binderKey
      check (expected = b.binder) "binder does not match" (some 20)
      pure (ks, ctxPrefix.append (orig.drop (orig.length - binderLength)))

/-- `setupSchedulerAndContext` (`fizz/server/ServerProtocol.cpp:724-838`).  `IOBufQueue::split` of
more bytes than there are throws `std::underflow_error`; the binders are part of the encoding, so the
prefix is never longer. -/
def setupSchedulerAndContext (h : HashAlg) (cipher : UInt16) (chlo : ClientHello) (orig : Bytes)
    (resState : Option ResumptionState) (cookie : Option CookieState) (pskType : PskType)
    (hs : Option HsCtx) : Res (KS.KS × HsCtx) := do
  let ctx ← baseContext chlo cookie hs cipher
  match resState with
  | some rs => verifyBinder h chlo orig rs pskType ctx
  | none => pure ({}, ctx.append orig)

/-- `negotiateAlpn` (`fizz/server/ServerProtocol.cpp:943-986`, `FizzServerContext.h:154-166`). -/
def negotiateAlpn (cfg : Cfg) (chlo : ClientHello) : Res (Option Bytes) := do
  match ← getProtocolNameList chlo.extensions with
  | none =>
    if cfg.alpnMode = .required then .error (Failure.fizz "ALPN is required" (some 120))
    else pure none
  | some l =>
    match negotiateFlat cfg.supportedAlpns (l.protocol_name_list.map (·.name)) with
    | none =>
      if cfg.alpnMode ≠ .allowMismatch then
        .error (Failure.fizz "Unable to negotiate ALPN" (some 120))
      else pure none
    | some p => pure (some p)

/-- `getClockSkew` (`fizz/server/ServerProtocol.cpp:988-1003`), in milliseconds. -/
def getClockSkew (psk : Option ResumptionState) (obfuscatedAge : Option UInt32) (now : Int) :
    Res (Option Int) :=
  match psk, obfuscatedAge with
  | some p, some a => do
    let d ← Time.checked (now - p.ticketIssueTime)
    pure (some (((a - p.ticketAgeAdd).toNat : Int) - Client.toMillis d))
  | _, _ => .ok none

/-- `getAppToken` (`fizz/server/ServerProtocol.cpp:1005-1010`). -/
def getAppToken (psk : Option ResumptionState) : Option Bytes := psk.map (·.appToken)

/-- `negotiateEarlyDataType` (`fizz/server/ServerProtocol.cpp:1012-1092`). -/
def negotiateEarlyDataType (cfg : Cfg) (inp : Inp) (version : UInt16) (chlo : ClientHello)
    (psk : Option ResumptionState) (cipher : UInt16) (kexType : Option KeyExchangeType)
    (cookie : Option CookieState) (alpn : Option Bytes) (replay : ReplayCacheResult)
    (skew : Option Int) : Res EarlyDataType := do
  match ← getClientEarlyData chlo.extensions with
  | none => pure .notAttempted
  | some _ =>
    if cfg.acceptEarlyData version = false then pure .rejected
    else match psk with
    | none => pure .rejected
    | some p =>
      if p.cipher ≠ cipher then pure .rejected
      else if p.alpn ≠ alpn then pure .rejected
      else if kexType = some .helloRetryRequest then pure .rejected
      else if cookie.isSome then pure .rejected
      else if replay ≠ .notReplay then pure .rejected
      else match skew with
      | none => pure .rejected
      | some sk =>
        if sk < cfg.skewBefore ∨ sk > cfg.skewAfter then pure .rejected
        else if cfg.hasAppTokenValidator ∧ inp.validateToken p = false then pure .rejected
        else pure .accepted

/-- `validateGroups` and the search of `negotiateGroup` (`fizz/server/ServerProtocol.cpp:840-886`):
the group and the client's share for it, if it sent one. -/
def negotiateGroup (cfg : Cfg) (chlo : ClientHello) : Res (UInt16 × Option Bytes) := do
  match ← getSupportedGroups chlo.extensions with
  | none => .error (Failure.fizz "no named groups" (some 109))
  | some groups =>
    match negotiateFlat cfg.supportedGroups groups.named_group_list with
    | none => .error (Failure.fizz "no group match" (some 40))
    | some group => do
      match ← getClientKeyShare chlo.extensions with
      | none => .error (Failure.fizz "no client shares" (some 109))
      | some shares => do
        check (decide (shares.client_shares.map (·.group)).Nodup) "duplicate client key share"
          (some 47)
        pure (group, (shares.client_shares.find? (fun e => e.group == group)).map (·.key_exchange))

/-- The secrets of accepted early data (`fizz/server/ServerProtocol.cpp:1608-1650`). -/
structure EarlySecrets where
  read : Bytes
  exporter : Bytes
  deriving DecidableEq

/-- `fizz/server/ServerProtocol.cpp:1608-1650`. -/
def deriveEarly (h : HashAlg) (ks : KS.KS) (ctx : HsCtx) (t : EarlyDataType) :
    Res (Option EarlySecrets) :=
  if t = .accepted then do
    let r ← ksSecret (KS.getEarly h ks .clientEarlyTraffic (transcriptHash h ctx))
    let e ← ksSecret (KS.getEarly h ks .earlyExporter (transcriptHash h ctx))
    pure (some ⟨r, e⟩)
  else .ok none

/-- What is known when the key exchange is started. -/
structure Part2 where
  p1 : Part1
  hash : HashAlg
  pskType : PskType
  resState : Option ResumptionState
  pskMode : Option UInt8
  handshakeTime : Int
  ks : KS.KS
  ctx : HsCtx
  alpn : Option Bytes
  clockSkew : Option Int
  appToken : Option Bytes
  earlyDataType : EarlyDataType
  early : Option EarlySecrets

/-- `fizz/server/ServerProtocol.cpp:1532-1651`. -/
def part2 (cfg : Cfg) (inp : Inp) (s : St) (p : Part1) : Res Part2 := do
  let (pskType, resState, pskMode) ← acceptPsk cfg p.res p.version p.cipher
  let handshakeTime := match resState with | some r => r.handshakeTime | none => inp.now
  let h ← cfg.hashOf p.cipher
  let (ks, ctx) ← setupSchedulerAndContext h p.cipher p.hello.chlo p.hello.orig resState p.cookie
    pskType s.hs
  let alpn ← negotiateAlpn cfg p.hello.chlo
  let clockSkew ← getClockSkew resState p.res.obfuscatedAge inp.now2
  let t ← negotiateEarlyDataType cfg inp p.version p.hello.chlo resState p.cipher s.keyExchangeType
    p.cookie alpn p.replay clockSkew
  let early ← deriveEarly h ks ctx t
  pure ⟨p, h, pskType, resState, pskMode, handshakeTime, ks, ctx, alpn, clockSkew,
    getAppToken resState, t, early⟩

/-- `getHelloRetryRequest` (`fizz/server/ServerProtocol.cpp:880-902`). -/
def getHelloRetryRequest (version cipher group : UInt16) (sessionId : Bytes) :
    Res HelloRetryRequest := do
  let e1 ← encodeServerSupportedVersions ⟨version⟩
  let e2 ← encodeHelloRetryRequestKeyShare ⟨group⟩
  pure { legacy_version := 0x0303, legacy_session_id_echo := sessionId, cipher_suite := cipher,
         extensions := [e1, e2] }

/-- `FakeChangeCipherSpec` (`fizz/protocol/Types.h`), sent when the client used a session id. -/
def ccs (sessionId : Bytes) : List Content :=
  if sessionId.isEmpty then [] else [⟨⟨.plaintext, []⟩, 20, [[1]]⟩]

/-- The ECH confirmation, when ECH was accepted (`fizz/server/ServerProtocol.cpp:1701-1723`); the transcript is
the hash of the hello. -/
def confirmHrr (inp : Inp) (e : EchStatus) (random : Random) (transcript : Bytes) (hrr : HelloRetryRequest) :
    Res HelloRetryRequest :=
  if e = .accepted then inp.echConfirmHrr random transcript hrr else .ok hrr

/-- The state saved by a HelloRetryRequest (`fizz/server/ServerProtocol.cpp:1757-1776`). -/
def saveRetry (p : Part2) (group : UInt16) (t : EarlyDataType) (ctx : HsCtx) (s : St) : St :=
  { s with
    hs := some ctx, version := some p.p1.version, cipher := some p.p1.cipher, group := some group
    keyExchangeType := some .helloRetryRequest, earlyDataType := some t
    replayCacheResult := some p.p1.replay
    read := some ⟨.plaintext, [], t = .rejected⟩
    echStatus := p.p1.hello.echStatus, echState := p.p1.hello.echState }

/-- Sending a HelloRetryRequest (`fizz/server/ServerProtocol.cpp:1664-1779`). -/
def sendRetry (inp : Inp) (s : St) (p : Part2) (group : UInt16) : Res (List Action) := do
  check (s.group.isNone && p.p1.cookie.isNone) "key share not found for already negotiated group"
    (some 47)
  let t := if p.earlyDataType = .accepted then .rejected else p.earlyDataType
  let m ← frameHandshake HandshakeType.message_hash (transcriptHash p.hash p.ctx)
  let hrr ← getHelloRetryRequest p.p1.version p.p1.cipher group p.p1.hello.chlo.legacy_session_id
  let hrr ← confirmHrr inp p.p1.hello.echStatus p.p1.hello.chlo.random m hrr
  let encoded ← encodeHandshake (.helloRetryRequest hrr)
  let w ← derefPtr s.write
  pure [.mutate (saveRetry p group t ⟨p.p1.cipher, m ++ encoded⟩),
    .write none (content w 22 encoded :: ccs p.p1.hello.chlo.legacy_session_id) 0,
    transition .expectingClientHello]

/-- The key exchange in use: its type, group, our share, and the scheduler in the handshake stage. -/
structure KexOut where
  type : KeyExchangeType
  group : Option UInt16
  share : Option Bytes
  ks : KS.KS

/-- With (EC)DHE (`fizz/server/ServerProtocol.cpp:1781-1800`, `1837-1844`). -/
def doKex (inp : Inp) (s : St) (p : Part2) (group : UInt16) (clientShare : Bytes) : Res KexOut := do
  let (share, secret) ← inp.kex group clientShare
  let ks ← ksState (KS.deriveHandshakeSecretEcdhe p.hash p.ks secret)
  pure ⟨s.keyExchangeType.getD .oneRtt, some group, some share, ks⟩

/-- Without (EC)DHE (`fizz/server/ServerProtocol.cpp:1801-1803`, `1845-1848`). -/
def noKex (p : Part2) : Res KexOut := do
  let ks ← ksState (KS.deriveHandshakeSecret p.hash p.ks)
  pure ⟨.none, none, none, ks⟩

/-- The share and group extension of `getServerHello`. -/
def keyShareExts (group : Option UInt16) (share : Option Bytes) : Res (List Extension) :=
  match group with
  | none => .ok []
  | some g => do
    let sh ← deref share
    let e ← encodeServerKeyShare ⟨⟨g, sh⟩⟩
    pure [e]

/-- The PSK extension of `getServerHello`. -/
def pskExts (psk : Bool) : Res (List Extension) :=
  if psk then do
    let e ← encodeServerPresharedKey ⟨0⟩
    pure [e]
  else .ok []

/-- `getServerHello` (`fizz/server/ServerProtocol.cpp:904-941`). -/
def getServerHello (version : UInt16) (random : Random) (cipher : UInt16) (psk : Bool)
    (group : Option UInt16) (share : Option Bytes) (sessionId : Bytes) : Res ServerHello := do
  let e1 ← encodeServerSupportedVersions ⟨version⟩
  let e2 ← keyShareExts group share
  let e3 ← pskExts psk
  pure { legacy_version := 0x0303, random := random, legacy_session_id_echo := some sessionId,
         cipher_suite := cipher, extensions := e1 :: (e2 ++ e3) }

/-- The ECH confirmation in the ServerHello, when ECH was accepted
(`fizz/server/ServerProtocol.cpp:1900-1923`). -/
def confirmHello (inp : Inp) (e : EchStatus) (random : Random) (transcript : Bytes) (sh : ServerHello) :
    Res ServerHello :=
  if e = .accepted then inp.echConfirm random transcript sh else .ok sh

/-- The consistency checks before the ServerHello (`fizz/server/ServerProtocol.cpp:1857-1878`). -/
def checkGroups (s : St) (cookie : Option CookieState) (group : Option UInt16) : Res Unit := do
  check (decide (s.group = none ∨ s.group = group)) "group mismatch with previous negotiation"
    (some 47)
  check (match cookie with
    | some c => c.group.isNone || group.isNone || c.group == group
    | none => true) "group mismatch with cookie" (some 47)

/-- The ALPN extension of EncryptedExtensions. -/
def alpnExts : Option Bytes → Res (List Extension)
  | none => .ok []
  | some a => do
    let e ← encodeProtocolNameList ⟨[⟨a⟩]⟩
    pure [e]

/-- `getEncryptedExt` (`fizz/server/ServerProtocol.cpp:1094-1136`), without the transcript. -/
def getEncryptedExt (cfg : Cfg) (alpn : Option Bytes) (t : EarlyDataType) (echRejected : Bool)
    (others : List Extension) : Res Bytes := do
  let a ← alpnExts alpn
  let e ← encodeServerEarlyData ⟨⟩
  encodeHandshake (.encryptedExtensions ⟨a ++ (if t = .accepted then [e] else []) ++
    (if echRejected then [cfg.echRetryExtension] else []) ++ others⟩)

/-- The extensions of the CertificateRequest. -/
def certReqExts (cfg : Cfg) (inp : Inp) : Res (List Extension) := do
  let e ← encodeSignatureAlgorithms ⟨cfg.supportedSigSchemes⟩
  if cfg.hasClientCertVerifier then do
    let es ← inp.verifierExtensions
    pure (e :: es)
  else pure [e]

/-- `getCertificateRequest` (`fizz/server/ServerProtocol.cpp:1195-1226`), without the transcript:
the extension types and the encoding; nothing when no client certificate is wanted
(`fizz/server/ServerProtocol.cpp:2001-2014`). -/
def getCertificateRequest (cfg : Cfg) (inp : Inp) (requestClientAuth : Bool) :
    Res (List UInt16 × Bytes) :=
  if requestClientAuth then do
    let exts ← certReqExts cfg inp
    let enc ← encodeHandshake (.certificateRequest ⟨[], exts⟩)
    pure (exts.map (·.extension_type), enc)
  else .ok ([], [])

/-- `chooseCert` (`fizz/server/ServerProtocol.cpp:1138-1163`). -/
def chooseCert (inp : Inp) (chlo : ClientHello) : Res (CertManager.Cert × UInt16) := do
  match ← getSignatureAlgorithms chlo.extensions with
  | none => .error (Failure.fizz "no sig schemes" (some 109))
  | some algos => do
    let sni ← getSni chlo
    match ← inp.getCert sni algos.supported_signature_algorithms with
    | none => .error (Failure.fizz "could not find suitable cert" (some 40))
    | some c => pure c

/-- `negotiateCertCompressionAlgo` (`fizz/server/ServerProtocol.cpp:1165-1180`). -/
def negotiateCompression (cfg : Cfg) (chlo : ClientHello) : Res (Option UInt16) := do
  match ← getCertificateCompressionAlgorithms chlo.extensions with
  | none => pure none
  | some a => pure (negotiateFlat cfg.supportedCompressionAlgorithms a.algorithms)

/-- The server's certificate part: the certificate, scheme, compression algorithm, the encoded
Certificate and CertificateVerify (empty when resuming), and the client certificate of a resumed
session. -/
structure CertOut where
  serverCert : Option CertManager.Cert
  clientCert : Option PeerCert
  sigScheme : Option UInt16
  compAlgo : Option UInt16
  certificate : Bytes
  certificateVerify : Bytes

/-- `fizz/server/ServerProtocol.cpp:2016-2079`, `2129-2147`: without a PSK, choose a certificate and
sign the transcript that ends with it.  An asynchronous certificate computes the same things on a
copy of the transcript. -/
def certPart (cfg : Cfg) (inp : Inp) (p : Part2) (ctx : HsCtx) : Res CertOut :=
  match p.resState with
  | some rs => .ok ⟨rs.serverCert, rs.clientCert, none, none, [], []⟩
  | none => do
    let (cert, scheme) ← chooseCert inp p.p1.hello.chlo
    let comp ← negotiateCompression cfg p.p1.hello.chlo
    let enc ← inp.certMessage cert comp
    let sig ← inp.sign cert scheme (transcriptHash p.hash (ctx.append enc))
    let cv ← encodeHandshake (.certificateVerify ⟨scheme, sig⟩)
    pure ⟨some cert, none, some scheme, comp, enc, cv⟩

/-- Everything the last part computes. -/
structure Flight where
  kex : KexOut
  serverHello : Bytes
  handshakeWrite : Bytes
  handshakeRead : Bytes
  encrypted : Bytes
  requestClientAuth : Bool
  certReqExtensions : List UInt16
  cert : CertOut
  /-- the transcript through the server's Finished -/
  ctx : HsCtx
  /-- the scheduler with the application secrets -/
  ks : KS.KS
  exporterMaster : Bytes
  appWrite : Bytes

/-- The extensions of `ServerExtensions` (`fizz/server/ServerProtocol.cpp:1850-1855`). -/
def otherExts (cfg : Cfg) (inp : Inp) (chlo : ClientHello) : Res (List Extension) :=
  if cfg.hasExtensions then inp.extraExtensions chlo else .ok []

/-- `fizz/server/ServerProtocol.cpp:1835-1998` and `2129-2270`: ServerHello, handshake keys,
EncryptedExtensions, CertificateRequest, Certificate, CertificateVerify, Finished, application
keys. -/
def buildFlight (cfg : Cfg) (inp : Inp) (s : St) (p : Part2) (k : KexOut) : Res Flight := do
  let others ← otherExts cfg inp p.p1.hello.chlo
  checkGroups s p.p1.cookie k.group
  let sh ← getServerHello p.p1.version inp.random p.p1.cipher p.resState.isSome k.group k.share
    p.p1.hello.chlo.legacy_session_id
  let sh ← confirmHello inp p.p1.hello.echStatus p.p1.hello.chlo.random p.ctx.transcript sh
  let encodedSh ← encodeHandshake (.serverHello sh)
  let ctx := p.ctx.append encodedSh
  let hw ← ksSecret (KS.getHandshake p.hash k.ks .serverHandshakeTraffic (transcriptHash p.hash ctx))
  let hr ← ksSecret (KS.getHandshake p.hash k.ks .clientHandshakeTraffic (transcriptHash p.hash ctx))
  let ee ← getEncryptedExt cfg p.alpn p.earlyDataType (p.p1.hello.echStatus = .rejected) others
  let ctx := ctx.append ee
  let requestClientAuth := decide (cfg.clientAuthMode ≠ .none) && p.resState.isNone
  let (reqExts, req) ← getCertificateRequest cfg inp requestClientAuth
  let ctx := ctx.append req
  let cert ← certPart cfg inp p ctx
  let ctx := (ctx.append cert.certificate).append cert.certificateVerify
  let fin ← finishedData p.hash ctx hw
  let encodedFin ← encodeHandshake (.finished ⟨fin⟩)
  let ctx := ctx.append encodedFin
  let ks ← ksState (KS.deriveMasterSecret p.hash k.ks)
  let exporter ← ksSecret (KS.getMaster p.hash ks .exporterMaster (transcriptHash p.hash ctx))
  let ks ← ksState (KS.deriveAppTrafficSecrets p.hash ks (transcriptHash p.hash ctx))
  let aw ← ksSecret (KS.getApp ks .serverAppTraffic)
  pure ⟨k, encodedSh, hw, hr, ee ++ req ++ cert.certificate ++ cert.certificateVerify ++ encodedFin,
    requestClientAuth, reqExts, cert, ctx, ks, exporter, aw⟩

/-- `saveState` (`fizz/server/ServerProtocol.cpp:2294-2342`). -/
def saveHello (p : Part2) (f : Flight) (s : St) : St :=
  { s with
    write := some ⟨.appTraffic, f.appWrite⟩
    hs := some f.ctx, ks := some f.ks, exporterMasterSecret := some f.exporterMaster
    serverCert := f.cert.serverCert, clientCert := f.cert.clientCert
    version := some p.p1.version, cipher := some p.p1.cipher, group := f.kex.group
    sigScheme := f.cert.sigScheme, clientHandshakeSecret := some f.handshakeRead
    pskType := some p.pskType, pskMode := p.pskMode, keyExchangeType := some f.kex.type
    earlyDataType := some (s.earlyDataType.getD p.earlyDataType)
    replayCacheResult := some p.p1.replay, alpn := p.alpn, clientClockSkew := p.clockSkew
    appToken := p.appToken, serverCertCompAlgo := f.cert.compAlgo
    handshakeTime := some p.handshakeTime, clientRandom := some p.p1.hello.chlo.random
    echStatus := p.p1.hello.echStatus, echState := p.p1.hello.echState
    certReqExtensions := f.certReqExtensions }

/-- The first encrypted record has at most 1000 bytes of handshake data
(`fizz/server/ServerProtocol.cpp:2180-2205`). -/
def splitFlight (b : Bytes) : List Bytes :=
  b.take 1000 :: (if (b.drop 1000).isEmpty then [] else [b.drop 1000])

/-- The bytes sent (`fizz/server/ServerProtocol.cpp:2180-2222`). -/
def flightContents (w : WLayer) (sessionId : Bytes) (f : Flight) : List Content :=
  content w 22 f.serverHello :: (ccs sessionId ++
    [⟨⟨.handshake, f.handshakeWrite⟩, 22, splitFlight f.encrypted⟩])

/-- The state saved when early data is accepted (`fizz/server/ServerProtocol.cpp:2352-2386`). -/
def saveEarly (read : RLayer) (handshakeRead : Option RLayer) (exporter : Bytes) (s : St) : St :=
  { s with
    read := some read, handshakeRead := handshakeRead.or s.handshakeRead
    earlyExporterMasterSecret := some exporter }

/-- The actions after a successful ClientHello (`fizz/server/ServerProtocol.cpp:2344-2406`). -/
def helloActions (cfg : Cfg) (p : Part2) (f : Flight) (w : WLayer) : List Action :=
  let hsRead : RLayer := ⟨.handshake, f.handshakeRead, p.earlyDataType = .rejected⟩
  let secrets : List Action :=
    [.secretAvailable .clientHandshakeTraffic f.handshakeRead,
     .secretAvailable .serverHandshakeTraffic f.handshakeWrite,
     .secretAvailable .serverAppTraffic f.appWrite,
     .write none (flightContents w p.p1.hello.chlo.legacy_session_id f) 0]
  match p.early with
  | some e =>
    if cfg.omitEarlyRecordLayer then
      [.mutate (saveEarly hsRead none e.exporter),
       .mutate (saveHello p f), .secretAvailable .clientEarlyTraffic e.read] ++ secrets ++
      [transition .expectingFinished, .reportEarlyHandshakeSuccess]
    else
      [.mutate (saveEarly ⟨.earlyData, e.read, false⟩ (some hsRead) e.exporter),
       .mutate (saveHello p f), .secretAvailable .clientEarlyTraffic e.read] ++ secrets ++
      [transition .acceptingEarlyData, .reportEarlyHandshakeSuccess]
  | none =>
    [.mutate fun s => { s with read := some hsRead }, .mutate (saveHello p f)] ++ secrets ++
    [transition (if f.requestClientAuth then .expectingCertificate else .expectingFinished)]

/-- The last part (`fizz/server/ServerProtocol.cpp:1825-2406`). -/
def part3 (cfg : Cfg) (inp : Inp) (s : St) (p : Part2) (k : KexOut) : Res (List Action) := do
  let f ← buildFlight cfg inp s p k
  let w ← derefPtr s.write
  pure (helloActions cfg p f w)

/-- The key exchange decision (`fizz/server/ServerProtocol.cpp:1653-1803`). -/
def kexPart (cfg : Cfg) (inp : Inp) (s : St) (p : Part2) : Res (List Action) :=
  if p.pskMode = some psk_ke then do
    let k ← noKex p
    part3 cfg inp s p k
  else do
    match ← negotiateGroup cfg p.p1.hello.chlo with
    | (group, none) => sendRetry inp s p group
    | (group, some share) => do
      let k ← doKex inp s p group share
      part3 cfg inp s p k

/-- The handler of `Event::ClientHello` (`fizz/server/ServerProtocol.cpp:1412-2410`). -/
def onClientHello (cfg : Cfg) (inp : Inp) (s : St) (unparsed : Bool) (chlo : ClientHello)
    (orig : Bytes) : Res (List Action) := do
  match ← part1 cfg inp s unparsed chlo orig with
  | .inl acts => pure acts
  | .inr p1 => do
    let p2 ← part2 cfg inp s p1
    kexPart cfg inp s p2

end Fizz.Server

import Verif.Ticket.Token
import Verif.Codec.Extensions
import Verif.Record.WriteModel
import Verif.Server.Negotiate

/-!
# Stateless retry cookies — model of `fizz/server/AeadCookieCipher.cpp`,
`fizz/server/CookieCipher.cpp`
-/

namespace Fizz.Ticket
open Fizz.Codec Fizz.Negotiate

/-- `ech::HpkeSymmetricCipherSuite` (`fizz/protocol/ech/Types.h`). -/
structure EchSuite where
  kdf : UInt16
  aead : UInt16
  deriving DecidableEq

/-- `CookieState` (`fizz/server/CookieCipher.h:18-36`); a null `Buf` is `[]`. -/
structure CookieState where
  version : UInt16
  cipher : UInt16
  group : Option UInt16 := none
  chloHash : Bytes := []
  appToken : Bytes := []
  echCipherSuite : Option EchSuite := none
  echConfigId : Option UInt8 := none
  echEnc : Bytes := []
  deriving DecidableEq

/-- The group part of `encodeCookie` (`fizz/server/AeadCookieCipher.cpp:34-41`). -/
def writeGroup : Option UInt16 → Res Bytes
  | some g => do
    let t ← writeU8 1
    let b ← writeU16 g
    pure (t ++ b)
  | none => writeU8 0

/-- `*state.echConfigId`. -/
def derefOpt {α} : Option α → Res α
  | some a => .ok a
  | none => .error .emptyOptional

/-- The ECH part of `encodeCookie` (`fizz/server/AeadCookieCipher.cpp:48-60`). -/
def writeEch (s : CookieState) : Res Bytes :=
  match s.echCipherSuite with
  | some cs => do
    let t ← writeU8 1
    let k ← writeU16 cs.kdf
    let a ← writeU16 cs.aead
    let id ← derefOpt s.echConfigId
    let i ← writeU8 id
    let e ← writeBuf .u16 s.echEnc
    pure (t ++ k ++ a ++ i ++ e)
  | none => writeU8 0

/-- `detail::encodeCookie` (`fizz/server/AeadCookieCipher.cpp:26-62`). -/
def encodeCookieState (s : CookieState) : Res Bytes := do
  let b1 ← writeU16 s.version
  let b2 ← writeU16 s.cipher
  let b3 ← writeGroup s.group
  let b4 ← writeBuf .u16 s.chloHash
  let b5 ← writeBuf .u16 s.appToken
  let b6 ← writeEch s
  pure (b1 ++ b2 ++ b3 ++ b4 ++ b5 ++ b6)

/-- `fizz/server/AeadCookieCipher.cpp:73-79`. -/
def readGroup : Rd (Option UInt16) := do
  let (hasGroup, _) ← readU8
  if hasGroup = 1 then do
    let (g, _) ← readU16
    pure (some g)
  else pure none

/-- `fizz/server/AeadCookieCipher.cpp:84-94`. -/
def readEch (s : CookieState) : Rd CookieState := do
  let (hasEch, _) ← readU8
  if hasEch = 1 then do
    let (kdf, _) ← readU16
    let (aead, _) ← readU16
    let (configId, _) ← readU8
    let (enc, _) ← readBuf .u16
    pure { s with echCipherSuite := some ⟨kdf, aead⟩, echConfigId := some configId, echEnc := enc }
  else pure s

/-- The reads of `detail::decodeCookie` (`fizz/server/AeadCookieCipher.cpp:64-96`). -/
def readCookieState : Rd CookieState := do
  let (version, _) ← readU16
  let (cipher, _) ← readU16
  let group ← readGroup
  let (chloHash, _) ← readBuf .u16
  let (appToken, _) ← readBuf .u16
  readEch { version, cipher, group, chloHash, appToken }

/-- `detail::decodeCookie` (`fizz/server/AeadCookieCipher.cpp:64-96`): bytes behind the last field
are ignored. -/
def decodeCookieState (cookie : Bytes) : Res CookieState :=
  match readCookieState cookie with
  | .ok (s, _) => .ok s
  | .error e => .error e

/-- `getStatelessHelloRetryRequest` (`fizz/server/CookieCipher.cpp:18-55`). -/
def getStatelessHelloRetryRequest (version cipher : UInt16) (group : Option UInt16)
    (cookie : Bytes) : Res Bytes := do
  let e1 ← encodeServerSupportedVersions ⟨version⟩
  let exts ← match group with
    | some g => do
      let e2 ← encodeHelloRetryRequestKeyShare ⟨g⟩
      pure [e1, e2]
    | none => pure [e1]
  let e3 ← encodeCookie ⟨cookie⟩
  encodeHandshake (.helloRetryRequest
    { legacy_version := 0x0303
      legacy_session_id_echo := []
      cipher_suite := cipher
      extensions := exts ++ [e3] })

/-- `getHrrGroup` (`fizz/server/CookieCipher.cpp:57-93`). -/
def getHrrGroup (supportedGroups : List UInt16) (chlo : ClientHello) : Res (Option UInt16) := do
  match ← getSupportedGroups chlo.extensions with
  | none => pure none
  | some groupsExt =>
    match negotiateFlat supportedGroups groupsExt.named_group_list with
    | none => pure none
    | some negotiated =>
      match ← getClientKeyShare chlo.extensions with
      | none => .error (Failure.rt "supported_groups without key_share")
      | some shares =>
        if shares.client_shares.any (fun s => s.group = negotiated) then pure none
        else pure (some negotiated)

/-- What the cookie cipher uses of `FizzServerContext`, and the transcript hash of the factory:
`makeHandshakeContext(cipher)`, `appendToTranscript`, `getHandshakeContext`. -/
structure CookieContext where
  supportedVersions : List UInt16
  supportedCiphers : List (List UInt16)
  supportedGroups : List UInt16
  transcriptHash : (cipher : UInt16) → Bytes → Res Bytes

/-- `getCookieState` (`fizz/server/CookieCipher.cpp:95-136`). -/
def getCookieState (ctx : CookieContext) (chlo : ClientHello) (originalEncoding : Bytes)
    (appToken : Bytes) : Res CookieState := do
  match ← getSupportedVersions chlo.extensions with
  | none => .error (Failure.rt "no supported versions")
  | some clientVersions =>
    match negotiateFlat ctx.supportedVersions clientVersions.versions with
    | none => .error (Failure.rt "version mismatch")
    | some version =>
      match negotiateTiers ctx.supportedCiphers chlo.cipher_suites with
      | none => .error (Failure.rt "cipher mismatch")
      | some cipher => do
        let group ← getHrrGroup ctx.supportedGroups chlo
        let chloHash ← ctx.transcriptHash cipher originalEncoding
        pure { version, cipher, group, appToken, chloHash }

/-- `AeadCookieCipher::getStatelessResponse` (`fizz/server/AeadCookieCipher.cpp:145-171`).
`PlaintextWriteRecordLayer::writeHandshake` is `write` with content type handshake
(`fizz/record/RecordLayer.h`). -/
def getStatelessResponse (A : TokenAlg) (tc : TokenCipher) (ctx : CookieContext) (salt : Bytes)
    (chlo : ClientHello) (originalEncoding appToken : Bytes) : Res Bytes := do
  let state ← getCookieState ctx chlo originalEncoding appToken
  let encoded ← encodeCookieState state
  match ← tc.encrypt A salt encoded none with
  | none => .error (Failure.rt "could not encrypt cookie")
  | some cookie => do
    let msg ← getStatelessHelloRetryRequest state.version state.cipher state.group cookie
    Record.plainWrite ⟨Record.ContentType.handshake, msg⟩

/-- `AeadCookieCipher::decrypt` (`fizz/server/AeadCookieCipher.cpp:136-143`). -/
def cookieDecrypt (A : TokenAlg) (tc : TokenCipher) (cookie : Bytes) :
    Res (Option CookieState) := do
  match ← tc.decrypt A cookie none with
  | some pt => do
    let s ← decodeCookieState pt
    pure (some s)
  | none => pure none

/-- `std::variant<AppToken, StatelessHelloRetryRequest>`. -/
inductive TokenOrRetry where
  | token (appToken : Bytes)
  | retry (data : Bytes)
  deriving DecidableEq

/-- `AeadCookieCipher::getTokenOrRetry` (`fizz/server/AeadCookieCipher.cpp:99-134`).  A fresh
`PlaintextReadRecordLayer` reads one event from the whole buffer. -/
def getTokenOrRetry (A : TokenAlg) (tc : TokenCipher) (ctx : CookieContext) (salt : Bytes)
    (clientHello appToken : Bytes) : Res TokenOrRetry :=
  match Record.readEvent ⟨.plain {}, []⟩ clientHello with
  | .fail f => .error f
  | .needMore _ _ _ => .error (Failure.rt "no TLS message in initial")
  | .again _ _ => .error (.ub "unreachable: readEvent does not return this")
  | .done (.handshake (.clientHello chlo) orig) _ _ => do
    match ← getCookie chlo.extensions with
    | some cookie => do
      match ← cookieDecrypt A tc cookie.cookie with
      | none => .error (Failure.rt "cookie could not be decrypted")
      | some state => pure (.token state.appToken)
    | none => do
      let data ← getStatelessResponse A tc ctx salt chlo orig appToken
      pure (.retry data)
  | .done _ _ _ => .error (Failure.rt "Msg isn't client hello")

end Fizz.Ticket

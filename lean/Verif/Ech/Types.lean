import Verif.Codec.Extensions

/-!
# ECH types and their encodings

Model of `fizz/protocol/ech/{Types.h,Types-inl.h,Types.cpp,ECHExtensions.h,ECHExtensions-inl.h}`.
-/

namespace Fizz.Ech
open Fizz Fizz.Codec

/-- `ExtensionType::encrypted_client_hello` (`fizz/record/Types.h:115`). -/
def tyEch : UInt16 := 0xfe0d
/-- `ExtensionType::ech_outer_extensions` (`fizz/record/Types.h:112`). -/
def tyOuter : UInt16 := 0xfd00

/-- `HpkeSymmetricCipherSuite` (`fizz/protocol/ech/Types.h:55-65`). -/
structure Suite where
  kdf : UInt16
  aead : UInt16
  deriving DecidableEq, Repr

/-- `write`, `Sizer`, `Reader` for it (`fizz/protocol/ech/Types-inl.h:16-24`, `67-73`, `132-149`). -/
def writeSuite (s : Suite) : Res Bytes := do
  let a ← writeU16 s.kdf
  let b ← writeU16 s.aead
  pure (a ++ b)
def sizeSuite (_ : Suite) : Nat := 4
def readSuite : Rd (Suite × Nat) := do
  let (k, n) ← readU16
  let (a, m) ← readU16
  pure (⟨k, a⟩, n + m)

/-- `HpkeKeyConfig` (`fizz/protocol/ech/Types.h:67-95`). -/
structure KeyConfig where
  configId : UInt8
  kemId : UInt16
  publicKey : Bytes
  suites : List Suite
  deriving DecidableEq, Repr

/-- `write<HpkeKeyConfig>` (`fizz/protocol/ech/Types-inl.h:26-37`). -/
def writeKeyConfig (k : KeyConfig) : Res Bytes := do
  let a ← writeU8 k.configId
  let b ← writeU16 k.kemId
  let c ← writeBuf .u16 k.publicKey
  let d ← writeVector .u16 sizeSuite writeSuite k.suites
  pure (a ++ b ++ c ++ d)

/-- `Reader<HpkeKeyConfig>` (`fizz/protocol/ech/Types-inl.h:151-178`).  The null check on the public key
cannot fail: `Cursor::clone` always makes a buffer. -/
def readKeyConfig : Rd (KeyConfig × Nat) := do
  let (i, n1) ← readU8
  let (k, n2) ← readU16
  let (p, n3) ← readBuf .u16
  let (s, n4) ← readVector .u16 readSuite
  pure (⟨i, k, p, s⟩, n1 + n2 + n3 + n4)

/-- `ECHConfigContentDraft` (`fizz/protocol/ech/Types.h:97-140`). -/
structure ConfigContent where
  key : KeyConfig
  maxNameLen : UInt8
  publicName : Bytes
  extensions : List Extension
  deriving DecidableEq, Repr

/-- `encode<ECHConfigContentDraft>` (`fizz/protocol/ech/Types-inl.h:39-51`, `226-236`). -/
def encodeConfigContent (c : ConfigContent) : Res Bytes := do
  let k ← writeKeyConfig c.key
  let m ← writeU8 c.maxNameLen
  let n ← writeBuf .u8 c.publicName
  let e ← writeVector .u16 sizeExtension writeExtension c.extensions
  pure (k ++ m ++ n ++ e)

/-- `Reader<ECHConfigContentDraft>` and `decode` (`fizz/protocol/ech/Types-inl.h:180-207`, `264-272`). -/
def readConfigContent : Rd ConfigContent := do
  let (k, _) ← readKeyConfig
  let (m, _) ← readU8
  let (n, _) ← readBuf .u8
  if n.isEmpty then Rd.fail (Failure.rt "Invalid public name length")
  else do
    let (e, _) ← readVector .u16 readExtension
    pure ⟨k, m, n, e⟩

/-- `ECHConfig` (`fizz/protocol/ech/Types.h:28-49`). -/
structure Config where
  version : UInt16
  content : Bytes
  deriving DecidableEq, Repr

/-- `ECHVersion::Draft15` (`fizz/protocol/ech/Types.h:24-26`). -/
def draft15 : UInt16 := 0xfe0d

/-- `write<ECHConfig>`, its sizer and reader (`fizz/protocol/ech/Types-inl.h:53-63`, `107-114`, `209-224`). -/
def writeConfig (c : Config) : Res Bytes := do
  let a ← writeU16 c.version
  let b ← writeBuf .u16 c.content
  pure (a ++ b)
def sizeConfig (c : Config) : Nat := 2 + getBufSize .u16 c.content
def readConfig : Rd (Config × Nat) := do
  let (v, n) ← readU16
  let (b, m) ← readBuf .u16
  pure (⟨v, b⟩, n + m)

/-- `encode<ECHConfigList>` and `decode` (`fizz/protocol/ech/Types-inl.h:285-325`). -/
def encodeConfigList (l : List Config) : Res Bytes := writeVector .u16 sizeConfig writeConfig l
def readConfigList : Rd (List Config) := do
  let (l, _) ← readVector .u16 readConfig
  pure l

/-- `parseSupportedECHConfig` (`fizz/protocol/ech/Types.cpp:13-28`).  Bytes after the content are not looked
at. -/
def parseSupported (c : Config) : Res (Option ConfigContent) :=
  if c.version = draft15 then
    match readConfigContent c.content with
    | .ok (x, _) => .ok (some x)
    | .error e => .error e
  else .ok none

/-- `OuterECHClientHello` (`fizz/protocol/ech/ECHExtensions.h:24-49`). -/
structure OuterEch where
  suite : Suite
  configId : UInt8
  enc : Bytes
  payload : Bytes
  deriving DecidableEq, Repr

/-- `encodeExtension<OuterECHClientHello>` (`fizz/protocol/ech/ECHExtensions-inl.h:14-33`). -/
def encodeOuterEch (e : OuterEch) : Res Extension := do
  let t ← writeU8 0
  let s ← writeSuite e.suite
  let i ← writeU8 e.configId
  let n ← writeBuf .u16 e.enc
  let p ← writeBuf .u16 e.payload
  pure ⟨tyEch, t ++ s ++ i ++ n ++ p⟩

/-- `getExtension<OuterECHClientHello>` (`fizz/protocol/ech/ECHExtensions-inl.h:101-118`). -/
def readOuterEch : Rd OuterEch := do
  let (t, _) ← readU8
  if t ≠ 0 then Rd.fail (Failure.rt "wrong ech variant")
  else do
    let (s, _) ← readSuite
    let (i, _) ← readU8
    let (n, _) ← readBuf .u16
    let (p, _) ← readBuf .u16
    pure ⟨s, i, n, p⟩

/-- `encodeExtension<InnerECHClientHello>` and its reader (`fizz/protocol/ech/ECHExtensions-inl.h:52-65`,
`134-145`). -/
def encodeInnerEch (_ : Unit) : Res Extension := do
  let t ← writeU8 1
  pure ⟨tyEch, t⟩
def readInnerEch : Rd Unit := do
  let (t, _) ← readU8
  if t ≠ 1 then Rd.fail (Failure.rt "wrong ech variant") else pure ()

/-- `encodeExtension<ECHEncryptedExtensions>` and its reader (`fizz/protocol/ech/ECHExtensions-inl.h:35-50`,
`120-132`). -/
def encodeEchEe (l : List Config) : Res Extension := do
  let d ← writeVector .u16 sizeConfig writeConfig l
  pure ⟨tyEch, d⟩
def readEchEe : Rd (List Config) := do
  let (l, _) ← readVector .u16 readConfig
  pure l

/-- `encodeExtension<OuterExtensions>` and its reader (`fizz/protocol/ech/ECHExtensions-inl.h:67-81`,
`147-157`). -/
def encodeOuterExtensions (types : List UInt16) : Res Extension := do
  let d ← writeVector .u8 sizeU16 writeU16 types
  pure ⟨tyOuter, d⟩
def readOuterExtensions : Rd (List UInt16) := do
  let (l, _) ← readVector .u8 readU16
  pure l

/-- The eight bytes of `ECHHelloRetryRequest` (`fizz/protocol/ech/ECHExtensions.h:63-67`). -/
structure Confirmation where
  val : Bytes
  len : val.length = 8
  deriving DecidableEq

/-- `encodeExtension<ECHHelloRetryRequest>` and its reader (`fizz/protocol/ech/ECHExtensions-inl.h:83-99`,
`159-172`). -/
def encodeEchHrr (c : Confirmation) : Res Extension := pure ⟨tyEch, c.val⟩
def readEchHrr : Rd Confirmation := fun inp =>
  if h : inp.length = 8 then .ok (⟨inp, h⟩, [])
  else .error (Failure.rt "ECHHelloRetryRequest confirmation wrong size")

end Fizz.Ech

import Verif.Codec.Extensions
import Verif.Server.Negotiate

/-!
# Token binding

Model of `fizz/extensions/tokenbinding/*`.  Elliptic curve arithmetic and SHA-256 are abstract; failures
of memory allocation inside OpenSSL are left out.  Enums are their underlying integers: C++ keeps any
value of the underlying type.
-/

namespace Fizz.TokenBinding

open Fizz.Codec

/-- `TokenBindingKeyParameters` (`fizz/extensions/tokenbinding/Types.h:28-33`). -/
def rsa2048_pkcs1_5 : UInt8 := 0
@[inherit_doc rsa2048_pkcs1_5] def rsa2048_pss : UInt8 := 1
@[inherit_doc rsa2048_pkcs1_5] def ecdsap256 : UInt8 := 2
@[inherit_doc rsa2048_pkcs1_5] def ed25519_experimental : UInt8 := 239

/-- `struct TokenBindingParameters` (`Types.h:37-40`). -/
structure Parameters where
  version : UInt16
  key_parameters_list : List UInt8
  deriving DecidableEq

/-- `struct TokenBindingID` (`Types.h:42-45`). -/
structure ID where
  key_parameters : UInt8
  key : Bytes
  deriving DecidableEq

/-- `struct TokenBinding` (`Types.h:52-59`). -/
structure Binding where
  tokenbinding_type : UInt8
  tokenbindingid : ID
  signature : Bytes
  extensions : Bytes
  deriving DecidableEq

/-! ## Codec -/

/-- `read<TokenBindingID>` (`Types.cpp:20-31`). -/
def readID : Rd (ID × Nat) := do
  let (p, len) ← readU8
  let (k, n) ← readBuf .u16
  pure (⟨p, k⟩, len + n)

/-- `write<TokenBindingID>` (`Types.cpp:33-41`). -/
def writeID (i : ID) : Res Bytes := do
  let p ← writeU8 i.key_parameters
  let k ← writeBuf .u16 i.key
  pure (p ++ k)

/-- `getSize<TokenBindingID>` (`Types.cpp:43-46`). -/
def sizeID (i : ID) : Nat := 1 + getBufSize .u16 i.key

/-- `read<TokenBinding>` (`Types.cpp:48-63`). -/
def readBinding : Rd (Binding × Nat) := do
  let (t, len) ← readU8
  let (i, idLen) ← readID
  let (s, n) ← readBuf .u16
  let (e, n') ← readBuf .u16
  pure (⟨t, i, s, e⟩, len + idLen + n + n')

/-- `write<TokenBinding>` (`Types.cpp:65-75`). -/
def writeBinding (b : Binding) : Res Bytes := do
  let t ← writeU8 b.tokenbinding_type
  let i ← writeID b.tokenbindingid
  let s ← writeBuf .u16 b.signature
  let e ← writeBuf .u16 b.extensions
  pure (t ++ (i ++ (s ++ e)))

/-- `getSize<TokenBinding>` (`Types.cpp:77-82`). -/
def sizeBinding (b : Binding) : Nat :=
  1 + sizeID b.tokenbindingid + getBufSize .u16 b.signature + getBufSize .u16 b.extensions

/-- `encode<TokenBindingMessage>` (`Types.cpp:147-155`). -/
def encodeMessage (l : List Binding) : Res Bytes := writeVector .u16 sizeBinding writeBinding l

/-- `decode<TokenBindingMessage>` (`Types.cpp:157-163`). -/
def readMessage : Rd (List Binding) := do
  let (l, _) ← readVector .u16 readBinding
  pure l

/-- `decode` of a whole buffer (`fizz/record/Types-inl.h:850-862`). -/
def decodeMessage (b : Bytes) : Res (List Binding) := decodeAll readMessage b

/-- The extension's body, as `getExtension<TokenBindingParameters>` reads it (`Types.cpp:119-125`). -/
def readParameters : Rd Parameters := do
  let (v, _) ← readU16
  let (l, _) ← readVector .u8 readU8
  pure ⟨v, l⟩

/-- `getExtension<TokenBindingParameters>` (`Types.cpp:108-127`); unlike the others it does not insist
that the body was read to its end. -/
def getParameters (exts : List Extension) : Res (Option Parameters) :=
  match findExtension exts 24 with
  | none => .ok none
  | some e =>
    match readParameters e.extension_data with
    | .error f => .error f
    | .ok (p, _) => .ok (some p)

/-- `encodeExtension(TokenBindingParameters)` (`Types.cpp:131-144`). -/
def encodeParameters (p : Parameters) : Res Extension := do
  let v ← writeU16 p.version
  let l ← writeVector .u8 sizeU8 writeU8 p.key_parameters_list
  pure ⟨24, v ++ l⟩

/-! ## Negotiation -/

/-- `TokenBindingContext` (`TokenBindingContext.h:17-62`). -/
structure Context where
  supportedVersions : List UInt16 := [0x0100]
  supportedKeyParams : List UInt8 := [ecdsap256]

/-- `std::is_sorted` with `std::greater`: no element is greater than the one before it. -/
def isSortedDown : List UInt16 → Bool
  | a :: b :: l => !decide (a < b) && isSortedDown (b :: l)
  | _ => true

/-- `std::unique` finds equal neighbours. -/
def hasTwins : List UInt16 → Bool
  | a :: b :: l => decide (a = b) || hasTwins (b :: l)
  | _ => false

/-- `TokenBindingContext::setSupportedVersions` (`TokenBindingContext.h:25-41`). -/
def Context.setSupportedVersions (c : Context) (versions : List UInt16) : Res Context :=
  if ¬ isSortedDown versions then .error (.rt "Protocol Versions are not in descending order")
  else if hasTwins versions then .error (.rt "Protocol Versions contain duplicates")
  else .ok { c with supportedVersions := versions }

/-- `TokenBindingContext::setSupportedKeyParameters` (`TokenBindingContext.h:49-52`). -/
def Context.setSupportedKeyParameters (c : Context) (params : List UInt8) : Context :=
  { c with supportedKeyParams := params }

/-- `TokenBindingClientExtension::getClientHelloExtensions`
(`TokenBindingClientExtension.cpp:15-30`). -/
def clientExtensions (c : Context) : Res (List Extension) :=
  match c.supportedVersions with
  | [] => .ok []
  | v :: _ =>
    if c.supportedKeyParams.isEmpty then .ok []
    else do
      let e ← encodeParameters ⟨v, c.supportedKeyParams⟩
      pure [e]

/-- What a client extension object has negotiated (`TokenBindingClientExtension.h:41-43`). -/
structure ClientState where
  version : Option UInt16 := none
  keyParam : Option UInt8 := none
  deriving DecidableEq

/-- `TokenBindingClientExtension::onEncryptedExtensions` (`TokenBindingClientExtension.cpp:32-74`);
`front()` of an empty vector is undefined behaviour. -/
def onEncryptedExtensions (c : Context) (s : ClientState) (exts : List Extension) : Res ClientState := do
  let p ← getParameters exts
  match p with
  | none => pure s
  | some p =>
    match p.key_parameters_list with
    | [k] =>
      match c.supportedVersions with
      | [] => .error (.ub "front of an empty vector")
      | front :: _ =>
        if front < p.version then
          .error (Failure.fizz "Server sent higher tokbind version" (some 110))
        else if k ∉ c.supportedKeyParams then
          .error (Failure.fizz "Unsupported key parameter sent by server" (some 110))
        else if p.version ∉ c.supportedVersions then pure s
        else pure ⟨some p.version, some k⟩
    | _ => .error (Failure.fizz "Incorrect number of key_parameters sent by server" (some 110))

/-- `negotiateVersion` (`TokenBindingServerExtension.h:60-68`). -/
def negotiateVersion (c : Context) (clientPref : UInt16) : Option UInt16 :=
  c.supportedVersions.find? (fun pref => decide (pref ≤ clientPref))

/-- `TokenBindingServerExtension::getExtensions` (`TokenBindingServerExtension.h:25-48`): the extensions
for the client, and the object's negotiated key parameter afterwards. -/
def serverExtensions (c : Context) (before : Option UInt8) (clientHello : List Extension) :
    Res (List Extension × Option UInt8) := do
  let p ← getParameters clientHello
  match p with
  | none => pure ([], before)
  | some p =>
    match negotiateVersion c p.version,
        Negotiate.negotiateFlat c.supportedKeyParams p.key_parameters_list with
    | some v, some k => do
      let e ← encodeParameters ⟨v, [k]⟩
      pure ([e], some k)
    | _, _ => pure ([], before)

/-! ## Making and checking a token binding -/

/-- The cryptography used, with key pairs `K` and public keys `P`. -/
structure Lib (K P : Type) where
  sha256 : Bytes → Bytes
  publicKey : K → P
  /-- `EC_POINT_point2oct`, uncompressed. -/
  encodePoint : P → Bytes
  /-- `decodeECPublicKey` for P-256: also checks that the point is on the curve. -/
  decodePoint : Bytes → Option P
  /-- `ECDSA_do_sign`; `none` if it fails. -/
  ecdsaSign : K → Bytes → Option (Nat × Nat)
  ecdsaVerify : P → Bytes → Nat → Nat → Bool
  /-- `edVerify` with a raw key. -/
  edVerify : Bytes → Bytes → Bytes → Bool

/-- `TokenBindingUtils::constructMessage` (`Utils.h:21-36`). -/
def constructMessage (type keyParams : UInt8) (ekm : Bytes) : Bytes :=
  beEnc 1 type.toNat ++ (beEnc 1 keyParams.toNat ++ ekm)

/-- `BN_num_bytes`: the least number of bytes. -/
def numBytes : Nat → Nat
  | 0 => 0
  | n + 1 => numBytes ((n + 1) / 256) + 1
decreasing_by omega

/-- `addBignumToSignature` (`TokenBindingConstructor.cpp:98-118`): `BN_bn2bin` gives the least number of
bytes. -/
def padBignum (n : Nat) : Res Bytes :=
  if 32 < numBytes n then .error (.rt "ECDSA sig bignum is of incorrect size")
  else .ok (List.replicate (32 - numBytes n) 0 ++ beEnc (numBytes n) n)

/-- `encodeEcKey` (`TokenBindingConstructor.cpp:120-134`): the first byte, the point format, is replaced by
the length. -/
def encodeEcKey (encoded : Bytes) : Res Bytes :=
  match encoded with
  | _ :: xy =>
    if xy.length + 1 ≠ 65 then .error (.rt "Incorrect encoded EC Key Length") else .ok (64 :: xy)
  | [] => .error (.rt "Incorrect encoded EC Key Length")

/-- `encodeEcdsaSignature` (`TokenBindingConstructor.cpp:79-96`). -/
def encodeSignature (r s : Nat) : Res Bytes := do
  let a ← padBignum r
  let b ← padBignum s
  pure (a ++ b)

/-- `signWithEcKey` (`TokenBindingConstructor.cpp:57-77`). -/
def signWithEcKey {K P : Type} (lib : Lib K P) (key : K) (message : Bytes) : Res Bytes :=
  match lib.ecdsaSign key (lib.sha256 message) with
  | none => .error (.rt "Unable to sign message with EC Key")
  | some (r, s) => encodeSignature r s

/-- `TokenBindingConstructor::createTokenBinding` (`TokenBindingConstructor.cpp:21-55`); the key pair is
an elliptic curve key. -/
def createTokenBinding {K P : Type} (lib : Lib K P) (key : K) (ekm : Bytes) (params type : UInt8) :
    Res Binding :=
  if params ≠ ecdsap256 then .error (.rt "key params not implemented")
  else do
    let sig ← signWithEcKey lib key (constructMessage type params ekm)
    let k ← encodeEcKey (lib.encodePoint (lib.publicKey key))
    pure ⟨type, ⟨params, k⟩, sig, []⟩

/-- `Validator::constructEcKeyFromBuf` (`Validator.cpp:193-225`). -/
def constructEcKey {K P : Type} (lib : Lib K P) (key : Bytes) : Res P := do
  let (len, rest) ← readBE 1 key
  if len ≠ 64 then .error (.rt "incorrect key size")
  else do
    let (xy, _) ← pull len rest
    match lib.decodePoint (4 :: xy) with
    | none => .error (.rt "Error decoding peer key")
    | some p => pure p

/-- `Validator::constructECDSASig` (`Validator.cpp:160-191`). -/
def constructSig (signature : Bytes) : Res (Nat × Nat) := do
  let (r, rest) ← pull 32 signature
  let (s, _) ← pull 32 rest
  pure (beDec r, beDec s)

/-- `Cursor::peekBytes` after one byte was read from a chain: what is left of the buffer the byte was in,
or the next buffer with data. -/
def peekAfterByte : List Bytes → Bytes
  | [] => []
  | [] :: l => peekAfterByte l
  | [_] :: l => (l.find? (fun b => !b.isEmpty)).getD []
  | (_ :: b) :: _ => b

/-- `Validator::verify` (`Validator.cpp:81-158`); the key as a chain of buffers. -/
def verify {K P : Type} (lib : Lib K P) (params : UInt8) (key : List Bytes) (signature message : Bytes) :
    Res Unit :=
  if params = ecdsap256 then do
    let p ← constructEcKey lib key.flatten
    let (r, s) ← constructSig signature
    if lib.ecdsaVerify p (lib.sha256 message) r s then pure ()
    else .error (.rt "Verification failed")
  else if params = ed25519_experimental then do
    let (len, _) ← readBE 1 key.flatten
    if len ≠ 32 then .error (.rt "Incorrect key size for Ed25519")
    else if (peekAfterByte key).length ≠ len then
      .error (.rt "Key string differs in length from the size specified")
    else if lib.edVerify (peekAfterByte key) message signature then pure ()
    else .error (.rt "Verification failed")
  else .error (.rt "key params not implemented")

/-- `Validator::constructAndVerifyMessage` (`Validator.cpp:53-79`): failures and standard exceptions give
nothing.  `key` is the chain in which the binding holds its key. -/
def constructAndVerify {K P : Type} (lib : Lib K P) (b : Binding) (key : List Bytes) (ekm : Bytes) :
    Option ID :=
  match verify lib b.tokenbindingid.key_parameters key b.signature
      (constructMessage b.tokenbinding_type b.tokenbindingid.key_parameters ekm) with
  | .error _ => none
  | .ok () => some b.tokenbindingid

/-- `Validator::validateTokenBinding` with the negotiated parameter (`Validator.cpp:21-33`). -/
def validate {K P : Type} (lib : Lib K P) (b : Binding) (key : List Bytes) (ekm : Bytes)
    (negotiated : UInt8) : Option ID :=
  if b.tokenbindingid.key_parameters ≠ negotiated then none
  else constructAndVerify lib b key ekm

/-- `Validator::validateTokenBinding` with supported parameters (`Validator.cpp:35-51`). -/
def validateAny {K P : Type} (lib : Lib K P) (b : Binding) (key : List Bytes) (ekm : Bytes)
    (supported : List UInt8) : Option ID :=
  if b.tokenbindingid.key_parameters ∉ supported then none
  else constructAndVerify lib b key ekm

end Fizz.TokenBinding

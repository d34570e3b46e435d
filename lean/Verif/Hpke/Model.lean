import Verif.Crypto.Hkdf
import Verif.Crypto.Kex
import Verif.Record.WriteModel

/-!
# HPKE

Model of `fizz/crypto/hpke/{Hkdf,DHKEM,Hpke,Context,Utils}.cpp`.  The key exchange is a parameter (`Kex`,
`Verif/Crypto/Kex.lean`), and so is the AEAD; the nonce is computed as in `createIV`.
-/

namespace Fizz.Hpke
open Fizz Fizz.Crypto Fizz.Kex

/-- The bytes of a literal. -/
def lit (s : String) : Bytes := s.toList.map fun c => UInt8.ofNat c.toNat

/-- `hpke::Hkdf` (`fizz/crypto/hpke/Hkdf.h:17-75`). -/
structure Hkdf where
  pfx : Bytes
  H : HashAlg

/-- `Hkdf::v1` (`fizz/crypto/hpke/Hkdf.cpp:17-21`). -/
def Hkdf.v1 (H : HashAlg) : Hkdf := ⟨lit "HPKE-v1", H⟩

/-- `labeledExtract` (`fizz/crypto/hpke/Hkdf.cpp:29-51`). -/
def Hkdf.labeledExtract (k : Hkdf) (salt : Bytes) (label : String) (ikm suiteId : Bytes) : Res Bytes :=
  extract k.H salt (k.pfx ++ suiteId ++ lit label ++ ikm)

/-- `labeledExpand` (`fizz/crypto/hpke/Hkdf.cpp:59-84`). -/
def Hkdf.labeledExpand (k : Hkdf) (prk : Bytes) (label : String) (info : Bytes) (L : Nat) (suiteId : Bytes) : Res Bytes :=
  if L > 2 ^ 16 - 1 then .error (Failure.rt "This is greater than the maximum length allowed")
  else expand k.H prk (beEnc 2 L ++ k.pfx ++ suiteId ++ lit label ++ info) L

/-! ## The KEM -/

/-- `NamedGroup` values with a DHKEM (`fizz/crypto/hpke/DHKEM.cpp:14-33`). -/
def dhkemId (group : UInt16) : Res UInt16 :=
  if group = 23 then .ok 0x0010
  else if group = 24 then .ok 0x0011
  else if group = 25 then .ok 0x0012
  else if group = 29 then .ok 0x0020
  else .error (Failure.rt "ke: not implemented")

/-- `generateSuiteId` (`fizz/crypto/hpke/DHKEM.cpp:35-43`). -/
def kemSuiteId (group : UInt16) : Res Bytes := do
  let id ← dhkemId group
  pure (lit "KEM" ++ beEnc 2 id.toNat)

/-- `DHKEM` (`fizz/crypto/hpke/DHKEM.h`): the key exchange and, if any, that of the authenticated sender. -/
structure Dhkem (K : Kex) where
  kex : K.State
  authKex : Option K.State
  group : UInt16
  hkdf : Hkdf

variable {K : Kex}

/-- `extractAndExpand` (`fizz/crypto/hpke/DHKEM.cpp:61-87`). -/
def extractAndExpand (d : Dhkem K) (dh kemContext : Bytes) : Res Bytes := do
  let suiteId ← kemSuiteId d.group
  let prk ← d.hkdf.labeledExtract [] "eae_prk" dh suiteId
  d.hkdf.labeledExpand prk "shared_secret" kemContext d.hkdf.H.hashLen suiteId

/-- `encap` (`fizz/crypto/hpke/DHKEM.cpp:96-111`): secret and encapsulated key. -/
def encap (d : Dhkem K) (gen use : K.Rand) (pkR : Bytes) : Res (Bytes × Bytes) := do
  let s ← K.generateKeyPair d.kex gen
  let (dh, s) ← K.generateSharedSecret s use pkR
  let enc ← K.getKeyShare s
  let ss ← extractAndExpand d dh (enc ++ pkR)
  pure (ss, enc)

/-- `authEncap` (`fizz/crypto/hpke/DHKEM.cpp:113-139`). -/
def authEncap (d : Dhkem K) (gen use useAuth : K.Rand) (pkR : Bytes) : Res (Bytes × Bytes) :=
  match d.authKex with
  | none => .error (Failure.rt "DHKEM has no sender key exchange set up")
  | some a => do
    let s ← K.generateKeyPair d.kex gen
    let (dh, s) ← K.generateSharedSecret s use pkR
    let (authDh, a) ← K.generateSharedSecret a useAuth pkR
    let enc ← K.getKeyShare s
    let authKeyShare ← K.getKeyShare a
    let ss ← extractAndExpand d (dh ++ authDh) (enc ++ pkR ++ authKeyShare)
    pure (ss, enc)

/-- `decap` (`fizz/crypto/hpke/DHKEM.cpp:141-156`). -/
def decap (d : Dhkem K) (use : K.Rand) (enc : Bytes) : Res Bytes := do
  let (dh, s) ← K.generateSharedSecret d.kex use enc
  let pkRm ← K.getKeyShare s
  extractAndExpand d dh (enc ++ pkRm)

/-- `authDecap` (`fizz/crypto/hpke/DHKEM.cpp:158-178`). -/
def authDecap (d : Dhkem K) (use useAuth : K.Rand) (enc pkS : Bytes) : Res Bytes := do
  let (dh, s) ← K.generateSharedSecret d.kex use enc
  let (authDh, s) ← K.generateSharedSecret s useAuth pkS
  let pkRm ← K.getKeyShare s
  extractAndExpand d (dh ++ authDh) (enc ++ pkRm ++ pkS)

/-! ## Setup -/

/-- `Mode` (`fizz/crypto/hpke/Types.h:40-45`). -/
inductive Mode | base | psk | auth | authPsk
  deriving DecidableEq, Repr

def Mode.byte : Mode → UInt8
  | .base => 0
  | .psk => 1
  | .auth => 2
  | .authPsk => 3

/-- `PskInputs` (`fizz/crypto/hpke/Hpke.h:18-62`). -/
structure PskInputs where
  mode : Mode
  psk : Bytes
  id : Bytes
  deriving DecidableEq, Repr

/-- `PskInputs::create` (`fizz/crypto/hpke/Hpke.h:23-46`). -/
def PskInputs.create (mode : Mode) (psk id : Bytes) : Res PskInputs :=
  let gotPsk := !psk.isEmpty
  let gotPskId := !id.isEmpty
  if gotPsk != gotPskId then .error (Failure.rt "Inconsistent PSK inputs")
  else if gotPsk && (mode == .base || mode == .auth) then .error (Failure.rt "PSK input provided when not needed")
  else if !gotPsk && (mode == .psk || mode == .authPsk) then .error (Failure.rt "Missing required PSK input")
  else .ok ⟨mode, psk, id⟩

/-- An AEAD: `Aead` (`fizz/crypto/aead/Aead.h`), with the key and nonce explicit. -/
structure Cipher where
  keyLength : Nat
  ivLength : Nat
  enc : (key nonce aad pt : Bytes) → Res Bytes
  dec : (key nonce aad ct : Bytes) → Option Bytes

/-- Roles (`fizz/crypto/hpke/Context.h:20`). -/
inductive Role | sender | receiver
  deriving DecidableEq, Repr

/-- `HpkeContextImpl` (`fizz/crypto/hpke/Context.h:43-84`); the cipher has been given key and IV. -/
structure Context where
  seq : UInt64
  cipher : Cipher
  key : Bytes
  iv : Bytes
  exporterSecret : Bytes
  hkdf : Hkdf
  suiteId : Bytes
  role : Role

/-- `KeyScheduleParams` (`fizz/crypto/hpke/Hpke.h:64-74`). -/
structure Params where
  mode : Mode
  sharedSecret : Bytes
  info : Bytes
  psk : Option PskInputs
  cipher : Cipher
  hkdf : Hkdf
  suiteId : Bytes
  role : Role
  seq : UInt64 := 0

/-- `keySchedule` (`fizz/crypto/hpke/Hpke.cpp:33-118`). -/
def keySchedule (p : Params) : Res Context := do
  let psk := (p.psk.map (·.psk)).getD []
  let pskId := (p.psk.map (·.id)).getD []
  let pskIdHash ← p.hkdf.labeledExtract [] "psk_id_hash" pskId p.suiteId
  let infoHash ← p.hkdf.labeledExtract [] "info_hash" p.info p.suiteId
  let ctx := p.mode.byte :: (pskIdHash ++ infoHash)
  let secret ← p.hkdf.labeledExtract p.sharedSecret "secret" psk p.suiteId
  let key ← p.hkdf.labeledExpand secret "key" ctx p.cipher.keyLength p.suiteId
  let nonce ← p.hkdf.labeledExpand secret "base_nonce" ctx p.cipher.ivLength p.suiteId
  let exp ← p.hkdf.labeledExpand secret "exp" ctx p.hkdf.H.hashLen p.suiteId
  pure { seq := p.seq, cipher := p.cipher, key := key, iv := nonce, exporterSecret := exp, hkdf := p.hkdf,
         suiteId := p.suiteId, role := p.role }

/-- `SetupParam` (`fizz/crypto/hpke/Hpke.h:85-91`). -/
structure SetupParam (K : Kex) where
  dhkem : Dhkem K
  cipher : Cipher
  hkdf : Hkdf
  suiteId : Bytes
  seq : UInt64 := 0

/-- The secret and the encapsulated key (`fizz/crypto/hpke/Hpke.cpp:128-138`). -/
def encapMode (mode : Mode) (gen use useAuth : K.Rand) (pkR : Bytes) (d : Dhkem K) : Res (Bytes × Bytes) :=
  match mode with
  | .auth => authEncap d gen use useAuth pkR
  | .authPsk => authEncap d gen use useAuth pkR
  | .base => encap d gen use pkR
  | .psk => encap d gen use pkR

/-- `setupWithEncap` (`fizz/crypto/hpke/Hpke.cpp:120-155`). -/
def setupWithEncap (mode : Mode) (gen use useAuth : K.Rand) (pkR info : Bytes) (psk : Option PskInputs)
    (p : SetupParam K) : Res (Bytes × Context) := do
  let (ss, enc) ← encapMode mode gen use useAuth pkR p.dhkem
  let c ← keySchedule ⟨mode, ss, info, psk, p.cipher, p.hkdf, p.suiteId, .sender, p.seq⟩
  pure (enc, c)

/-- The secret at the receiver (`fizz/crypto/hpke/Hpke.cpp:166-177`); `*pkS` of an absent key throws. -/
def decapMode (mode : Mode) (use useAuth : K.Rand) (enc : Bytes) (pkS : Option Bytes) (d : Dhkem K) : Res Bytes :=
  match mode with
  | .auth | .authPsk =>
    match pkS with
    | none => .error .emptyOptional
    | some pkS => authDecap d use useAuth enc pkS
  | .base | .psk => decap d use enc

/-- `setupWithDecap` (`fizz/crypto/hpke/Hpke.cpp:157-191`). -/
def setupWithDecap (mode : Mode) (use useAuth : K.Rand) (enc : Bytes) (pkS : Option Bytes) (info : Bytes)
    (psk : Option PskInputs) (p : SetupParam K) : Res Context := do
  let ss ← decapMode mode use useAuth enc pkS p.dhkem
  keySchedule ⟨mode, ss, info, psk, p.cipher, p.hkdf, p.suiteId, .receiver, p.seq⟩

/-! ## Contexts -/

/-- `incrementSeq` (`fizz/crypto/hpke/Context.cpp:42-48`). -/
def Context.incrementSeq (c : Context) : Res Context :=
  if c.seq ≥ 0xffffffffffffffff - 1 then
    .error (Failure.rt "MessageLimitReachedError: When incrementing seqNum")
  else .ok { c with seq := c.seq + 1 }

/-- `Aead::encrypt` and `Aead::decrypt` for a sequence number
(`fizz/backend/openssl/crypto/aead/OpenSSLEVPCipher.cpp:412-428`, `fizz/crypto/aead/Aead.h`). -/
def Context.encrypt (c : Context) (aad pt : Bytes) : Res Bytes := do
  let n ← Record.createIV c.seq c.cipher.ivLength c.iv
  c.cipher.enc c.key n aad pt
def Context.decrypt (c : Context) (aad ct : Bytes) : Res Bytes := do
  let n ← Record.createIV c.seq c.cipher.ivLength c.iv
  match c.cipher.dec c.key n aad ct with
  | some pt => .ok pt
  | none => .error (Failure.rt "decryption failed")

/-- What a call did: the returned value, the context after it, the sequence number handed to the AEAD if it
was called. -/
structure Call where
  result : Res Bytes
  after : Context
  used : Option UInt64 := none

/-- `seal` (`fizz/crypto/hpke/Context.cpp:50-64`).  When the limit is reached the message has already been
encrypted. -/
def Context.sealMsg (c : Context) (aad pt : Bytes) : Call :=
  if c.role ≠ .sender then
    { result := .error (.err "sealing can only be done from a sender context" none .stdLogic), after := c }
  else
    match c.encrypt aad pt with
    | .error e => { result := .error e, after := c, used := some c.seq }
    | .ok ct =>
      match c.incrementSeq with
      | .error e => { result := .error e, after := c, used := some c.seq }
      | .ok c' => { result := .ok ct, after := c', used := some c.seq }

/-- `open` (`fizz/crypto/hpke/Context.cpp:66-80`). -/
def Context.openMsg (c : Context) (aad ct : Bytes) : Call :=
  if c.role ≠ .receiver then
    { result := .error (.err "opening can only be done from a receiver context" none .stdLogic), after := c }
  else
    match c.decrypt aad ct with
    | .error e => { result := .error e, after := c, used := some c.seq }
    | .ok pt =>
      match c.incrementSeq with
      | .error e => { result := .error e, after := c, used := some c.seq }
      | .ok c' => { result := .ok pt, after := c', used := some c.seq }

/-- `exportSecret` (`fizz/crypto/hpke/Context.cpp:82-101`). -/
def Context.exportSecret (c : Context) (context : Bytes) (len : Nat) : Res Bytes :=
  if len > 255 * c.hkdf.H.hashLen then .error (Failure.rt "desired length for exported secret exceeds maximum")
  else c.hkdf.labeledExpand c.exporterSecret "sec" context len c.suiteId

/-! ## Identifiers -/

/-- `generateHpkeSuiteId` (`fizz/crypto/hpke/Utils.cpp:27-41`). -/
def suiteId (kem kdf aead : UInt16) : Bytes :=
  lit "HPKE" ++ beEnc 2 kem.toNat ++ beEnc 2 kdf.toNat ++ beEnc 2 aead.toNat

end Fizz.Hpke

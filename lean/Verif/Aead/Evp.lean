import Verif.Aead.Helper
import Verif.Record.WriteModel

/-!
# `OpenSSLEVPCipher`: AEAD over chains of buffers

Model of `fizz/crypto/aead/CryptoUtil.h` (`encFuncBlocks`, `decFuncBlocks`, `encryptHelper`,
`decryptHelper`) and `fizz/backend/openssl/crypto/aead/OpenSSLEVPCipher.cpp`.  OpenSSL's `EVP_*` calls
are the abstract machine `Evp`; `none` is a return value other than 1.
-/

namespace Fizz.Aead

/-- The `EVP_CIPHER_CTX` interface with a key already set.  Outputs are the bytes stored at the output
pointer (their number is `outLen`). -/
structure Evp (σ : Type) where
  /-- `EVP_EncryptInit_ex(ctx, 0, 0, 0, iv)` -/
  encInit : Bytes → Option σ
  /-- `EVP_EncryptUpdate` with a null output: associated data -/
  encAad : σ → Bytes → Option σ
  /-- `EVP_EncryptUpdate` -/
  encUpdate : σ → Bytes → Option (Bytes × σ)
  /-- `EVP_EncryptFinal_ex` -/
  encFinal : σ → Option (Bytes × σ)
  /-- `EVP_CTRL_GCM_GET_TAG` -/
  getTag : σ → Nat → Option Bytes
  /-- `EVP_DecryptInit_ex(ctx, 0, 0, 0, iv)` -/
  decInit : Bytes → Option σ
  /-- `EVP_DecryptUpdate` with a null output -/
  decAad : σ → Bytes → Option σ
  /-- `EVP_DecryptUpdate` -/
  decUpdate : σ → Bytes → Option (Bytes × σ)
  /-- `EVP_CTRL_GCM_SET_TAG` -/
  setTag : σ → Bytes → Option σ
  /-- `EVP_DecryptFinal_ex`: `none` when the tag does not verify -/
  decFinal : σ → Option Bytes

/-- `std::numeric_limits<int>::max()` -/
def intMax : Nat := 2^31 - 1

variable {σ : Type}

/-- The lambda of `encFunc` (`OpenSSLEVPCipher.cpp:28-46`).  Its state is the context and the `int
numWritten`.  Once it has failed the real lambda ignores further calls, and the error is returned after the
traversal; here the traversal stops at once. -/
def encFn (evp : Evp σ) (s : σ × Nat) (d : Bytes) : Res (Bytes × (σ × Nat)) :=
  if intMax < d.length then .error (.rt "Encryption error: too much plain text")
  else if d.length = 0 then .ok ([], s)
  else match evp.encUpdate s.1 d with
    | none => .error (.rt "Encryption error")
    | some (o, s') =>
      if intMax < s.2 + o.length then .error (.ub "signed overflow of numWritten")
      else .ok (o, (s', s.2 + o.length))

/-- `encFunc` (`OpenSSLEVPCipher.cpp:17-56`). -/
def encFunc (evp : Evp σ) (s : σ) (src : Option Chain) (out : Chain) : Res (Chain × σ) := do
  let (out, (s, numWritten)) ← transformBuffer src out (encFn evp) (s, 0)
  match evp.encFinal s with
  | none => .error (.rt "Encryption error")
  | some (o, s) => do
    let out ← writeAt out 0 numWritten o
    .ok (out, s)

/-- The lambda of `decFunc` (`OpenSSLEVPCipher.cpp:71-87`), as `encFn`. -/
def decFn (evp : Evp σ) (s : σ × Nat) (d : Bytes) : Res (Bytes × (σ × Nat)) :=
  if intMax < d.length then .error (.rt "Decryption error: too much cipher text")
  else match evp.decUpdate s.1 d with
    | none => .error (.rt "Decryption error")
    | some (o, s') =>
      if intMax < s.2 + o.length then .error (.ub "signed overflow of numWritten")
      else .ok (o, (s', s.2 + o.length))

/-- `decFunc` (`OpenSSLEVPCipher.cpp:58-102`): the memory of `output`, and whether the tag verified. -/
def decFunc (evp : Evp σ) (s : σ) (src : Option Chain) (out : Chain) (tag : Bytes) :
    Res (Chain × Bool) := do
  let (out, (s, numWritten)) ← transformBuffer src out (decFn evp) (s, 0)
  match evp.setTag s tag with
  | none => .error (.rt "Decryption error")
  | some s =>
    match evp.decFinal s with
    | none => .ok (out, false)
    | some o => do
      let out ← writeAt out 0 numWritten o
      .ok (out, true)

/-- State of the lambda of `encFuncBlocks`/`decFuncBlocks`: context, `totalWritten`, `totalInput`. -/
structure Blk (σ : Type) where
  ctx : σ
  written : Nat
  input : Nat

/-- The lambda of `encFuncBlocks` (`CryptoUtil.h:124-147`). -/
def encBlk (evp : Evp σ) (s : Blk σ) (d : Bytes) : Res (Bytes × Blk σ) :=
  if intMax < d.length then .error (.rt "Encryption error: too much plain text")
  else if d.length = 0 then .ok ([], s)
  else match evp.encUpdate s.ctx d with
    | none => .error (.rt "Encryption error")
    | some (o, c) => .ok (o, ⟨c, s.written + o.length, s.input + d.length⟩)

/-- `encFuncBlocks` (`CryptoUtil.h:108-168`). -/
def encFuncBlocks (evp : Evp σ) (s : σ) (src : Option Chain) (out : Chain) (bs : Nat) :
    Res (Chain × σ) := do
  let (out, cur, b) ← transformBufferBlocks src out (encBlk evp) bs ⟨s, 0, 0⟩
  let numBuffered := b.input - b.written
  match evp.encFinal b.ctx with
  | none => .error (.rt "Encryption error")
  | some (o, s) =>
    if numBuffered ≤ cur.length (lens out) then do
      let out ← writeAt out cur.i cur.o o
      .ok (out, s)
    else if kMaxBlock < o.length then .error (.ub "write past block")
    else do
      let (out, _) ← push out cur o
      .ok (out, s)

/-- The lambda of `decFuncBlocks` (`CryptoUtil.h:57-75`). -/
def decBlk (evp : Evp σ) (s : Blk σ) (d : Bytes) : Res (Bytes × Blk σ) :=
  if intMax < d.length then .error (.rt "Decryption error: too much cipher text")
  else match evp.decUpdate s.ctx d with
    | none => .error (.rt "Decryption error")
    | some (o, c) => .ok (o, ⟨c, s.written + o.length, s.input + d.length⟩)

/-- `decFuncBlocks` (`CryptoUtil.h:40-101`). -/
def decFuncBlocks (evp : Evp σ) (s : σ) (src : Option Chain) (out : Chain) (tag : Bytes) (bs : Nat) :
    Res (Chain × Bool) := do
  let (out, cur, b) ← transformBufferBlocks src out (decBlk evp) bs ⟨s, 0, 0⟩
  match evp.setTag b.ctx tag with
  | none => .error (.rt "Decryption error")
  | some s =>
    let numBuffered := b.input - b.written
    match evp.decFinal s with
    | none => .ok (out, false)
    | some o =>
      if numBuffered ≤ cur.length (lens out) then do
        let out ← writeAt out cur.i cur.o o
        .ok (out, true)
      else if kMaxBlock < o.length then .error (.ub "write past block")
      else do
        let (out, _) ← push out cur o
        .ok (out, true)

/-- The loop over the associated data in `AeadImpl::init` (`OpenSSLEVPCipher.cpp:131-145`, `227-242`),
one `EVP_*Update` per buffer. -/
def aadLoop (upd : σ → Bytes → Option σ) (msg : String) : σ → Chain → Res σ
  | s, [] => .ok s
  | s, b :: bs =>
    if intMax < b.length then .error (.rt "too much associated data")
    else match upd s b with
      | none => .error (.rt msg)
      | some s => aadLoop upd msg s bs

/-- `AeadImpl::init` of `evpEncrypt` (`OpenSSLEVPCipher.cpp:121-147`). -/
def encInit (evp : Evp σ) (iv : Bytes) (aad : Option Chain) : Res σ :=
  match evp.encInit iv with
  | none => .error (.rt "Encryption error")
  | some s => aadLoop evp.encAad "Encryption error" s (aad.getD [])

/-- `AeadImpl::init` of `evpDecrypt` (`OpenSSLEVPCipher.cpp:217-244`). -/
def decInit (evp : Evp σ) (iv : Bytes) (aad : Option Chain) : Res σ :=
  match evp.decInit iv with
  | none => .error (.rt "Decryption error")
  | some s => aadLoop evp.decAad "Decryption error" s (aad.getD [])

/-- `AeadImpl::encrypt` (`OpenSSLEVPCipher.cpp:149-178`): in blocks of 16 or as a stream. -/
def encBody (evp : Evp σ) (blocks : Bool) (s : σ) (src : Option Chain) (out : Chain) :
    Res (Chain × σ) :=
  if blocks then encFuncBlocks evp s src out 16 else encFunc evp s src out

/-- `AeadImpl::decryptAndFinal` (`OpenSSLEVPCipher.cpp:246-297`). -/
def decBody (evp : Evp σ) (blocks : Bool) (s : σ) (src : Option Chain) (out : Chain) (tag : Bytes) :
    Res (Chain × Bool) :=
  if blocks then decFuncBlocks evp s src out tag 16 else decFunc evp s src out tag

/-- `AeadImpl::final` of `evpEncrypt` (`OpenSSLEVPCipher.cpp:180-190`). -/
def encTag (evp : Evp σ) (s : σ) (tagLen : Nat) : Res Bytes :=
  match evp.getTag s tagLen with
  | none => .error (.rt "Encryption error")
  | some tag => .ok tag

/-- `encryptHelper` with the `AeadImpl` of `evpEncrypt` (`OpenSSLEVPCipher.cpp:104-205`). -/
def encryptHelper (evp : Evp σ) (blocks : Bool) (slack : Nat) (plaintext : List Buf)
    (aad : Option Chain) (iv : Bytes) (tagLen headroom : Nat) (opts : AeadOptions) :
    Res (List Buf) :=
  encryptWith (encInit evp iv aad) (encBody evp blocks) (encTag evp) slack plaintext tagLen headroom
    opts

/-- `decryptHelper` with the `AeadImpl` of `evpDecrypt` (`OpenSSLEVPCipher.cpp:207-306`). -/
def decryptHelper (evp : Evp σ) (blocks : Bool) (slack : Nat) (ciphertext : List Buf)
    (aad : Option Chain) (iv tag : Bytes) (inPlace : Bool) : Res (Option (List Buf)) :=
  decryptWith (decInit evp iv aad) (fun s src out => decBody evp blocks s src out tag) slack
    ciphertext inPlace

/-- The parameters of an `OpenSSLEVPCipher` object (`OpenSSLEVPCipher.cpp:308-317`) and of the
allocator. -/
structure EvpCipher (σ : Type) where
  evp : Evp σ
  tagLength : Nat
  operatesInBlocks : Bool
  headroom : Nat
  slack : Nat

/-- `OpenSSLEVPCipher::encrypt` with a nonce (`OpenSSLEVPCipher.cpp:430-448`). -/
def EvpCipher.encrypt (c : EvpCipher σ) (plaintext : List Buf) (aad : Option Chain) (nonce : Bytes)
    (opts : AeadOptions) : Res (List Buf) :=
  encryptHelper c.evp c.operatesInBlocks c.slack plaintext aad nonce c.tagLength c.headroom opts

/-- `OpenSSLEVPCipher::encrypt` with a sequence number (`OpenSSLEVPCipher.cpp:412-428`). -/
def EvpCipher.encryptSeq (c : EvpCipher σ) (trafficIv : Bytes) (plaintext : List Buf)
    (aad : Option Chain) (seq : UInt64) (opts : AeadOptions) : Res (List Buf) := do
  let iv ← Record.createIV seq trafficIv.length trafficIv
  c.encrypt plaintext aad iv opts

/-- `OpenSSLEVPCipher::inplaceEncrypt` (`OpenSSLEVPCipher.cpp:450-470`). -/
def EvpCipher.inplaceEncrypt (c : EvpCipher σ) (trafficIv : Bytes) (plaintext : List Buf)
    (aad : Option Chain) (seq : UInt64) : Res (List Buf) := do
  let iv ← Record.createIV seq trafficIv.length trafficIv
  c.encrypt plaintext aad iv ⟨.allowFullModification, .deny⟩

/-- `OpenSSLEVPCipher::kMaxTagLength` (`OpenSSLEVPCipher.h:44`). -/
def kMaxTagLength : Nat := 20

/-- `OpenSSLEVPCipher::tryDecrypt` with a nonce (`OpenSSLEVPCipher.cpp:490-550`). -/
def EvpCipher.tryDecrypt (c : EvpCipher σ) (ciphertext : List Buf) (aad : Option Chain)
    (nonce : Bytes) (opts : AeadOptions) : Res (Option (List Buf)) :=
  tryDecryptWith
    (fun ct tag inPlace => decryptHelper c.evp c.operatesInBlocks c.slack ct aad nonce tag inPlace)
    c.tagLength kMaxTagLength ciphertext opts

/-- `OpenSSLEVPCipher::tryDecrypt` with a sequence number (`OpenSSLEVPCipher.cpp:472-488`). -/
def EvpCipher.tryDecryptSeq (c : EvpCipher σ) (trafficIv : Bytes) (ciphertext : List Buf)
    (aad : Option Chain) (seq : UInt64) (opts : AeadOptions) : Res (Option (List Buf)) := do
  let iv ← Record.createIV seq trafficIv.length trafficIv
  c.tryDecrypt ciphertext aad iv opts

end Fizz.Aead

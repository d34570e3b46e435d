import Verif.Crypto.Hkdf

/-!
# Token cipher — model of `fizz/server/AeadTokenCipher.{h,cpp}`

The hash (SHA-256 in the code) and the AEAD (AES-128-GCM) are parameters.  The AEAD is a pair of
functions of key, IV, sequence number and associated data; backend failures are not modelled.
-/

namespace Fizz.Ticket
open Fizz.Crypto

/-- The cryptography the token cipher is instantiated with
(`fizz/server/AeadTokenCipher.h:25-27`). -/
structure TokenAlg where
  hash : HashAlg
  /-- `aead->keyLength()`. -/
  keyLen : Nat
  /-- `aead->ivLength()`. -/
  ivLen : Nat
  /-- `setKey(key, iv); encrypt(plaintext, ad, seq)`. -/
  encr : (key iv : Bytes) → (seq : UInt64) → (ad : Option Bytes) → (pt : Bytes) → Bytes
  /-- `setKey(key, iv); tryDecrypt(ciphertext, ad, seq)`. -/
  tryOpen : (key iv : Bytes) → (seq : UInt64) → (ad : Option Bytes) → (ct : Bytes) → Option Bytes

/-- `Aead128GCMTokenCipher` (`fizz/server/AeadTokenCipher.h:54-72`). -/
structure TokenCipher where
  secrets : List Bytes
  contextStrings : List Bytes
  deriving DecidableEq

/-- `kMinTokenSecretLength` (`fizz/server/AeadTokenCipher.h:23`). -/
def kMinTokenSecretLength : Nat := 32

/-- The constructor (`fizz/server/AeadTokenCipher.h:35-36`). -/
def TokenCipher.make (contexts : List Bytes) : TokenCipher := ⟨[], contexts⟩

/-- The loop over the context strings (`fizz/server/AeadTokenCipher.cpp:52-63`).  The output
argument of `extract` aliases its input, which `extract` reads before assigning. -/
def extractContexts (h : HashAlg) : List Bytes → Bytes → Res Bytes
  | [], extracted => .ok extracted
  | c :: cs, extracted => do
    let e ← extract h c extracted
    extractContexts h cs e

/-- The loop over the secrets (`fizz/server/AeadTokenCipher.cpp:50-65`). -/
def extractSecrets (h : HashAlg) (ctxs : List Bytes) : List Bytes → Res (List Bytes)
  | [] => .ok []
  | s :: ss => do
    let e ← extractContexts h ctxs s
    let es ← extractSecrets h ctxs ss
    pure (e :: es)

/-- `setSecrets` (`fizz/server/AeadTokenCipher.cpp:37-66`). -/
def TokenCipher.setSecrets (A : TokenAlg) (c : TokenCipher) (tokenSecrets : List Bytes) :
    Res (TokenCipher × Bool) :=
  if tokenSecrets.any (fun s => s.length < kMinTokenSecretLength) then .ok (c, false)
  else do
    let es ← extractSecrets A.hash c.contextStrings tokenSecrets
    pure ({ c with secrets := es }, true)

/-- `createAead` (`fizz/server/AeadTokenCipher.cpp:127-146`): the key and the IV. -/
def createAead (A : TokenAlg) (secret salt : Bytes) : Res (Bytes × Bytes) := do
  let keys ← expand A.hash secret salt (A.keyLen + A.ivLen)
  pure (keys.take A.keyLen, (keys.drop A.keyLen).take A.ivLen)

/-- `encrypt` (`fizz/server/AeadTokenCipher.cpp:68-95`); `salt` is what the random generator
returned (`kSaltLength` = hash length bytes). -/
def TokenCipher.encrypt (A : TokenAlg) (c : TokenCipher) (salt : Bytes) (plaintext : Bytes)
    (ad : Option Bytes) : Res (Option Bytes) :=
  match c.secrets with
  | [] => .ok none
  | front :: _ => do
    let (key, iv) ← createAead A front salt
    let seqNum : UInt32 := 0
    let encrypted := A.encr key iv seqNum.toUInt64 ad plaintext
    pure (some (salt ++ beEnc 4 seqNum.toNat ++ encrypted))

/-- The loop of `decrypt` over the secrets (`fizz/server/AeadTokenCipher.cpp:111-121`). -/
def trySecrets (A : TokenAlg) (salt : Bytes) (seqNum : UInt32) (ct : Bytes) (ad : Option Bytes) :
    List Bytes → Res (Option Bytes)
  | [] => .ok none
  | s :: ss => do
    let (key, iv) ← createAead A s salt
    match A.tryOpen key iv seqNum.toUInt64 ad ct with
    | some pt => pure (some pt)
    | none => trySecrets A salt seqNum ct ad ss

/-- `decrypt` (`fizz/server/AeadTokenCipher.cpp:97-125`); `kTokenHeaderLength` is the hash length
plus 4. -/
def TokenCipher.decrypt (A : TokenAlg) (c : TokenCipher) (token : Bytes) (ad : Option Bytes) :
    Res (Option Bytes) :=
  if c.secrets.isEmpty ∨ token.length < A.hash.hashLen + 4 then .ok none
  else
    let salt := token.take A.hash.hashLen
    let seqNum := UInt32.ofNat (beDec ((token.drop A.hash.hashLen).take 4))
    let ciphertext := token.drop (A.hash.hashLen + 4)
    trySecrets A salt seqNum ciphertext ad c.secrets

/-- A cipher after a sequence of `setSecrets` calls, the only operation that changes it. -/
def TokenCipher.afterCalls (A : TokenAlg) : TokenCipher → List (List Bytes) → Res TokenCipher
  | c, [] => .ok c
  | c, call :: calls => do
    let (c', _) ← c.setSecrets A call
    c'.afterCalls A calls

end Fizz.Ticket

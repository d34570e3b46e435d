import Verif.Ticket.TokenSpec
import Verif.Crypto.HkdfProps

/-! # C16: tokens survive key rotation, and only then -/

namespace Fizz.Ticket
open Fizz.Crypto

/-- What is assumed of the cryptography: a 32-byte hash, key material within one HKDF-Expand, and an
AEAD that opens what it sealed.  True of SHA-256 / AES-128-GCM. -/
structure TokenAlg.Ok (A : TokenAlg) : Prop where
  hash : A.hash.Ok
  size : A.keyLen + A.ivLen ≤ 255 * A.hash.hashLen
  opens : ∀ k iv seq ad pt, A.tryOpen k iv seq ad (A.encr k iv seq ad pt) = some pt

/-- The derived secret can be used as an HKDF key: there is a context string, or the secret happens
to have the size of a hash. -/
def UsableSecret (A : TokenAlg) (contexts : List Bytes) (secret : Bytes) : Prop :=
  contexts ≠ [] ∨ secret.length = A.hash.hashLen

/-! ## Helpers -/

theorem extractContexts_eq {h : HashAlg} (ok : h.Ok) (ctxs : List Bytes) (s : Bytes) :
    extractContexts h ctxs s = .ok (Spec.contextual h.spec ctxs s) := by
  induction ctxs generalizing s with
  | nil => rfl
  | cons c ctxs ih =>
    simp only [extractContexts, extract_eq ok, Res.ok_bind, ih, Spec.contextual, List.foldl_cons]

theorem extractSecrets_eq {h : HashAlg} (ok : h.Ok) (ctxs ss : List Bytes) :
    extractSecrets h ctxs ss = .ok (ss.map (Spec.contextual h.spec ctxs)) := by
  induction ss with
  | nil => rfl
  | cons s ss ih => simp [extractSecrets, extractContexts_eq ok, ih]

theorem Extract_length {h : HashAlg} (ok : h.Ok) (a b : Bytes) :
    (Crypto.Spec.Extract h.spec a b).length = h.hashLen := by
  unfold Crypto.Spec.Extract; exact HMAC_length ok _ _

theorem contextual_length {A : TokenAlg} (ok : A.Ok) {ctxs : List Bytes} {s : Bytes}
    (hu : UsableSecret A ctxs s) :
    (Spec.contextual A.hash.spec ctxs s).length = A.hash.hashLen := by
  rcases hu with h | h
  · have : ∀ (l : List Bytes) (x : Bytes), x.length = A.hash.hashLen →
        (Spec.contextual A.hash.spec l x).length = A.hash.hashLen := by
      intro l
      induction l with
      | nil => intro x hx; exact hx
      | cons c l ih => intro x _; exact ih _ (Extract_length ok.hash _ _)
    cases ctxs with
    | nil => exact absurd rfl h
    | cons c cs => exact this cs _ (Extract_length ok.hash _ _)
  · cases ctxs with
    | nil => exact h
    | cons c cs =>
      have : ∀ (l : List Bytes) (x : Bytes), x.length = A.hash.hashLen →
          (Spec.contextual A.hash.spec l x).length = A.hash.hashLen := by
        intro l
        induction l with
        | nil => intro x hx; exact hx
        | cons c l ih => intro x _; exact ih _ (Extract_length ok.hash _ _)
      exact this _ _ h

theorem setSecrets_eq {A : TokenAlg} (ok : A.Ok) (c : TokenCipher) (call : List Bytes) :
    c.setSecrets A call =
      if ∀ s ∈ call, 32 ≤ s.length then
        .ok (⟨call.map (Spec.contextual A.hash.spec c.contextStrings), c.contextStrings⟩, true)
      else .ok (c, false) := by
  unfold TokenCipher.setSecrets
  by_cases h : ∀ s ∈ call, 32 ≤ s.length
  · rw [if_pos h, if_neg (by
      simp only [List.any_eq_true, not_exists, not_and, kMinTokenSecretLength]
      intro s hs hlt
      have := h s hs
      have := of_decide_eq_true hlt
      omega)]
    simp [extractSecrets_eq ok.hash]
  · rw [if_neg h, if_pos (by
      simp only [List.any_eq_true, kMinTokenSecretLength]
      simp only [Classical.not_forall] at h
      obtain ⟨x, hx, hl⟩ := h
      exact ⟨x, hx, decide_eq_true (by omega)⟩)]

theorem afterCalls_eq {A : TokenAlg} (ok : A.Ok) (ctxs : List Bytes) (calls : List (List Bytes))
    (cur : List Bytes) :
    TokenCipher.afterCalls A ⟨cur.map (Spec.contextual A.hash.spec ctxs), ctxs⟩ calls =
      .ok ⟨(Spec.installed calls cur).map (Spec.contextual A.hash.spec ctxs), ctxs⟩ := by
  induction calls generalizing cur with
  | nil => rfl
  | cons call calls ih =>
    simp only [TokenCipher.afterCalls, setSecrets_eq ok, Spec.installed]
    split
    · simpa using ih call
    · simpa using ih cur

theorem make_afterCalls {A : TokenAlg} (ok : A.Ok) (ctxs : List Bytes) (calls : List (List Bytes)) :
    (TokenCipher.make ctxs).afterCalls A calls =
      .ok ⟨(Spec.installed calls []).map (Spec.contextual A.hash.spec ctxs), ctxs⟩ :=
  afterCalls_eq ok ctxs calls []

theorem createAead_eq {A : TokenAlg} (ok : A.Ok) {secret salt : Bytes}
    (hs : secret.length = A.hash.hashLen) :
    createAead A secret salt =
      .ok (Spec.aeadKey A A.hash.spec secret salt, Spec.aeadIv A A.hash.spec secret salt) := by
  have hl := Expand_length ok.hash secret salt (A.keyLen + A.ivLen)
  simp only [createAead, expand_eq ok.hash _ _ _ hs ok.size, Res.ok_bind, Res.pure_eq,
    Spec.aeadKey, Spec.aeadIv]
  congr 2
  rw [List.take_of_length_le]
  simp only [List.length_drop, hl]; omega

/-! ## The theorems -/

/-- C16: `setSecrets` reports success and takes effect exactly when every secret has at least 32
bytes; otherwise nothing changes.  (`afterCalls` is the state a cipher is in after any sequence of
calls; `installed` says which call is in force.) -/
theorem C16_setSecrets (A : TokenAlg) (ok : A.Ok) (c : TokenCipher) (call : List Bytes) :
    ∃ c' done, c.setSecrets A call = .ok (c', done) ∧
      (done = true ↔ ∀ s ∈ call, 32 ≤ s.length) ∧
      (done = false → c' = c) ∧
      (done = true → c'.contextStrings = c.contextStrings ∧
        c'.secrets = call.map (Spec.contextual A.hash.spec c.contextStrings)) := by
  rw [setSecrets_eq ok]
  split
  · next h => exact ⟨_, _, rfl, by simpa using h, by simp, fun _ => ⟨rfl, rfl⟩⟩
  · next h => exact ⟨_, _, rfl, by simpa using h, by simp, by simp⟩

/-- C16: with no secrets in force, after any sequence of calls, both directions yield nothing. -/
theorem C16_no_secrets (A : TokenAlg) (ok : A.Ok) (ctxs : List Bytes) (calls : List (List Bytes))
    (hnone : Spec.installed calls [] = []) (salt pt token : Bytes) (ad : Option Bytes) :
    ∃ c, (TokenCipher.make ctxs).afterCalls A calls = .ok c ∧
      c.encrypt A salt pt ad = .ok none ∧ c.decrypt A token ad = .ok none := by
  refine ⟨_, make_afterCalls ok ctxs calls, ?_, ?_⟩
  · simp [TokenCipher.encrypt, hnone]
  · simp [TokenCipher.decrypt, hnone]

/-- C16: the token made from the secrets in force has the documented layout, and uses the key and
IV derived from the first of them and the salt. -/
theorem C16_format (A : TokenAlg) (ok : A.Ok) (ctxs : List Bytes) (calls : List (List Bytes))
    (first : Bytes) (others : List Bytes) (hin : Spec.installed calls [] = first :: others)
    (hu : UsableSecret A ctxs first) (salt pt : Bytes) (ad : Option Bytes) :
    ∃ c, (TokenCipher.make ctxs).afterCalls A calls = .ok c ∧
      c.encrypt A salt pt ad = .ok (some (salt ++ [0, 0, 0, 0] ++
        A.encr (Spec.aeadKey A A.hash.spec (Spec.contextual A.hash.spec ctxs first) salt)
          (Spec.aeadIv A A.hash.spec (Spec.contextual A.hash.spec ctxs first) salt) 0 ad pt)) := by
  refine ⟨_, make_afterCalls ok ctxs calls, ?_⟩
  simp only [TokenCipher.encrypt, hin, List.map_cons,
    createAead_eq ok (contextual_length ok hu), Res.ok_bind, Res.pure_eq]
  rfl

theorem trySecrets_eq {A : TokenAlg} (ok : A.Ok) (ctxs : List Bytes) (salt : Bytes) (seq : UInt32)
    (ct : Bytes) (ad : Option Bytes) (ss : List Bytes) (hu : ∀ s ∈ ss, UsableSecret A ctxs s) :
    trySecrets A salt seq ct ad (ss.map (Spec.contextual A.hash.spec ctxs)) =
      .ok (ss.findSome? fun s =>
        A.tryOpen (Spec.aeadKey A A.hash.spec (Spec.contextual A.hash.spec ctxs s) salt)
          (Spec.aeadIv A A.hash.spec (Spec.contextual A.hash.spec ctxs s) salt)
          seq.toUInt64 ad ct) := by
  induction ss with
  | nil => rfl
  | cons s ss ih =>
    simp only [List.map_cons, trySecrets,
      createAead_eq ok (contextual_length ok (hu s (by simp))), Res.ok_bind, Res.pure_eq,
      List.findSome?_cons]
    split
    · next h => rw [h]
    · next h => rw [h, ih fun s hs => hu s (by simp [hs])]

theorem findSome?_iff {α β} (f : α → Option β) (l : List α) (b : β) :
    l.findSome? f = some b ↔
      ∃ pre a post, l = pre ++ a :: post ∧ f a = some b ∧ ∀ x ∈ pre, f x = none := by
  induction l with
  | nil => simp
  | cons x l ih =>
    simp only [List.findSome?_cons]
    cases hx : f x with
    | some y =>
      constructor
      · intro h; exact ⟨[], x, l, rfl, by simpa [hx] using h, by simp⟩
      · rintro ⟨pre, a, post, h, ha, hn⟩
        cases pre with
        | nil => cases h; rw [← ha, hx]
        | cons z pre => cases h; simp [hn] at hx
    | none =>
      simp only [ih]
      constructor
      · rintro ⟨pre, a, post, rfl, ha, hn⟩
        exact ⟨x :: pre, a, post, rfl, ha, by simpa [hx] using hn⟩
      · rintro ⟨pre, a, post, h, ha, hn⟩
        cases pre with
        | nil => cases h; simp [ha] at hx
        | cons z pre =>
          cases h
          exact ⟨pre, a, post, rfl, ha, fun x hx => hn x (by simp [hx])⟩

/-- C16: a cipher, in any state it can be in, decrypts a token to a plaintext exactly when the token
is salt, four bytes of sequence number and a ciphertext which the AEAD opens under the key of one of
the secrets in force (the first one that opens it decides).  In particular nothing that the AEAD
does not open under a key in force is ever accepted, and shorter tokens are rejected. -/
theorem C16_decrypt_iff (A : TokenAlg) (ok : A.Ok) (ctxs : List Bytes) (calls : List (List Bytes))
    (hu : ∀ s ∈ Spec.installed calls [], UsableSecret A ctxs s) (token : Bytes)
    (ad : Option Bytes) :
    ∃ c result, (TokenCipher.make ctxs).afterCalls A calls = .ok c ∧
      c.decrypt A token ad = .ok result ∧
      ∀ pt, result = some pt ↔
        ∃ salt seq ct newer secret older, token = salt ++ beEnc 4 seq ++ ct ∧
          salt.length = A.hash.hashLen ∧ seq < 2 ^ 32 ∧
          Spec.installed calls [] = newer ++ secret :: older ∧
          (let opens := fun s =>
            A.tryOpen (Spec.aeadKey A A.hash.spec (Spec.contextual A.hash.spec ctxs s) salt)
              (Spec.aeadIv A A.hash.spec (Spec.contextual A.hash.spec ctxs s) salt)
              (UInt64.ofNat seq) ad ct
          opens secret = some pt ∧ ∀ s ∈ newer, opens s = none) := by
  refine ⟨_, if Spec.installed calls [] = [] ∨ token.length < A.hash.hashLen + 4 then none else
      (Spec.installed calls []).findSome? fun s =>
        A.tryOpen (Spec.aeadKey A A.hash.spec (Spec.contextual A.hash.spec ctxs s)
            (token.take A.hash.hashLen))
          (Spec.aeadIv A A.hash.spec (Spec.contextual A.hash.spec ctxs s)
            (token.take A.hash.hashLen))
          (UInt32.ofNat (beDec ((token.drop A.hash.hashLen).take 4))).toUInt64 ad
          (token.drop (A.hash.hashLen + 4)), make_afterCalls ok ctxs calls, ?_, ?_⟩
  · unfold TokenCipher.decrypt
    simp only [List.isEmpty_iff, List.map_eq_nil_iff]
    split
    · rfl
    · rw [trySecrets_eq ok ctxs _ _ _ _ _ hu]
  · intro pt
    by_cases h : Spec.installed calls [] = [] ∨ token.length < A.hash.hashLen + 4
    · rw [if_pos h]
      simp only [reduceCtorEq, false_iff]
      rintro ⟨salt, seq, ct, newer, secret, older, rfl, hs, _, hi, _⟩
      rcases h with h | h
      · rw [h] at hi; simp at hi
      · simp at h; omega
    · rw [if_neg h, findSome?_iff]
      have hlen : A.hash.hashLen + 4 ≤ token.length := by
        have := fun x => h (Or.inr x); omega
      have key : ∀ salt seq ct, token = salt ++ beEnc 4 seq ++ ct → salt.length = A.hash.hashLen →
          seq < 2 ^ 32 → token.take A.hash.hashLen = salt ∧
            UInt32.ofNat (beDec ((token.drop A.hash.hashLen).take 4)) = UInt32.ofNat seq ∧
            token.drop (A.hash.hashLen + 4) = ct := by
        rintro salt seq ct rfl hs hq
        refine ⟨?_, ?_, ?_⟩
        · rw [List.append_assoc, ← hs, List.take_left]
        · rw [List.append_assoc, ← hs, List.drop_left]
          rw [List.take_left' (by simp), beDec_beEnc (by simpa using hq)]
        · rw [List.drop_append_of_le_length (by simp; omega), List.drop_eq_nil_of_le (by simp; omega)]
          rfl
      have sq : ∀ seq, seq < 2 ^ 32 → (UInt32.ofNat seq).toUInt64 = UInt64.ofNat seq := by
        intro seq hq
        apply UInt64.toNat_inj.mp
        simp only [UInt32.toNat_toUInt64, UInt32.toNat_ofNat', UInt64.toNat_ofNat']
        omega
      constructor
      · rintro ⟨pre, s, post, hi, ho, hn⟩
        refine ⟨token.take A.hash.hashLen, beDec ((token.drop A.hash.hashLen).take 4),
          token.drop (A.hash.hashLen + 4), pre, s, post, ?_, ?_, ?_, hi, ?_⟩
        · have e : ((token.drop A.hash.hashLen).take 4).length = 4 := by simp; omega
          have := beEnc_beDec ((token.drop A.hash.hashLen).take 4)
          rw [e] at this
          rw [this, ← List.drop_drop, List.append_assoc, List.take_append_drop,
            List.take_append_drop]
        · simp; omega
        · have := beDec_lt ((token.drop A.hash.hashLen).take 4)
          have e : ((token.drop A.hash.hashLen).take 4).length = 4 := by simp; omega
          rw [e] at this; simpa using this
        · have hq : beDec ((token.drop A.hash.hashLen).take 4) < 2 ^ 32 := by
            have := beDec_lt ((token.drop A.hash.hashLen).take 4)
            have e : ((token.drop A.hash.hashLen).take 4).length = 4 := by simp; omega
            rw [e] at this; simpa using this
          simp only [← sq _ hq]
          exact ⟨ho, hn⟩
      · rintro ⟨salt, seq, ct, newer, secret, older, ht, hs, hq, hi, ho, hn⟩
        obtain ⟨k1, k2, k3⟩ := key salt seq ct ht hs hq
        refine ⟨newer, secret, older, hi, ?_, ?_⟩
        · rw [k1, k2, k3, sq _ hq]; exact ho
        · rw [k1, k2, k3, sq _ hq]; exact hn

/-- C16: a token made by one cipher object decrypts, in any other cipher object with the same
context strings whose secrets in force contain the encrypting secret in any position, to the same
plaintext — provided no secret listed before it accepts the token by accident (impossible for an
unforgeable AEAD unless that secret gives the same key, in which case it is not an accident). -/
theorem C16_rotation (A : TokenAlg) (ok : A.Ok) (ctxs : List Bytes)
    (issuerCalls readerCalls : List (List Bytes)) (first : Bytes) (others newer older : List Bytes)
    (hi : Spec.installed issuerCalls [] = first :: others)
    (hr : Spec.installed readerCalls [] = newer ++ first :: older)
    (hu : ∀ s ∈ newer ++ first :: older, UsableSecret A ctxs s)
    (salt pt : Bytes) (hsalt : salt.length = A.hash.hashLen) (ad : Option Bytes) :
    ∃ issuer reader token,
      (TokenCipher.make ctxs).afterCalls A issuerCalls = .ok issuer ∧
      (TokenCipher.make ctxs).afterCalls A readerCalls = .ok reader ∧
      issuer.encrypt A salt pt ad = .ok (some token) ∧
      ((∀ s ∈ newer, Spec.contextual A.hash.spec ctxs s ≠ Spec.contextual A.hash.spec ctxs first →
          A.tryOpen (Spec.aeadKey A A.hash.spec (Spec.contextual A.hash.spec ctxs s) salt)
            (Spec.aeadIv A A.hash.spec (Spec.contextual A.hash.spec ctxs s) salt) 0 ad
            (token.drop (A.hash.hashLen + 4)) = none) →
        reader.decrypt A token ad = .ok (some pt)) := by
  obtain ⟨ci, h1, h2⟩ := C16_format A ok ctxs issuerCalls first others hi
    (hu first (by simp)) salt pt ad
  obtain ⟨cr, res, h3, h4, h5⟩ := C16_decrypt_iff A ok ctxs readerCalls (hr ▸ hu)
    (salt ++ [0, 0, 0, 0] ++
        A.encr (Spec.aeadKey A A.hash.spec (Spec.contextual A.hash.spec ctxs first) salt)
          (Spec.aeadIv A A.hash.spec (Spec.contextual A.hash.spec ctxs first) salt) 0 ad pt) ad
  refine ⟨ci, cr, _, h1, h3, h2, ?_⟩
  intro hno
  rw [h4, (h5 pt).2]
  have hdrop : (salt ++ [0, 0, 0, 0] ++
        A.encr (Spec.aeadKey A A.hash.spec (Spec.contextual A.hash.spec ctxs first) salt)
          (Spec.aeadIv A A.hash.spec (Spec.contextual A.hash.spec ctxs first) salt) 0 ad pt).drop
        (A.hash.hashLen + 4) =
        A.encr (Spec.aeadKey A A.hash.spec (Spec.contextual A.hash.spec ctxs first) salt)
          (Spec.aeadIv A A.hash.spec (Spec.contextual A.hash.spec ctxs first) salt) 0 ad pt := by
    rw [List.drop_append_of_le_length (by simp; omega), List.drop_eq_nil_of_le (by simp; omega)]
    rfl
  rw [hdrop] at hno
  -- the first secret of the reader that derives the same key as `first`
  have split : ∀ (l : List Bytes), (∀ s ∈ l,
      Spec.contextual A.hash.spec ctxs s ≠ Spec.contextual A.hash.spec ctxs first →
      A.tryOpen (Spec.aeadKey A A.hash.spec (Spec.contextual A.hash.spec ctxs s) salt)
            (Spec.aeadIv A A.hash.spec (Spec.contextual A.hash.spec ctxs s) salt) 0 ad
            (A.encr (Spec.aeadKey A A.hash.spec (Spec.contextual A.hash.spec ctxs first) salt)
          (Spec.aeadIv A A.hash.spec (Spec.contextual A.hash.spec ctxs first) salt) 0 ad pt) = none) →
      ∃ pre s post, l ++ first :: older = pre ++ s :: post ∧
        Spec.contextual A.hash.spec ctxs s = Spec.contextual A.hash.spec ctxs first ∧
        ∀ x ∈ pre, A.tryOpen (Spec.aeadKey A A.hash.spec (Spec.contextual A.hash.spec ctxs x) salt)
            (Spec.aeadIv A A.hash.spec (Spec.contextual A.hash.spec ctxs x) salt) 0 ad
            (A.encr (Spec.aeadKey A A.hash.spec (Spec.contextual A.hash.spec ctxs first) salt)
          (Spec.aeadIv A A.hash.spec (Spec.contextual A.hash.spec ctxs first) salt) 0 ad pt) = none := by
    intro l hl
    induction l with
    | nil => exact ⟨[], first, older, rfl, rfl, by simp⟩
    | cons a l ih =>
      by_cases ha : Spec.contextual A.hash.spec ctxs a = Spec.contextual A.hash.spec ctxs first
      · exact ⟨[], a, l ++ first :: older, rfl, ha, by simp⟩
      · obtain ⟨pre, s, post, e, hs, hn⟩ := ih fun s hs => hl s (by simp [hs])
        refine ⟨a :: pre, s, post, by simp [e], hs, ?_⟩
        intro x hx
        rcases List.mem_cons.mp hx with rfl | hx
        · exact hl _ (by simp) ha
        · exact hn x hx
  obtain ⟨pre, s, post, e, hs, hn⟩ := split newer hno
  refine ⟨salt, 0, A.encr (Spec.aeadKey A A.hash.spec (Spec.contextual A.hash.spec ctxs first) salt)
          (Spec.aeadIv A A.hash.spec (Spec.contextual A.hash.spec ctxs first) salt) 0 ad pt,
    pre, s, post, rfl, hsalt, by decide, hr.trans e, ?_, hn⟩
  simp only [hs]
  exact ok.opens _ _ _ _ _

/-- C16 (finding): without context strings, a secret that is long enough for `setSecrets` but is not
exactly one hash long stops the process at the first use. -/
theorem C16_no_context_aborts (A : TokenAlg) (ok : A.Ok) (secret : Bytes)
    (hlong : 32 ≤ secret.length) (hne : secret.length ≠ A.hash.hashLen) (salt pt : Bytes)
    (ad : Option Bytes) :
    ∃ c, (TokenCipher.make []).setSecrets A [secret] = .ok (c, true) ∧
      c.encrypt A salt pt ad = .error .abort := by
  refine ⟨⟨[secret], []⟩, ?_, ?_⟩
  · rw [setSecrets_eq ok, if_pos (by simpa using hlong)]; rfl
  · have : createAead A secret salt = .error .abort := by
      simp [createAead, (C23_refuses A.hash secret salt _).2 hne]
    simp [TokenCipher.encrypt, this]

/-! ## A concrete instance (toy hash and AEAD), after a rotation -/

/-- An AEAD that prepends key, IV, sequence number and associated data. -/
def toyTokenAlg : TokenAlg where
  hash := toyHash
  keyLen := 2
  ivLen := 1
  encr := fun k iv seq ad pt => k ++ iv ++ beEnc 8 seq.toNat ++ [UInt8.ofNat (ad.getD []).length] ++
    (ad.getD []) ++ pt
  tryOpen := fun k iv seq ad ct =>
    let pre := k ++ iv ++ beEnc 8 seq.toNat ++ [UInt8.ofNat (ad.getD []).length] ++ (ad.getD [])
    if ct.take pre.length = pre then some (ct.drop pre.length) else none

theorem toyTokenAlg_ok : toyTokenAlg.Ok where
  hash := toyHash_ok
  size := by decide
  opens := by
    intro k iv seq ad pt
    simp only [toyTokenAlg]
    rw [List.take_left' rfl, if_pos rfl, List.drop_left' rfl]

set_option maxRecDepth 20000 in
/-- A token issued under secret 1 is read after rotating secret 2 in; the failed call in between
has no effect. -/
example :
    let k1 : Bytes := List.replicate 32 1
    let k2 : Bytes := List.replicate 33 2
    ∃ issuer reader token,
      (TokenCipher.make [[9], [8]]).afterCalls toyTokenAlg [[k1]] = .ok issuer ∧
      (TokenCipher.make [[9], [8]]).afterCalls toyTokenAlg [[k1], [k2, k1], [[5]]] = .ok reader ∧
      issuer.encrypt toyTokenAlg [7, 7] [1, 2, 3] (some [4]) = .ok (some token) ∧
      reader.decrypt toyTokenAlg token (some [4]) = .ok (some [1, 2, 3]) ∧
      reader.decrypt toyTokenAlg token none = .ok none := by
  refine ⟨_, _, _, rfl, rfl, rfl, ?_, ?_⟩ <;> decide

end Fizz.Ticket

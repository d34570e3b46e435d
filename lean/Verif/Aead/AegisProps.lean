import Verif.Aead.AegisSpec
import Verif.Aead.HelperLemmas

/-! # C79: the libaegis cipher -/

namespace Fizz.Aead.Aegis

open Fizz.Aead

variable {σ : Type}

theorem lastKey_snoc (kl il : Nat) (ops : List Op) (op : Op) :
    lastKey kl il (ops ++ [op]) = (match lastKey kl il [op] with
      | some k => some k
      | none => lastKey kl il ops) := by
  induction ops with
  | nil => cases h : lastKey kl il [op] <;> simp [lastKey, h]
  | cons o ops ih =>
    cases o <;> simp only [List.cons_append, lastKey, ih] <;> try rfl
    cases lastKey kl il [op] <;> rfl

/-- What every call leaves alone, and the key. -/
theorem calls_inv {c d : Cipher σ} {ops : List Op} (h : Calls c ops d) (hc : c.trafficKey = none) :
    d.lib = c.lib ∧ d.keyLength = c.keyLength ∧ d.ivLength = c.ivLength ∧ d.slack = c.slack ∧
      d.trafficKey = lastKey c.keyLength c.ivLength ops := by
  induction h with
  | nil => exact ⟨rfl, rfl, rfl, rfl, hc⟩
  | @snoc d e ops op _ hs ih =>
    obtain ⟨h1, h2, h3, h4, h5⟩ := ih
    rw [lastKey_snoc]
    cases hs with
    | setKey k =>
      simp only [Cipher.setKey, lastKey, h2, h3]
      by_cases a : k.key.length = c.keyLength
      · by_cases b : k.iv.length = c.ivLength
        · simp [a, b, h1, h2, h3, h4]
        · simp [a, b, h1, h2, h3, h4, h5]
      · simp [a, h1, h2, h3, h4, h5]
    | headroom n => exact ⟨h1, h2, h3, h4, h5⟩
    | encrypt => exact ⟨h1, h2, h3, h4, h5⟩
    | inplace => exact ⟨h1, h2, h3, h4, h5⟩
    | encryptNonce => exact ⟨h1, h2, h3, h4, h5⟩
    | tryDecrypt => exact ⟨h1, h2, h3, h4, h5⟩
    | tryDecryptNonce => exact ⟨h1, h2, h3, h4, h5⟩

theorem lastKey_lens {kl il : Nat} : ∀ {ops : List Op} {k : Key}, lastKey kl il ops = some k →
    k.key.length = kl ∧ k.iv.length = il
  | [], _, h => by simp [lastKey] at h
  | op :: ops, k, h => by
    cases op with
    | setKey k' =>
      simp only [lastKey] at h
      split at h
      next k'' e =>
        cases Option.some.inj h
        exact lastKey_lens e
      next =>
        split at h
        next g => cases Option.some.inj h; exact g
        next => simp at h
    | _ => exact lastKey_lens (ops := ops) h

theorem encFn_wraps {lib : Lib σ} {kl il : Nat} {A : Bytes → Ideal} (R : Realises lib kl il A)
    (k n a : Bytes) (b : Nat) : Wraps (encFn lib) (R.e k n a) (R.eo k n a) b := by
  intro p x
  obtain ⟨o, h1, h2⟩ := R.encUpdate k n a p x
  refine ⟨?_, fun _ => ⟨_, by simp only [encFn, h1]; rfl⟩⟩
  intro o' s' h
  simp only [encFn, h1, Except.ok.injEq, Prod.mk.injEq] at h
  obtain ⟨rfl, rfl⟩ := h
  exact ⟨rfl, h2⟩

theorem decFn_wraps {lib : Lib σ} {kl il : Nat} {A : Bytes → Ideal} (R : Realises lib kl il A)
    (k n a : Bytes) (b : Nat) : Wraps (decFn lib) (R.d k n a) (R.po k n a) b := by
  intro p x
  obtain ⟨o, h1, h2⟩ := R.decUpdate k n a p x
  refine ⟨?_, fun _ => ⟨_, by simp only [decFn, h1]; rfl⟩⟩
  intro o' s' h
  simp only [decFn, h1, Except.ok.injEq, Prod.mk.injEq] at h
  obtain ⟨rfl, rfl⟩ := h
  exact ⟨rfl, h2⟩

theorem encBody_spec {lib : Lib σ} {kl il : Nat} {A : Bytes → Ideal} (hA : ∀ k, (A k).Ok)
    (R : Realises lib kl il A) (k n a : Bytes) {src : Option Chain} {out : Chain} (hne : out ≠ [])
    (hroom : (source src out).flatten.length = out.flatten.length) :
    ∃ out', encBody lib (R.e k n a []) src out =
        .ok (out', ((A k).sealing n a (source src out).flatten).2) ∧ lens out' = lens out ∧
      out'.flatten = ((A k).sealing n a (source src out).flatten).1 := by
  have hw := encFn_wraps R k n a (source src out).flatten.length
  have hl : ∀ p, (R.eo k n a p).length = p.length := fun p => by
    rw [(R.encFinal k n a p).2, (hA k).cipherLen]
  obtain ⟨ps, hp, -, hok⟩ := transformBuffer_spec (hw.sameLength hl) hne (Nat.le_of_eq hroom)
  obtain ⟨os, hf, ho⟩ := hw.feed ps [] (by rw [List.nil_append, hp]; exact Nat.le_refl _)
  have hem : R.eo k n a [] = [] := List.eq_nil_of_length_eq_zero (hl [])
  simp only [List.nil_append, hem, hp] at hf ho
  obtain ⟨out', h1, h2, h3⟩ := hok os _ hf
  obtain ⟨f1, f2⟩ := R.encFinal k n a (source src out).flatten
  refine ⟨out', ?_, h2, ?_⟩
  · simp only [encBody, h1, Res.ok_bind, kTagLength, f1]
  · rw [h3, ho, f2, (hA k).cipherLen, List.drop_eq_nil_of_le (by omega), List.append_nil]

theorem decBody_spec {lib : Lib σ} {kl il : Nat} {A : Bytes → Ideal}
    (R : Realises lib kl il A) (k n a tag : Bytes) (htag : tag.length = 16) {src : Option Chain}
    {out : Chain} (hne : out ≠ [])
    (hroom : (source src out).flatten.length = out.flatten.length) :
    ∃ out' b, decBody lib tag (R.d k n a []) src out = .ok (out', b) ∧ lens out' = lens out ∧
      (if b then some out'.flatten else none) = (A k).opening n a (source src out).flatten tag := by
  have hw := decFn_wraps R k n a (source src out).flatten.length
  obtain ⟨ps, hp, -, hok⟩ := transformBuffer_spec (hw.sameLength (R.poLen k n a)) hne
    (Nat.le_of_eq hroom)
  obtain ⟨os, hf, ho⟩ := hw.feed ps [] (by rw [List.nil_append, hp]; exact Nat.le_refl _)
  have hem : R.po k n a [] = [] := List.eq_nil_of_length_eq_zero (R.poLen k n a [])
  simp only [List.nil_append, hem, hp] at hf ho
  obtain ⟨out', h1, h2, h3⟩ := hok os _ hf
  have ht : tag.take kTagLength = tag := List.take_of_length_le (by simp [kTagLength, htag])
  refine ⟨out', lib.decFinal (R.d k n a (source src out).flatten) tag, ?_, h2, ?_⟩
  · simp only [decBody, h1, Res.ok_bind, ht]
  · cases hop : (A k).opening n a (source src out).flatten tag with
    | none => rw [R.decBad _ _ _ _ _ hop]; simp
    | some p =>
      obtain ⟨f1, f2⟩ := R.decGood _ _ _ _ _ _ hop
      rw [f1, if_pos rfl, h3, ho, R.poLen, List.drop_eq_nil_of_le (by omega), List.append_nil, f2]

theorem init_enc {c : Cipher σ} {A : Bytes → Ideal} (R : Realises c.lib c.keyLength c.ivLength A)
    {k : Key} (hk : c.trafficKey = some k) (hl : k.key.length = c.keyLength) {n : Bytes}
    (hn : n.length = c.ivLength) (aad : Option Chain) :
    c.init n aad = .ok (R.e k.key n (aad.getD []).flatten []) := by
  simp only [Cipher.init, hk]
  rw [if_neg (by omega), List.take_of_length_le (by omega), R.encInit _ _ _ _ hl hn]

theorem init_dec {c : Cipher σ} {A : Bytes → Ideal} (R : Realises c.lib c.keyLength c.ivLength A)
    {k : Key} (hk : c.trafficKey = some k) (hl : k.key.length = c.keyLength) {n : Bytes}
    (hn : n.length = c.ivLength) (aad : Option Chain) :
    c.init n aad = .ok (R.d k.key n (aad.getD []).flatten []) := by
  simp only [Cipher.init, hk]
  rw [if_neg (by omega), List.take_of_length_le (by omega), R.decInit _ _ _ _ hl hn]

theorem encrypt_spec (c : Cipher σ) {A : Bytes → Ideal} (hA : ∀ k, (A k).Ok)
    (R : Realises c.lib c.keyLength c.ivLength A) {k : Key} (hk : c.trafficKey = some k)
    (hl : k.key.length = c.keyLength) (plain : List Buf) (hne : plain ≠ []) (aad : Option Chain)
    {nonce : Bytes} (hn : nonce.length = c.ivLength) (opts : AeadOptions)
    (hsize : c.headroom + (datas plain).flatten.length + 16 < 2^64) :
    (¬ InPlace plain opts → opts.allocOpt = .deny →
      c.encrypt plain aad nonce opts =
        .error (.rt "Cannot encrypt (must be in-place or allow allocation)")) ∧
    (InPlace plain opts → ¬ TagFits plain opts 16 → opts.allocOpt = .deny →
      c.encrypt plain aad nonce opts =
        .error (.rt "Cannot encrypt (insufficient space for tag)")) ∧
    (opts.allocOpt = .allow ∨ (InPlace plain opts ∧ TagFits plain opts 16) →
      ∃ r, c.encrypt plain aad nonce opts = .ok r ∧
        (datas r).flatten =
          ((A k.key).sealing nonce (aad.getD []).flatten (datas plain).flatten).1 ++
          ((A k.key).sealing nonce (aad.getD []).flatten (datas plain).flatten).2) := by
  simp only [Cipher.encrypt, init_enc R hk hl hn]
  refine encryptWith_spec (fun src out hne hin hroom hsrc => ?_) plain hne hsize
  obtain ⟨m, e1, e2, e3⟩ := encBody_spec hA R k.key nonce (aad.getD []).flatten hne hroom
  rw [hsrc] at e1 e3
  refine ⟨m, _, e1, e2, e3, ?_⟩
  have := (hA k.key).tagLen nonce (aad.getD []).flatten (datas plain).flatten
  rw [R.tagLen] at this
  simp only [encTag]
  rw [if_neg (Nat.lt_irrefl _), List.take_of_length_le (by simp only [kTagLength]; omega)]

theorem tryDecrypt_spec (c : Cipher σ) {A : Bytes → Ideal}
    (R : Realises c.lib c.keyLength c.ivLength A) {k : Key} (hk : c.trafficKey = some k)
    (hl : k.key.length = c.keyLength) (ct : List Buf) (hne : ct ≠ []) (aad : Option Chain)
    {nonce : Bytes} (hn : nonce.length = c.ivLength) (opts : AeadOptions) :
    ((datas ct).flatten.length < 16 → c.tryDecrypt ct aad nonce opts = .ok none) ∧
    (16 ≤ (datas ct).flatten.length → ¬ InPlace ct opts → opts.allocOpt = .deny →
      c.tryDecrypt ct aad nonce opts =
        .error (.rt "Unable to decrypt (no-alloc requires in-place)")) ∧
    (16 ≤ (datas ct).flatten.length → InPlace ct opts → opts.allocOpt = .deny →
      lastLength ct < 16 →
      c.tryDecrypt ct aad nonce opts =
        .error (.rt "Unable to decrypt (tag is fragmented and no allocation allowed)")) ∧
    (opts.allocOpt = .allow ∨ (InPlace ct opts ∧ 16 ≤ lastLength ct) →
      ∀ body tag, (datas ct).flatten = body ++ tag → tag.length = 16 →
      ∃ r, c.tryDecrypt ct aad nonce opts = .ok r ∧
        r.map (fun b => (datas b).flatten) =
          (A k.key).opening nonce (aad.getD []).flatten body tag) := by
  simp only [Cipher.tryDecrypt, init_dec R hk hl hn]
  refine tryDecryptWith_spec (Nat.le_refl _) ct hne opts fun ct' tag inPlace hc _ ht => ?_
  refine decryptWith_spec (fun src out hne hin hroom hsrc => ?_) hc
  obtain ⟨m, b, e1, e2, e3⟩ := decBody_spec R k.key nonce (aad.getD []).flatten tag ht hne hroom
  exact ⟨m, b, e1, e2, by rw [e3, hsrc]⟩

theorem nonce_spec {c : Cipher σ} {k : Key} (hk : c.trafficKey = some k)
    (hl : k.iv.length = c.ivLength) (h8 : 8 ≤ c.ivLength) (h32 : c.ivLength ≤ 32) (seq : UInt64) :
    c.nonce seq = .ok (nonceOf k.iv seq) ∧ (nonceOf k.iv seq).length = c.ivLength := by
  have hz : ∀ l : Bytes, List.zipWith (· ^^^ ·) l (List.replicate l.length 0) = l := by
    intro l
    induction l with
    | nil => rfl
    | cons x l ih => simp [List.replicate_succ, ih]
  constructor
  · simp only [Cipher.nonce, hk, Option.map_some, Option.getD_some, Record.createIV, hl, nonceOf,
      Record.xorBytes]
    rw [if_neg (by simp only [kMaxIVLength]; omega), if_neg (by omega), if_neg (by simp)]
    congr 1
    conv => lhs; rw [← List.take_append_drop (c.ivLength - 8) k.iv]
    have ht : (k.iv.take (c.ivLength - 8)).length = c.ivLength - 8 := by
      rw [List.length_take]; omega
    rw [List.zipWith_append (by rw [ht, List.length_replicate])]
    have := hz (k.iv.take (c.ivLength - 8))
    rw [ht] at this
    rw [this]
  · simp only [nonceOf, List.length_append, List.length_take, List.length_zipWith, List.length_drop,
      beEnc_length]
    omega

/-- **C79** A key is taken exactly when key and IV have the cipher's lengths, and the object reports the
last one taken; a refused key changes nothing. -/
theorem C79_key {c d : Cipher σ} {ops : List Op} (h : Calls c ops d) (hc : c.getKey = none) :
    d.getKey = lastKey c.keyLength c.ivLength ops ∧
    (∀ k, (d.setKey k).2 = .ok () ↔ k.key.length = c.keyLength ∧ k.iv.length = c.ivLength) ∧
    (∀ k, (d.setKey k).2 ≠ .ok () → (d.setKey k).1 = d) := by
  obtain ⟨-, h2, h3, -, h5⟩ := calls_inv h hc
  refine ⟨h5, fun k => ?_, fun k hk => ?_⟩
  · simp only [Cipher.setKey, h2, h3]
    by_cases a : k.key.length = c.keyLength
    · by_cases b : k.iv.length = c.ivLength <;> simp [a, b]
    · simp [a]
  · revert hk
    simp only [Cipher.setKey]
    split
    · simp
    · split <;> simp

/-- **C79** Encryption: after any calls whatever on the object — with other keys, other data, successful
or broken off — for every fragmentation, sharing, tailroom and options, encrypting a record gives the
ciphertext and tag that the key in force, the record's nonce and the concatenated data determine, or one
of the two documented failures under "no allocation". -/
theorem C79_encrypt {c d : Cipher σ} {ops : List Op} (h : Calls c ops d) (hc : c.getKey = none)
    {A : Bytes → Ideal} (hA : ∀ k, (A k).Ok) (R : Realises c.lib c.keyLength c.ivLength A)
    (h8 : 8 ≤ c.ivLength) (h32 : c.ivLength ≤ 32)
    {k : Key} (hk : lastKey c.keyLength c.ivLength ops = some k)
    (plain : List Buf) (hne : plain ≠ []) (aad : Option Chain) (seq : UInt64) (opts : AeadOptions)
    (hsize : d.headroom + (datas plain).flatten.length + 16 < 2^64) :
    (¬ InPlace plain opts → opts.allocOpt = .deny →
      d.encryptSeq plain aad seq opts =
        .error (.rt "Cannot encrypt (must be in-place or allow allocation)")) ∧
    (InPlace plain opts → ¬ TagFits plain opts 16 → opts.allocOpt = .deny →
      d.encryptSeq plain aad seq opts =
        .error (.rt "Cannot encrypt (insufficient space for tag)")) ∧
    (opts.allocOpt = .allow ∨ (InPlace plain opts ∧ TagFits plain opts 16) →
      ∃ r, d.encryptSeq plain aad seq opts = .ok r ∧
        (datas r).flatten =
          ((A k.key).sealing (nonceOf k.iv seq) (aad.getD []).flatten (datas plain).flatten).1 ++
          ((A k.key).sealing (nonceOf k.iv seq) (aad.getD []).flatten (datas plain).flatten).2) ∧
    d.inplaceEncrypt plain aad seq =
      d.encryptSeq plain aad seq ⟨.allowFullModification, .deny⟩ := by
  obtain ⟨h1, h2, h3, -, h5⟩ := calls_inv h hc
  obtain ⟨l1, l2⟩ := lastKey_lens hk
  have hk' := h5.trans hk
  rw [← h1, ← h2, ← h3] at R
  obtain ⟨n1, n2⟩ := nonce_spec hk' (by rw [l2, h3]) (by omega) (by omega) seq
  have := encrypt_spec d hA R hk' (by rw [l1, h2]) plain hne aad n2 opts hsize
  simp only [Cipher.encryptSeq, Cipher.inplaceEncrypt, n1, Res.ok_bind]
  exact ⟨this.1, this.2.1, this.2.2, trivial⟩

/-- **C79** Decryption: likewise, what comes out is exactly what opening the concatenation under the key in
force gives — the plaintext, or nothing; input shorter than a tag gives nothing; the only failures are the
two documented ones under "no allocation". -/
theorem C79_decrypt {c d : Cipher σ} {ops : List Op} (h : Calls c ops d) (hc : c.getKey = none)
    {A : Bytes → Ideal} (R : Realises c.lib c.keyLength c.ivLength A)
    (h8 : 8 ≤ c.ivLength) (h32 : c.ivLength ≤ 32)
    {k : Key} (hk : lastKey c.keyLength c.ivLength ops = some k)
    (ct : List Buf) (hne : ct ≠ []) (aad : Option Chain) (seq : UInt64) (opts : AeadOptions) :
    ((datas ct).flatten.length < 16 → d.tryDecryptSeq ct aad seq opts = .ok none) ∧
    (16 ≤ (datas ct).flatten.length → ¬ InPlace ct opts → opts.allocOpt = .deny →
      d.tryDecryptSeq ct aad seq opts =
        .error (.rt "Unable to decrypt (no-alloc requires in-place)")) ∧
    (16 ≤ (datas ct).flatten.length → InPlace ct opts → opts.allocOpt = .deny →
      lastLength ct < 16 →
      d.tryDecryptSeq ct aad seq opts =
        .error (.rt "Unable to decrypt (tag is fragmented and no allocation allowed)")) ∧
    (opts.allocOpt = .allow ∨ (InPlace ct opts ∧ 16 ≤ lastLength ct) →
      ∀ body tag, (datas ct).flatten = body ++ tag → tag.length = 16 →
      ∃ r, d.tryDecryptSeq ct aad seq opts = .ok r ∧
        r.map (fun b => (datas b).flatten) =
          (A k.key).opening (nonceOf k.iv seq) (aad.getD []).flatten body tag) := by
  obtain ⟨h1, h2, h3, -, h5⟩ := calls_inv h hc
  obtain ⟨l1, l2⟩ := lastKey_lens hk
  have hk' := h5.trans hk
  rw [← h1, ← h2, ← h3] at R
  obtain ⟨n1, n2⟩ := nonce_spec hk' (by rw [l2, h3]) (by omega) (by omega) seq
  have := tryDecrypt_spec d R hk' (by rw [l1, h2]) ct hne aad n2 opts
  simp only [Cipher.tryDecryptSeq, n1, Res.ok_bind]
  exact this

/-- **C79** Round trip between two objects, each with its own history, as long as the key in force is the
same: encrypt, cut the result into buffers in any way, decrypt. -/
theorem C79_roundtrip {c c' d d' : Cipher σ} {ops ops' : List Op} (h : Calls c ops d)
    (h' : Calls c' ops' d') (hc : c.getKey = none) (hc' : c'.getKey = none)
    {A : Bytes → Ideal} (hA : ∀ k, (A k).Ok) (R : Realises c.lib c.keyLength c.ivLength A)
    (R' : Realises c'.lib c'.keyLength c'.ivLength A) (h8 : 8 ≤ c.ivLength) (h32 : c.ivLength ≤ 32)
    (h8' : 8 ≤ c'.ivLength) (h32' : c'.ivLength ≤ 32)
    {k : Key} (hk : lastKey c.keyLength c.ivLength ops = some k)
    (hk' : lastKey c'.keyLength c'.ivLength ops' = some k)
    (plain ct : List Buf) (hne : plain ≠ []) (hne' : ct ≠ []) (aad aad' : Option Chain)
    (seq : UInt64) (opts opts' : AeadOptions) (hal : opts.allocOpt = .allow)
    (hal' : opts'.allocOpt = .allow)
    (hsize : d.headroom + (datas plain).flatten.length + 16 < 2^64)
    (haad : (aad'.getD []).flatten = (aad.getD []).flatten)
    (r : List Buf) (hr : d.encryptSeq plain aad seq opts = .ok r)
    (hct : (datas ct).flatten = (datas r).flatten) :
    ∃ p, d'.tryDecryptSeq ct aad' seq opts' = .ok (some p) ∧
      (datas p).flatten = (datas plain).flatten := by
  obtain ⟨-, -, h3, -⟩ := C79_encrypt h hc hA R h8 h32 hk plain hne aad seq opts hsize
  obtain ⟨r', e1, e2⟩ := h3 (Or.inl hal)
  rw [hr] at e1
  cases e1
  have l2 := (hA k.key).tagLen (nonceOf k.iv seq) (aad.getD []).flatten (datas plain).flatten
  rw [R.tagLen] at l2
  obtain ⟨-, -, -, h4⟩ := C79_decrypt h' hc' R' h8' h32' hk' ct hne' aad' seq opts'
  obtain ⟨q, q1, q2⟩ := h4 (Or.inl hal') _ _ (by rw [hct, e2]) l2
  rw [haad, (hA k.key).correct] at q2
  cases q with
  | none => simp at q2
  | some p => exact ⟨p, q1, by simpa using q2⟩

end Fizz.Aead.Aegis

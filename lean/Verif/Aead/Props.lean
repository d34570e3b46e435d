import Verif.Aead.HelperLemmas

/-!
# C37: cipher processing does not depend on buffer fragmentation
-/

namespace Fizz.Aead

open Spec

variable {σ : Type}

/-- **C37** `transformBuffer`.  For any input chain and any output chain at least as long — the same
chain (`src = none`, in place) or another one — and any function that writes as many bytes as it reads:
the function is handed pieces that concatenate to the input, in order; its outputs end up one after the
other at the start of the output chain; nothing else is written, no buffer changes its length, nothing is
read or written outside a buffer (a `ub` outcome otherwise), the traversal ends; an error of the function
is the only error. -/
theorem C37_transform {func : σ → Bytes → Res (Bytes × σ)} {s : σ} (hw : SameLength func s)
    (src : Option Chain) (out : Chain) (hne : out ≠ [])
    (hroom : (src.getD out).flatten.length ≤ out.flatten.length) :
    ∃ pieces : List Bytes, pieces.flatten = (src.getD out).flatten ∧
      (∀ e, feed func s pieces = .error e → transformBuffer src out func s = .error e) ∧
      (∀ os s', feed func s pieces = .ok (os, s') → ∃ out',
        transformBuffer src out func s = .ok (out', s') ∧
        out'.map List.length = out.map List.length ∧
        out'.flatten = os.flatten ++ out.flatten.drop os.flatten.length) :=
  transformBuffer_spec hw hne hroom

/-- **C37** `transformBufferBlocks`.  The same for a function that writes whole blocks only and holds
back the rest: for every block size up to 128, every pair of chain shapes, in place or not. -/
theorem C37_blocks {func : σ → Bytes → Res (Bytes × σ)} {s : σ} {bs : Nat} {held : σ → Nat}
    (hw : WholeBlocks bs held func s) (h0 : held s = 0) (h1 : 0 < bs) (h2 : bs ≤ 128)
    (src : Option Chain) (out : Chain) (hne : out ≠ []) (hin : src.getD out ≠ [])
    (hroom : (src.getD out).flatten.length ≤ out.flatten.length) :
    ∃ pieces : List Bytes, pieces.flatten = (src.getD out).flatten ∧
      (∀ e, feed func s pieces = .error e → transformBufferBlocks src out func bs s = .error e) ∧
      (∀ os s', feed func s pieces = .ok (os, s') → ∃ out' cur,
        transformBufferBlocks src out func bs s = .ok (out', cur, s') ∧
        out'.map List.length = out.map List.length ∧
        out'.flatten = os.flatten ++ out.flatten.drop os.flatten.length ∧
        (out.map List.length |>.take cur.i).sum + cur.o = os.flatten.length) := by
  obtain ⟨ps, hp, he, hok⟩ := transformBufferBlocks_spec hw h0 h1 h2 hne hin hroom
  refine ⟨ps, hp, he, ?_⟩
  intro os s' h
  obtain ⟨out', cur, e1, e2, e3, -, e5⟩ := hok os s' h
  exact ⟨out', cur, e1, e2, e3, e5⟩

/-- **C37** an invalid block size is refused before anything is touched. -/
theorem C37_blocksize (func : σ → Bytes → Res (Bytes × σ)) (s : σ) (bs : Nat)
    (h : bs = 0 ∨ 128 < bs) (src : Option Chain) (out : Chain) :
    transformBufferBlocks src out func bs s =
      .error (.err "invalid transformBufferBlocks blockSize" none .stdOutOfRange) := by
  simp only [transformBufferBlocks, kMaxBlock, h, if_true]

/-- **C37** `OpenSSLEVPCipher::encrypt`: for every fragmentation of plaintext and associated data, every
sharing and tailroom, and all options, the result is the ciphertext and tag of the concatenations; the
only failures are the two documented ones under "no allocation". -/
theorem C37_encrypt (c : EvpCipher σ) {A : Ideal} (hA : A.Ok)
    (I : Implements c.evp (if c.operatesInBlocks then 16 else 1) A) (htag : c.tagLength = A.tagLen)
    (plain : List Buf) (hne : plain ≠ []) (aad : Option Chain) (nonce : Bytes) (opts : AeadOptions)
    (hp : (datas plain).flatten.length ≤ 2^31 - 1) (ha : (aad.getD []).flatten.length ≤ 2^31 - 1)
    (hsize : c.headroom + (datas plain).flatten.length + c.tagLength < 2^64) :
    (¬ InPlace plain opts → opts.allocOpt = .deny →
      c.encrypt plain aad nonce opts =
        .error (.rt "Cannot encrypt (must be in-place or allow allocation)")) ∧
    (InPlace plain opts → ¬ TagFits plain opts c.tagLength → opts.allocOpt = .deny →
      c.encrypt plain aad nonce opts =
        .error (.rt "Cannot encrypt (insufficient space for tag)")) ∧
    (opts.allocOpt = .allow ∨ (InPlace plain opts ∧ TagFits plain opts c.tagLength) →
      ∃ r, c.encrypt plain aad nonce opts = .ok r ∧
        (datas r).flatten =
          (A.sealing nonce (aad.getD []).flatten (datas plain).flatten).1 ++
          (A.sealing nonce (aad.getD []).flatten (datas plain).flatten).2) := by
  have hinit : encInit c.evp nonce aad = .ok (I.e nonce (aad.getD []).flatten []) := by
    simp only [encInit, I.encInit]
    have := aad_spec (upd := c.evp.encAad) (st := fun a => I.e nonce a []) (msg := "Encryption error")
      (I.encAad nonce) (aad.getD []) [] ha
    simpa using this
  simp only [EvpCipher.encrypt, encryptHelper, hinit]
  refine encryptWith_spec (fun src out hne hin hroom hsrc => ?_) plain hne hsize
  obtain ⟨m, s, e1, e2, e3, e4⟩ := encBody_spec (blocks := c.operatesInBlocks) hA I nonce
    (aad.getD []).flatten hne hin hroom (by rw [hsrc]; exact hp)
  rw [hsrc] at e3 e4
  exact ⟨m, s, e1, e2, e3, by simp only [encTag, htag, e4]⟩

/-- `decryptHelper` opens the concatenation. -/
theorem decryptHelper_spec {evp : Evp σ} {blocks : Bool} {A : Ideal} (hA : A.Ok)
    (I : Implements evp (modeBlock blocks) A) (slack : Nat) {ct : List Buf} (hne : ct ≠ [])
    (aad : Option Chain) (nonce tag : Bytes) (inPlace : Bool) (htag : tag.length = A.tagLen)
    (hp : (datas ct).flatten.length ≤ intMax) (ha : (aad.getD []).flatten.length ≤ intMax) :
    ∃ r, decryptHelper evp blocks slack ct aad nonce tag inPlace = .ok r ∧
      r.map (fun b => (datas b).flatten) =
        A.opening nonce (aad.getD []).flatten (datas ct).flatten tag := by
  have hinit : decInit evp nonce aad = .ok (I.d nonce (aad.getD []).flatten []) := by
    simp only [decInit, I.decInit]
    have := aad_spec (upd := evp.decAad) (st := fun a => I.d nonce a []) (msg := "Decryption error")
      (I.decAad nonce) (aad.getD []) [] ha
    simpa using this
  simp only [decryptHelper, hinit]
  refine decryptWith_spec (fun src out hne hin hroom hsrc => ?_) hne
  obtain ⟨m, b, e1, e2, e3⟩ := decBody_spec (blocks := blocks) hA I nonce (aad.getD []).flatten tag
    htag hne hin hroom (by rw [hsrc]; exact hp)
  exact ⟨m, b, e1, e2, by rw [e3, hsrc]⟩

/-- **C37** `OpenSSLEVPCipher::tryDecrypt`: for every fragmentation — including a tag spread over several
buffers — every sharing and all options, what comes out is exactly what opening the concatenation gives:
the plaintext, or nothing.  Input shorter than a tag gives nothing.  The only failures are the two
documented ones under "no allocation". -/
theorem C37_decrypt (c : EvpCipher σ) {A : Ideal} (hA : A.Ok)
    (I : Implements c.evp (if c.operatesInBlocks then 16 else 1) A) (htag : c.tagLength = A.tagLen)
    (hmaxtag : c.tagLength ≤ 20)
    (ct : List Buf) (hne : ct ≠ []) (aad : Option Chain) (nonce : Bytes) (opts : AeadOptions)
    (hp : (datas ct).flatten.length ≤ 2^31 - 1) (ha : (aad.getD []).flatten.length ≤ 2^31 - 1) :
    ((datas ct).flatten.length < c.tagLength → c.tryDecrypt ct aad nonce opts = .ok none) ∧
    (c.tagLength ≤ (datas ct).flatten.length → ¬ InPlace ct opts → opts.allocOpt = .deny →
      c.tryDecrypt ct aad nonce opts =
        .error (.rt "Unable to decrypt (no-alloc requires in-place)")) ∧
    (c.tagLength ≤ (datas ct).flatten.length → InPlace ct opts → opts.allocOpt = .deny →
      lastLength ct < c.tagLength →
      c.tryDecrypt ct aad nonce opts =
        .error (.rt "Unable to decrypt (tag is fragmented and no allocation allowed)")) ∧
    (opts.allocOpt = .allow ∨ (InPlace ct opts ∧ c.tagLength ≤ lastLength ct) →
      ∀ body tag, (datas ct).flatten = body ++ tag → tag.length = c.tagLength →
      ∃ r, c.tryDecrypt ct aad nonce opts = .ok r ∧
        r.map (fun b => (datas b).flatten) =
          A.opening nonce (aad.getD []).flatten body tag) := by
  exact tryDecryptWith_spec hmaxtag ct hne opts fun ct' tag inPlace hc hl ht =>
    decryptHelper_spec hA I c.slack hc aad nonce tag inPlace (by rw [ht, htag])
      (by simp only [intMax]; omega) ha

/-- **C37** Encrypt, cut the result into buffers in any way, decrypt: the plaintext comes back, whatever
the fragmentation of plaintext, ciphertext and associated data on either side. -/
theorem C37_roundtrip (c : EvpCipher σ) {A : Ideal} (hA : A.Ok)
    (I : Implements c.evp (if c.operatesInBlocks then 16 else 1) A) (htag : c.tagLength = A.tagLen)
    (hmaxtag : c.tagLength ≤ 20)
    (plain ct : List Buf) (hne : plain ≠ []) (hne' : ct ≠ []) (aad aad' : Option Chain)
    (nonce : Bytes) (opts opts' : AeadOptions) (hal : opts.allocOpt = .allow)
    (hal' : opts'.allocOpt = .allow)
    (hp : (datas plain).flatten.length + c.tagLength ≤ 2^31 - 1)
    (ha : (aad.getD []).flatten.length ≤ 2^31 - 1)
    (hhead : c.headroom ≤ 2^32)
    (haad : (aad'.getD []).flatten = (aad.getD []).flatten)
    (r : List Buf) (hr : c.encrypt plain aad nonce opts = .ok r)
    (hct : (datas ct).flatten = (datas r).flatten) :
    ∃ p, c.tryDecrypt ct aad' nonce opts' = .ok (some p) ∧
      (datas p).flatten = (datas plain).flatten := by
  obtain ⟨-, -, h3⟩ := C37_encrypt c hA I htag plain hne aad nonce opts (by omega) ha (by omega)
  obtain ⟨r', e1, e2⟩ := h3 (Or.inl hal)
  rw [hr] at e1
  cases e1
  have l1 := hA.cipherLen nonce (aad.getD []).flatten (datas plain).flatten
  have l2 := hA.tagLen nonce (aad.getD []).flatten (datas plain).flatten
  obtain ⟨-, -, -, h4⟩ := C37_decrypt c hA I htag hmaxtag ct hne' aad' nonce opts'
    (by rw [hct, e2, List.length_append, l1, l2, ← htag]; exact hp) (by rw [haad]; exact ha)
  obtain ⟨q, q1, q2⟩ := h4 (Or.inl hal') _ _ (by rw [hct, e2]) (by rw [l2, htag])
  rw [haad, hA.correct] at q2
  cases q with
  | none => simp at q2
  | some p => exact ⟨p, q1, by simpa using q2⟩

/-- **C37** `trimBytes` cuts exactly the last `n` bytes, and `trimStart` exactly the first `n`, over any
number of buffers. -/
theorem C37_trim (c : Chain) (hc : c ≠ []) (n : Nat) (h : n ≤ c.flatten.length) :
    (∃ r, trimBytes c n = .ok (r, c.flatten.drop (c.flatten.length - n)) ∧
      r.flatten = c.flatten.take (c.flatten.length - n)) ∧
    (trimStart c n).flatten = c.flatten.drop n := by
  refine ⟨?_, ?_⟩
  · obtain ⟨r, h1, -, h3⟩ := trimBytes_spec hc h
    exact ⟨r, h1, h3⟩
  · clear hc h
    induction c generalizing n with
    | nil => simp [trimStart]
    | cons b bs ih =>
      simp only [trimStart]
      by_cases h0 : n - min b.length n = 0
      · rw [if_pos h0, List.flatten_cons, List.flatten_cons, List.drop_append,
          Nat.min_eq_right (by omega)]
        rw [show n - b.length = 0 by omega]; rfl
      · rw [if_neg h0, List.flatten_cons, List.flatten_cons, List.drop_append, ih]
        have : min b.length n = b.length := by omega
        rw [this, List.drop_length, List.drop_eq_nil_of_le (as := b) (by omega)]

end Fizz.Aead

import Verif.Ktls.Spec
import Verif.Record.WriteProps

/-! # Kernel TLS: handing the keys over (C84) -/

namespace Fizz.Ktls

open Fizz.Codec Fizz.Record

/-- The structure for valid parameters. -/
def infoBytes (cipher : UInt8) (key iv : Bytes) (seq : UInt64) : Bytes :=
  [4, 3, cipher, 0] ++ iv.drop 4 ++ key ++ iv.take 4 ++ beEnc 8 seq.toNat

theorem toSockopt_eq {p : Params} {b : Bytes} :
    toSockopt p = .ok (some b) ↔ ∃ key iv, Spec.Supported p key iv ∧
      b = infoBytes (if p.ciphersuite = 0x1301 then 51 else 52) key iv p.recordSeq := by
  obtain ⟨suite, ⟨ok, oi⟩, seq⟩ := p
  constructor
  · intro h
    unfold toSockopt at h
    cases hl : layout suite with
    | none => simp [hl] at h
    | some l =>
      simp only [hl] at h
      cases oi with
      | none => simp at h
      | some iv =>
        cases ok with
        | none => simp at h
        | some key =>
          simp only at h
          split at h
          · simp at h
          split at h
          · simp at h
          split at h
          · simp at h
          rename_i h1 h2 h3
          simp only [Except.ok.injEq, Option.some.injEq] at h
          have h1' := Decidable.not_not.mp h1
          have h2' := Decidable.not_not.mp h2
          refine ⟨key, iv, ?_, ?_⟩
          · unfold layout at hl
            refine ⟨rfl, ?_, ?_⟩
            · split at hl
              · cases Option.some.inj hl; exact h1'
              · split at hl
                · cases Option.some.inj hl; exact h1'
                · cases hl
            · split at hl
              · rename_i e; cases Option.some.inj hl; exact Or.inl ⟨e, h2'⟩
              · split at hl
                · rename_i e; cases Option.some.inj hl; exact Or.inr ⟨e, h2'⟩
                · cases hl
          · subst h
            unfold layout at hl
            split at hl
            · rename_i e; cases Option.some.inj hl; simp [e, infoBytes, le16, kTLS13]
            · split at hl
              · rename_i e0 e; cases Option.some.inj hl; simp [e, infoBytes, le16, kTLS13]
              · cases hl
  · rintro ⟨key, iv, ⟨hk, hi, hs⟩, rfl⟩
    simp only at hk
    cases hk
    rcases hs with ⟨hs, hl⟩ | ⟨hs, hl⟩ <;> simp only at hs <;> subst hs <;>
      simp [toSockopt, layout, hi, hl, infoBytes, le16, kTLS13, kCryptoInfoSize, kIVSize, kSaltSize,
        kRecSeqSize, beEnc_length]

theorem toSockopt_ok (p : Params) : ∃ r, toSockopt p = .ok r := by
  unfold toSockopt
  cases hl : layout p.ciphersuite with
  | none => exact ⟨_, rfl⟩
  | some l =>
    simp only
    cases p.key.iv with
    | none => exact ⟨_, rfl⟩
    | some iv =>
      cases p.key.key with
      | none => exact ⟨_, rfl⟩
      | some key =>
        simp only
        split
        · exact ⟨_, rfl⟩
        split
        · exact ⟨_, rfl⟩
        rename_i h1 h2
        rw [if_neg]
        · exact ⟨_, rfl⟩
        unfold layout at hl
        split at hl
        · cases Option.some.inj hl
          simp at h1 h2
          simp [le16, beEnc_length, kCryptoInfoSize, kIVSize, kSaltSize, kRecSeqSize]; omega
        · split at hl
          · cases Option.some.inj hl
            simp at h1 h2
            simp [le16, beEnc_length, kCryptoInfoSize, kIVSize, kSaltSize, kRecSeqSize]; omega
          · cases hl

/-- What the kernel reads from it. -/
theorem parse_infoBytes {cipher : UInt8} {key iv : Bytes} {seq : UInt64} (hi : iv.length = 12)
    (hc : (cipher = 51 ∧ key.length = 16) ∨ (cipher = 52 ∧ key.length = 32)) :
    Spec.parse (infoBytes cipher key iv seq) = some ⟨key, iv.take 4, iv.drop 4, seq.toNat⟩ := by
  have e1 : (iv.drop 4).length = 8 := by simp [hi]
  have e2 : (iv.take 4).length = 4 := by simp [hi]
  have e3 : (beEnc 8 seq.toNat).length = 8 := beEnc_length _ _
  have hd : beDec (beEnc 8 seq.toNat) = seq.toNat := beDec_beEnc (by exact seq.toNat_lt)
  have key0 : ∀ kl, key.length = kl → (infoBytes cipher key iv seq).length = 4 + 8 + kl + 4 + 8 ∧
      ((infoBytes cipher key iv seq).drop 12).take kl = key ∧
      ((infoBytes cipher key iv seq).drop (12 + kl)).take 4 = iv.take 4 ∧
      ((infoBytes cipher key iv seq).drop 4).take 8 = iv.drop 4 ∧
      (infoBytes cipher key iv seq).drop (16 + kl) = beEnc 8 seq.toNat := by
    intro kl hk
    have s : infoBytes cipher key iv seq =
        [4, 3, cipher, 0] ++ (iv.drop 4 ++ (key ++ (iv.take 4 ++ beEnc 8 seq.toNat))) := by
      simp [infoBytes]
    rw [s]
    have d4 : ∀ x : Bytes, ([4, 3, cipher, 0] ++ x).drop 4 = x := fun x => rfl
    have d12 : ([4, 3, cipher, 0] ++ (iv.drop 4 ++ (key ++ (iv.take 4 ++ beEnc 8 seq.toNat)))).drop 12 =
        key ++ (iv.take 4 ++ beEnc 8 seq.toNat) := by
      have := List.drop_drop (i := 8) (j := 4)
        (l := [4, 3, cipher, 0] ++ (iv.drop 4 ++ (key ++ (iv.take 4 ++ beEnc 8 seq.toNat))))
      rw [show (12 : Nat) = 4 + 8 from rfl, ← this, d4, List.drop_left' e1]
    have d12k : ([4, 3, cipher, 0] ++ (iv.drop 4 ++ (key ++ (iv.take 4 ++ beEnc 8 seq.toNat)))).drop
        (12 + kl) = iv.take 4 ++ beEnc 8 seq.toNat := by
      rw [← List.drop_drop, d12, List.drop_left' hk]
    refine ⟨?_, ?_, ?_, ?_, ?_⟩
    · simp only [List.length_append, e1, e2, e3, hk, List.length_cons, List.length_nil]; omega
    · rw [d12, List.take_left' hk]
    · rw [d12k, List.take_left' e2]
    · rw [d4, List.take_left' e1]
    · rw [show 16 + kl = (12 + kl) + 4 by omega, ← List.drop_drop, d12k, List.drop_left' e2]
  have t2 : (infoBytes cipher key iv seq).take 2 = [4, 3] := by simp [infoBytes]
  have c2 : ((infoBytes cipher key iv seq).drop 2).take 2 = [cipher, 0] := by simp [infoBytes]
  unfold Spec.parse
  simp only [c2]
  rcases hc with ⟨rfl, hk⟩ | ⟨rfl, hk⟩
  · obtain ⟨k1, k2, k3, k4, k5⟩ := key0 16 hk
    simp [t2, k1, k2, k3, k4, k5, hd]
  · obtain ⟨k1, k2, k3, k4, k5⟩ := key0 32 hk
    simp [t2, k1, k2, k3, k4, k5, hd]

/-- **C84** The structure handed to the kernel: there is one exactly for AES-GCM with a key and an IV of the
right length, and the kernel reads from it the key, the IV and the next sequence number. -/
theorem C84_sockopt (p : Params) :
    (∀ key iv, Spec.Supported p key iv → ∃ b, toSockopt p = .ok (some b) ∧
      Spec.parse b = some ⟨key, iv.take 4, iv.drop 4, p.recordSeq.toNat⟩) ∧
    ((∀ key iv, ¬ Spec.Supported p key iv) → toSockopt p = .ok none) := by
  constructor
  · intro key iv h
    refine ⟨_, toSockopt_eq.mpr ⟨key, iv, h, rfl⟩, parse_infoBytes h.2.1 ?_⟩
    rcases h.2.2 with ⟨e, hl⟩ | ⟨e, hl⟩
    · exact Or.inl ⟨by rw [if_pos e], hl⟩
    · exact Or.inr ⟨by rw [if_neg (by rw [e]; decide)], hl⟩
  · intro h
    obtain ⟨r, hr⟩ := toSockopt_ok p
    cases r with
    | none => exact hr
    | some b =>
      obtain ⟨key, iv, hs, -⟩ := toSockopt_eq.mp hr
      exact (h _ _ hs).elim

/-- The kernel's nonces are the library's. -/
theorem C84_nonce {b key iv : Bytes} {p : Params} {i : Spec.Info} (hs : Spec.Supported p key iv)
    (hb : toSockopt p = .ok (some b)) (hi : Spec.parse b = some i) (n : Nat)
    (hn : p.recordSeq.toNat + n < 2 ^ 64) :
    createIV (p.recordSeq + UInt64.ofNat n) iv.length iv = .ok (i.nonce n) := by
  obtain ⟨b', h1, h2⟩ := (C84_sockopt p).1 key iv hs
  rw [hb] at h1
  cases h1
  rw [hi] at h2
  cases Option.some.inj h2
  have hseq : (p.recordSeq + UInt64.ofNat n).toNat = p.recordSeq.toNat + n := by
    rw [UInt64.toNat_add, UInt64.toNat_ofNat', Nat.add_mod_mod, Nat.mod_eq_of_lt hn]
  unfold createIV
  rw [if_neg (by rw [hs.2.1]; decide), if_neg (by simp), hseq, hs.2.1]
  simp [Spec.Info.nonce, Spec.xor, xorBytes]

/-- The library's cipher is a correct one for the record layer. -/
theorem lib_correct {A : Fizz.Aead.Ideal} (hA : A.Ok) {iv : Bytes} (hi : 8 ≤ iv.length) :
    (Spec.lib A iv).Correct := by
  have hn : ∀ seq, ∃ n, createIV seq iv.length iv = .ok n := by
    intro seq
    unfold createIV
    rw [if_neg (by omega), if_neg (by simp)]
    exact ⟨_, rfl⟩
  refine ⟨?_, ?_, ?_⟩
  · intro ad seq pt
    obtain ⟨n, h⟩ := hn seq
    exact ⟨_, by simp only [Spec.lib, h, Res.ok_bind]; rfl⟩
  · intro ad seq pt ct h
    obtain ⟨n, hnn⟩ := hn seq
    simp only [Spec.lib, hnn, Res.ok_bind, Except.ok.injEq] at h
    subst h
    rw [List.length_append, hA.cipherLen, hA.tagLen]
    rfl
  · intro ad seq pt ct h
    obtain ⟨n, hnn⟩ := hn seq
    simp only [Spec.lib, hnn, Res.ok_bind, Except.ok.injEq] at h
    subst h
    refine ⟨[pt], by simp, by simp, ?_⟩
    simp only [Spec.lib, hnn, Res.ok_bind]
    have l1 := hA.cipherLen n (ad.getD []) pt
    have l2 := hA.tagLen n (ad.getD []) pt
    rw [if_neg (by rw [List.length_append]; omega),
      List.take_left' (by rw [List.length_append]; omega),
      List.drop_left' (by rw [List.length_append]; omega), hA.correct]

/-- **C84** Sending: the record the kernel sends as the `n`th is read by a peer that expects the library's
`n`th next record — with the library's record layer — as exactly its type and content. -/
theorem C84_send {A : Bytes → Fizz.Aead.Ideal} {b key iv : Bytes} {p : Params} {i : Spec.Info}
    (hs : Spec.Supported p key iv) (hb : toSockopt p = .ok (some b)) (hi : Spec.parse b = some i)
    (hA : (A key).Ok) (htag : (A key).tagLen ≤ 255) (n : Nat) (hn : p.recordSeq.toNat + n < 2 ^ 64 - 1)
    {type : UInt8} (ht : type = 21 ∨ type = 22 ∨ type = 23) {content : Bytes} (hne : content ≠ [])
    (hlen : content.length ≤ 2 ^ 14) (st : EncRd) (hst : st.aead = some (Spec.lib (A key) iv))
    (hseq : st.seq = p.recordSeq + UInt64.ofNat n) (had : st.useAD = true) (rest : Bytes) :
    encRead st (i.record A n type content ++ rest) =
      .done ⟨type, content⟩ { st with seq := st.seq + 1, skipFailed := false } rest := by
  have hik : i.key = key := by
    obtain ⟨b', h1, h2⟩ := (C84_sockopt p).1 key iv hs
    rw [hb] at h1; cases h1
    rw [hi] at h2; cases Option.some.inj h2; rfl
  have hiv := C84_nonce hs hb hi n (by omega)
  have hc := lib_correct hA (iv := iv) (by rw [hs.2.1]; decide)
  have hs0 : st.seq ≠ maxSeq := by
    intro c
    have h1 : (p.recordSeq + UInt64.ofNat n).toNat = p.recordSeq.toNat + n := by
      rw [UInt64.toNat_add, UInt64.toNat_ofNat', Nat.add_mod_mod, Nat.mod_eq_of_lt (by omega)]
    rw [hseq] at c
    rw [c] at h1
    have : maxSeq.toNat = 2 ^ 64 - 1 := rfl
    omega
  have l1 := hA.cipherLen (i.nonce n) (wireHeader (content.length + 1 + (A key).tagLen)) (content ++ [type])
  have l2 := hA.tagLen (i.nonce n) (wireHeader (content.length + 1 + (A key).tagLen)) (content ++ [type])
  have henc : (Spec.lib (A key) iv).encrypt
      (if st.useAD then some (wireHeader (content.length + 1 + 0 + (Spec.lib (A key) iv).overhead)) else none)
      st.seq (content ++ type :: List.replicate 0 0) =
      .ok (((A key).sealing (i.nonce n) (wireHeader (content.length + 1 + (A key).tagLen))
          (content ++ [type])).1 ++
        ((A key).sealing (i.nonce n) (wireHeader (content.length + 1 + (A key).tagLen))
          (content ++ [type])).2) := by
    rw [had, hseq]
    simp only [Spec.lib, hiv, Res.ok_bind, if_true, Option.getD_some, Nat.add_zero, List.replicate_zero]
  have := encRead_one st _ hc hst hs0 type ht content 0 hne
    (by show content.length + 1 + 0 + (A key).tagLen ≤ 0x4100; omega) _ rest henc
  rw [List.length_append, l1, l2, List.length_append] at this
  unfold Spec.Info.record
  rw [hik]
  simpa [List.append_assoc] using this

/-- Taking the padding off. -/
theorem strip_inner (content : Bytes) {type : UInt8} (ht : type ≠ 0) (pad : Nat) :
    (content ++ type :: List.replicate pad 0).reverse.dropWhile (· == 0) = type :: content.reverse := by
  rw [List.reverse_append, List.reverse_cons, List.reverse_replicate, List.append_assoc]
  induction pad with
  | zero => simp [ht]
  | succ k ih => rw [List.replicate_succ, List.cons_append, List.dropWhile_cons_of_pos (by simp)]; exact ih

/-- **C84** Receiving: what the peer's library sealed with the sequence number this end expects `n` records
later, with any padding, the kernel opens to its type and content. -/
theorem C84_receive {A : Bytes → Fizz.Aead.Ideal} {b key iv : Bytes} {p : Params} {i : Spec.Info}
    (hs : Spec.Supported p key iv) (hb : toSockopt p = .ok (some b)) (hi : Spec.parse b = some i)
    (hA : (A key).Ok) (n : Nat) (hn : p.recordSeq.toNat + n < 2 ^ 64) {type : UInt8} (ht : type ≠ 0)
    (content : Bytes) (pad : Nat) (header ct : Bytes)
    (hct : (Spec.lib (A key) iv).encrypt (some header) (p.recordSeq + UInt64.ofNat n)
      (content ++ type :: List.replicate pad 0) = .ok ct) :
    i.opened A n header ct = some (type, content) := by
  have hik : i.key = key := by
    obtain ⟨b', h1, h2⟩ := (C84_sockopt p).1 key iv hs
    rw [hb] at h1; cases h1
    rw [hi] at h2; cases Option.some.inj h2; rfl
  have hiv := C84_nonce hs hb hi n hn
  simp only [Spec.lib, hiv, Res.ok_bind, Option.getD_some, Except.ok.injEq] at hct
  subst hct
  have l1 := hA.cipherLen (i.nonce n) header (content ++ type :: List.replicate pad 0)
  have l2 := hA.tagLen (i.nonce n) header (content ++ type :: List.replicate pad 0)
  unfold Spec.Info.opened
  rw [hik]
  simp only
  rw [if_neg (by rw [List.length_append]; omega),
    List.take_left' (by rw [List.length_append]; omega),
    List.drop_left' (by rw [List.length_append]; omega), hA.correct]
  simp only [strip_inner content ht pad, List.reverse_reverse]

/-- **C84** No nonce twice: whatever was written before the conversion, none of the nonces the kernel uses
under this key has been used by the library, and the kernel uses none twice (until its 64-bit counter would
wrap). -/
theorem C84_no_reuse {b key iv : Bytes} {p : Params} {i : Spec.Info} (hs : Spec.Supported p key iv)
    (hb : toSockopt p = .ok (some b)) (hi : Spec.parse b = some i) (w : EncWr) (h0 : w.seq = 0)
    (ops : List WOp) (hp : p.recordSeq = (w.history ops).1.seq) (n : Nat)
    (hn : p.recordSeq.toNat + n < 2 ^ 64) :
    (∀ c ∈ (w.history ops).2, createIV c.seq iv.length iv ≠ .ok (i.nonce n)) ∧
    ∀ m, p.recordSeq.toNat + m < 2 ^ 64 → i.nonce m = i.nonce n → m = n := by
  have hval : ∀ m, p.recordSeq.toNat + m < 2 ^ 64 →
      (p.recordSeq + UInt64.ofNat m).toNat = p.recordSeq.toNat + m := by
    intro m hm
    rw [UInt64.toNat_add, UInt64.toNat_ofNat', Nat.add_mod_mod, Nat.mod_eq_of_lt hm]
  constructor
  · intro c hc h
    have he := C06_nonce_injective _ _ _ _ _ h (C84_nonce hs hb hi n hn)
    obtain ⟨h1, h2, -⟩ := C06_consecutive w h0 ops
    have hm : c.seq.toNat ∈ (w.history ops).2.map (fun c => c.seq.toNat) :=
      List.mem_map.mpr ⟨c, hc, rfl⟩
    rw [h1, List.mem_range] at hm
    have := hval n hn
    rw [← he, hp, h2] at this
    omega
  · intro m hm he
    have h1 := C84_nonce hs hb hi m hm
    rw [he] at h1
    have h2 := C06_nonce_injective _ _ _ _ _ h1 (C84_nonce hs hb hi n hn)
    have := congrArg UInt64.toNat h2
    rw [hval m hm, hval n hn] at this
    omega

/-- **C84** Enabling both directions: on success both sets of keys were installed, receiving before sending;
an error before any key was installed leaves the socket as it was; but if the kernel accepts the receive keys
and refuses the send keys, the error comes with the receive keys already installed. -/
theorem C84_enable (k : Kernel) (rx tx : Params) (noPad : Bool) :
    ∃ calls err, tryEnable k rx tx noPad = .ok (calls, err) ∧
      (err = none ↔ k.supported = true ∧ k.ulp = true ∧ k.rx = true ∧ k.tx = true ∧
        rx.ciphersuite = tx.ciphersuite ∧ (∃ key iv, Spec.Supported rx key iv) ∧
        ∃ key iv, Spec.Supported tx key iv) ∧
      (err = none → ∃ r t, toSockopt rx = .ok (some r) ∧ toSockopt tx = .ok (some t) ∧
        calls = [.ulp, .rx r, .tx t, .noPad noPad]) ∧
      (err ≠ none → (∀ r, .rx r ∈ calls → k.rx = true → k.tx = false) ∧
        (∀ t, .tx t ∈ calls → k.tx = false)) := by
  have hsup : ∀ p : Params, (∃ key iv, Spec.Supported p key iv) ↔ ∃ b, toSockopt p = .ok (some b) := by
    intro p
    constructor
    · rintro ⟨key, iv, h⟩
      exact ⟨_, ((C84_sockopt p).1 key iv h).choose_spec.1⟩
    · rintro ⟨b, h⟩
      obtain ⟨key, iv, h, -⟩ := toSockopt_eq.mp h
      exact ⟨key, iv, h⟩
  simp only [hsup]
  obtain ⟨r, hr⟩ := toSockopt_ok rx
  obtain ⟨t, htx⟩ := toSockopt_ok tx
  unfold tryEnable
  cases hk : k.supported
  · exact ⟨_, _, rfl, by simp, by simp, by simp⟩
  simp only [not_true, if_false]
  by_cases hc : rx.ciphersuite = tx.ciphersuite
  · rw [if_neg (by simp [hc]), hr, htx]
    simp only [Res.ok_bind]
    cases r with
    | none => exact ⟨_, _, rfl, by simp, by simp, by simp⟩
    | some r =>
      cases t with
      | none => exact ⟨_, _, rfl, by simp, by simp, by simp⟩
      | some t =>
        simp only
        cases k.ulp
        · exact ⟨_, _, rfl, by simp, by simp, by simp⟩
        cases k.rx
        · exact ⟨_, _, rfl, by simp, by simp, by simp⟩
        cases k.tx
        · exact ⟨_, _, rfl, by simp, by simp, by simp⟩
        · exact ⟨_, _, rfl, by simp [hc], fun _ => ⟨r, t, rfl, rfl, rfl⟩, by simp⟩
  · rw [if_pos hc]
    exact ⟨_, _, rfl, by simp [hc], by simp, by simp⟩

/-- **C84** (a limit of the code) The documentation says that after an error the original socket may
continue to be used; when the kernel takes the receive keys and refuses the send keys it may not: the
kernel goes on decrypting what the library still expects to decrypt. -/
theorem C84_half_enabled {k : Kernel} {s : FizzSock} {noPad : Bool} {rx tx : Params}
    (hg : s.good = true) (hc : s.connecting = false) (hsock : s.hasSocket = true)
    (hr : fromRecordState s.cipher s.read = .ok rx) (hw : fromRecordState s.cipher s.write = .ok tx)
    (h1 : k.supported = true) (h2 : k.ulp = true) (h3 : k.rx = true) (h4 : k.tx = false)
    (hsr : ∃ key iv, Spec.Supported rx key iv) (hsw : ∃ key iv, Spec.Supported tx key iv) :
    ∃ r t, Spec.parse r ≠ none ∧
      convert k s true noPad = .ok (s, [.ulp, .rx r, .tx t], .error "could not configure ktls tx") := by
  obtain ⟨key, iv, hsr⟩ := hsr
  obtain ⟨key', iv', hsw⟩ := hsw
  obtain ⟨r, hr1, hr2⟩ := (C84_sockopt rx).1 key iv hsr
  obtain ⟨t, ht1, -⟩ := (C84_sockopt tx).1 key' iv' hsw
  have suite : ∀ (st : RecordLayerState) (p : Params), fromRecordState s.cipher st = .ok p →
      p.ciphersuite = s.cipher := by
    intro st p h
    unfold fromRecordState at h
    split at h
    · cases h; rfl
    · cases h
    · cases h
  refine ⟨r, t, by simp [hr2], ?_⟩
  simp [convert, enable, hg, hc, hsock, hr, hw, Res.ok_bind, tryEnable, h1, h2, h3, h4, suite _ _ hr, suite _ _ hw,
    hr1, ht1, Res.pure_eq]

/-- **C84** Conversion: on success the kernel was given exactly the read key and sequence number of the fizz
socket — and, for both directions, the write key and sequence number — and the read callback has moved to
the new socket; on failure the fizz socket keeps everything. -/
theorem C84_convert {k : Kernel} {s s' : FizzSock} {both noPad : Bool} {calls : List Call}
    {res : Except String KSock} (h : convert k s both noPad = .ok (s', calls, res)) :
    (∀ e, res = .error e → s' = s) ∧
    (∀ ks, res = .ok ks → s.good = true ∧ s.connecting = false ∧ ks.readCB = s.readCB ∧
      s'.readCB = none ∧ s'.attached = false ∧ (s'.ownsWriteLayer = true ↔ both = true) ∧
      ks.writeInKernel = both ∧
      ∃ r ir key iv n, .rx r ∈ calls ∧ Spec.parse r = some ir ∧
        s.read = ⟨some ⟨some key, some iv⟩, some n⟩ ∧ ir = ⟨key, iv.take 4, iv.drop 4, n.toNat⟩ ∧
        (both = true → ∃ t it key' iv' m, .tx t ∈ calls ∧ Spec.parse t = some it ∧
          s.write = ⟨some ⟨some key', some iv'⟩, some m⟩ ∧
          it = ⟨key', iv'.take 4, iv'.drop 4, m.toNat⟩) ∧
        (both = false → ∀ t, .tx t ∉ calls)) := by
  have state : ∀ (st : RecordLayerState) (p : Params), fromRecordState s.cipher st = .ok p →
      ∃ key iv n, st = ⟨some ⟨some key, some iv⟩, some n⟩ ∧ p = ⟨s.cipher, ⟨some key, some iv⟩, n⟩ := by
    intro st p h
    obtain ⟨a, b⟩ := st
    unfold fromRecordState at h
    split at h
    · rename_i k iv n e1 e2; cases h; simp only at e1 e2; subst e1 e2; exact ⟨k, iv, n, rfl, rfl⟩
    · cases h
    · cases h
  have parsed : ∀ (p : Params) (b key iv : Bytes) (n : UInt64), p = ⟨s.cipher, ⟨some key, some iv⟩, n⟩ →
      toSockopt p = .ok (some b) → Spec.parse b = some ⟨key, iv.take 4, iv.drop 4, n.toNat⟩ := by
    intro p b key iv n hp hb
    obtain ⟨key', iv', hs, -⟩ := toSockopt_eq.mp hb
    have := hs.1
    subst hp
    simp only [TrafficKey.mk.injEq, Option.some.injEq] at this
    obtain ⟨rfl, rfl⟩ := this
    obtain ⟨b', h1, h2⟩ := (C84_sockopt _).1 _ _ hs
    rw [hb] at h1
    cases h1
    exact h2
  unfold convert at h
  split at h
  · cases h; exact ⟨fun _ _ => rfl, fun _ h => by cases h⟩
  rename_i hgc
  split at h
  · cases h; exact ⟨fun _ _ => rfl, fun _ h => by cases h⟩
  simp only [not_or, Decidable.not_not, Bool.not_eq_true] at hgc
  obtain ⟨rx, hrx, h⟩ := Res.bind_eq_ok.mp h
  obtain ⟨⟨calls', err⟩, henb, h⟩ := Res.bind_eq_ok.mp h
  cases err with
  | some e => cases h; exact ⟨fun _ _ => rfl, fun _ h => by cases h⟩
  | none =>
    simp only [Res.pure_eq, Except.ok.injEq, Prod.mk.injEq] at h
    obtain ⟨rfl, rfl, rfl⟩ := h
    refine ⟨fun _ h => (by cases h), fun ks hks => ?_⟩
    cases hks
    obtain ⟨key, iv, n, hst, hp⟩ := state _ _ hrx
    refine ⟨by simpa using hgc.1, hgc.2, rfl, rfl, rfl, Iff.rfl, rfl, ?_⟩
    cases both with
    | true =>
      simp only [enable, if_true] at henb
      obtain ⟨tx, htx, henb⟩ := Res.bind_eq_ok.mp henb
      obtain ⟨c, e, h1, -, h3, -⟩ := C84_enable k rx tx noPad
      rw [henb] at h1
      cases h1
      obtain ⟨r, t, hr, ht, rfl⟩ := h3 rfl
      obtain ⟨key', iv', m, hst', hp'⟩ := state _ _ htx
      exact ⟨r, _, key, iv, n, by simp, parsed _ _ _ _ _ hp hr, hst, rfl,
        fun _ => ⟨t, _, key', iv', m, by simp, parsed _ _ _ _ _ hp' ht, hst', rfl⟩,
        fun h => by cases h⟩
    | false =>
      simp only [enable, Bool.false_eq_true, if_false] at henb
      unfold tryEnableRx at henb
      split at henb
      · cases henb
      obtain ⟨o, ho, henb⟩ := Res.bind_eq_ok.mp henb
      cases o with
      | none => cases henb
      | some r =>
        simp only at henb
        split at henb
        · cases henb
        split at henb
        · cases henb
        cases henb
        exact ⟨r, _, key, iv, n, by simp, parsed _ _ _ _ _ hp ho, hst, rfl, fun h => (by cases h),
          fun _ t => by simp⟩

end Fizz.Ktls

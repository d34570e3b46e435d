import Mathlib.Data.List.Forall2
import Verif.Record.WriteSpec
import Verif.Record.ReadProps

/-!
# Properties of writing: C04, C05, C06, C07
-/

namespace Fizz.Record

/-! ## C04 -/

theorem beEnc2_eq (n : Nat) :
    beEnc 2 n = [UInt8.ofNat (n / 256), UInt8.ofNat (n % 256)] := by
  have : UInt8.ofNat (n % 256) = UInt8.ofNat n := by
    apply UInt8.toNat_inj.mp; simp
  rw [this]
  simp [beEnc]

theorem be16_ofNat (n : Nat) (h : n < 65536) :
    be16 (UInt8.ofNat (n / 256)) (UInt8.ofNat (n % 256)) = n := by
  simp only [be16, UInt8.toNat_ofNat']
  omega

theorem plainBody_complete (st st1 : PlainRd) (hd : Header) (ct rest : Bytes)
    (hl : ct.length = hd.length) (hh : ∀ x, plainHeader st hd x = .ok st1) :
    plainBody st (hd.bytes ++ ct ++ rest) = match plainRecord st1 hd ct with
      | .skip st' => .again st' rest
      | .deliver a st' => .done a st' rest
      | .fail f => .fail f := by
  obtain ⟨t, v1, v2, l1, l2⟩ := hd
  simp only [plainBody, Header.bytes, List.cons_append, List.nil_append, recordBody]
  rw [hh]
  simp only
  rw [if_neg (by simp; omega), ← hl, List.take_left, List.drop_left]
  cases plainRecord st1 ⟨t, v1, v2, l1, l2⟩ ct <;> rfl

theorem plainChunks_cons (type : UInt8) (v : UInt16) (n : Nat) (data : Bytes) (h : data ≠ []) :
    ∃ hd : Header, hd.t = type ∧ be16 hd.v1 hd.v2 = v.toNat ∧ hd.length = (data.take 0x4000).length ∧
      plainChunks type v (n+1) data =
        hd.bytes ++ data.take 0x4000 ++ plainChunks type v n (data.drop 0x4000) := by
  have hlt : (data.take 0x4000).length < 65536 := by simp; omega
  have hv : v.toNat < 65536 := v.toNat_lt
  refine ⟨⟨type, UInt8.ofNat (v.toNat / 256), UInt8.ofNat (v.toNat % 256),
    UInt8.ofNat ((data.take 0x4000).length / 256),
    UInt8.ofNat ((data.take 0x4000).length % 256)⟩, rfl, be16_ofNat _ hv, be16_ofNat _ hlt, ?_⟩
  simp only [plainChunks, if_neg h, kMaxPlaintextRecordSize]
  have e : (UInt16.ofNat (data.take 0x4000).length).toNat = (data.take 0x4000).length := by
    rw [UInt16.toNat_ofNat']; exact Nat.mod_eq_of_lt hlt
  rw [e, beEnc2_eq, beEnc2_eq]
  simp [beEnc, Header.bytes]

theorem plainChunks_reads (type : UInt8) (v : UInt16) (ht : type = 21 ∨ type = 22) (rest : Bytes) :
    ∀ (n : Nat) (data : Bytes) (p : PlainRd), data.length < n →
      ∃ ms p', Reads (.plain p) (plainChunks type v n data ++ rest) ms (.plain p') rest ∧
        (ms.map TLSMessage.fragment).flatten = data ∧
        (∀ m ∈ ms, m.type = type ∧ m.fragment ≠ [] ∧ m.fragment.length ≤ 0x4000) ∧
        (data = [] → p' = p) ∧
        (data ≠ [] → p' = ⟨false, some v⟩) := by
  intro n
  induction n with
  | zero => intro data p h; omega
  | succ n ih =>
    intro data p h
    by_cases hd0 : data = []
    · subst hd0
      refine ⟨[], p, ?_, rfl, by simp, by simp, by simp⟩
      simp only [plainChunks, if_true, List.nil_append]
      exact .nil _ _
    obtain ⟨hd, h1, h2, h3, h4⟩ := plainChunks_cons type v n data hd0
    have hpos : 0 < data.length := List.length_pos_iff.mpr hd0
    have hlen : (data.take 0x4000).length = min 0x4000 data.length := List.length_take
    obtain ⟨ms, p', hr, hf, hm, hp0, hp⟩ := ih (data.drop 0x4000) ⟨false, some v⟩ (by simp; omega)
    have t23 : ¬ hd.t = ContentType.application_data := by
      rw [h1]; rcases ht with h | h <;> rw [h] <;> decide
    have t20 : ¬ hd.t = ContentType.change_cipher_spec := by
      rw [h1]; rcases ht with h | h <;> rw [h] <;> decide
    have tok : ¬ (hd.t ≠ ContentType.handshake ∧ hd.t ≠ ContentType.alert ∧
        hd.t ≠ ContentType.change_cipher_spec) := by
      rw [h1]; rcases ht with h | h <;> rw [h] <;> decide
    have hh : ∀ x, plainHeader p hd x = .ok ⟨false, some v⟩ := by
      intro x
      unfold plainHeader kMaxPlaintextRecordSize
      rw [if_neg (fun c => t23 c.2)]
      simp only
      rw [if_neg tok, if_neg (by omega), if_neg (by omega), if_pos t20, h2]
      simp
    have hb := plainBody_complete p ⟨false, some v⟩ hd (data.take 0x4000)
      (plainChunks type v n (data.drop 0x4000) ++ rest) h3.symm hh
    have hrec : plainRecord ⟨false, some v⟩ hd (data.take 0x4000) =
        .deliver ⟨type, data.take 0x4000⟩ ⟨false, some v⟩ := by
      unfold plainRecord
      rw [if_neg t23, if_neg t20, h1]
    rw [hrec] at hb
    refine ⟨⟨type, data.take 0x4000⟩ :: ms, p', ?_, ?_, ?_, fun c => absurd c hd0, ?_⟩
    · refine .cons (l1 := .plain ⟨false, some v⟩)
        (b1 := plainChunks type v n (data.drop 0x4000) ++ rest) ?_ hr
      have : plainRead p (plainChunks type v (n+1) data ++ rest) = .done ⟨type, data.take 0x4000⟩
          ⟨false, some v⟩ (plainChunks type v n (data.drop 0x4000) ++ rest) := by
        show run plainBody _ _ = _
        rw [h4, run_eq plainBody_mono.consumes, List.append_assoc, hb]
      simp only [Layer.read, this, Iter.mapSt]
    · simp [hf]
    · intro m hmem
      rcases List.mem_cons.mp hmem with rfl | hmem
      · refine ⟨rfl, ?_, by simp only [hlen]; omega⟩
        intro c
        have := congrArg List.length c
        simp only [hlen, List.length_nil] at this
        omega
      · exact hm m hmem
    · intro _
      by_cases hx : data.drop 0x4000 = []
      · exact hp0 hx
      · exact hp hx

/-- C04: for a handshake message or alert, writing succeeds and a plaintext reader in any state
(even one still skipping early data) gets back fragments of at most 2^14 bytes, none empty, all of
the message's type, which concatenate to the message; whatever follows stays unread. -/
theorem C04_roundtrip (msg : TLSMessage) (ht : msg.type = 21 ∨ msg.type = 22) (p : PlainRd)
    (rest : Bytes) :
    ∃ out ms p', plainWrite msg = .ok out ∧
      Reads (.plain p) (out ++ rest) ms (.plain p') rest ∧
      (ms.map TLSMessage.fragment).flatten = msg.fragment ∧
      ∀ m ∈ ms, m.type = msg.type ∧ m.fragment ≠ [] ∧ m.fragment.length ≤ 2 ^ 14 := by
  obtain ⟨ms, p', h1, h2, h3, -⟩ := plainChunks_reads msg.type 0x0303 ht rest
    (msg.fragment.length + 1) msg.fragment p (by omega)
  refine ⟨_, ms, p', ?_, h1, h2, h3⟩
  unfold plainWrite plainWriteV
  rw [if_neg (by rcases ht with h | h <;> rw [h] <;> decide)]

/-- C04: the same for the initial ClientHello, which goes out under version 0x0301; the reader
records the version it saw. -/
theorem C04_initial_client_hello (encoded : Bytes) (hne : encoded ≠ []) (p : PlainRd) (rest : Bytes) :
    ∃ out ms, writeInitialClientHello encoded = .ok out ∧
      Reads (.plain p) (out ++ rest) ms (.plain ⟨false, some 0x0301⟩) rest ∧
      (ms.map TLSMessage.fragment).flatten = encoded ∧
      ∀ m ∈ ms, m.type = 22 ∧ m.fragment ≠ [] ∧ m.fragment.length ≤ 2 ^ 14 := by
  obtain ⟨ms, p', h1, h2, h3, -, h4⟩ := plainChunks_reads 22 0x0301 (Or.inr rfl) rest
    (encoded.length + 1) encoded p (by omega)
  rw [h4 hne] at h1
  exact ⟨_, ms, rfl, h1, h2, h3⟩

/-- C04: application data is never written in the clear. -/
theorem C04_no_plaintext_appdata (data : Bytes) (v : UInt16) :
    ∃ f, plainWriteV ⟨23, data⟩ v = .error f := ⟨_, rfl⟩

set_option maxRecDepth 20000 in
/-- C04: a compatibility change_cipher_spec written in the clear is ignored by either reader,
whatever its state. -/
theorem C04_ccs (l : Layer) (rest : Bytes) :
    ∃ out, plainWrite ⟨20, [1]⟩ = .ok out ∧
      (l.read (out ++ rest) = l.read rest ∨
       ∃ p, l = .plain p ∧ l.read (out ++ rest) =
        Layer.read (.plain { p with receivedVersion := some 0x0303 }) rest) := by
  refine ⟨[20, 3, 3, 0, 1, 1], by rfl, ?_⟩
  cases l with
  | enc e =>
    left
    have := (C11_ccs e ⟨20, 3, 3, 0, 1⟩ [1] rest rfl (by decide) (by decide) rfl).1 rfl
    simp only [Layer.read]
    exact congrArg _ this
  | plain p =>
    right
    refine ⟨p, rfl, ?_⟩
    have hb := plainBody_complete p { p with receivedVersion := some 0x0303 } ⟨20, 3, 3, 0, 1⟩ [1]
      rest rfl (fun _ => by obtain ⟨s, v⟩ := p; cases s <;> rfl)
    have : plainRead p ([20, 3, 3, 0, 1, 1] ++ rest) =
        plainRead { p with receivedVersion := some 0x0303 } rest := by
      show run plainBody _ _ = run plainBody _ _
      rw [run_eq plainBody_mono.consumes]
      have hb' : plainBody p ([20, 3, 3, 0, 1, 1] ++ rest) =
          .again { p with receivedVersion := some 0x0303 } rest := hb
      rw [hb']
    simp only [Layer.read, this]

/-! ## Splitting and padding -/

theorem splitAtMost_spec : ∀ (q : List Bytes) (n : Nat),
    (splitAtMost n q).1.flatten ++ (splitAtMost n q).2.flatten = q.flatten ∧
    (splitAtMost n q).1.flatten.length = min n q.flatten.length := by
  intro q
  induction q with
  | nil => intro n; cases n <;> simp [splitAtMost]
  | cons b q ih =>
    intro n
    cases n with
    | zero => simp [splitAtMost]
    | succ n =>
      simp only [splitAtMost]
      split
      · obtain ⟨h1, h2⟩ := ih (n + 1 - b.length)
        constructor
        · simp only [List.flatten_cons, List.append_assoc, h1]
        · simp only [List.flatten_cons, List.length_append, h2]; omega
      · constructor
        · simp only [List.flatten_cons, List.flatten_nil, List.append_nil]
          rw [← List.append_assoc, List.take_append_drop]
        · simp only [List.flatten_cons, List.flatten_nil, List.append_nil, List.length_take,
            List.length_append]; omega

theorem queueEmpty_iff (q : List Bytes) : queueEmpty q = true ↔ q.flatten = [] := by
  simp [queueEmpty, List.flatten_eq_nil_iff]

theorem queueEmpty_false {q : List Bytes} (h : ¬ queueEmpty q = true) : 0 < q.flatten.length := by
  rw [queueEmpty_iff] at h
  exact List.length_pos_iff.mpr h

theorem getBufToEncrypt_spec (q : List Bytes) (mr : UInt16) (hmr : 0 < mr.toNat)
    (hq : ¬ queueEmpty q = true) :
    (getBufToEncrypt q mr).1.flatten ++ (getBufToEncrypt q mr).2.flatten = q.flatten ∧
    0 < (getBufToEncrypt q mr).1.flatten.length ∧
    (getBufToEncrypt q mr).1.flatten.length ≤ mr.toNat := by
  have hpos := queueEmpty_false hq
  cases q with
  | nil => simp at hpos
  | cons b q =>
    simp only [getBufToEncrypt]
    split
    · obtain ⟨h1, h2⟩ := splitAtMost_spec (b :: q) mr.toNat
      exact ⟨h1, by omega, by omega⟩
    · split
      · refine ⟨by simp, ?_, ?_⟩ <;> simp only [kMinSuggestedRecordSize, List.flatten_cons, List.flatten_nil, List.append_nil] at * <;> omega
      · obtain ⟨h1, h2⟩ := splitAtMost_spec (b :: q) (min mr.toNat kMinSuggestedRecordSize)
        simp only [kMinSuggestedRecordSize] at *
        exact ⟨h1, by omega, by omega⟩

theorem Policy.apply_spec (p : Policy) (q : List Bytes) (mr : UInt16) (hmr : 0 < mr.toNat)
    (hq : ¬ queueEmpty q = true) :
    (p.apply q mr).1.flatten ++ (p.apply q mr).2.1.flatten = q.flatten ∧
    0 < (p.apply q mr).1.flatten.length ∧
    (p.apply q mr).1.flatten.length + (p.apply q mr).2.2.toNat ≤ mr.toNat := by
  obtain ⟨h1, h2, h3⟩ := getBufToEncrypt_spec q mr hmr hq
  have hl : (UInt16.ofNat (getBufToEncrypt q mr).1.flatten.length).toNat =
      (getBufToEncrypt q mr).1.flatten.length := by
    rw [UInt16.toNat_ofNat']; have := mr.toNat_lt; exact Nat.mod_eq_of_lt (by omega)
  have hsub : (mr - UInt16.ofNat (getBufToEncrypt q mr).1.flatten.length).toNat =
      mr.toNat - (getBufToEncrypt q mr).1.flatten.length := by
    rw [UInt16.toNat_sub_of_le _ _ (by rw [UInt16.le_iff_toNat_le, hl]; exact h3), hl]
  cases p with
  | modulo m =>
    refine ⟨h1, h2, ?_⟩
    simp only [Policy.apply]
    split
    · rw [UInt16.toNat_mod, hsub]
      have := Nat.mod_le (mr.toNat - (getBufToEncrypt q mr).1.flatten.length) m.toNat
      omega
    · simpa using h3
  | const n =>
    refine ⟨h1, h2, ?_⟩
    simp only [Policy.apply]
    split
    · have : (min n (mr - UInt16.ofNat (getBufToEncrypt q mr).1.flatten.length)).toNat ≤
          mr.toNat - (getBufToEncrypt q mr).1.flatten.length := by
        rw [← hsub]
        show (if _ then _ else _ : UInt16).toNat ≤ _
        split
        · rename_i h; exact UInt16.le_iff_toNat_le.mp h
        · exact Nat.le_refl _
      omega
    · simpa using h3

/-! ## What a write does, record by record -/

/-- The facts about one AEAD call made by a write. -/
def CallOk (w : EncWr) (a : Aead) (type : UInt8) (content : Bytes) (pad : Nat) (seq : Nat)
    (c : SealCall) : Prop :=
  c.plaintext = content ++ type :: List.replicate pad 0 ∧ content ≠ [] ∧
  content.length + pad ≤ w.maxRecord.toNat ∧ c.seq.toNat = seq ∧
  c.ad = (if w.useAD then some (wireHeader (c.plaintext.length + a.overhead)) else none)

/-- A trace of AEAD calls starting at sequence number `seq` whose contents concatenate to `data`. -/
inductive Trace (w : EncWr) (a : Aead) (type : UInt8) : Nat → Bytes → List SealCall → Prop
  | nil (seq) : Trace w a type seq [] []
  | cons {seq content pad data c cs} : CallOk w a type content pad seq c →
      Trace w a type (seq+1) data cs → Trace w a type seq (content ++ data) (c :: cs)

theorem encHeader_eq (n : Nat) (h : n < 65536) : encHeader n = wireHeader n := by
  have e : (UInt16.ofNat n).toNat = n := by rw [UInt16.toNat_ofNat']; exact Nat.mod_eq_of_lt h
  unfold encHeader wireHeader
  rw [e, beEnc2_eq, beEnc2_eq]
  rfl

theorem seq_succ (s : UInt64) (h : s ≠ maxSeq) : (s + 1).toNat = s.toNat + 1 := by
  have h1 := s.toNat_lt
  have h2 : s.toNat ≠ 2 ^ 64 - 1 := by
    intro c; apply h; apply UInt64.toNat_inj.mp; rw [c]; rfl
  rw [UInt64.toNat_add]
  show (s.toNat + 1) % 2 ^ 64 = _
  exact Nat.mod_eq_of_lt (by omega)

/-- Same layer, another sequence number. -/
def EncWr.at (w : EncWr) (s : UInt64) : EncWr := { w with seq := s }

/-- What the writing loop does, for any AEAD. -/
theorem encWriteLoop_spec (a : Aead) (type : UInt8) (w : EncWr) (hmr : 0 < w.maxRecord.toNat)
    (hsz : w.maxRecord.toNat + 1 + a.overhead < 65536) :
    ∀ (n : Nat) (s : UInt64) (q : List Bytes), q.flatten.length < n →
      ∃ (s' : UInt64) (calls : List SealCall) (data : Bytes) (res : Res Bytes),
        encWriteLoop a type n (w.at s) q = (w.at s', calls, res) ∧
        s'.toNat = s.toNat + calls.length ∧
        Trace w a type s.toNat data calls ∧ data <+: q.flatten ∧
        (∀ out, res = .ok out → data = q.flatten ∧
          ∃ cts : List Bytes, List.Forall₂ (fun (c : SealCall) ct => a.encrypt c.ad c.seq c.plaintext = .ok ct) calls cts ∧
            ((∀ ad seq pt ct, a.encrypt ad seq pt = .ok ct → ct.length = pt.length + a.overhead) →
              out = wire cts)) ∧
        (∀ f, res = .error f → (s' = maxSeq ∧ data ≠ q.flatten ∧ f = Failure.rt "max write seq num") ∨
          ∃ c ∈ calls, a.encrypt c.ad c.seq c.plaintext = .error f) := by
  intro n
  induction n with
  | zero => intro s q h; omega
  | succ n ih =>
    intro s q hn
    simp only [encWriteLoop]
    by_cases hq : queueEmpty q = true
    · rw [if_pos hq]
      have hq' := (queueEmpty_iff q).mp hq
      refine ⟨s, [], [], .ok [], rfl, rfl, .nil _, by simp, ?_, by simp⟩
      intro out ho
      cases ho
      exact ⟨hq'.symm, [], .nil, fun _ => rfl⟩
    rw [if_neg hq]
    have hpos := queueEmpty_false hq
    obtain ⟨h1, h2, h3⟩ := Policy.apply_spec w.policy q w.maxRecord hmr hq
    by_cases hs : s = maxSeq
    · rw [if_pos (show (w.at s).seq = maxSeq from hs)]
      refine ⟨s, [], [], _, rfl, rfl, .nil _, by simp, by simp, ?_⟩
      intro f hf
      left
      refine ⟨hs, ?_, ?_⟩
      · intro c; rw [← c] at hpos; simp at hpos
      · cases hf; rfl
    rw [if_neg (show ¬ (w.at s).seq = maxSeq from hs)]
    have hpol : ((w.at s).policy.apply q (w.at s).maxRecord) = w.policy.apply q w.maxRecord := rfl
    simp only [hpol]
    generalize hr : w.policy.apply q w.maxRecord = r at *
    have hptl : (innerPlaintext r.1.flatten type r.2.2.toNat).length =
        r.1.flatten.length + 1 + r.2.2.toNat := by
      simp [innerPlaintext]; omega
    rw [encHeader_eq _ (by omega)]
    generalize hpt : innerPlaintext r.1.flatten type r.2.2.toNat = pt at *
    have hcall : CallOk w a type r.1.flatten r.2.2.toNat s.toNat
        ⟨if w.useAD = true then some (wireHeader (pt.length + a.overhead)) else none, s, pt⟩ := by
      refine ⟨hpt.symm, ?_, h3, rfl, rfl⟩
      intro c; rw [c] at h2; simp at h2
    have hnext : ({ w.at s with seq := (w.at s).seq + 1 } : EncWr) = w.at (s + 1) := rfl
    have hsn := seq_succ s hs
    have e1 : (w.at s).useAD = w.useAD := rfl
    have e2 : (w.at s).seq = s := rfl
    simp only [hnext]
    simp only [e1, e2]
    cases henc : a.encrypt (if w.useAD = true then some (wireHeader (pt.length + a.overhead)) else none)
        s pt with
    | error f =>
      refine ⟨s + 1, [_], r.1.flatten, .error f, rfl, by simp [hsn], ?_, ?_, by simp, ?_⟩
      · have := Trace.cons hcall (.nil (s.toNat + 1))
        simpa using this
      · rw [← h1]; exact List.prefix_append _ _
      · intro f' hf'
        cases hf'
        right
        exact ⟨_, List.mem_singleton.mpr rfl, henc⟩
    | ok ct =>
      have hlen : q.flatten.length = r.1.flatten.length + r.2.1.flatten.length := by
        rw [← h1, List.length_append]
      obtain ⟨s', calls, data, res, k1, k2, k3, k4, k5, k6⟩ := ih (s + 1) r.2.1 (by omega)
      simp only [k1]
      refine ⟨s', _ :: calls, r.1.flatten ++ data, _, rfl, ?_, ?_, ?_, ?_, ?_⟩
      · simp [k2, hsn]; omega
      · refine .cons hcall ?_
        rw [← hsn]; exact k3
      · rw [← h1]; exact List.prefix_append_right_inj _ |>.mpr k4
      · intro out ho
        cases res with
        | error f => simp [Except.map] at ho
        | ok out' =>
          obtain ⟨g1, cts, g2, g3⟩ := k5 out' rfl
          simp only [Except.map, Except.ok.injEq] at ho
          refine ⟨by rw [g1, h1], ct :: cts, .cons henc g2, ?_⟩
          intro hsize
          rw [← ho, g3 hsize, wire, hsize _ _ _ _ henc]
      · intro f hf
        cases res with
        | ok o => simp [Except.map] at hf
        | error f' =>
          simp only [Except.map, Except.error.injEq] at hf
          subst hf
          rcases k6 f' rfl with ⟨g1, g2, g3⟩ | ⟨c, g1, g2⟩
          · left
            refine ⟨g1, ?_, g3⟩
            intro c
            apply g2
            rw [← h1] at c
            exact List.append_cancel_left c
          · exact Or.inr ⟨c, List.mem_cons_of_mem _ g1, g2⟩

/-! ## C05 -/

theorem encRead_one (st : EncRd) (a : Aead) (hc : a.Correct) (ha : st.aead = some a)
    (hs : st.seq ≠ maxSeq) (type : UInt8) (ht : type = 21 ∨ type = 22 ∨ type = 23) (content : Bytes)
    (pad : Nat) (hne : content ≠ []) (hsz : content.length + 1 + pad + a.overhead ≤ 0x4100)
    (ct rest : Bytes)
    (he : a.encrypt (if st.useAD then some (wireHeader (content.length + 1 + pad + a.overhead)) else none)
      st.seq (content ++ type :: List.replicate pad 0) = .ok ct) :
    encRead st (wireHeader ct.length ++ ct ++ rest) =
      .done ⟨type, content⟩ { st with seq := st.seq + 1, skipFailed := false } rest := by
  have hptl : (content ++ type :: List.replicate pad 0).length = content.length + 1 + pad := by
    simp; omega
  have hl := hc.size _ _ _ _ he
  rw [hptl] at hl
  obtain ⟨chain, h1, h2, h3⟩ := hc.opens _ _ _ _ he
  have hopen : openInner chain = .ok ⟨type, content⟩ := by
    refine (openInner_iff h1 _).mpr ⟨⟨pad, h2⟩, ?_, fun c => absurd c hne⟩
    rcases ht with h | h | h
    · exact Or.inr (Or.inl h)
    · exact Or.inl h
    · exact Or.inr (Or.inr h)
  let hd : Header := ⟨23, 3, 3, UInt8.ofNat (ct.length / 256), UInt8.ofNat (ct.length % 256)⟩
  have hdl : hd.length = ct.length := be16_ofNat _ (by omega)
  have hdb : hd.bytes = wireHeader ct.length := rfl
  have key : encRecord st hd ct = .deliver chain { st with seq := st.seq + 1, skipFailed := false } := by
    unfold encRecord
    rw [if_neg (show ¬ (hd.t = ContentType.alert ∧ hd.length = 2) from fun c => absurd (show (23:UInt8) = 21 from c.1) (by decide)),
      if_neg (show ¬ hd.t = ContentType.change_cipher_spec from fun c => absurd (show (23:UInt8) = 20 from c) (by decide)), if_neg hs, ha]
    have hd3 : a.tryDecrypt (st.ad hd) st.seq ct = .ok (some chain) := by
      unfold EncRd.ad; rw [hdb, hl]; exact h3
    simp only
    cases hsk : st.skipFailed with
    | true => simp only [if_true, hd3]
    | false => simp only [Bool.false_eq_true, if_false, Aead.decrypt, hd3]
  have : getDecryptedBuf st (wireHeader ct.length ++ ct ++ rest) =
      .done chain { st with seq := st.seq + 1, skipFailed := false } rest := by
    show run encBody st _ = _
    rw [← hdb, run_eq encBody_mono.consumes,
      encBody_complete st hd ct rest hdl.symm (by omega) (by omega), key]
  unfold encRead
  rw [this]
  simp only [hopen]

theorem trace_reads (w : EncWr) (a : Aead) (hc : a.Correct) (type : UInt8)
    (ht : type = 21 ∨ type = 22 ∨ type = 23) (hsz : w.maxRecord.toNat + 1 + a.overhead ≤ 0x4100)
    (rest : Bytes) {seq : Nat} {data : Bytes} {calls : List SealCall}
    (htr : Trace w a type seq data calls) : ∀ (cts : List Bytes) (st : EncRd),
    List.Forall₂ (fun (c : SealCall) ct => a.encrypt c.ad c.seq c.plaintext = .ok ct) calls cts →
    st.aead = some a → st.useAD = w.useAD → st.seq.toNat = seq → seq + calls.length < 2 ^ 64 →
    ∃ ms st', Reads (.enc st) (wire cts ++ rest) ms (.enc st') rest ∧
      (ms.map TLSMessage.fragment).flatten = data ∧
      (∀ m ∈ ms, m.type = type ∧ m.fragment ≠ [] ∧ m.fragment.length ≤ w.maxRecord.toNat) ∧
      ms.length = calls.length ∧
      st'.aead = some a ∧ st'.useAD = w.useAD ∧ st'.seq.toNat = seq + calls.length := by
  induction htr with
  | nil seq =>
    intro cts st hf h1 h2 h3 h4
    cases hf
    exact ⟨[], st, .nil _ _, rfl, by simp, rfl, h1, h2, h3⟩
  | @cons seq content pad data c cs hcall _ ih =>
    intro cts st hf h1 h2 h3 h4
    cases hf with
    | @cons _ ct _ cts he hf =>
    obtain ⟨g1, g2, g3, g4, g5⟩ := hcall
    simp only [List.length_cons] at h4
    have hsm : st.seq ≠ maxSeq := by
      intro c; rw [c] at h3; simp only [maxSeq] at h3
      have : (0xffffffffffffffff : UInt64).toNat = 2 ^ 64 - 1 := rfl
      omega
    have hseq : c.seq = st.seq := by apply UInt64.toNat_inj.mp; omega
    have hptl : c.plaintext.length = content.length + 1 + pad := by rw [g1]; simp; omega
    rw [g5, hptl, hseq, g1, ← h2] at he
    have hone := encRead_one st a hc h1 hsm type ht content pad g2 (by omega) ct (wire cts ++ rest) he
    obtain ⟨ms, st', k1, k2, k3, k4, k5, k6, k7⟩ := ih cts
      { st with seq := st.seq + 1, skipFailed := false } hf h1 h2
      (by simp only [seq_succ _ hsm]; omega) (by omega)
    refine ⟨⟨type, content⟩ :: ms, st', ?_, ?_, ?_, by simp [k4], k5, k6, by rw [k7]; simp; omega⟩
    · refine .cons (l1 := .enc { st with seq := st.seq + 1, skipFailed := false })
        (b1 := wire cts ++ rest) ?_ k1
      simp only [Layer.read, wire, List.append_assoc] at hone ⊢
      rw [hone]
      rfl
    · simp [k2]
    · intro m hm
      rcases List.mem_cons.mp hm with rfl | hm
      · exact ⟨rfl, g2, by simp only; omega⟩
      · exact k3 m hm

theorem encWrite_spec (w : EncWr) (a : Aead) (ha : w.aead = some a) (type : UInt8)
    (chain : List Bytes) (hmr : 0 < w.maxRecord.toNat)
    (hsz : w.maxRecord.toNat + 1 + a.overhead < 65536) :
    ∃ (s' : UInt64) (calls : List SealCall) (data : Bytes) (res : Res Bytes),
        encWrite w type chain = ({ w with seq := s' }, calls, res) ∧
        s'.toNat = w.seq.toNat + calls.length ∧
        Trace w a type w.seq.toNat data calls ∧ data <+: chain.flatten ∧
        (∀ out, res = .ok out → data = chain.flatten ∧
          ∃ cts : List Bytes, List.Forall₂ (fun (c : SealCall) ct => a.encrypt c.ad c.seq c.plaintext = .ok ct) calls cts ∧
            ((∀ ad seq pt ct, a.encrypt ad seq pt = .ok ct → ct.length = pt.length + a.overhead) →
              out = wire cts)) ∧
        (∀ f, res = .error f → (s' = maxSeq ∧ data ≠ chain.flatten ∧ f = Failure.rt "max write seq num") ∨
          ∃ c ∈ calls, a.encrypt c.ad c.seq c.plaintext = .error f) := by
  have := encWriteLoop_spec a type w hmr hsz (chain.flatten.length + 1) w.seq chain (by omega)
  have e : encWrite w type chain = encWriteLoop a type (chain.flatten.length + 1) w chain := by
    unfold encWrite; rw [ha]
  rw [e]
  exact this

/-- C05: one write. -/
theorem C05_write (w : EncWr) (a : Aead) (hc : a.Correct) (ha : w.aead = some a)
    (hov : a.overhead ≤ 255) (hmr : 0 < w.maxRecord.toNat) (hmr' : w.maxRecord.toNat ≤ 2 ^ 14)
    (type : UInt8) (ht : type = 21 ∨ type = 22 ∨ type = 23) (chain : List Bytes)
    (w' : EncWr) (calls : List SealCall) (out : Bytes)
    (hw : encWrite w type chain = (w', calls, .ok out))
    (st : EncRd) (hsa : st.aead = some a) (hss : st.seq = w.seq) (hsu : st.useAD = w.useAD)
    (rest : Bytes) :
    ∃ ms st', Reads (.enc st) (out ++ rest) ms (.enc st') rest ∧
      (ms.map TLSMessage.fragment).flatten = chain.flatten ∧
      (∀ m ∈ ms, m.type = type ∧ m.fragment ≠ [] ∧ m.fragment.length ≤ w.maxRecord.toNat) ∧
      st'.seq = w'.seq ∧ st'.aead = some a ∧ st'.useAD = w'.useAD ∧
      w' = { w with seq := w'.seq } := by
  obtain ⟨s', calls', data, res, h1, h2, h3, h4, h5, h6⟩ :=
    encWrite_spec w a ha type chain hmr (by omega)
  rw [hw] at h1
  simp only [Prod.mk.injEq] at h1
  obtain ⟨hw', hcalls, hres⟩ := h1
  subst hcalls
  obtain ⟨k1, cts, k2, k3⟩ := h5 out hres.symm
  have := s'.toNat_lt
  obtain ⟨ms, st', g1, g2, g3, g4, g5, g6, g7⟩ := trace_reads w a hc type ht (by omega) rest h3 cts st k2 hsa hsu
    (by rw [hss]) (by omega)
  rw [k3 hc.size]
  refine ⟨ms, st', g1, by rw [g2, k1], g3, ?_, g5, by rw [g6, hw'], by rw [hw']⟩
  apply UInt64.toNat_inj.mp
  rw [g7, hw', ← h2]

/-- C05: any sequence of writes, of any types, any fragmentation, under any padding policy.  The
records read fall into one group per write; each group carries the type of its write and its
fragments concatenate to the bytes written; afterwards the two sides are at the same sequence
number. -/
theorem C05_roundtrip (a : Aead) (hc : a.Correct) (hov : a.overhead ≤ 255) :
    ∀ (writes : List (UInt8 × List Bytes)) (w w' : EncWr) (out : Bytes) (st : EncRd) (rest : Bytes),
    w.aead = some a → 0 < w.maxRecord.toNat → w.maxRecord.toNat ≤ 2 ^ 14 →
    (∀ wr ∈ writes, wr.1 = 21 ∨ wr.1 = 22 ∨ wr.1 = 23) →
    writeAll w writes = (w', .ok out) →
    st.aead = some a → st.seq = w.seq → st.useAD = w.useAD →
    ∃ groups st', Reads (.enc st) (out ++ rest) groups.flatten (.enc st') rest ∧
      List.Forall₂ (fun (wr : UInt8 × List Bytes) (g : List TLSMessage) =>
        (∀ m ∈ g, m.type = wr.1) ∧ (g.map TLSMessage.fragment).flatten = wr.2.flatten) writes groups ∧
      st'.seq = w'.seq := by
  intro writes
  induction writes with
  | nil =>
    intro w w' out st rest ha h1 h2 h3 hw hs1 hs2 hs3
    simp only [writeAll, Prod.mk.injEq, Except.ok.injEq] at hw
    obtain ⟨rfl, rfl⟩ := hw
    exact ⟨[], st, .nil _ _, .nil, hs2⟩
  | cons wr ws ih =>
    intro w w' out st rest ha h1 h2 h3 hw hs1 hs2 hs3
    obtain ⟨t, chain⟩ := wr
    simp only [writeAll] at hw
    rcases he : encWrite w t chain with ⟨w1, calls, res⟩
    rw [he] at hw
    cases res with
    | error f => simp at hw
    | ok out1 =>
      rcases hr : writeAll w1 ws with ⟨w2, res2⟩
      simp only [hr] at hw
      cases res2 with
      | error f => simp at hw
      | ok out2 =>
        simp only [Prod.mk.injEq, Except.ok.injEq] at hw
        obtain ⟨rfl, rfl⟩ := hw
        obtain ⟨ms, st1, g1, g2, g3, g4, g5, g6, g7⟩ := C05_write w a hc ha hov h1 h2 t
          (h3 (t, chain) List.mem_cons_self) chain w1 calls out1 he st hs1 hs2 hs3 (out2 ++ rest)
        have hm : w1.maxRecord = w.maxRecord := by rw [g7]
        obtain ⟨groups, st', k1, k2, k3⟩ := ih w1 w2 out2 st1 rest (by rw [g7]; exact ha)
          (by rw [hm]; exact h1) (by rw [hm]; exact h2)
          (fun x hx => h3 x (List.mem_cons_of_mem _ hx)) hr g5 g4 g6
        refine ⟨ms :: groups, st', ?_, .cons ⟨fun m hm => (g3 m hm).1, g2⟩ k2, k3⟩
        rw [List.flatten_cons, List.append_assoc]
        exact g1.append k1

/-- C05: with a correct AEAD a write fails only because the sequence numbers are used up. -/
theorem C05_fails_only_at_limit (w : EncWr) (a : Aead) (hc : a.Correct) (ha : w.aead = some a)
    (hov : a.overhead ≤ 255) (hmr : 0 < w.maxRecord.toNat) (hmr' : w.maxRecord.toNat ≤ 2 ^ 14)
    (type : UInt8) (chain : List Bytes) (w' : EncWr) (calls : List SealCall) (f : Failure)
    (hw : encWrite w type chain = (w', calls, .error f)) :
    w'.seq = 0xffffffffffffffff := by
  obtain ⟨s', calls', data, res, h1, h2, h3, h4, h5, h6⟩ :=
    encWrite_spec w a ha type chain hmr (by omega)
  rw [hw] at h1
  simp only [Prod.mk.injEq] at h1
  obtain ⟨hw', hcalls, hres⟩ := h1
  rcases h6 f hres.symm with ⟨g1, -, -⟩ | ⟨c, -, g⟩
  · rw [hw']; exact g1
  · obtain ⟨ct, hct⟩ := hc.seals c.ad c.seq c.plaintext
    rw [hct] at g; cases g

/-! ## C06 -/

theorem Trace.seqs {w a type seq data calls} (h : Trace w a type seq data calls) :
    calls.map (fun c => c.seq.toNat) = List.range' seq calls.length := by
  induction h with
  | nil => rfl
  | cons hc _ ih => simp [ih, hc.2.2.2.1, List.range'_succ]

/-- The writing loop uses consecutive numbers whatever the configuration and the AEAD. -/
theorem encWriteLoop_seqs (a : Aead) (type : UInt8) : ∀ (n : Nat) (w : EncWr) (q : List Bytes),
    ∃ calls s, (encWriteLoop a type n w q).2.1 = calls ∧
      (encWriteLoop a type n w q).1 = { w with seq := s } ∧
      s.toNat = w.seq.toNat + calls.length ∧
      calls.map (fun c => c.seq.toNat) = List.range' w.seq.toNat calls.length := by
  intro n
  induction n with
  | zero => intro w q; exact ⟨[], w.seq, rfl, rfl, rfl, rfl⟩
  | succ n ih =>
    intro w q
    simp only [encWriteLoop]
    split
    · exact ⟨[], w.seq, rfl, rfl, rfl, rfl⟩
    split
    · exact ⟨[], w.seq, rfl, rfl, rfl, rfl⟩
    · rename_i hs
      have hsn := seq_succ w.seq hs
      split
      · exact ⟨[_], w.seq + 1, rfl, rfl, by simp [hsn], by simp⟩
      · obtain ⟨calls, s, h1, h2, h3, h4⟩ := ih { w with seq := w.seq + 1 }
          (w.policy.apply q w.maxRecord).2.1
        refine ⟨_ :: calls, s, by simp only [h1]; rfl, h2, ?_, ?_⟩
        · simp only [h3, hsn, List.length_cons]; omega
        · simp only [List.map_cons, h4, hsn, List.length_cons, List.range'_succ]

theorem encWrite_seqs (w : EncWr) (type : UInt8) (chain : List Bytes) :
    ∃ s, (encWrite w type chain).1 = { w with seq := s } ∧
      s.toNat = w.seq.toNat + (encWrite w type chain).2.1.length ∧
      (encWrite w type chain).2.1.map (fun c => c.seq.toNat) =
        List.range' w.seq.toNat (encWrite w type chain).2.1.length := by
  cases ha : w.aead with
  | none =>
    have e : encWrite w type chain = (w, [], .error (.ub "null aead")) := by
      unfold encWrite; rw [ha]
    rw [e]
    exact ⟨w.seq, by rw [← ha], rfl, rfl⟩
  | some a =>
    obtain ⟨calls, s, h1, h2, h3, h4⟩ := encWriteLoop_seqs a type (chain.flatten.length + 1) w chain
    have e : encWrite w type chain = encWriteLoop a type (chain.flatten.length + 1) w chain := by
      unfold encWrite; rw [ha]
    rw [e, h1, ← ha]
    exact ⟨s, h2, h3, h4⟩

theorem step_seqs (w : EncWr) (op : WOp) :
    (w.step op).1.seq.toNat = w.seq.toNat + (w.step op).2.length ∧
    (w.step op).2.map (fun c => c.seq.toNat) = List.range' w.seq.toNat (w.step op).2.length := by
  cases op with
  | write t c =>
    obtain ⟨s, h1, h2, h3⟩ := encWrite_seqs w t c
    refine ⟨?_, h3⟩
    simp only [EncWr.step]
    rw [h1]; exact h2
  | setMaxRecord n =>
    simp only [EncWr.step, EncWr.setMaxRecord]
    by_cases hn : n = 0 <;> simp [hn]
  | setPolicy p => simp [EncWr.step]
  | setAead a =>
    simp only [EncWr.step, EncWr.setAead]
    by_cases hn : w.seq = 0 <;> simp [hn]
  | useAdditionalData b => simp [EncWr.step]

theorem history_seqs (ops : List WOp) : ∀ w : EncWr,
    (w.history ops).1.seq.toNat = w.seq.toNat + (w.history ops).2.length ∧
    (w.history ops).2.map (fun c => c.seq.toNat) = List.range' w.seq.toNat (w.history ops).2.length := by
  induction ops with
  | nil => intro w; simp [EncWr.history]
  | cons op ops ih =>
    intro w
    obtain ⟨h1, h2⟩ := step_seqs w op
    obtain ⟨h3, h4⟩ := ih (w.step op).1
    simp only [EncWr.history]
    constructor
    · rw [h3, h1, List.length_append]; omega
    · rw [List.map_append, h2, h4, h1, List.length_append, ← List.range'_append]
      simp

/-- C06: over any history of a write layer, whatever is written, however it is configured in
between, whether AEAD calls fail or not, the AEAD calls made use the sequence numbers 0, 1, 2, ...
in this order: no number is used twice and none is skipped.  In particular there are fewer than
2^64 of them. -/
theorem C06_consecutive (w : EncWr) (h0 : w.seq = 0) (ops : List WOp) :
    (w.history ops).2.map (fun c => c.seq.toNat) = List.range (w.history ops).2.length ∧
    (w.history ops).1.seq.toNat = (w.history ops).2.length ∧
    (w.history ops).2.length < 2 ^ 64 := by
  obtain ⟨h1, h2⟩ := history_seqs ops w
  have e : w.seq.toNat = 0 := by rw [h0]; rfl
  rw [e] at h1 h2
  have := (w.history ops).1.seq.toNat_lt
  exact ⟨by rw [h2, List.range_eq_range'], by omega, by omega⟩

theorem xorBytes_cancel : ∀ (iv a b : Bytes), a.length = iv.length → b.length = iv.length →
    xorBytes iv a = xorBytes iv b → a = b := by
  intro iv
  induction iv with
  | nil =>
    intro a b ha hb _
    rw [List.length_eq_zero_iff.mp ha, List.length_eq_zero_iff.mp hb]
  | cons x iv ih =>
    intro a b ha hb h
    cases a with
    | nil => simp at ha
    | cons y a =>
      cases b with
      | nil => simp at hb
      | cons z b =>
        simp only [xorBytes, List.zipWith_cons_cons, List.cons.injEq] at h
        have h1 : y = z := by
          have e := congrArg (x ^^^ ·) h.1
          simpa [← UInt8.xor_assoc] using e
        rw [h1, ih a b (by simpa using ha) (by simpa using hb) h.2]

/-- C06: the nonce determines the sequence number. -/
theorem C06_nonce_injective (s s' : UInt64) (n : Nat) (iv nonce : Bytes)
    (h : createIV s n iv = .ok nonce) (h' : createIV s' n iv = .ok nonce) : s = s' := by
  unfold createIV at h h'
  by_cases h8 : n < 8
  · rw [if_pos h8] at h; cases h
  rw [if_neg h8] at h h'
  by_cases hl : iv.length ≠ n
  · rw [if_pos hl] at h; cases h
  rw [if_neg hl] at h h'
  have hl' : iv.length = n := Classical.not_not.mp hl
  have := xorBytes_cancel iv _ _ (by simp; omega) (by simp; omega)
    ((Except.ok.inj h).trans (Except.ok.inj h').symm)
  have := List.append_cancel_left this
  exact UInt64.toNat_inj.mp (beEnc_inj s.toNat_lt s'.toNat_lt this)

/-- C06: all nonces used over a history are pairwise different. -/
theorem C06_nonces_distinct (w : EncWr) (h0 : w.seq = 0) (ops : List WOp) (n : Nat) (iv : Bytes)
    (hn : 8 ≤ n) (hiv : iv.length = n) :
    ((w.history ops).2.map (fun c => createIV c.seq n iv)).Nodup := by
  have hseq : ((w.history ops).2.map (fun c => c.seq.toNat)).Nodup := by
    rw [(C06_consecutive w h0 ops).1]; exact List.nodup_range
  have hok : ∀ s : UInt64, ∃ x, createIV s n iv = .ok x := by
    intro s
    unfold createIV
    rw [if_neg (by omega), if_neg (by simpa using hiv)]
    exact ⟨_, rfl⟩
  rw [List.nodup_iff_pairwise_ne, List.pairwise_map] at hseq ⊢
  refine hseq.imp ?_
  intro c d hcd he
  apply hcd
  obtain ⟨x, hx⟩ := hok c.seq
  rw [C06_nonce_injective _ _ _ _ _ hx (he ▸ hx)]

/-- C06: once a record has been sealed the key cannot be replaced, so all records sealed over the
life of a layer are sealed with one AEAD. -/
theorem C06_single_key (w : EncWr) (h0 : w.seq = 0) (ops : List WOp)
    (hne : (w.history ops).2 ≠ []) (a : Aead) :
    ∃ f, (w.history ops).1.setAead a = .error f := by
  have h := (C06_consecutive w h0 ops).2.1
  have hpos := List.length_pos_iff.mpr hne
  refine ⟨Failure.rt "aead set after write", ?_⟩
  unfold EncWr.setAead
  rw [if_pos]
  intro c
  rw [c] at h
  have : (0 : UInt64).toNat = 0 := rfl
  omega

/-- C06: at the last sequence number writing anything fails without calling the AEAD and without
changing the layer. -/
theorem C06_write_limit (w : EncWr) (a : Aead) (ha : w.aead = some a)
    (hs : w.seq = 0xffffffffffffffff) (type : UInt8) (chain : List Bytes) (hne : chain.flatten ≠ []) :
    ∃ f, encWrite w type chain = (w, [], .error f) := by
  refine ⟨Failure.rt "max write seq num", ?_⟩
  unfold encWrite
  rw [ha]
  simp only [encWriteLoop]
  rw [if_neg (by rw [queueEmpty_iff]; exact hne), if_pos (show w.seq = maxSeq from hs)]

/-- C06: at the last sequence number nothing can be read any more, whatever is received; and a
successful read moves the number up by exactly one, never back to zero. -/
theorem C06_read_limit (st : EncRd) (buf : Bytes) (m : TLSMessage) (st' : EncRd) (rest : Bytes)
    (h : encRead st buf = .done m st' rest) :
    st.seq.toNat < 2 ^ 64 - 1 ∧ st'.seq.toNat = st.seq.toNat + 1 := by
  obtain ⟨_, _, _, _, _, _, _, _, _, _, hs, _, _, _, he⟩ := C11_authenticated st buf m st' rest h
  have h1 := seq_succ st.seq hs
  have h2 := (st.seq + 1).toNat_lt
  refine ⟨by omega, by rw [he]; exact h1⟩

/-! ## C07 -/

theorem Trace.mem {w a type seq data calls} (h : Trace w a type seq data calls) :
    ∀ c ∈ calls, ∃ content pad seq', CallOk w a type content pad seq' c := by
  induction h with
  | nil => simp
  | cons hc _ ih =>
    intro c hm
    rcases List.mem_cons.mp hm with rfl | hm
    · exact ⟨_, _, _, hc⟩
    · exact ih c hm

/-- C07: every record handed to the AEAD carries between 1 and `maxRecord` content bytes, content
plus padding stay within `maxRecord`, and its associated data is the header carrying the true
length of the ciphertext, at most 2^14 + 256. -/
theorem C07_limits (w : EncWr) (a : Aead) (ha : w.aead = some a) (hov : a.overhead ≤ 255)
    (hmr : 0 < w.maxRecord.toNat) (hmr' : w.maxRecord.toNat ≤ 2 ^ 14) (type : UInt8)
    (chain : List Bytes) (c : SealCall) (hc : c ∈ (encWrite w type chain).2.1) :
    ∃ content pad, c.plaintext = content ++ [type] ++ List.replicate pad 0 ∧
      0 < content.length ∧ content.length ≤ w.maxRecord.toNat ∧
      content.length + pad ≤ w.maxRecord.toNat ∧
      c.plaintext.length + a.overhead ≤ 2 ^ 14 + 256 ∧
      c.ad = if w.useAD then some (wireHeader (c.plaintext.length + a.overhead)) else none := by
  obtain ⟨s', calls', data, res, h1, h2, h3, h4, h5, h6⟩ :=
    encWrite_spec w a ha type chain hmr (by omega)
  rw [h1] at hc
  obtain ⟨content, pad, _, g1, g2, g3, -, g5⟩ := h3.mem c hc
  have := List.length_pos_iff.mpr g2
  have hl : c.plaintext.length = content.length + 1 + pad := by rw [g1]; simp; omega
  exact ⟨content, pad, by rw [g1]; simp, this, by omega, g3, by omega, g5⟩

/-- C07: the bytes written are well-formed records, one per AEAD call: header with the true 16-bit
length (no truncation), then that many bytes, neither empty nor longer than 2^14 + 256. -/
theorem C07_wire (w : EncWr) (a : Aead) (hc : a.Correct) (ha : w.aead = some a)
    (hov : a.overhead ≤ 255) (hmr : 0 < w.maxRecord.toNat) (hmr' : w.maxRecord.toNat ≤ 2 ^ 14)
    (type : UInt8) (chain : List Bytes) (w' : EncWr) (calls : List SealCall) (out : Bytes)
    (hw : encWrite w type chain = (w', calls, .ok out)) :
    ∃ cts : List Bytes, out = wire cts ∧ cts.length = calls.length ∧
      ∀ ct ∈ cts, 0 < ct.length ∧ ct.length ≤ 2 ^ 14 + 256 ∧
        be16 (UInt8.ofNat (ct.length / 256)) (UInt8.ofNat (ct.length % 256)) = ct.length := by
  have hlim := C07_limits w a ha hov hmr hmr' type chain
  obtain ⟨s', calls', data, res, h1, h2, h3, h4, h5, h6⟩ :=
    encWrite_spec w a ha type chain hmr (by omega)
  rw [hw] at h1 hlim
  simp only [Prod.mk.injEq] at h1 hlim
  obtain ⟨hw', hcalls, hres⟩ := h1
  obtain ⟨k1, cts, k2, k3⟩ := h5 out hres.symm
  refine ⟨cts, k3 hc.size, ?_, ?_⟩
  · rw [hcalls]; exact k2.length_eq.symm
  · intro ct hm
    rw [← hcalls] at k2
    have : ∃ c ∈ calls, a.encrypt c.ad c.seq c.plaintext = .ok ct := by
      clear hw hcalls hres h5 h6 k3 hlim
      induction k2 with
      | nil => simp at hm
      | cons he _ ih =>
        rcases List.mem_cons.mp hm with rfl | hm
        · exact ⟨_, List.mem_cons_self, he⟩
        · obtain ⟨c, h1, h2⟩ := ih hm
          exact ⟨c, List.mem_cons_of_mem _ h1, h2⟩
    obtain ⟨c, hcm, he⟩ := this
    obtain ⟨content, pad, g1, g2, g3, g4, g5, -⟩ := hlim c hcm
    have hl := hc.size _ _ _ _ he
    have hl2 : 0 < c.plaintext.length := by rw [g1]; simp; omega
    exact ⟨by omega, by omega, be16_ofNat _ (by omega)⟩

/-! ## Concrete instances -/

theorem toyAead_correct : toyAead.Correct where
  seals _ _ _ := ⟨_, rfl⟩
  size ad seq pt ct h := by
    simp only [toyAead, Except.ok.injEq] at h
    rw [← h]; simp [toyAead]
  opens ad seq pt ct h := by
    simp only [toyAead, Except.ok.injEq] at h
    subst h
    refine ⟨[pt], by simp, by simp, ?_⟩
    simp [toyAead]

section
-- C04
example : (plainWrite ⟨22, List.replicate 3 7⟩) = .ok [22, 3, 3, 0, 3, 7, 7, 7] := by rfl

private def exW : EncWr := { aead := some toyAead, policy := .modulo 4, maxRecord := 5 }

-- C05/C07: seven bytes in three buffers, at most five per record, padding up to three
set_option maxRecDepth 20000 in
example : (encWrite exW 23 [[1, 2], [], [3, 4, 5, 6, 7]]).2.2 =
    .ok ([23, 3, 3, 0, 7] ++ [1, 2, 3, 4, 5, 23, 6] ++ ([23, 3, 3, 0, 7] ++ [6, 7, 23, 0, 0, 0, 7])) := by
  rfl

set_option maxRecDepth 20000 in
example : (encWrite exW 23 [[1, 2], [], [3, 4, 5, 6, 7]]).2.1.map SealCall.seq = [0, 1] := by rfl

-- C06
example : exW.seq = 0 ∧ ∃ ops, (exW.history ops).2.length = 2 :=
  ⟨rfl, [.write 23 [[1, 2], [3]], .setMaxRecord 9, .write 22 [[1]]], by rfl⟩
example : createIV 258 12 (List.replicate 12 1) = .ok [1, 1, 1, 1, 1, 1, 1, 1, 1, 1, 0, 3] := by rfl
end

end Fizz.Record

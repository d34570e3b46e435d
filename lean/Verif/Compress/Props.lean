import Verif.Compress.Model
import Verif.Codec.Props

/-! # C80: certificate compression -/

namespace Fizz.Compress

open Fizz.Codec

/-! ## Specification -/

/-- What a library turns a compressed string into, given room. -/
def Zlib.Opens (z : Zlib) (room : Nat) (c out : Bytes) : Prop := z.uncompress room c = .ok out
@[inherit_doc Zlib.Opens]
def Brotli.Opens (b : Brotli) (room : Nat) (c out : Bytes) : Prop := b.decompress room c = some out
@[inherit_doc Zlib.Opens]
def Zstd.Opens (z : Zstd) (room : Nat) (c out : Bytes) : Prop := z.decompress room c = .ok out

/-- Compression is lossless: what was compressed opens to what it was made from, in any room that
suffices. -/
def Zlib.Lossless (z : Zlib) : Prop :=
  ∀ level r x c, z.compress2 level r x = .ok c → ∀ room, x.length ≤ room → z.Opens room c x
@[inherit_doc Zlib.Lossless]
def Brotli.Lossless (b : Brotli) : Prop :=
  ∀ level window r x c, b.compress level window r x = some c → ∀ room, x.length ≤ room →
    b.Opens room c x
@[inherit_doc Zlib.Lossless]
def Zstd.Lossless (z : Zstd) : Prop :=
  ∀ level r x c, z.compress level r x = .ok c → ∀ room, x.length ≤ room → z.Opens room c x

/-- A compressor of the library and the decompressor of the same algorithm. -/
inductive Pair : Compressor → Decompressor → Prop
  | zlib {z : Zlib} (h : z.Lossless) (level : Int) (slack : Nat) :
    Pair (zlibCompressor z level slack) (zlibDecompressor z)
  | brotli {b : Brotli} (h : b.Lossless) (level window : Int) :
    Pair (brotliCompressor b level window) (brotliDecompressor b)
  | zstd {z : Zstd} (h : z.Lossless) (level : Int) (slack slack' : Nat) :
    Pair (zstdCompressor z level slack) (zstdDecompressor z slack')

/-- The message `m` is exactly the string `out` (RFC 8446 4.4.2). -/
def Means (out : Bytes) (m : CertificateMsg) : Prop :=
  Spec.CertificateMsgFits m ∧ out = Spec.certificateMsg m

/-- The last decompressor given for an algorithm. -/
def lastFor (algorithm : UInt16) (ds : List Decompressor) : Option Decompressor :=
  (ds.filter fun d => d.algorithm = algorithm).getLast?

/-! ## Decompressors -/

theorem decode_iff {out : Bytes} {m : CertificateMsg} :
    decodeCertificateMsg out = .ok m ↔ Means out m := by
  rw [decodeCertificateMsg, decodeAll_eq_ok, readCertificateMsg_eq_ok, List.append_nil]
  rfl

theorem claimed_ok {a : UInt16} {name : String} {cc : CompressedCertificate}
    {k : Res CertificateMsg} {m : CertificateMsg} :
    (claimed a name cc k).result = .ok m ↔
      cc.algorithm = a ∧ cc.uncompressed_length.toNat ≤ 0x20000 ∧ k = .ok m := by
  unfold claimed
  split
  next h => simp [h]
  next h =>
    rw [Decidable.not_not] at h
    split
    next h' =>
      simp only [kMaxHandshakeSize] at h'
      simp only [h, true_and]
      constructor
      · intro h; cases h
      · intro h; omega
    next h' =>
      simp only [kMaxHandshakeSize] at h'
      simp only [h, true_and]
      exact ⟨fun g => ⟨by omega, g⟩, fun g => g.2⟩

/-- **C80** The zlib decompressor accepts a compressed certificate exactly when it names zlib, claims at
most 128 KiB, opens to exactly the claimed number of bytes, and those are one Certificate message; the
message is then that one. -/
theorem C80_zlib (z : Zlib) (cc : CompressedCertificate) (m : CertificateMsg) :
    ((zlibDecompressor z).decompress cc).result = .ok m ↔
      cc.algorithm = 1 ∧ cc.uncompressed_length.toNat ≤ 0x20000 ∧
      ∃ out, z.Opens cc.uncompressed_length.toNat cc.compressed_certificate_message out ∧
        out.length = cc.uncompressed_length.toNat ∧ Means out m := by
  simp only [zlibDecompressor, claimed_ok, zlib, Zlib.Opens]
  refine and_congr_right fun _ => and_congr_right fun _ => ?_
  simp only [zlibBody]
  split
  next out h =>
    simp only [h, ZStatus.ok.injEq, exists_eq_left']
    split
    next g => simp [g]
    next g => rw [Decidable.not_not] at g; simp [g, decode_iff]
  all_goals next h => simp [h]

/-- **C80** The brotli decompressor: likewise. -/
theorem C80_brotli (b : Brotli) (cc : CompressedCertificate) (m : CertificateMsg) :
    ((brotliDecompressor b).decompress cc).result = .ok m ↔
      cc.algorithm = 2 ∧ cc.uncompressed_length.toNat ≤ 0x20000 ∧
      ∃ out, b.Opens cc.uncompressed_length.toNat cc.compressed_certificate_message out ∧
        out.length = cc.uncompressed_length.toNat ∧ Means out m := by
  simp only [brotliDecompressor, claimed_ok, brotli, Brotli.Opens]
  refine and_congr_right fun _ => and_congr_right fun _ => ?_
  simp only [brotliBody]
  split
  next h => simp [h]
  next out h =>
    simp only [h, Option.some.injEq, exists_eq_left']
    split
    next g => simp [g]
    next g => rw [Decidable.not_not] at g; simp [g, decode_iff]

theorem means_pos {out : Bytes} {m : CertificateMsg} (h : Means out m) : out.length ≠ 0 := by
  rw [h.2, Spec.certificateMsg]
  simp only [List.length_append, vec]
  have : (beEnc Width.u8.bytes m.certificate_request_context.length).length = 1 := by
    rw [beEnc_length]; rfl
  omega

/-- **C80** The zstd decompressor: likewise, in the room the allocator really gave. -/
theorem C80_zstd (z : Zstd) (slack : Nat) (cc : CompressedCertificate) (m : CertificateMsg) :
    ((zstdDecompressor z slack).decompress cc).result = .ok m ↔
      cc.algorithm = 3 ∧ cc.uncompressed_length.toNat ≤ 0x20000 ∧
      ∃ out, z.Opens (cc.uncompressed_length.toNat + slack) cc.compressed_certificate_message out ∧
        out.length = cc.uncompressed_length.toNat ∧ Means out m := by
  simp only [zstdDecompressor, claimed_ok, zstd, Zstd.Opens]
  refine and_congr_right fun _ => and_congr_right fun _ => ?_
  simp only [zstdBody]
  split
  next h => simp [h]
  next out h =>
    simp only [h, Except.ok.injEq, exists_eq_left']
    split
    next g => simp [g]
    next g =>
      rw [Decidable.not_not] at g
      split
      next g' =>
        constructor
        · intro h; cases h
        · rintro ⟨-, h⟩; exact (means_pos h g').elim
      next g' => simp [g, decode_iff]

theorem claimed_asked {a : UInt16} {name : String} {cc : CompressedCertificate}
    {k : Res CertificateMsg} : ∀ n ∈ (claimed a name cc k).asked,
      n = cc.uncompressed_length.toNat ∧ n ≤ 0x20000 := by
  unfold claimed
  split
  · simp
  · split
    · simp
    next h =>
      simp only [kMaxHandshakeSize] at h
      simp only [List.mem_singleton]
      rintro n rfl
      exact ⟨rfl, by omega⟩

/-- **C80** Whatever arrives, a decompressor asks for at most 128 KiB of memory. -/
theorem C80_memory (c : Compressor) (d : Decompressor) (h : Pair c d) (cc : CompressedCertificate) :
    ∀ n ∈ (d.decompress cc).asked, n = cc.uncompressed_length.toNat ∧ n ≤ 0x20000 := by
  cases h <;> exact claimed_asked

theorem encode_iff {m : CertificateMsg} {bs : Bytes} :
    encodeCertificateMsg m = .ok bs ↔ Means bs m := encodeCertificateMsg_eq_ok

theorem compress_facts {c : Compressor} {d : Decompressor} (h : Pair c d) {m : CertificateMsg}
    {cc : CompressedCertificate} (hc : c.compress m = .ok cc) :
    ∃ out, Means (Spec.certificateMsg m) m ∧ c.algorithm = d.algorithm ∧
      cc = ⟨c.algorithm, UInt32.ofNat (Spec.certificateMsg m).length, out⟩ ∧
      ∀ len, (Spec.certificateMsg m).length = len.toNat → len.toNat ≤ 0x20000 →
        (d.decompress ⟨d.algorithm, len, out⟩).result = .ok m := by
  cases h with
  | zlib h level slack =>
    simp only [zlibCompressor, zlibCompress, Res.bind_eq_ok] at hc
    obtain ⟨enc, h1, h2⟩ := hc
    rw [encode_iff] at h1
    cases h1.2
    split at h2 <;> try cases h2
    next out ho =>
    refine ⟨out, h1, rfl, rfl, fun len hl hm => ?_⟩
    rw [C80_zlib]
    exact ⟨rfl, hm, _, h _ _ _ _ ho _ (Nat.le_of_eq hl), hl, h1⟩
  | brotli h level window =>
    simp only [brotliCompressor, brotliCompress, Res.bind_eq_ok] at hc
    obtain ⟨enc, h1, h2⟩ := hc
    rw [encode_iff] at h1
    cases h1.2
    split at h2
    · cases h2
    split at h2
    · cases h2
    next out ho =>
    cases h2
    refine ⟨out, h1, rfl, rfl, fun len hl hm => ?_⟩
    rw [C80_brotli]
    exact ⟨rfl, hm, _, h _ _ _ _ _ ho _ (Nat.le_of_eq hl), hl, h1⟩
  | zstd h level slack slack' =>
    simp only [zstdCompressor, zstdCompress, Res.bind_eq_ok] at hc
    obtain ⟨enc, h1, h2⟩ := hc
    rw [encode_iff] at h1
    cases h1.2
    split at h2
    · cases h2
    next out ho =>
    cases h2
    refine ⟨out, h1, rfl, rfl, fun len hl hm => ?_⟩
    rw [C80_zstd]
    exact ⟨rfl, hm, _, h _ _ _ _ ho _
      (Nat.le_trans (Nat.le_of_eq hl) (Nat.le_add_right _ _)), hl, h1⟩

/-- **C80** A Certificate message of at most 128 KiB that was compressed decompresses to itself. -/
theorem C80_lossless {c : Compressor} {d : Decompressor} (h : Pair c d) {m : CertificateMsg}
    {cc : CompressedCertificate} (hc : c.compress m = .ok cc)
    (hlen : (Spec.certificateMsg m).length ≤ 0x20000) :
    (d.decompress cc).result = .ok m := by
  obtain ⟨out, -, ha, rfl, hd⟩ := compress_facts h hc
  have : (UInt32.ofNat (Spec.certificateMsg m).length).toNat = (Spec.certificateMsg m).length := by
    rw [UInt32.toNat_ofNat']; omega
  rw [ha]
  exact hd _ this.symm (by rw [this]; exact hlen)

/-! ## The manager -/

/-- Keys ascend. -/
def Ascending {β : Type} (m : List (UInt16 × β)) : Prop := (m.map (·.1)).Pairwise (· < ·)

theorem lookup_assign {β : Type} (k k' : UInt16) (v : β) : ∀ m : List (UInt16 × β),
    lookup k' (assign k v m) = if k' = k then some v else lookup k' m
  | [] => by simp [assign, lookup]
  | (a, b) :: m => by
    simp only [assign]
    split
    · simp [lookup]
    · split
      next h => subst h; simp only [lookup]; split <;> simp_all
      next h =>
        simp only [lookup, lookup_assign k k' v m]
        split
        next h' =>
          subst h'
          rw [if_neg (fun e => h e.symm)]
        next => rfl

theorem mem_keys_assign {β : Type} {k : UInt16} {v : β} {m : List (UInt16 × β)} {x : UInt16} :
    x ∈ (assign k v m).map (·.1) ↔ x = k ∨ x ∈ m.map (·.1) := by
  induction m with
  | nil => simp [assign]
  | cons p m ih =>
    obtain ⟨a, b⟩ := p
    simp only [assign]
    split
    · simp
    · split
      next h => subst h; simp
      next h =>
        simp only [List.map_cons, List.mem_cons, ih]
        constructor
        · rintro (h | h | h) <;> simp [h]
        · rintro (h | h | h) <;> simp [h]

theorem assign_ascending {β : Type} {k : UInt16} {v : β} : ∀ {m : List (UInt16 × β)}, Ascending m →
    Ascending (assign k v m)
  | [], _ => by simp [assign, Ascending]
  | (a, b) :: m, h => by
    obtain ⟨h1, h2⟩ := List.pairwise_cons.mp h
    simp only [assign]
    split
    next hk =>
      refine List.pairwise_cons.mpr ⟨fun x hx => ?_, h⟩
      rcases List.mem_cons.mp hx with rfl | hx
      · exact hk
      · exact UInt16.lt_trans hk (h1 x hx)
    next hk =>
      split
      next e => subst e; exact h
      next e =>
        refine List.pairwise_cons.mpr ⟨fun x hx => ?_, assign_ascending h2⟩
        rcases mem_keys_assign.mp hx with rfl | hx
        · have : ¬ x.toNat < a.toNat := fun g => hk (UInt16.lt_iff_toNat_lt.mpr g)
          have ne : x.toNat ≠ a.toNat := fun g => e (UInt16.toNat_inj.mp g)
          exact UInt16.lt_iff_toNat_lt.mpr (show a.toNat < x.toNat by omega)
        · exact h1 x hx

theorem mapOf_append (ds : List Decompressor) (d : Decompressor) :
    mapOf (ds ++ [d]) = assign d.algorithm d (mapOf ds) := by
  simp [mapOf, List.foldl_append]

theorem snoc_induction {α : Type} {P : List α → Prop} (nil : P [])
    (snoc : ∀ l a, P l → P (l ++ [a])) (l : List α) : P l := by
  have : ∀ n (l : List α), l.length = n → P l := by
    intro n
    induction n with
    | zero => intro l h; rw [List.eq_nil_of_length_eq_zero h]; exact nil
    | succ n ih =>
      intro l h
      have hne : l ≠ [] := by intro e; subst e; cases h
      rw [← List.dropLast_concat_getLast hne]
      exact snoc _ _ (ih _ (by rw [List.length_dropLast]; omega))
  exact this _ l rfl

/-- **C80** After `setDecompressors` — whatever was set before — the algorithms offered are exactly those
of the given decompressors, each once, in ascending order; the decompressor found for an algorithm is the
last one given for it, it is of that algorithm, and there is one exactly for the offered algorithms. -/
theorem C80_manager (old : Manager) (ds : List Decompressor) :
    let mgr := old.setDecompressors ds
    mgr.supported.Pairwise (· < ·) ∧
    (∀ a, a ∈ mgr.supported ↔ ∃ d ∈ ds, d.algorithm = a) ∧
    (∀ a, mgr.getDecompressor a = lastFor a ds) ∧
    (∀ a, (mgr.getDecompressor a).isSome ↔ a ∈ mgr.supported) ∧
    (∀ a d, mgr.getDecompressor a = some d → d.algorithm = a ∧ d ∈ ds) := by
  have key : ∀ ds, Ascending (mapOf ds) ∧
      (∀ a, a ∈ (mapOf ds).map (·.1) ↔ ∃ d ∈ ds, d.algorithm = a) ∧
      (∀ a, lookup a (mapOf ds) = lastFor a ds) := by
    intro ds
    induction ds using snoc_induction with
    | nil => exact ⟨List.Pairwise.nil, by simp [mapOf], fun a => rfl⟩
    | snoc ds d ih =>
      obtain ⟨i1, i2, i3⟩ := ih
      rw [mapOf_append]
      refine ⟨assign_ascending i1, fun a => ?_, fun a => ?_⟩
      · rw [mem_keys_assign, i2]
        constructor
        · rintro (rfl | ⟨x, h1, h2⟩)
          · exact ⟨d, by simp, rfl⟩
          · exact ⟨x, by simp [h1], h2⟩
        · rintro ⟨x, h1, h2⟩
          rcases List.mem_append.mp h1 with h | h
          · exact Or.inr ⟨x, h, h2⟩
          · rw [List.mem_singleton] at h; subst h; exact Or.inl h2.symm
      · rw [lookup_assign, i3]
        simp only [lastFor, List.filter_append]
        by_cases h : a = d.algorithm
        · subst h; simp
        · rw [if_neg h]
          have : (List.filter (fun x => decide (x.algorithm = a)) [d]) = [] := by
            simp; exact fun e => h e.symm
          rw [this, List.append_nil]
  obtain ⟨k1, k2, k3⟩ := key ds
  have mem : ∀ a d, lastFor a ds = some d → d.algorithm = a ∧ d ∈ ds := by
    intro a d h
    have := List.mem_of_getLast? h
    rw [List.mem_filter] at this
    exact ⟨by simpa using this.2, this.1⟩
  refine ⟨k1, k2, k3, fun a => ?_, fun a d h => mem a d (by rw [← k3]; exact h)⟩
  rw [show (old.setDecompressors ds).getDecompressor a = lastFor a ds from k3 a]
  show _ ↔ a ∈ (mapOf ds).map (·.1)
  rw [k2]
  constructor
  · intro h
    obtain ⟨d, hd⟩ := Option.isSome_iff_exists.mp h
    exact ⟨d, (mem a d hd).2, (mem a d hd).1⟩
  · rintro ⟨d, h1, h2⟩
    rw [lastFor, List.getLast?_isSome]
    exact List.ne_nil_of_mem (List.mem_filter.mpr ⟨h1, by simpa using h2⟩)

/-! ## Both sides -/

theorem compressAll_spec {m : CertificateMsg} : ∀ {cs : List Compressor}
    {made out : List (UInt16 × CompressedCertificate)}, compressAll (.ok m) cs made = .ok out →
    ∀ a cc, lookup a out = some cc →
      lookup a made = some cc ∨ ∃ c ∈ cs, c.algorithm = a ∧ c.compress m = .ok cc
  | [], made, out, h, a, cc, hl => by
    cases h; exact Or.inl hl
  | c :: cs, made, out, h, a, cc, hl => by
    simp only [compressAll, Res.ok_bind, Res.bind_eq_ok] at h
    obtain ⟨x, h1, h2⟩ := h
    rcases compressAll_spec h2 a cc hl with g | ⟨c', g1, g2⟩
    · rw [lookup_assign] at g
      split at g
      next e => subst e; cases g; exact Or.inr ⟨c, by simp, rfl, h1⟩
      next => exact Or.inl g
    · exact Or.inr ⟨c', by simp [g1], g2⟩

/-- **C80** End to end: the client offers what its manager supports; the server, whose certificate was
made with compressors of its own, sends its Certificate message compressed or not.  If the two libraries
agree on each algorithm both have, then what the client's handshake parser and manager make of the bytes
is the server's Certificate message — provided it has at most 128 KiB. -/
theorem C80_handshake (old : Manager) (ds : List Decompressor) (cs : List Compressor)
    (supported : List UInt16) (m : CertificateMsg)
    (hpair : ∀ c ∈ cs, ∀ d ∈ ds, c.algorithm = d.algorithm → Pair c d)
    (hlen : (Spec.certificateMsg m).length ≤ 0x20000)
    (made : List (UInt16 × CompressedCertificate)) (hmade : compressAll (.ok m) cs [] = .ok made)
    (algorithm : Option UInt16)
    (halg : algorithm =
      negotiateAlgorithm supported (some (old.setDecompressors ds).supported))
    (bytes : Bytes) (hb : getCertificate (.ok m) made algorithm = .ok bytes) :
    (algorithm = none → bytes = Spec.handshake (.certificate m)) ∧
    (∀ a, algorithm = some a → a ∈ supported ∧
      ∃ cc, bytes = Spec.handshake (.compressedCertificate cc) ∧ cc.algorithm = a ∧
        receive (old.setDecompressors ds) cc = .ok m) := by
  constructor
  · rintro rfl
    simp only [getCertificate, Res.ok_bind, encodeHandshake_eq_ok] at hb
    exact hb.2.2
  · intro a ha
    subst ha
    simp only [getCertificate, Res.bind_eq_ok, encodeHandshake_eq_ok] at hb
    obtain ⟨cc, h1, -, -, h2⟩ := hb
    simp only [negotiateAlgorithm] at halg
    split at halg
    · cases halg
    · simp only [Negotiate.negotiateFlat] at halg
      have hs := List.mem_of_find?_eq_some halg.symm
      have hc := List.find?_some halg.symm
      simp only [decide_eq_true_eq] at hc
      refine ⟨hs, cc, h2, ?_⟩
      simp only [getCompressedCert] at h1
      split at h1
      · cases h1
      next c' hl =>
        cases h1
        rcases compressAll_spec hmade a cc hl with g | ⟨c, g1, g2, g3⟩
        · simp [lookup] at g
        · obtain ⟨-, -, -, k4, k5⟩ := C80_manager old ds
          obtain ⟨d, hd⟩ := Option.isSome_iff_exists.mp ((k4 a).mpr hc)
          obtain ⟨d1, d2⟩ := k5 a d hd
          have hp := hpair c g1 d d2 (by rw [g2, d1])
          have hok := C80_lossless hp g3 hlen
          obtain ⟨out, -, -, e, -⟩ := compress_facts hp g3
          have hca : cc.algorithm = a := by rw [e, g2]
          refine ⟨hca, ?_⟩
          have hne : (old.setDecompressors ds).supported.isEmpty = false := by
            rw [List.isEmpty_eq_false_iff]; exact List.ne_nil_of_mem hc
          simp only [receive, hne, hca, Bool.false_eq_true, if_false, hc, not_true, hd, hok]

/-- **C80** The client never calls a decompressor it does not have, and a failed decompression is a
`bad_certificate` alert, an unsolicited compressed certificate an `unexpected_message` alert. -/
theorem C80_refuse (old : Manager) (ds : List Decompressor) (cc : CompressedCertificate)
    (hsafe : ∀ d ∈ ds, ∀ x w, (d.decompress x).result ≠ .error (.ub w) ∧
      (d.decompress x).result ≠ .error .abort) :
    (∃ m, receive (old.setDecompressors ds) cc = .ok m) ∨
    (∃ msg, receive (old.setDecompressors ds) cc = .error (Failure.fizz msg (some 42))) ∨
    (ds = [] ∧ ∃ msg, receive (old.setDecompressors ds) cc = .error (Failure.fizz msg (some 10))) := by
  obtain ⟨-, k2, -, k4, k5⟩ := C80_manager old ds
  simp only [receive]
  split
  next h =>
    refine Or.inr (Or.inr ⟨?_, _, rfl⟩)
    rw [List.isEmpty_iff] at h
    cases ds with
    | nil => rfl
    | cons d ds =>
      have := (k2 d.algorithm).mpr ⟨d, by simp, rfl⟩
      rw [h] at this
      simp at this
  · split
    · exact Or.inr (Or.inl ⟨_, rfl⟩)
    next h =>
      rw [Decidable.not_not] at h
      obtain ⟨d, hd⟩ := Option.isSome_iff_exists.mp ((k4 _).mpr h)
      have hm := (k5 _ _ hd).2
      simp only [hd]
      split
      · exact Or.inl ⟨_, rfl⟩
      next he => exact ((hsafe d hm cc "").2 he).elim
      next w he => exact ((hsafe d hm cc w).1 he).elim
      · exact Or.inr (Or.inl ⟨_, rfl⟩)

/-- **C80** (a limit of the server's side) An algorithm the server's context supports but its certificate
was not compressed with makes the Certificate message fail: there is no falling back to the plain one. -/
theorem C80_no_fallback {m : CertificateMsg} {cs : List Compressor}
    {made : List (UInt16 × CompressedCertificate)} (hmade : compressAll (.ok m) cs [] = .ok made)
    {a : UInt16} (ha : ∀ c ∈ cs, c.algorithm ≠ a) :
    getCertificate (.ok m) made (some a) = .error .outOfRange := by
  have : lookup a made = none := by
    cases h : lookup a made with
    | none => rfl
    | some cc =>
      rcases compressAll_spec hmade a cc h with g | ⟨c, g1, g2, -⟩
      · simp [lookup] at g
      · exact (ha c g1 g2).elim
  simp only [getCertificate, getCompressedCert, this, Res.error_bind]

end Fizz.Compress

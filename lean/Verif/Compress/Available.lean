import Verif.Compress.Example

/-! # C80: compression is not refused needlessly -/

namespace Fizz.Compress
open Fizz.Codec

/-- The library compresses anything if it is given the room it asks for. -/
def Zlib.Serves (z : Zlib) (level : Int) : Prop :=
  ∀ x room, z.compressBound x.length ≤ room → ∃ c, z.compress2 level room x = .ok c
@[inherit_doc Zlib.Serves]
def Brotli.Serves (b : Brotli) (level window : Int) : Prop :=
  ∀ x, 0 < b.maxCompressedSize x.length ∧
    ∀ room, b.maxCompressedSize x.length ≤ room → ∃ c, b.compress level window room x = some c
@[inherit_doc Zlib.Serves]
def Zstd.Serves (z : Zstd) (level : Int) : Prop :=
  ∀ x room, z.compressBound x.length ≤ room → ∃ c, z.compress level room x = .ok c

/-- A compressor over a library that serves it. -/
inductive Served : Compressor → Prop
  | zlib {z : Zlib} {level : Int} (h : z.Serves level) (slack : Nat) : Served (zlibCompressor z level slack)
  | brotli {b : Brotli} {level window : Int} (h : b.Serves level window) : Served (brotliCompressor b level window)
  | zstd {z : Zstd} {level : Int} (h : z.Serves level) (slack : Nat) : Served (zstdCompressor z level slack)

/-- **C80** Every Certificate message that can be sent at all can be compressed: the compressors ask their library for no less
room than it says it needs, and take no other exit. -/
theorem C80_compresses {c : Compressor} (h : Served c) {m : CertificateMsg} (hm : Spec.CertificateMsgFits m) :
    ∃ cc, c.compress m = .ok cc ∧ cc.algorithm = c.algorithm := by
  have he : encodeCertificateMsg m = .ok (Spec.certificateMsg m) := encode_iff.2 ⟨hm, rfl⟩
  cases h with
  | @zlib z level h slack =>
    obtain ⟨c, hc⟩ := h (Spec.certificateMsg m) (z.compressBound (Spec.certificateMsg m).length + slack) (Nat.le_add_right _ _)
    exact ⟨compressed zlib (Spec.certificateMsg m) c, by simp only [zlibCompressor, zlibCompress, he, Res.ok_bind, hc], rfl⟩
  | @brotli b level window h =>
    obtain ⟨h0, h1⟩ := h (Spec.certificateMsg m)
    obtain ⟨c, hc⟩ := h1 _ (Nat.le_refl _)
    exact ⟨compressed brotli (Spec.certificateMsg m) c, by simp only [brotliCompressor, brotliCompress, he, Res.ok_bind, hc, if_neg (Nat.ne_of_gt h0)], rfl⟩
  | @zstd z level h slack =>
    obtain ⟨c, hc⟩ := h (Spec.certificateMsg m) (z.compressBound (Spec.certificateMsg m).length + slack) (Nat.le_add_right _ _)
    exact ⟨compressed zstd (Spec.certificateMsg m) c, by simp only [zstdCompressor, zstdCompress, he, Res.ok_bind, hc], rfl⟩

theorem compressAll_ok {m : CertificateMsg} (hm : Spec.CertificateMsgFits m) : ∀ {cs : List Compressor}
    {made : List (UInt16 × CompressedCertificate)}, (∀ c ∈ cs, Served c) →
    ∃ out, compressAll (.ok m) cs made = .ok out ∧
      ∀ a, (lookup a out).isSome = true ↔ (lookup a made).isSome = true ∨ ∃ c ∈ cs, c.algorithm = a
  | [], made, _ => ⟨made, rfl, by simp⟩
  | c :: cs, made, hs => by
    obtain ⟨cc, h1, -⟩ := C80_compresses (hs c (by simp)) hm
    obtain ⟨out, h2, h3⟩ := compressAll_ok hm (cs := cs) (made := assign c.algorithm cc made)
      fun c' h' => hs c' (by simp [h'])
    refine ⟨out, by simp only [compressAll, Res.ok_bind, h1, h2], fun a => ?_⟩
    rw [h3, lookup_assign]
    by_cases ha : a = c.algorithm
    · simp [ha]
    · have : ¬ c.algorithm = a := fun h => ha h.symm
      simp [ha, this]

/-- **C80** A certificate with compressors over libraries that serve them can be created, has a compressed message for exactly
the algorithms of its compressors, and a client with matching libraries decompresses each to the server's message. -/
theorem C80_available (old : Manager) (ds : List Decompressor) {cs : List Compressor} (hs : ∀ c ∈ cs, Served c)
    {m : CertificateMsg} (hm : Spec.CertificateMsgFits m)
    (hpair : ∀ c ∈ cs, ∀ d ∈ ds, c.algorithm = d.algorithm → Pair c d)
    (hlen : (Spec.certificateMsg m).length ≤ 0x20000) :
    ∃ made, compressAll (.ok m) cs [] = .ok made ∧
      (∀ a, (∃ cc, getCompressedCert made a = .ok cc) ↔ ∃ c ∈ cs, c.algorithm = a) ∧
      ∀ a ∈ (old.setDecompressors ds).supported, (∃ c ∈ cs, c.algorithm = a) →
        ∃ cc, getCompressedCert made a = .ok cc ∧ receive (old.setDecompressors ds) cc = .ok m := by
  obtain ⟨made, h1, h2⟩ := compressAll_ok hm (made := []) hs
  have key : ∀ a, (∃ cc, getCompressedCert made a = .ok cc) ↔ ∃ c ∈ cs, c.algorithm = a := by
    intro a
    have := h2 a
    simp only [lookup, Option.isSome_none, Bool.false_eq_true, false_or] at this
    rw [← this]
    unfold getCompressedCert
    cases lookup a made <;> simp
  refine ⟨made, h1, key, fun a ha hc => ?_⟩
  obtain ⟨cc, hcc⟩ := (key a).2 hc
  refine ⟨cc, hcc, ?_⟩
  have hl : lookup a made = some cc := by
    unfold getCompressedCert at hcc
    split at hcc
    · cases hcc
    · rename_i hl
      cases hcc; exact hl
  rcases compressAll_spec h1 a cc hl with g | ⟨c, g1, g2, g3⟩
  · simp [lookup] at g
  · obtain ⟨-, -, -, k4, k5⟩ := C80_manager old ds
    obtain ⟨d, hd⟩ := Option.isSome_iff_exists.mp ((k4 a).mpr ha)
    obtain ⟨d1, d2⟩ := k5 a d hd
    have hp := hpair c g1 d d2 (by rw [g2, d1])
    have hok := C80_lossless hp g3 hlen
    obtain ⟨out, -, -, e, -⟩ := compress_facts hp g3
    have hca : cc.algorithm = a := by rw [e, g2]
    have hne : (old.setDecompressors ds).supported.isEmpty = false := by
      rw [List.isEmpty_eq_false_iff]; exact List.ne_nil_of_mem ha
    simp only [receive, hne, hca, Bool.false_eq_true, if_false, ha, not_true, hd, hok]

/-- The libraries of the example serve. -/
example : ∀ c ∈ Example.cs, Served c := by
  intro c hc
  simp only [Example.cs, List.mem_cons, List.not_mem_nil, or_false] at hc
  rcases hc with rfl | rfl
  · refine .zlib (fun x room h => ?_) _
    simp only [Example.z] at h ⊢
    exact ⟨_, if_pos h⟩
  · refine .zstd (fun x room h => ?_) _
    simp only [Example.s] at h ⊢
    exact ⟨_, if_pos h⟩

end Fizz.Compress

import Verif.Compress.Props

/-! # C80: a concrete case

Libraries that put a byte `7` in front of what they are given. -/

namespace Fizz.Compress.Example

open Fizz.Codec

/-- Undo the framing, if there is room. -/
def unframe (room : Nat) : Bytes → Option Bytes
  | 7 :: x => if x.length ≤ room then some x else none
  | _ => none

def z : Zlib where
  uncompress room c := match unframe room c with | some x => .ok x | none => .dataError
  compress2 _ room x := if x.length + 1 ≤ room then .ok (7 :: x) else .bufError
  compressBound n := n + 1

def b : Brotli where
  decompress := unframe
  compress _ _ room x := if x.length + 1 ≤ room then some (7 :: x) else none
  maxCompressedSize n := n + 1

def s : Zstd where
  decompress room c := match unframe room c with | some x => .ok x | none => .error "corrupt"
  compress _ room x := if x.length + 1 ≤ room then .ok (7 :: x) else .error "room"
  compressBound n := n + 1

theorem z_lossless : z.Lossless := by
  intro level r x c h room hr
  simp only [z] at h
  split at h <;> cases h
  simp only [Zlib.Opens, z, unframe, if_pos hr]

theorem b_lossless : b.Lossless := by
  intro level window r x c h room hr
  simp only [b] at h
  split at h <;> cases h
  simp only [Brotli.Opens, b, unframe, if_pos hr]

theorem s_lossless : s.Lossless := by
  intro level r x c h room hr
  simp only [s] at h
  split at h <;> cases h
  simp only [Zstd.Opens, s, unframe, if_pos hr]

def msg : CertificateMsg := ⟨[], [⟨[0xde, 0xad], []⟩]⟩

def cs : List Compressor := [zlibCompressor z (-1) 3, zstdCompressor s 19 0]
def ds : List Decompressor := [zstdDecompressor s 5, brotliDecompressor b, zlibDecompressor z]

/-- `C80_handshake`'s first hypothesis. -/
theorem pairs : ∀ c ∈ cs, ∀ d ∈ ds, c.algorithm = d.algorithm → Pair c d := by
  intro c hc d hd h
  simp only [cs, ds, List.mem_cons, List.not_mem_nil, or_false] at hc hd
  rcases hc with rfl | rfl <;> rcases hd with rfl | rfl | rfl
  case inl.inr.inr => exact .zlib z_lossless _ _
  case inr.inl => exact .zstd s_lossless _ _ _
  all_goals exact absurd h (by decide)

example : (Spec.certificateMsg msg).length ≤ 0x20000 := by decide +kernel

example : (Manager.setDecompressors ⟨[], []⟩ ds).supported = [1, 2, 3] := by decide +kernel

/-- A server preferring zstd settles on it; the client gets the message. -/
example : negotiateAlgorithm [3, 1] (some (Manager.setDecompressors ⟨[], []⟩ ds).supported) = some 3 := by
  decide +kernel

def made : List (UInt16 × CompressedCertificate) :=
  [(1, ⟨1, 11, 7 :: Spec.certificateMsg msg⟩), (3, ⟨3, 11, 7 :: Spec.certificateMsg msg⟩)]

theorem made_eq : compressAll (.ok msg) cs [] = .ok made := by rfl

example : ∃ bytes, getCertificate (.ok msg) made (some 3) = .ok bytes := ⟨_, rfl⟩

/-- A client that has only brotli, and a server that supports it without having compressed with it. -/
example : getCertificate (.ok msg) made (some 2) = .error .outOfRange :=
  C80_no_fallback made_eq (by decide)

/-- A wrong length and a bomb are refused, the bomb without asking for memory. -/
example : ((zlibDecompressor z).decompress ⟨1, 12, 7 :: Spec.certificateMsg msg⟩).result =
    .error (.rt "Uncompressed length incorrect") := by rfl
example : ((zlibDecompressor z).decompress ⟨1, 0xffffffff, [7]⟩).asked = [] := by rfl

end Fizz.Compress.Example

import Verif.Codec.Messages
import Verif.Server.Negotiate

/-!
# Certificate compression

Model of `fizz/compression/*.cpp`, of the compressed certificates of a `SelfCert`
(`fizz/backend/openssl/certificate/OpenSSLSelfCertImpl-inl.h`) and of the server's choice
(`fizz/server/ServerProtocol.cpp:1153-1190`).  zlib, brotli and zstd are abstract.
-/

namespace Fizz.Compress

open Fizz.Codec

/-- `kMaxHandshakeSize` (`fizz/record/Types.h:76`). -/
def kMaxHandshakeSize : Nat := 0x20000

/-- `CertificateCompressionAlgorithm` (`fizz/record/Types.h:143-147`). -/
def zlib : UInt16 := 1
@[inherit_doc zlib] def brotli : UInt16 := 2
@[inherit_doc zlib] def zstd : UInt16 := 3

/-- What zlib answers: data, or one of its error codes. -/
inductive ZStatus
  | ok (out : Bytes)
  | memError
  | bufError
  | dataError
  | streamError
  | other (code : Int)
  deriving DecidableEq

/-- zlib: room for the result, then the input. -/
structure Zlib where
  uncompress : (room : Nat) → Bytes → ZStatus
  compress2 : (level : Int) → (room : Nat) → Bytes → ZStatus
  compressBound : Nat → Nat

/-- Brotli. -/
structure Brotli where
  decompress : (room : Nat) → Bytes → Option Bytes
  compress : (level window : Int) → (room : Nat) → Bytes → Option Bytes
  maxCompressedSize : Nat → Nat

/-- zstd; an error has a name. -/
structure Zstd where
  decompress : (room : Nat) → Bytes → Except String Bytes
  compress : (level : Int) → (room : Nat) → Bytes → Except String Bytes
  compressBound : Nat → Nat

/-- A call that may ask for memory: the sizes it asked for, and its result. -/
structure Run (α : Type) where
  asked : List Nat
  result : Res α

/-- `CertificateDecompressor` (`fizz/compression/CertificateCompressor.h:30-45`). -/
structure Decompressor where
  algorithm : UInt16
  decompress : CompressedCertificate → Run CertificateMsg

/-- `CertificateCompressor` (`fizz/compression/CertificateCompressor.h:14-28`). -/
structure Compressor where
  algorithm : UInt16
  compress : CertificateMsg → Res CompressedCertificate

/-- The checks all three decompressors begin with (`ZlibCertificateDecompressor.cpp:24-33`,
`BrotliCertificateDecompressor.cpp:43-52`, `ZstdCertificateDecompressor.cpp:25-34`), and the buffer of the
claimed length the rest works on.  The name of the wrong algorithm is left out of the message. -/
def claimed (algorithm : UInt16) (name : String) (cc : CompressedCertificate)
    (k : Res CertificateMsg) : Run CertificateMsg :=
  if cc.algorithm ≠ algorithm then
    ⟨[], .error (.rt ("Compressed certificate uses non-" ++ name ++ " algorithm"))⟩
  else if kMaxHandshakeSize < cc.uncompressed_length.toNat then
    ⟨[], .error (.rt "Compressed certificate exceeds maximum certificate message size")⟩
  else ⟨[cc.uncompressed_length.toNat], k⟩

/-- `ZlibCertificateDecompressor::decompress` after the checks (`ZlibCertificateDecompressor.cpp:35-63`). -/
def zlibBody (z : Zlib) (cc : CompressedCertificate) : Res CertificateMsg :=
  match z.uncompress cc.uncompressed_length.toNat cc.compressed_certificate_message with
  | .ok out =>
    if out.length ≠ cc.uncompressed_length.toNat then .error (.rt "Uncompressed length incorrect")
    else decodeCertificateMsg out
  | .memError => .error (.rt "Insufficient memory to decompress cert")
  | .bufError =>
    .error (.rt "The uncompressed length given is too small to hold uncompressed data")
  | .dataError => .error (.rt "The compressed certificate data was incomplete or invalid")
  | .streamError => .error (.rt "Failed to decompress: -2")
  | .other n => .error (.rt ("Failed to decompress: " ++ toString n))

/-- `ZlibCertificateDecompressor` (`ZlibCertificateDecompressor.cpp:15-65`). -/
def zlibDecompressor (z : Zlib) : Decompressor :=
  ⟨zlib, fun cc => claimed zlib "zlib" cc (zlibBody z cc)⟩

/-- `BrotliCertificateDecompressor::decompress` after the checks
(`BrotliCertificateDecompressor.cpp:18-32`, `54-71`). -/
def brotliBody (b : Brotli) (cc : CompressedCertificate) : Res CertificateMsg :=
  match b.decompress cc.uncompressed_length.toNat cc.compressed_certificate_message with
  | none => .error (.rt "Decompressing certificate failed")
  | some out =>
    if out.length ≠ cc.uncompressed_length.toNat then .error (.rt "Uncompressed length incorrect")
    else decodeCertificateMsg out

/-- `BrotliCertificateDecompressor` (`BrotliCertificateDecompressor.cpp:34-71`). -/
def brotliDecompressor (b : Brotli) : Decompressor :=
  ⟨brotli, fun cc => claimed brotli "brotli" cc (brotliBody b cc)⟩

/-- `ZstdCertificateDecompressor::decompress` after the checks (`ZstdCertificateDecompressor.cpp:36-62`).
The room is the buffer's whole tailroom: the claimed length and what the allocator adds. -/
def zstdBody (z : Zstd) (slack : Nat) (cc : CompressedCertificate) : Res CertificateMsg :=
  match z.decompress (cc.uncompressed_length.toNat + slack) cc.compressed_certificate_message with
  | .error name => .error (.rt ("Failed to decompress cert with zstd: " ++ name))
  | .ok out =>
    if out.length ≠ cc.uncompressed_length.toNat then .error (.rt "Uncompressed length incorrect")
    else if out.length = 0 then .error (.rt "Compressed certificate is zero-length")
    else decodeCertificateMsg out

/-- `ZstdCertificateDecompressor` (`ZstdCertificateDecompressor.cpp:16-64`). -/
def zstdDecompressor (z : Zstd) (slack : Nat) : Decompressor :=
  ⟨zstd, fun cc => claimed zstd "zstd" cc (zstdBody z slack cc)⟩

/-- The result of a compressor: the length of the encoded message is stored in 32 bits. -/
def compressed (algorithm : UInt16) (encoded out : Bytes) : CompressedCertificate :=
  ⟨algorithm, UInt32.ofNat encoded.length, out⟩

/-- `ZlibCertificateCompressor::create` (`ZlibCertificateCompressor.cpp:18-33`). -/
def zlibLevel (level : Int) : Res Unit :=
  if level ≠ -1 ∧ ¬ (0 ≤ level ∧ level ≤ 9) then
    .error (.rt ("Invalid compression level requested:" ++ toString level))
  else .ok ()

/-- `ZlibCertificateCompressor::compress` (`ZlibCertificateCompressor.cpp:40-76`); the room is the
buffer's capacity. -/
def zlibCompress (z : Zlib) (level : Int) (slack : Nat) (m : CertificateMsg) :
    Res CompressedCertificate := do
  let encoded ← encodeCertificateMsg m
  match z.compress2 level (z.compressBound encoded.length + slack) encoded with
  | .ok out => .ok (compressed zlib encoded out)
  | .memError => .error (.rt "Insufficient memory to compress cert")
  | .bufError => .error (.rt "Buffer too small for compressed cert")
  | .streamError => .error (.rt ("Compression level invalid: " ++ toString level))
  | .dataError => .error (.rt "Failed to compress: -3")
  | .other n => .error (.rt ("Failed to compress: " ++ toString n))

/-- `ZlibCertificateCompressor`. -/
def zlibCompressor (z : Zlib) (level : Int) (slack : Nat) : Compressor :=
  ⟨zlib, zlibCompress z level slack⟩

/-- `BrotliCertificateCompressor::compress` (`BrotliCertificateCompressor.cpp:30-84`). -/
def brotliCompress (b : Brotli) (level window : Int) (m : CertificateMsg) :
    Res CompressedCertificate := do
  let encoded ← encodeCertificateMsg m
  if b.maxCompressedSize encoded.length = 0 then
    .error (.rt "Failed to compress certificate: could not calculate upper bound")
  else match b.compress level window (b.maxCompressedSize encoded.length) encoded with
    | none => .error (.rt "Failed to compress certificate")
    | some out => .ok (compressed brotli encoded out)

/-- `BrotliCertificateCompressor`. -/
def brotliCompressor (b : Brotli) (level window : Int) : Compressor :=
  ⟨brotli, brotliCompress b level window⟩

/-- `ZstdCertificateCompressor::compress` (`ZstdCertificateCompressor.cpp:24-54`). -/
def zstdCompress (z : Zstd) (level : Int) (slack : Nat) (m : CertificateMsg) :
    Res CompressedCertificate := do
  let encoded ← encodeCertificateMsg m
  match z.compress level (z.compressBound encoded.length + slack) encoded with
  | .error name => .error (.rt ("Failed to compress cert with zstd: " ++ name))
  | .ok out => .ok (compressed zstd encoded out)

/-- `ZstdCertificateCompressor`. -/
def zstdCompressor (z : Zstd) (level : Int) (slack : Nat) : Compressor :=
  ⟨zstd, zstdCompress z level slack⟩

/-! ## Maps -/

/-- Assignment in a `std::map`: keys ascending, each once. -/
def assign {β : Type} (k : UInt16) (v : β) : List (UInt16 × β) → List (UInt16 × β)
  | [] => [(k, v)]
  | (k', v') :: m =>
    if k < k' then (k, v) :: (k', v') :: m
    else if k = k' then (k, v) :: m
    else (k', v') :: assign k v m

/-- `std::map::find`. -/
def lookup {β : Type} (k : UInt16) : List (UInt16 × β) → Option β
  | [] => none
  | (k', v) :: m => if k = k' then some v else lookup k m

/-- `CertDecompressionManager` (`fizz/compression/CertDecompressionManager.h:18-54`). -/
structure Manager where
  decompressors : List (UInt16 × Decompressor) := []
  supported : List UInt16 := []

/-- The map after the loop of `setDecompressors` (`CertDecompressionManager.cpp:23-26`). -/
def mapOf (ds : List Decompressor) : List (UInt16 × Decompressor) :=
  ds.foldl (fun m d => assign d.algorithm d m) []

/-- `CertDecompressionManager::setDecompressors` (`CertDecompressionManager.cpp:21-31`). -/
def Manager.setDecompressors (_ : Manager) (ds : List Decompressor) : Manager :=
  ⟨mapOf ds, (mapOf ds).map (·.1)⟩

/-- `CertDecompressionManager::getDecompressor` (`CertDecompressionManager.cpp:38-47`). -/
def Manager.getDecompressor (m : Manager) (algorithm : UInt16) : Option Decompressor :=
  lookup algorithm m.decompressors

/-! ## The server's side -/

/-- The compressed certificates made when a `SelfCert` is created
(`OpenSSLSelfCertImpl-inl.h:48-56`): the message without a request context, by each compressor. -/
def compressAll (message : Res CertificateMsg) :
    List Compressor → List (UInt16 × CompressedCertificate) →
    Res (List (UInt16 × CompressedCertificate))
  | [], made => .ok made
  | c :: cs, made => do
    let m ← message
    let out ← c.compress m
    compressAll message cs (assign c.algorithm out made)

/-- `SelfCert::getCompressedCert` (`OpenSSLSelfCertImpl-inl.h:83-87`): `std::map::at` throws for an
algorithm no compressor was given for. -/
def getCompressedCert (made : List (UInt16 × CompressedCertificate)) (algorithm : UInt16) :
    Res CompressedCertificate :=
  match lookup algorithm made with
  | none => .error .outOfRange
  | some c => .ok c

/-- `getCertificate` without the transcript (`fizz/server/ServerProtocol.cpp:1171-1190`). -/
def getCertificate (message : Res CertificateMsg) (made : List (UInt16 × CompressedCertificate)) :
    Option UInt16 → Res Bytes
  | some a => do
    let c ← getCompressedCert made a
    encodeHandshake (.compressedCertificate c)
  | none => do
    let m ← message
    encodeHandshake (.certificate m)

/-- `negotiateCertCompressionAlgo` (`fizz/server/ServerProtocol.cpp:1153-1169`) for a decoded
extension. -/
def negotiateAlgorithm (supported : List UInt16) (offered : Option (List UInt16)) : Option UInt16 :=
  match offered with
  | some algorithms =>
    if supported.isEmpty then none else Negotiate.negotiateFlat supported algorithms
  | none => none

/-! ## The client's side -/

/-- What the client does with a CompressedCertificate (`fizz/client/ClientProtocol.cpp:2414-2449`): the
message, or a failure with the alert. -/
def receive (mgr : Manager) (cc : CompressedCertificate) : Res CertificateMsg :=
  if mgr.supported.isEmpty then
    .error (Failure.fizz "compressed certificate received unexpectedly" (some 10))
  else if cc.algorithm ∉ mgr.supported then
    .error (Failure.fizz "certificate compressed with unsupported algorithm" (some 42))
  else match mgr.getDecompressor cc.algorithm with
    | none => .error (.ub "null decompressor")
    | some d =>
      match (d.decompress cc).result with
      | .ok m => .ok m
      | .error .abort => .error .abort
      | .error (.ub w) => .error (.ub w)
      | .error _ => .error (Failure.fizz "certificate decompression failed" (some 42))

end Fizz.Compress

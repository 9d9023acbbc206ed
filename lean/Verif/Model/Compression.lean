import Verif.Model.Adpcm
import Verif.Model.Huffman

/-!
# Compression (`mopaq/src/compression`)

The libraries behind the single methods (flate2, bzip2, lzma-rs, pklib) are parameters, collected in
`Codecs`; everything around them is modelled. `usize` products such as `expected_size * 4` are
unbounded here; they fit for every size below 2^62.
-/

namespace Mopaq

/-- The external codecs: flate2's `ZlibEncoder`/`ZlibDecoder`, bzip2's `BzEncoder`/`BzDecoder`,
lzma-rs's `lzma_compress`, `lzma_decompress`, `xz_decompress`, pklib's `implode_bytes` (ASCII, 2K) and
`explode_bytes`. `none` is an error return. -/
structure Codecs where
  deflate : List Byte → Option (List Byte)
  inflate : List Byte → Option (List Byte)
  bzCompress : List Byte → Option (List Byte)
  bzDecompress : List Byte → Option (List Byte)
  lzmaCompress : List Byte → Option (List Byte)
  lzmaDecompress : List Byte → Option (List Byte)
  xzDecompress : List Byte → Option (List Byte)
  implode : List Byte → Option (List Byte)
  explode : List Byte → Option (List Byte)

/-- `map_err` of a library result to `Error::compression`. -/
def liftCodec : Option (List Byte) → Res (List Byte)
  | some x => .ok x
  | none => .error .compression

/-- Models `algorithms/zlib.rs` 57-66 (`compress`). -/
def zlibCompress (e : Codecs) (data : List Byte) : Res (List Byte) := liftCodec (e.deflate data)

/-- Models `algorithms/zlib.rs` 10-54 (`decompress`): a size mismatch is only logged. -/
def zlibDecompress (e : Codecs) (data : List Byte) (_expected : Nat) : Res (List Byte) :=
  liftCodec (e.inflate data)

/-- Models `algorithms/bzip2.rs` 30-39 (`compress`). -/
def bzip2Compress (e : Codecs) (data : List Byte) : Res (List Byte) := liftCodec (e.bzCompress data)

/-- Models `algorithms/bzip2.rs` 10-27 (`decompress`): a size mismatch is an error. -/
def bzip2Decompress (e : Codecs) (data : List Byte) (expected : Nat) : Res (List Byte) :=
  match e.bzDecompress data with
  | none => .error .compression
  | some out => if out.length ≠ expected then .error .compression else .ok out

/-- Models `algorithms/lzma.rs` 50-63 (`compress`). -/
def lzmaCompress (e : Codecs) (data : List Byte) : Res (List Byte) := liftCodec (e.lzmaCompress data)

/-- Models `algorithms/lzma.rs` 7-47 (`decompress`): LZMA first, then XZ. -/
def lzmaDecompress (e : Codecs) (data : List Byte) (_expected : Nat) : Res (List Byte) :=
  match e.lzmaDecompress data with
  | some out => .ok out
  | none => liftCodec (e.xzDecompress data)

/-- Models `algorithms/pkware.rs` 7-17 (`compress`). -/
def pkwareCompress (e : Codecs) (data : List Byte) : Res (List Byte) :=
  if data = [] then .ok [] else liftCodec (e.implode data)

/-- Models `algorithms/pkware.rs` 20-40 (`decompress`). -/
def pkwareDecompress (e : Codecs) (data : List Byte) (_expected : Nat) : Res (List Byte) :=
  if data = [] then .ok [] else liftCodec (e.explode data)

/-- Models `algorithms/implode.rs` 93-102 (`compress`, not implemented). -/
def implodeCompress (data : List Byte) : Res (List Byte) :=
  if data = [] then .ok [] else .error .compression

/-- Models `algorithms/implode.rs` 26-28, 30-35: the headers tried, in order. -/
def implodeHeaders : List (List Byte) :=
  [[0#8, 4#8], [0#8, 5#8], [0#8, 6#8], [1#8, 4#8], [1#8, 5#8], [1#8, 6#8]]

/-- Models `algorithms/implode.rs` 14-90 (`decompress`): the first header that explodes wins. -/
def implodeDecompress (e : Codecs) (data : List Byte) (_expected : Nat) : Res (List Byte) :=
  if data = [] then .ok []
  else liftCodec (implodeHeaders.findSome? fun h => e.explode (h ++ data))

/-- `data[pos] == 0`. -/
def isZeroByte (b : Byte) : Bool := decide (b = 0#8)

/-- `data[pos] != 0`. -/
def isNonZeroByte (b : Byte) : Bool := decide (b ≠ 0#8)

/-- Models `algorithms/sparse.rs` 61-66: the chunks of a zero run. The fuel is the run length. -/
def zeroChunks : Nat → Nat → List Byte
  | 0, _ => []
  | fuel + 1, n =>
    if n > 0 then
      let chunk := min n 0x7F
      (0x80#8 ||| BitVec.ofNat 8 chunk) :: zeroChunks fuel (n - chunk)
    else []

/-- Models `algorithms/sparse.rs` 51-80: the loop over the data. Every round takes at least a byte,
so the fuel (the data length) suffices. -/
def sparseCompressLoop : Nat → List Byte → List Byte
  | 0, _ => []
  | fuel + 1, data =>
    if data = [] then []
    else
      let zeroCount := (data.takeWhile isZeroByte).length
      let rest := data.drop zeroCount
      let dataCount := min (rest.takeWhile isNonZeroByte).length 0x7F
      zeroChunks zeroCount zeroCount
        ++ (if dataCount > 0 then BitVec.ofNat 8 dataCount :: rest.take dataCount else [])
        ++ sparseCompressLoop fuel (rest.drop dataCount)

/-- Models `algorithms/sparse.rs` 47-86 (`compress`). -/
def sparseCompress (data : List Byte) : Res (List Byte) :=
  .ok (sparseCompressLoop data.length data ++ [0xFF#8])

/-- Models `algorithms/sparse.rs` 11-36: the decoding loop; `len` is `output.len()`, the result is
what the loop appends. Every round takes a byte, so the fuel (the data length) suffices. -/
def sparseDecompressLoop (expected : Nat) : Nat → List Byte → Nat → Res (List Byte)
  | 0, _, _ => .ok []
  | _ + 1, [], _ => .ok []
  | fuel + 1, control :: bs, len =>
    if len < expected then
      if control = 0xFF#8 then .ok []
      else if control &&& 0x80#8 ≠ 0#8 then do
        let count := (control &&& 0x7F#8).toNat
        let rest ← sparseDecompressLoop expected fuel bs (len + count)
        return List.replicate count 0#8 ++ rest
      else
        let count := control.toNat
        if count > bs.length then .error .compression
        else do
          let rest ← sparseDecompressLoop expected fuel (bs.drop count) (len + count)
          return bs.take count ++ rest
    else .ok []

/-- Models `algorithms/sparse.rs` 6-44 (`decompress`). -/
def sparseDecompress (data : List Byte) (expected : Nat) : Res (List Byte) := do
  let out ← sparseDecompressLoop expected data.length data 0
  return out ++ List.replicate (expected - out.length) 0#8

/-- Models `compression/methods.rs` 27-50 (`CompressionMethod`). -/
inductive Method where
  | none | huffman | zlib | implode | pkware | bzip2 | sparse | adpcmMono | adpcmStereo | lzma
  | multiple (flags : Byte)
  deriving DecidableEq, Repr

/-- Models `compression/methods.rs` 54-73 (`from_flags`). -/
def Method.fromFlags (flags : Byte) : Method :=
  if flags = 0x12#8 then .lzma
  else if flags = 0#8 then .none
  else if flags = 0x01#8 then .huffman
  else if flags = 0x02#8 then .zlib
  else if flags = 0x04#8 then .implode
  else if flags = 0x08#8 then .pkware
  else if flags = 0x10#8 then .bzip2
  else if flags = 0x20#8 then .sparse
  else if flags = 0x40#8 then .adpcmMono
  else if flags = 0x80#8 then .adpcmStereo
  else .multiple flags

/-- `(flags & bit) != 0`. -/
def hasFlag (flags bit : Byte) : Bool := flags &&& bit != 0#8

/-- Models `compression/compress.rs` 50-103 (`compress_multiple`). -/
def compressMultiple (e : Codecs) (data : List Byte) (flags : Byte) : Res (List Byte) := do
  let current ←
    if hasFlag flags 0x40#8 then adpcmCompress data 5 1
    else if hasFlag flags 0x80#8 then adpcmCompress data 5 2
    else pure data
  let remaining := [hasFlag flags 0x01#8, hasFlag flags 0x02#8, hasFlag flags 0x08#8,
    hasFlag flags 0x10#8, hasFlag flags 0x20#8].count true
  if remaining = 0 then return current
  else if remaining > 1 then throw .compression
  else if hasFlag flags 0x01#8 then huffmanCompress current
  else if hasFlag flags 0x02#8 then zlibCompress e current
  else if hasFlag flags 0x10#8 then bzip2Compress e current
  else if hasFlag flags 0x20#8 then sparseCompress current
  else if hasFlag flags 0x08#8 then pkwareCompress e current
  else return current

/-- Models `compression/compress.rs` 31-47 (`compress_internal`). -/
def compressInternal (e : Codecs) (data : List Byte) (method : Byte) : Res (List Byte) :=
  match Method.fromFlags method with
  | .none => .ok data
  | .zlib => zlibCompress e data
  | .bzip2 => bzip2Compress e data
  | .lzma => lzmaCompress e data
  | .sparse => sparseCompress data
  | .adpcmMono => adpcmCompress data 5 1
  | .adpcmStereo => adpcmCompress data 5 2
  | .pkware => pkwareCompress e data
  | .implode => implodeCompress data
  | .huffman => huffmanCompress data
  | .multiple flags => compressMultiple e data flags

/-- Models `compression/compress.rs` 12-28 (`compress`). -/
def compress (e : Codecs) (data : List Byte) (method : Byte) : Res (List Byte) := do
  let compressed ← compressInternal e data method
  if compressed.length ≥ data.length then return data
  else return method :: compressed

/-- Models `compression/decompress.rs` 50-156 (`decompress_multiple`). -/
def decompressMultiple (e : Codecs) (data : List Byte) (flags : Byte) (expected : Nat) :
    Res (List Byte) :=
  if data = [] then .error .compression
  else do
    let huffman := hasFlag flags 0x01#8
    let zlib := hasFlag flags 0x02#8
    let implode := hasFlag flags 0x04#8
    let pkware := hasFlag flags 0x08#8
    let bzip2 := hasFlag flags 0x10#8
    let sparse := hasFlag flags 0x20#8
    let mono := hasFlag flags 0x40#8
    let stereo := hasFlag flags 0x80#8
    -- step 1 (93-111)
    let current ←
      if huffman then huffmanDecompress data (max (expected * 2) (data.length * 2))
      else if zlib then zlibDecompress e data (expected * 4)
      else if bzip2 then bzip2Decompress e data (expected * 4)
      else if sparse then sparseDecompress data (expected * 4)
      else if implode then implodeDecompress e data (expected * 4)
      else pure data
    -- step 2 (113-119)
    let current ←
      if pkware then pkwareDecompress e current (max expected (current.length * 2))
      else pure current
    -- step 3 (121-129)
    let current ←
      if stereo then adpcmDecompress current expected 2
      else if mono then adpcmDecompress current expected 1
      else pure current
    -- 131-149
    if flags = 0x40#8 then adpcmDecompress data expected 1
    else if flags = 0x80#8 then adpcmDecompress data expected 2
    else if !(mono || stereo) && !pkware && (huffman || zlib || bzip2 || sparse) then
      if huffman then huffmanDecompress data expected
      else if zlib then zlibDecompress e data expected
      else if bzip2 then bzip2Decompress e data expected
      else sparseDecompress data expected
    else return current

/-- The declared sizes that make decompression panic before anything is decoded. The codecs other than PKWare, implode
and ADPCM allocate a buffer of the declared size first (`algorithms/zlib.rs` 25, `bzip2.rs` 12, `lzma.rs` 10, `sparse.rs` 8,
`huffman.rs` 378), and a buffer of more than `isize::MAX` bytes is a panic; several methods at once ask for twice or four
times the declared size (`compression/decompress.rs` 97-110), where the product may overflow as well. Simplification: that
the Huffman codec may ask for twice the length of its input instead is left out. -/
def sizePanics (method : Byte) (size : Nat) : Bool :=
  match Method.fromFlags method with
  | .zlib | .bzip2 | .lzma | .sparse | .huffman => decide (2 ^ 63 ≤ size)
  | .multiple flags =>
    if hasFlag flags 0x01#8 then decide (2 ^ 63 ≤ size * 2)
    else if hasFlag flags 0x02#8 || hasFlag flags 0x10#8 || hasFlag flags 0x20#8 then decide (2 ^ 63 ≤ size * 4)
    else if hasFlag flags 0x04#8 then decide (2 ^ 64 ≤ size * 4)
    else false
  | _ => false

/-- Models `compression/decompress.rs` 8-47 (`decompress`). -/
def decompress (e : Codecs) (data : List Byte) (method : Byte) (size : Nat) : Res (List Byte) :=
  if data = [] then .error .compression
  else if method = 0#8 then .ok data
  else if sizePanics method size then .error .panic
  else match Method.fromFlags method with
    | .none => .ok data
    | .zlib => zlibDecompress e data size
    | .bzip2 => bzip2Decompress e data size
    | .lzma => lzmaDecompress e data size
    | .sparse => sparseDecompress data size
    | .implode => implodeDecompress e data size
    | .pkware => pkwareDecompress e data size
    | .huffman => huffmanDecompress data size
    | .adpcmMono => adpcmDecompress data size 1
    | .adpcmStereo => adpcmDecompress data size 2
    | .multiple flags => decompressMultiple e data flags size

end Mopaq

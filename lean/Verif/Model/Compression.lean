import Verif.Model.Bytes
import Verif.Model.Endian

/-!
# Model of `src/read/gnu_compression.rs` and of `CompressedFileRange` (src/read/mod.rs:1230-1293)
-/

namespace Obj

/-- `CompressionFormat`, src/read/mod.rs:1210-1228 (`Unknown` is never produced by the modelled code). -/
inductive CompressionFormat where
  | none | zlib | zstandard
  deriving DecidableEq, Repr

/-- `CompressedFileRange`, src/read/mod.rs:1236-1246. -/
structure CompressedFileRange where
  format : CompressionFormat
  offset : Nat
  compressedSize : Nat
  uncompressedSize : Nat
  deriving DecidableEq, Repr

/-- `gnu_compression::compressed_file_range`, src/read/gnu_compression.rs:7-36.  `offset - section_offset`
is a `u64` subtraction that panics when it underflows. -/
def gnuCompressedFileRange (data : List UInt8) (sectionOffset sectionSize : Nat) : Res CompressedFileRange :=
  match ReadRef.readBytes data sectionOffset 8 with
  | (.err, _) => .err
  | (.panic, _) => .panic
  | (.ok header, offset) =>
    -- b"ZLIB\0\0\0\0"
    if header ≠ [0x5a, 0x4c, 0x49, 0x42, 0, 0, 0, 0] then .err
    else match ReadRef.read data offset 4 with
      | (.err, _) => .err
      | (.panic, _) => .panic
      | (.ok size, offset) =>
        if offset < sectionOffset then .panic
        else if sectionSize < offset - sectionOffset then .err
        else .ok ⟨.zlib, offset, sectionSize - (offset - sectionOffset), rd .big size⟩

/-- `CompressedFileRange::none`, src/read/mod.rs:1251-1267. -/
def CompressedFileRange.ofRange : Option (Nat × Nat) → CompressedFileRange
  | some (offset, size) => ⟨.none, offset, size, size⟩
  | none => ⟨.none, 0, 0, 0⟩

/-- `CompressedFileRange::data`, src/read/mod.rs:1270-1279: the compressed bytes. -/
def CompressedFileRange.data (self : CompressedFileRange) (file : List UInt8) : Res (List UInt8) :=
  ReadRef.readBytesAt file self.offset self.compressedSize

end Obj

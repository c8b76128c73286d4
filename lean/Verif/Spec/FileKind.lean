import Verif.Model.FileKind

/-! # The magic numbers of the file kinds -/

namespace Obj.Spec
open Obj

/-- The bytes of `data` from `off` on start with `p`. -/
def At (data : List UInt8) (off : Nat) (p : List UInt8) : Prop := slice data off p.length = p

instance (data : List UInt8) (off : Nat) (p : List UInt8) : Decidable (At data off p) :=
  inferInstanceAs (Decidable (_ = _))

/-- What identifies each kind at a given offset: magic bytes, plus, for PE and bigobj, the contents of
further headers (only recognised at offset 0). -/
def Magic (data : List UInt8) (off : Nat) : FileKind → Prop
  | .archive => At data off "!<arch>\n".toUTF8.toList ∨ At data off "!<thin>\n".toUTF8.toList
  | .dyldCache => At data off "dyld_v1 ".toUTF8.toList
  | .elf32 => At data off ([0x7f] ++ "ELF".toUTF8.toList ++ [1])
  | .elf64 => At data off ([0x7f] ++ "ELF".toUTF8.toList ++ [2])
  | .machO32 => At data off (wr .big 4 0xfeedface) ∨ At data off (wr .little 4 0xfeedface)
  | .machO64 => At data off (wr .big 4 0xfeedfacf) ∨ At data off (wr .little 4 0xfeedfacf)
  | .machOFat32 => At data off (wr .big 4 0xcafebabe)
  | .machOFat64 => At data off (wr .big 4 0xcafebabf)
  | .wasm => At data off ([0] ++ "asm".toUTF8.toList) ∧ At data (off + 6) [0, 0]
  | .pe32 => off = 0 ∧ ∃ nt, nt = rd .little (slice data 60 4) ∧ 64 ≤ data.length ∧ nt + 120 ≤ data.length ∧
      At data 0 "MZ".toUTF8.toList ∧ At data nt ("PE".toUTF8.toList ++ [0, 0]) ∧ At data (nt + 24) (wr .little 2 0x10b)
  | .pe64 => off = 0 ∧ ∃ nt, nt = rd .little (slice data 60 4) ∧ 64 ≤ data.length ∧ nt + 120 ≤ data.length ∧
      At data 0 "MZ".toUTF8.toList ∧ At data nt ("PE".toUTF8.toList ++ [0, 0]) ∧ At data (nt + 24) (wr .little 2 0x20b)
  | .coff => ∃ machine ∈ [0x1c4, 0xaa64, 0xa641, 0x1f0, 0x1f1, 0x1f2, 0x14c, 0x8664], At data off (wr .little 2 machine)
  | .coffImport => At data off [0, 0, 0xff, 0xff, 0, 0]
  | .coffBig => off = 0 ∧ 32 ≤ data.length ∧ At data 0 [0, 0, 0xff, 0xff, 2, 0] ∧ At data 12 bigobjClassId
  | .xcoff32 => At data off (wr .big 2 0x01df)
  | .xcoff64 => At data off (wr .big 2 0x01f7)

end Obj.Spec

import Verif.Model.Elf
import Verif.Model.RelocMap

/-!
# Model of Mach-O universal binaries, `src/read/macho/fat.rs`

`is64` selects `FatArch64` instead of `FatArch32`.  All fields are big endian.
-/

namespace Obj.Fat
open Obj
open Obj.Elf (readSliceAt)

/-- `FatArch32`/`FatArch64`, src/macho.rs (`fat_arch`, `fat_arch_64`): the fields that `trait FatArch` gives access to. -/
structure Arch where
  cputype : Nat
  cpusubtype : Nat
  offset : Nat
  size : Nat
  align : Nat
  deriving DecidableEq, Repr

/-- `size_of::<FatArch32>()`, `size_of::<FatArch64>()`. -/
def archSize (is64 : Bool) : Nat := if is64 then 32 else 20

/-- `Fat::MAGIC`, src/read/macho/fat.rs:91, 120 (`FAT_MAGIC`, `FAT_MAGIC_64`). -/
def magic (is64 : Bool) : Nat := if is64 then 0xcafebabf else 0xcafebabe

/-- The accessors of an image, src/read/macho/fat.rs:93-112, 122-141. -/
def Arch.decode (is64 : Bool) (img : List UInt8) : Arch :=
  if is64 then
    let f := Obj.decode .big [4, 4, 8, 8, 4] img
    ⟨f.getD 0 0, f.getD 1 0, f.getD 2 0, f.getD 3 0, f.getD 4 0⟩
  else
    let f := Obj.decode .big [4, 4, 4, 4, 4] img
    ⟨f.getD 0 0, f.getD 1 0, f.getD 2 0, f.getD 3 0, f.getD 4 0⟩

/-- `MachOFatFile::parse`, src/read/macho/fat.rs:30-45; the result is `arches()` (the header is fixed by the magic number
and the number of entries). -/
def parse (is64 : Bool) (data : List UInt8) : Res (List Arch) :=
  (ReadRef.readBytesAt data 0 8).bind fun header =>
    if field .big header 0 4 ≠ magic is64 then .err
    else (readSliceAt data 8 (archSize is64) (field .big header 4 4)).bind fun imgs =>
      .ok (imgs.map (Arch.decode is64))

/-- `FatArch::file_range`, src/read/macho/fat.rs:80-82. -/
def Arch.fileRange (a : Arch) : Nat × Nat := (a.offset, a.size)

/-- `FatArch::data`, src/read/macho/fat.rs:84-87. -/
def Arch.data (a : Arch) (file : List UInt8) : Res (List UInt8) :=
  ReadRef.readBytesAt file a.offset a.size

/-- `FatArch::architecture`, src/read/macho/fat.rs:67-78. -/
def Arch.architecture (a : Fat.Arch) : Obj.Arch :=
  if a.cputype = 12 then .arm
  else if a.cputype = 0x0100000c then .aarch64
  else if a.cputype = 7 then .i386
  else if a.cputype = 0x01000007 then .x86_64
  else if a.cputype = 8 then .mips
  else if a.cputype = 18 then .powerPc
  else if a.cputype = 0x01000012 then .powerPc64
  else .unknown

end Obj.Fat

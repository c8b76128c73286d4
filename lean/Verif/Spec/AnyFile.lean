import Verif.Model.AnyFile
import Verif.Spec.FileKind
import Verif.Spec.ElfFile
import Verif.Spec.MachoFile
import Verif.Spec.PeFile
import Verif.Spec.CoffFile
import Verif.Spec.XcoffFile
import Verif.Spec.ElfWritten
import Verif.Spec.CoffWrite
import Verif.Spec.MachoWrite
import Verif.Spec.XcoffWrite

/-! # Specification of C91: files of any format -/

namespace Obj.Spec.AnyF
open Obj Obj.Any
open Obj.Spec (Magic)

/-- `data` is a file with the contents `F`.  The layouts of ELF, Mach-O, PE and XCOFF files include a magic number.  A COFF object file is only
recognised by its machine, which has to be a known one, and a bigobj file by its version and class identifier. -/
def Is {W : Type} (wasm : List UInt8 → Res W) (data : List UInt8) : File W → Prop
  | .coff f => CoffF.Image false data f ∧ Magic data 0 .coff
  | .coffBig f => CoffF.Image true data f ∧ Magic data 0 .coffBig
  | .elf32 f => ElfF.Image false data f
  | .elf64 f => ElfF.Image true data f
  | .machO32 f => MachoF.Image false data f
  | .machO64 f => MachoF.Image true data f
  | .pe32 f => PeFile.Image false data f
  | .pe64 f => PeFile.Image true data f
  | .wasm f => wasm data = .ok f ∧ 16 ≤ data.length ∧ Magic data 0 .wasm
  | .xcoff32 f => XcoffF.Image false data f
  | .xcoff64 f => XcoffF.Image true data f

/-- The kinds of files: format, and class, if the kind determines it. -/
def kinds : List (FileKind × BinFormat × Option Bool) :=
  [(.coff, .coff, some false), (.coffBig, .coff, some false), (.elf32, .elf, some false), (.elf64, .elf, some true), (.machO32, .macho, some false),
   (.machO64, .macho, some true), (.pe32, .pe, some false), (.pe64, .pe, some true), (.wasm, .wasm, none), (.xcoff32, .xcoff, some false),
   (.xcoff64, .xcoff, some true)]

/-- The objects that can be written: those of the properties about the writers (C67, C69, C71, C74), with values that fit the format. -/
def Writable (crc : List UInt8 → Nat) (o : Obj.W.Object) (x : Extra) : Prop :=
  match o.format with
  | .coff => CoffO.Valid o ∧ CoffO.Fits o crc x.flags.forCoff
  | .elf => ElfO.Valid o ∧ ElfBack.Plain o ∧ (∀ a b f, x.flags = .elf a b f → f < 2 ^ 32) ∧
      ∀ is64 isRela, elfIs64 o.arch = some is64 → elfHasAddend o.arch = .ok isRela → ElfO.Fits o is64 isRela
  | .macho => MachoO.Valid o ∧ MachoO.Fits o ⟨x.sub, x.cpuSubtype, x.flags.forMacho, x.version⟩
  | .xcoff => XcoffO.Valid o ∧ ∀ is64, elfIs64 o.arch = some is64 → XcoffO.Fits is64 o x.flags.forXcoff

/-- The format a file of an object has. -/
def formatOf : Format → BinFormat
  | .coff => .coff
  | .elf => .elf
  | .macho => .macho
  | .xcoff => .xcoff

/-- The architecture that is read from the file of an object: COFF has one kind of PowerPC machines, and XCOFF has no machine at all: any object
is written as one for PowerPC. -/
def archOf (o : Obj.W.Object) : Arch :=
  match o.format with
  | .coff => if o.arch = .powerPc64 then .powerPc else o.arch
  | .xcoff => if o.arch.addressSize = some 8 then .powerPc64 else .powerPc
  | _ => o.arch

/-- Whether the numbers in the file of an object are little-endian: those of XCOFF never are, and those of COFF are unless the machine is a
big-endian PowerPC. -/
def littleOf (o : Obj.W.Object) : Bool :=
  match o.format with
  | .coff => !decide ((o.arch = .powerPc ∨ o.arch = .powerPc64) ∧ o.endian = .big)
  | .xcoff => false
  | _ => decide (o.endian = .little)

/-- What can be asked about the file of an object, and the answers.  Explicit flags can change the answers: `EF_MIPS_ABI2` (bit 5) in ELF, the CPU
subtype in Mach-O, and `F_RELFLG`, `F_EXEC` and `F_SHROBJ` (bits 0, 1 and 13) in XCOFF. -/
structure Answers {W : Type} (q : WasmQueries W) (o : Obj.W.Object) (x : Extra) (F : File W) : Prop where
  format : F.format = formatOf o.format
  endian : F.isLittleEndian = littleOf o
  is64 : F.is64 q = (decide (o.format ≠ .coff) && decide (o.arch.addressSize = some 8))
  arch : (o.arch = .mips → ∀ a b f, x.flags = .elf a b f → f.testBit 5 = false) → F.architecture q = archOf o
  subArch : o.format ≠ .xcoff → x.cpuSubtype = none → F.subArchitecture = x.sub
  kind : (∀ f, x.flags = .xcoff f → f.testBit 0 = false ∧ f.testBit 1 = false ∧ f.testBit 13 = false) → F.kind = .relocatable

end Obj.Spec.AnyF

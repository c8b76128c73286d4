import Verif.Model.FileKind
import Verif.Model.ElfFile
import Verif.Model.CoffFile
import Verif.Model.PeFile
import Verif.Model.XcoffFile
import Verif.Model.ElfWriter
import Verif.Model.CoffWriter
import Verif.Model.MachoWriter
import Verif.Model.XcoffWriter

/-!
# Files of any format

Models `File` of src/read/any.rs and `Object::emit` of src/write/mod.rs, with all features enabled.  The Wasm reader is a parameter: `W` is the
type of its files and `wasm` the function `WasmFile::parse`.
-/

namespace Obj.Any
open Obj
open Obj.MachoF (ObjKind)

/-- `File`, src/read/any.rs:206-236. -/
inductive File (W : Type) where
  | coff (f : CoffF.File)
  | coffBig (f : CoffF.File)
  | elf32 (f : ElfF.File)
  | elf64 (f : ElfF.File)
  | machO32 (f : MachoR.File)
  | machO64 (f : MachoR.File)
  | pe32 (f : Pe.PeFile)
  | pe64 (f : Pe.PeFile)
  | wasm (f : W)
  | xcoff32 (f : Xcoff.File)
  | xcoff64 (f : Xcoff.File)

/-- `BinaryFormat`, src/common.rs:126-137. -/
inductive BinFormat where
  | coff | elf | macho | pe | wasm | xcoff
  deriving DecidableEq, Repr

/-- `File::parse`, src/read/any.rs:238-268. -/
def File.parse {W : Type} (wasm : List UInt8 → Res W) (data : List UInt8) : Res (File W) := do
  let kind ← FileKind.parseAt data 0
  match kind with
  | .elf32 => do let f ← ElfF.File.parse false data; .ok (.elf32 f)
  | .elf64 => do let f ← ElfF.File.parse true data; .ok (.elf64 f)
  | .machO32 => do let f ← MachoR.File.parse false data; .ok (.machO32 f)
  | .machO64 => do let f ← MachoR.File.parse true data; .ok (.machO64 f)
  | .wasm => do let f ← wasm data; .ok (.wasm f)
  | .pe32 => do let f ← Pe.PeFile.parse false data; .ok (.pe32 f)
  | .pe64 => do let f ← Pe.PeFile.parse true data; .ok (.pe64 f)
  | .coff => do let f ← CoffF.File.parse false data; .ok (.coff f)
  | .coffBig => do let f ← CoffF.File.parse true data; .ok (.coffBig f)
  | .xcoff32 => do let f ← Xcoff.File.parse false data; .ok (.xcoff32 f)
  | .xcoff64 => do let f ← Xcoff.File.parse true data; .ok (.xcoff64 f)
  | _ => .err

/-- `File::format`, src/read/any.rs:287-303. -/
def File.format {W : Type} : File W → BinFormat
  | .coff _ => .coff
  | .coffBig _ => .coff
  | .elf32 _ => .elf
  | .elf64 _ => .elf
  | .machO32 _ => .macho
  | .machO64 _ => .macho
  | .pe32 _ => .pe
  | .pe64 _ => .pe
  | .wasm _ => .wasm
  | .xcoff32 _ => .xcoff
  | .xcoff64 _ => .xcoff

/-- The answers of `WasmFile`, src/read/wasm.rs:617-638, to the queries below that do not depend on the file. -/
structure WasmQueries (W : Type) where
  arch : W → Arch
  is64 : W → Bool

/-- `architecture`, src/read/any.rs:372-374 (`with_inner!`), with those of src/read/coff/file.rs:158-170, src/read/elf/file.rs:271-320,
src/read/macho/file.rs:360-372, src/read/pe/file.rs:229-237 and src/read/xcoff/file.rs:176-183. -/
def File.architecture {W : Type} (q : WasmQueries W) : File W → Arch
  | .coff f => CoffF.architecture f.header.machine
  | .coffBig f => CoffF.architecture f.header.machine
  | .elf32 f => f.architecture
  | .elf64 f => f.architecture
  | .machO32 f => MachoF.architecture f.header
  | .machO64 f => MachoF.architecture f.header
  | .pe32 f => f.architecture
  | .pe64 f => f.architecture
  | .wasm f => q.arch f
  | .xcoff32 f => f.architecture
  | .xcoff64 f => f.architecture

/-- `sub_architecture`, src/read/any.rs:376-378, with those of src/read/coff/file.rs:172-177, src/read/macho/file.rs:374-380 and
src/read/pe/file.rs:239-244, and the default of src/read/traits.rs. -/
def File.subArchitecture {W : Type} : File W → Option CoffW.SubArch
  | .coff f => CoffF.subArchitecture f.header.machine
  | .coffBig f => CoffF.subArchitecture f.header.machine
  | .machO32 f => MachoF.subArchitecture f.header
  | .machO64 f => MachoF.subArchitecture f.header
  | .pe32 f => if f.isArm64EC then some .arm64EC else none
  | .pe64 f => if f.isArm64EC then some .arm64EC else none
  | _ => none

/-- `is_little_endian`, src/read/any.rs:380-382, with those of src/read/coff/file.rs:180-185, src/read/elf/file.rs (the header),
src/read/macho/file.rs:383-385, src/read/pe/file.rs:247-250, src/read/wasm.rs and src/read/xcoff/file.rs. -/
def File.isLittleEndian {W : Type} : File W → Bool
  | .coff f => CoffF.isLittleEndian f.header.machine
  | .coffBig f => CoffF.isLittleEndian f.header.machine
  | .elf32 f => f.cfg.en = .little
  | .elf64 f => f.cfg.en = .little
  | .machO32 f => f.cfg.en = .little
  | .machO64 f => f.cfg.en = .little
  | .pe32 _ => true
  | .pe64 _ => true
  | .wasm _ => true
  | .xcoff32 _ => false
  | .xcoff64 _ => false

/-- `is_64`, src/read/any.rs:384-386, with those of src/read/coff/file.rs:188-191 (never), src/read/elf/file.rs, src/read/macho/file.rs:388-390,
src/read/pe/file.rs:253-255, and src/read/xcoff/file.rs. -/
def File.is64 {W : Type} (q : WasmQueries W) : File W → Bool
  | .coff _ => false
  | .coffBig _ => false
  | .elf32 f => f.cfg.is64
  | .elf64 f => f.cfg.is64
  | .machO32 f => f.cfg.is64
  | .machO64 f => f.cfg.is64
  | .pe32 f => f.is64
  | .pe64 f => f.is64
  | .wasm f => q.is64 f
  | .xcoff32 f => f.is64
  | .xcoff64 f => f.is64

/-- The kind of a PE image as `ObjectKind`. -/
def peKind (f : Pe.PeFile) : ObjKind :=
  match f.kind with
  | .dynamic => .dynamic
  | .unknown => .unknown
  | .executable => .executable

/-- `kind`, src/read/any.rs:388-390, with those of src/read/coff/file.rs:193-195, src/read/elf/file.rs, src/read/macho/file.rs:392-400,
src/read/pe/file.rs:257-266, src/read/wasm.rs (`Unknown`) and src/read/xcoff/file.rs:192-203. -/
def File.kind {W : Type} : File W → ObjKind
  | .coff _ => .relocatable
  | .coffBig _ => .relocatable
  | .elf32 f => ElfF.kind f.header.type
  | .elf64 f => ElfF.kind f.header.type
  | .machO32 f => MachoF.kind f.header
  | .machO64 f => MachoF.kind f.header
  | .pe32 f => peKind f
  | .pe64 f => peKind f
  | .wasm _ => .unknown
  | .xcoff32 f => f.kind
  | .xcoff64 f => f.kind

/-! ## Writing -/

/-- `FileFlags`, src/common.rs:471-502. -/
inductive Flags where
  | none
  | elf (osAbi abiVersion : UInt8) (eFlags : Nat)
  | macho (flags : Nat)
  | coff (characteristics : Nat)
  | xcoff (flags : Nat)
  deriving DecidableEq, Repr

/-- The members of `write::Object` (src/write/mod.rs:72-100) that are only used by the writers: the sub-architecture, the file flags, and the
CPU subtype and build version for Mach-O. -/
structure Extra where
  sub : Option CoffW.SubArch
  flags : Flags
  cpuSubtype : Option Nat
  version : Option MachoW.Version
  deriving DecidableEq, Repr

/-- The flags in `elf_write`, src/write/elf/object.rs:763-772. -/
def Flags.forElf : Flags → ElfW.FileFlags
  | .elf a b f => .elf a b f
  | _ => .other

/-- The flags in `coff_write`, src/write/coff/object.rs:618-621. -/
def Flags.forCoff : Flags → Option Nat
  | .coff c => some c
  | _ => Option.none

/-- The flags in `macho_write`, src/write/macho/object.rs:642-645. -/
def Flags.forMacho : Flags → Option Nat
  | .macho f => some f
  | _ => Option.none

/-- The flags in `xcoff_write`, src/write/xcoff.rs:357-360. -/
def Flags.forXcoff : Flags → Option Nat
  | .xcoff f => some f
  | _ => Option.none

/-- `Object::emit`, src/write/mod.rs:822-834 (`Object::write`, 798-803, into a vector).  `crc` is the checksum of COMDAT sections. -/
def write (crc : List UInt8 → Nat) (o : W.Object) (x : Extra) : Res (List UInt8) :=
  match o.format with
  | .coff => CoffW.coffWrite crc o x.sub x.flags.forCoff
  | .elf => ElfW.elfWrite o x.sub.isSome x.flags.forElf
  | .macho => MachoW.machoWrite o ⟨x.sub, x.cpuSubtype, x.flags.forMacho, x.version⟩
  | .xcoff => XcoffW.xcoffWrite o x.flags.forXcoff

end Obj.Any

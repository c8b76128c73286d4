import Verif.Model.ElfVersion
import Verif.Model.ElfView
import Verif.Model.Note

/-!
# Model of the imports and exports of ELF files, and of the links to other debug files

`src/read/elf/import.rs`, `src/read/elf/export.rs` and the corresponding methods of `src/read/elf/file.rs`.
-/

namespace Obj.Elf
open Obj
open Obj.ElfV (isWeak isUndefined isLocal stType)

/-! ## Import libraries -/

/-- `ElfImportLibraryIterator::next`, src/read/elf/import.rs:44-61 with `DynamicIterator::next`, src/read/elf/dynamic.rs:138-148
(`DT_NEEDED = 1`, `DT_NULL = 0`): the state is the rest of the entries; the error of `string(d)?` leaves the state after the entry. -/
def libraryNext (strings : StrTable) (data : List UInt8) : List Dyn → Res (Option (List UInt8)) × List Dyn
  | [] => (.ok none, [])
  | d :: rest =>
    if d.tag = 0 then (.ok none, [])
    else if d.tag ≠ 1 then libraryNext strings data rest
    else ((d.string strings data).bind fun s => .ok (some s), rest)

/-- `ElfFile::import_libraries`, src/read/elf/file.rs:423-426: the strings and the initial state of the iterator. -/
def importLibraries (c : Cfg) (t : SectionTable) (data : List UInt8) : Res (StrTable × List Dyn) :=
  (t.dynamicTable c data).bind fun d => .ok (d.strings, d.dynamics)

/-! ## Imports -/

/-- `read::Import` with `ImportFlags::Elf`, src/read/mod.rs. -/
structure Import where
  library : List UInt8
  name : List UInt8
  weak : Bool
  info : Nat
  other : Nat
  version : Option (List UInt8)
  deriving DecidableEq, Repr

/-- The version of the symbol at `index`, src/read/elf/import.rs:130-135. -/
def importVersion (versions : Option VersionTable) (index : Nat) : Res (Option Version) :=
  match versions with
  | some v => v.version (versymIndex (v.versionIndex index))
  | none => .ok none

/-- The import for a symbol with the given name, src/read/elf/import.rs:130-146. -/
def importOf (versions : Option VersionTable) (index : Nat) (y : Sym) (name : List UInt8) : Res Import :=
  (importVersion versions index).bind fun v =>
    .ok ⟨(v.bind Version.file).getD [], name, isWeak y, y.info, y.other, v.map Version.name⟩

/-- `ElfImportIterator::next`, src/read/elf/import.rs:114-148.  The state is the index; the loop is over the symbols from there. -/
def importLoop (versions : Option VersionTable) (strings : StrTable) (data : List UInt8) :
    List Sym → Nat → Res (Option Import) × Nat
  | [], index => (.ok none, index)
  | y :: rest, index =>
    if isUndefined y = false then importLoop versions strings data rest (index + 1)
    else match strings.get data y.name with
      | .ok [] => importLoop versions strings data rest (index + 1)
      | .ok name => ((importOf versions index y name).bind fun i => .ok (some i), index + 1)
      | .err => (.err, index + 1)
      | .panic => (.panic, index + 1)

/-- `ElfImportIterator::next`. -/
def importNext (versions : Option VersionTable) (t : SymTab) (data : List UInt8) (index : Nat) : Res (Option Import) × Nat :=
  importLoop versions t.strings data (t.symbols.drop index) index

/-- `ElfFile::imports`, src/read/elf/file.rs:428-435, `ElfImportIterator::new`: the version table; the iteration starts at index 1. -/
def imports (c : Cfg) (t : SectionTable) (data : List UInt8) : Res (Option VersionTable × Nat) :=
  (t.versions c data).bind fun v => .ok (v, 1)

/-! ## Exports -/

/-- `read::ExportTarget`, src/read/mod.rs:748-800, the variants that ELF uses. -/
inductive Target where
  | address (a : Nat)
  | absolute (v : Nat)
  | tls (offset : Nat)
  | resolver (a : Nat)
  deriving DecidableEq, Repr

/-- `read::Export` with `ExportFlags::Elf`, src/read/mod.rs. -/
structure Export where
  name : List UInt8
  target : Target
  weak : Bool
  info : Nat
  other : Nat
  version : Option (List UInt8)
  versionHidden : Bool
  deriving DecidableEq, Repr

/-- `SymbolSection::is_special`, src/elf.rs:982-990 (`SHN_LORESERVE = 0xff00`). -/
def shndxSpecial (n : Nat) : Bool := n = 0 ∨ 0xff00 ≤ n

/-- The filter and the target of a symbol, src/read/elf/export.rs:57-84: `none` is `continue`. -/
def exportTarget (y : Sym) : Option Target :=
  if isLocal y then none
  else if shndxSpecial y.shndx ∧ y.shndx ≠ 0xfff1 ∧ y.shndx ≠ 0xffff then none
  else if stType y = 0 ∨ stType y = 1 ∨ stType y = 2 then
    if y.shndx = 0xfff1 then some (.absolute y.value) else some (.address y.value)
  else if stType y = 6 then some (.tls y.value)
  else if stType y = 10 then some (.resolver y.value)
  else none

/-- The version and whether it is hidden, src/read/elf/export.rs:86-93. -/
def exportVersion (versions : Option VersionTable) (index : Nat) : Res (Option (List UInt8) × Bool) :=
  match versions with
  | some v => (v.version (versymIndex (v.versionIndex index))).bind fun x =>
      .ok (x.map Version.name, versymHidden (v.versionIndex index))
  | none => .ok (none, false)

/-- The export for a symbol with a target, src/read/elf/export.rs:85-104. -/
def exportOf (versions : Option VersionTable) (strings : StrTable) (data : List UInt8) (index : Nat) (y : Sym) (t : Target) : Res Export :=
  (strings.get data y.name).bind fun name =>
    (exportVersion versions index).bind fun v => .ok ⟨name, t, isWeak y, y.info, y.other, v.1, v.2⟩

/-- `ElfExportIterator::next`, src/read/elf/export.rs:47-106. -/
def exportLoop (versions : Option VersionTable) (strings : StrTable) (data : List UInt8) :
    List Sym → Nat → Res (Option Export) × Nat
  | [], index => (.ok none, index)
  | y :: rest, index =>
    match exportTarget y with
    | none => exportLoop versions strings data rest (index + 1)
    | some t => ((exportOf versions strings data index y t).bind fun e => .ok (some e), index + 1)

/-- `ElfExportIterator::next`. -/
def exportNext (versions : Option VersionTable) (t : SymTab) (data : List UInt8) (index : Nat) : Res (Option Export) × Nat :=
  exportLoop versions t.strings data (t.symbols.drop index) index

/-- `ElfFile::exports`, src/read/elf/file.rs:437-444, `ElfExportIterator::new`: the version table; the iteration starts at index 1. -/
def exports (c : Cfg) (t : SectionTable) (data : List UInt8) : Res (Option VersionTable × Nat) :=
  (t.versions c data).bind fun v => .ok (v, 1)

/-! ## Build ID and links to debug files -/

/-- `SectionHeader::notes`, src/read/elf/section.rs:952-965 (`SHT_NOTE = 7`): the alignment and the data of the iterator. -/
def Shdr.notes (s : Shdr) (data : List UInt8) : Res (Option (Nat × List UInt8)) :=
  if s.type ≠ 7 then .ok none
  else (s.data data).bind fun d => (noteAlign s.addralign).bind fun a => .ok (some (a, d))

/-- `ProgramHeader::notes`, src/read/elf/segment.rs:270-283 (`PT_NOTE = 4`). -/
def Phdr.notes (p : Phdr) (data : List UInt8) : Res (Option (Nat × List UInt8)) :=
  if p.type ≠ 4 then .ok none
  else (p.data data).bind fun d => (noteAlign p.align).bind fun a => .ok (some (a, d))

/-- Whether a note holds the build ID (`ELF_NOTE_GNU` is `GNU`, `NT_GNU_BUILD_ID = 3`), src/read/elf/file.rs:464-466. -/
def Note.isBuildId (n : Note) : Bool := n.trimmedName = [0x47, 0x4e, 0x55] ∧ n.typ = 3

/-- The inner loop of `build_id`, src/read/elf/file.rs:463-469: `fuel` bounds the number of notes by the length of the data, as
every note takes at least its header. -/
def findBuildId (en : Endianness) (align : Nat) : (fuel : Nat) → List UInt8 → Res (Option (List UInt8))
  | 0, _ => .ok none
  | fuel + 1, d => match nextNote en align d with
    | (.ok (some n), d') => if n.isBuildId then .ok (some n.desc) else findBuildId en align fuel d'
    | (.ok none, _) => .ok none
    | (.err, _) => .err
    | (.panic, _) => .panic

/-- The outer loops of `build_id`, src/read/elf/file.rs:461-471, 473-483. -/
def buildIdLoop (en : Endianness) {α : Type} (notes : α → Res (Option (Nat × List UInt8))) : List α → Res (Option (List UInt8))
  | [] => .ok none
  | s :: rest => match notes s with
    | .ok none => buildIdLoop en notes rest
    | .ok (some (a, d)) => match findBuildId en a (d.length + 1) d with
      | .ok none => buildIdLoop en notes rest
      | r => r
    | .err => .err
    | .panic => .panic

/-- `ElfFile::build_id`, src/read/elf/file.rs:457-487. -/
def buildId (c : Cfg) (t : SectionTable) (segments : List Phdr) (data : List UInt8) : Res (Option (List UInt8)) :=
  if t.sections.isEmpty = false then buildIdLoop c.en (fun s => Shdr.notes s data) t.sections
  else buildIdLoop c.en (fun p => Phdr.notes p data) segments

/-- `.gnu_debuglink`. -/
def nDebugLink : List UInt8 := ".gnu_debuglink".toUTF8.toList
/-- `.gnu_debugaltlink`. -/
def nDebugAltLink : List UInt8 := ".gnu_debugaltlink".toUTF8.toList

/-- The parsing of the contents of `.gnu_debuglink`, src/read/elf/file.rs:499-507. -/
def parseDebugLink (en : Endianness) (d : List UInt8) : Res (List UInt8 × Nat) :=
  (Bytes.readStringAt d 0).bind fun filename =>
    (alignUsize (filename.length + 1) 4).bind fun off =>
      (Bytes.readAt d off 4).bind fun crc => .ok (filename, rd en crc)

/-- `ElfFile::gnu_debuglink`, src/read/elf/file.rs:489-509. -/
def gnuDebuglink (c : Cfg) (t : SectionTable) (data : List UInt8) : Res (Option (List UInt8 × Nat)) :=
  match t.sectionByName data nDebugLink with
  | none => .ok none
  | some (_, s) => (s.data data).bind fun d => (parseDebugLink c.en d).bind fun x => .ok (some x)

/-- `ElfFile::gnu_debugaltlink`, src/read/elf/file.rs:511-526. -/
def gnuDebugaltlink (t : SectionTable) (data : List UInt8) : Res (Option (List UInt8 × List UInt8)) :=
  match t.sectionByName data nDebugAltLink with
  | none => .ok none
  | some (_, s) => (s.data data).bind fun d =>
      (Bytes.readString d).1.bind fun filename => .ok (some (filename, (Bytes.readString d).2))

end Obj.Elf

import Verif.Model.XcoffRead
import Verif.Model.MachoFile

/-!
The `Object` implementation of `XcoffFile`, src/read/xcoff/file.rs and src/read/xcoff/section.rs.  Parsing, sections by index, contents,
relocations and symbols are in `Model/XcoffRead.lean`.  Segments and COMDAT groups are not implemented by the crate (the iterators are
empty), nor are dynamic symbols, imports and exports.
-/

namespace Obj.Xcoff

open Obj.MachoF (ObjKind)

/-- `architecture` and `is_64`, src/read/xcoff/file.rs:176-190. -/
def File.architecture (f : File) : Arch := if f.is64 then .powerPc64 else .powerPc

/-- `kind`, src/read/xcoff/file.rs:192-203; `F_EXEC = 2`, `F_SHROBJ = 0x2000`, `F_RELFLG = 1`. -/
def File.kind (f : File) : ObjKind :=
  if f.header.flags &&& 2 = 2 then .executable
  else if f.header.flags &&& 0x2000 = 0x2000 then .dynamic
  else if ¬ (f.header.flags &&& 1 = 1) then .relocatable
  else .unknown

/-- `entry`, src/read/xcoff/file.rs:312-318; `o_entry` is at 16 in the 32-bit auxiliary header and at 80 in the 64-bit one
(src/xcoff.rs:100-237). -/
def File.entry (f : File) (data : List UInt8) : Nat :=
  match f.aux with
  | some _ =>
    let img := slice data (hdrSize f.is64) (auxHeaderSize f.is64)
    if f.is64 then field .big img 80 8 else field .big img 16 4
  | none => 0

/-- `sections`, src/read/xcoff/file.rs:223-228, with `XcoffSectionIterator::next`, src/read/xcoff/section.rs:39-45. -/
def File.sectionList (f : File) : List (Nat × Sect) := f.sections.zipIdx.map fun p => (p.2 + 1, p.1)

/-- `section_by_index`, src/read/xcoff/file.rs:217-224. -/
def File.sectionByIndex (f : File) (i : Nat) : Res Sect := section? f.sections i

/-- `section_by_name_bytes`, src/read/xcoff/file.rs:209-215. -/
def File.sectionByName (f : File) (name : List UInt8) : Option (Nat × Sect) := f.sectionList.find? fun p => p.2.nameOf == name

/-- `has_debug_symbols`, src/read/xcoff/file.rs:304-306: `.debug` or `.dwinfo`. -/
def File.hasDebugSymbols (f : File) : Bool :=
  (f.sectionByName [0x2e, 0x64, 0x65, 0x62, 0x75, 0x67]).isSome || (f.sectionByName [0x2e, 0x64, 0x77, 0x69, 0x6e, 0x66, 0x6f]).isSome

/-- `file_range`, src/read/xcoff/section.rs:316-318. -/
def Sect.fileRange (s : Sect) : Option (Nat × Nat) := some (s.scnptr, s.size)

/-- `data_range`, src/read/xcoff/section.rs:139-146. -/
def Sect.dataRange (s : Sect) (data : List UInt8) (address size : Nat) : Res (Option (List UInt8)) :=
  (s.data data).bind fun bytes => .ok (Obj.dataRange bytes s.paddr address size)

/-- `symbol_table`, src/read/xcoff/file.rs:234-242. -/
def File.symbolTable (f : File) : Option SymTab := if f.symbols.records = [] then none else some f.symbols

/-- `dynamic_symbols`, src/read/xcoff/file.rs:276-282: the iterator starts at the end of the table (`iter_none`,
src/read/xcoff/symbol.rs:102-107). -/
def File.dynamicSymbols (f : File) : Nat := f.symbols.records.length

end Obj.Xcoff

import Verif.Model.ElfFile
import Verif.Model.ElfView
import Verif.Model.CoffFile
import Verif.Model.CoffView
import Verif.Model.MachoFile
import Verif.Model.MachoView
import Verif.Model.MachoReloc
import Verif.Model.XcoffRead

/-!
`RelocationMap`, src/read/mod.rs:1117-1213: relocations of a section, applied to values read from it.

Simplifications: the map (`HashMap` or `BTreeMap`) is an association list without duplicate keys; errors carry no message; of a relocation
only what `add` looks at is kept (`size`, `subtractor` and `flags` are ignored by the code too); the file is what `add` asks of it.
-/

namespace Obj.RMap

/-- What `RelocationMap::add` looks at in a `Relocation`, src/read/mod.rs:1025-1035. -/
structure Rel where
  kind : RelocKind
  encoding : RelocEnc
  target : RelTarget
  addend : Int
  implicitAddend : Bool
  deriving DecidableEq, Repr

/-- What `RelocationMap::add` asks of the file: `symbol_by_index(i)?.address()`, and kind and address of `section_by_index(i)?`. -/
structure Objs where
  symbolAddress : Nat → Res Nat
  sectionAt : Nat → Res (SectionKind × Nat)

/-- `RelocationMapEntry`, src/read/mod.rs:1208-1212. -/
structure Entry where
  implicitAddend : Bool
  addend : Nat
  deriving DecidableEq, Repr

/-- `RelocationMap`, src/read/mod.rs:1125. -/
abbrev RelocationMap := List (Nat × Entry)

/-- `Map::get`. -/
def RelocationMap.find (m : RelocationMap) (offset : Nat) : Option Entry := (m.find? fun p => p.1 == offset).map (·.2)

/-- `Map::insert`: the new map and the previous value. -/
def RelocationMap.put (m : RelocationMap) (offset : Nat) (e : Entry) : Option Entry × RelocationMap :=
  (m.find offset, (offset, e) :: m.filter fun p => p.1 != offset)

/-- `as u64` of an `i64`. -/
def asU64 (a : Int) : Nat := (a % 2 ^ 64).toNat

/-- The `match` on the kind in `RelocationMap::add`, src/read/mod.rs:1160-1191: `none` for `RelocationKind::None`. -/
def addendOf (file : Objs) (r : Rel) : Res (Option Nat) :=
  match r.kind with
  | .none => .ok none
  | .absolute =>
    match r.target with
    | .symbol i => do
      let a ← file.symbolAddress i
      .ok (some ((a + asU64 r.addend) % U64))
    | .section_ i => do
      let s ← file.sectionAt i
      if s.1 ≠ .debug then .ok (some ((s.2 + asU64 r.addend) % U64)) else .ok (some (asU64 r.addend))
    | .absolute => .err
  | _ => .err

/-- `RelocationMap::add`, src/read/mod.rs:1147-1200: the result and the map afterwards (which has the new entry also if it reports
multiple relocations). -/
def RelocationMap.add (m : RelocationMap) (file : Objs) (offset : Nat) (r : Rel) : Res Unit × RelocationMap :=
  match addendOf file r with
  | .ok none => (.ok (), m)
  | .ok (some addend) =>
    if r.encoding ≠ .generic then (.err, m)
    else
      let p := m.put offset ⟨r.implicitAddend, addend⟩
      if p.1.isSome then (.err, p.2) else (.ok (), p.2)
  | .err => (.err, m)
  | .panic => (.panic, m)

/-- The loop of `RelocationMap::new`, src/read/mod.rs:1138-1140. -/
def newLoop (file : Objs) : List (Nat × Rel) → RelocationMap → Res RelocationMap
  | [], m => .ok m
  | (offset, r) :: rest, m =>
    match m.add file offset r with
    | (.ok (), m') => newLoop file rest m'
    | (.err, _) => .err
    | (.panic, _) => .panic

/-- `RelocationMap::new`, src/read/mod.rs:1133-1142, on what the relocation iterator yields. -/
def new (file : Objs) (rels : List (Nat × Rel)) : Res RelocationMap := newLoop file rels []

/-- A client that adds relocations one by one and goes on after errors, as the documentation of `new` (src/read/mod.rs:1128-1132)
suggests; the results in order and the map. -/
def addAll (file : Objs) : List (Nat × Rel) → RelocationMap → List (Res Unit) × RelocationMap
  | [], m => ([], m)
  | (offset, r) :: rest, m =>
    let p := m.add file offset r
    let q := addAll file rest p.2
    (p.1 :: q.1, q.2)

/-- `RelocationMap::relocate`, src/read/mod.rs:1203-1214. -/
def RelocationMap.relocate (m : RelocationMap) (offset value : Nat) : Nat :=
  match m.find offset with
  | some e => if e.implicitAddend then (value + e.addend) % U64 else e.addend
  | none => value

/-! ## The formats -/

/-- The relocations of ELF and COFF files (`target` is the symbol or `none` for `Absolute`). -/
def ofElf (r : ElfF.Relocation) : Rel :=
  ⟨r.kind, r.encoding, match r.target with | some i => .symbol i | none => .absolute, r.addend, r.implicitAddend⟩

/-- The relocations of Mach-O files. -/
def ofMacho (r : MachoRelocation) : Rel := ⟨r.kind, r.enc, r.target, r.addend, r.implicit⟩

/-- The relocations of XCOFF files, src/read/xcoff/relocation.rs:63-74. -/
def ofXcoff (r : Xcoff.ViewReloc) : Nat × Rel := (r.offset, ⟨r.kind, .generic, .symbol r.symbol, r.addend, true⟩)

/-- `ElfFile::symbol_by_index`, src/read/elf/file.rs:375-383, `ElfSymbol::address`, `ElfFile::section_by_index`, `ElfSection::{kind,address}`,
src/read/elf/section.rs:561, 631. -/
def elfObjs (f : ElfF.File) : Objs where
  symbolAddress i := (f.symbols.symbol i).bind fun y => .ok (ElfV.address y)
  sectionAt i := (f.sections.section i).bind fun s => .ok (ElfV.sectionKind s.type s.flags, s.addr)

/-- `CoffFile::symbol_by_index`, src/read/coff/file.rs:236-243, `CoffSymbol::address`, src/read/coff/symbol.rs:367-372,
`CoffSection::{kind,address}`, src/read/coff/section.rs:350-352, 418-420. -/
def coffObjs (f : CoffF.File) : Objs where
  symbolAddress i := (f.symbolByIndex i).bind fun y => .ok (f.symbolAddress y)
  sectionAt i := (f.sectionByIndex i).bind fun s => .ok (CoffV.sectionKind s.characteristics, s.virtualAddress)

/-- `MachOFile::symbol_by_index`, `MachOSymbol::address`, src/read/macho/symbol.rs:363-370, `MachOSection::{kind,address}`,
src/read/macho/section.rs:139-141, 213-215. -/
def machoObjs (f : MachoR.File) : Objs where
  symbolAddress i := (MachoV.symbolByIndex f.symbols i).bind fun y => .ok (MachoV.address y)
  sectionAt i := (MachoF.sectionByIndex f i).bind fun s => .ok (s.kind, s.sect.addr)

/-- `XcoffFile::symbol_by_index`, src/read/xcoff/file.rs:251-259, `XcoffSymbol::address`, `XcoffSection::{kind,address}`,
src/read/xcoff/section.rs:110-112, 163-188. -/
def xcoffObjs (f : Xcoff.File) : Objs where
  symbolAddress i := (f.symbols.symbol i).bind fun y => .ok (Xcoff.symAddress y)
  sectionAt i := (Xcoff.section? f.sections i).bind fun s => .ok (Xcoff.sectionKind s.flags, s.paddr)

/-- `CoffSection::relocation_map`, src/read/coff/section.rs:430-432. -/
def coffMap (f : CoffF.File) (data : List UInt8) (s : Coff.Section) : Res RelocationMap :=
  new (coffObjs f) ((f.relocations data s).map fun p => (p.1, ofElf p.2))

/-- `MachOSection::relocations` and `relocation_map`, src/read/macho/section.rs:217-226. -/
def machoMap (f : MachoR.File) (data : List UInt8) (s : MachoR.SecInt) : Res RelocationMap :=
  let words := match s.sect.relocations f.cfg data with | .ok ws => ws | _ => []
  new (machoObjs f) ((machoAll f.cfg.en f.header.cputype words).map fun p => (p.1, ofMacho p.2))

/-- `XcoffSection::relocation_map`, src/read/xcoff/section.rs:208-210. -/
def xcoffMap (f : Xcoff.File) (data : List UInt8) (s : Xcoff.Sect) : Res RelocationMap :=
  new (xcoffObjs f) ((s.viewRelocations f.is64 data).map ofXcoff)

end Obj.RMap

import Verif.Model.CoffView
import Verif.Model.CoffWriter
import Verif.Model.RelocMap2
import Verif.Model.ElfFile

/-!
# Model of `CoffFile` and `CoffBigFile`

`src/read/coff/file.rs`, `src/read/coff/section.rs` and `src/read/coff/relocation.rs`, on top of the header, section and symbol readers of
`Model/Coff.lean`.
-/

namespace Obj.CoffF
open Obj Obj.Coff
open Obj.CoffW (SubArch)
open Obj.ElfF (Relocation)

/-- `CoffFile`, src/read/coff/file.rs:41-46 (without the data, which is passed along). -/
structure File where
  header : Header
  sections : List Section
  symbols : SymTab
  deriving DecidableEq, Repr

/-- `CoffFile::parse`, src/read/coff/file.rs:50-66; `CoffHeader::sections`, 334-341, and `CoffHeader::symbols`, 346-352. -/
def File.parse (big : Bool) (data : List UInt8) : Res File := do
  let r ← parseHeader big data 0
  let sections ← parseSections r.1 data r.2
  let symbols ← SymTab.parse r.1 data
  .ok ⟨r.1, sections, symbols⟩

/-- `architecture`, src/read/coff/file.rs:158-170: ARMNT, ARM64, ARM64EC, I386, AMD64, POWERPC, POWERPCFP, POWERPCBE. -/
def architecture (machine : Nat) : Arch :=
  if machine = 0x1c4 then .arm
  else if machine = 0xaa64 ∨ machine = 0xa641 then .aarch64
  else if machine = 0x14c then .i386
  else if machine = 0x8664 then .x86_64
  else if machine = 0x1f0 ∨ machine = 0x1f1 ∨ machine = 0x1f2 then .powerPc
  else .unknown

/-- `sub_architecture`, src/read/coff/file.rs:172-177. -/
def subArchitecture (machine : Nat) : Option SubArch := if machine = 0xa641 then some .arm64EC else none

/-- `is_little_endian`, src/read/coff/file.rs:180-185. -/
def isLittleEndian (machine : Nat) : Bool := if machine = 0x1f2 then false else true

/-- `flags`, src/read/coff/file.rs:293-297, with `characteristics`, 386-388 and 431-433: the field at offset 18 of the header, and 0 for
bigobj. -/
def File.flags (f : File) (data : List UInt8) : Nat := if f.header.big then 0 else field .little (slice data 0 20) 18 2

/-- `sections`, src/read/coff/file.rs:225-230 with `CoffSectionIterator::next`, src/read/coff/section.rs:261-267: index and section. -/
def File.sectionList (f : File) : List (Nat × Section) := f.sections.zipIdx.map fun p => (p.2 + 1, p.1)

/-- `section_by_index`, src/read/coff/file.rs:216-223. -/
def File.sectionByIndex (f : File) (index : Nat) : Res Section := sectionAt f.sections index

/-- `CoffSection::name_bytes`, src/read/coff/section.rs:389-391. -/
def File.sectionName (f : File) (data : List UInt8) (s : Section) : Res (List UInt8) := readSectionName f.symbols.strings data s.name

/-- `section_by_name_bytes`, src/read/coff/file.rs:208-214. -/
def File.sectionByName (f : File) (data name : List UInt8) : Option (Nat × Section) :=
  f.sectionList.find? fun p => f.sectionName data p.2 == .ok name

/-- `has_debug_symbols`, src/read/coff/file.rs:280-282: `b".debug_info"`. -/
def File.hasDebugSymbols (f : File) (data : List UInt8) : Bool :=
  (f.sectionByName data [0x2e, 0x64, 0x65, 0x62, 0x75, 0x67, 0x5f, 0x69, 0x6e, 0x66, 0x6f]).isSome

/-- `CoffSegment::file_range`, src/read/coff/section.rs:193-196. -/
def segmentFileRange (s : Section) : Nat × Nat := s.fileRange.getD (0, 0)

/-- `data_range` of segments and sections, src/read/coff/section.rs:202-209 and 363-370. -/
def sectionDataRange (s : Section) (data : List UInt8) (address size : Nat) : Res (Option (List UInt8)) :=
  (s.data data).bind fun bytes => .ok (dataRange bytes s.virtualAddress address size)

/-- `CoffSegment::permissions`, src/read/coff/section.rs:234-241: read (0x40000000), write (0x80000000), execute (0x20000000). -/
def permissions (s : Section) : Bool × Bool × Bool :=
  (s.characteristics &&& 0x40000000 == 0x40000000, s.characteristics &&& 0x80000000 == 0x80000000,
   s.characteristics &&& 0x20000000 == 0x20000000)

/-- The closure of `CoffRelocationIterator::next`, src/read/coff/relocation.rs:38-110; the target is always a symbol, also symbol 0, and the
addend in the place is implicit. -/
def relocation (machine : Nat) (r : Reloc) : Nat × Relocation :=
  let k := coffKind machine r.type
  (r.virtualAddress, ⟨k.1, k.2.1, k.2.2.1, some r.symbol, k.2.2.2, true, r.type⟩)

/-- `relocations`, src/read/coff/section.rs:422-428: all items of the iterator. -/
def File.relocations (f : File) (data : List UInt8) (s : Section) : List (Nat × Relocation) :=
  match s.relocations data with
  | .ok rs => rs.map (relocation f.header.machine)
  | _ => []

/-- `symbol_by_index`, src/read/coff/file.rs:236-243. -/
def File.symbolByIndex (f : File) (index : Nat) : Res Symbol := f.symbols.symbol index

/-- `symbols`, src/read/coff/file.rs:245-247 with `CoffSymbolIterator::next`, src/read/coff/symbol.rs:291-300. -/
def File.symbolNext (f : File) (index : Nat) : Res (Option (Nat × Symbol)) × Nat := f.symbols.next index

/-- `CoffSymbol::name_bytes`, src/read/coff/symbol.rs:350-358. -/
def File.symbolName (f : File) (data : List UInt8) (index : Nat) (s : Symbol) : Res (List UInt8) := f.symbols.nameBytes data index s

/-- `CoffSymbol::address`, src/read/coff/symbol.rs:367-372; the image base is 0 (src/read/coff/file.rs:61). -/
def File.symbolAddress (f : File) (s : Symbol) : Nat := CoffV.address s 0 f.sections

end Obj.CoffF

import Verif.Model.MachoBuild
import Verif.Spec.MachoFile
import Verif.Spec.MachoImport
import Verif.Spec.BuildRead

/-!
# What deletion in a Mach-O builder does, and what a builder has of a file

From the model only the types are used, and from C80 (`Spec.MachoF`) the layout of headers in a file.
-/

namespace Obj.Spec.MachoB
open Obj Obj.MachoR Obj.MachoB
open Obj.Spec.MachoF (Each num width headerSize headerIn IsCommand segmentSize sectionSize segmentIn sectionsIn Zerofill OffsetsOf SymbolsOf IndirectOf)
open Obj.Spec.MachoI (PartIs)
open Obj.Spec.Pe (CStrAt)

/-! ## Deletion -/

/-- The section with the number `i` is deleted. -/
def secGone (b : Builder) (i : Nat) : Bool := match b.sections[i]? with | some s => s.delete | none => false
/-- A symbol is in a deleted section. -/
def sectGone (b : Builder) : Option Nat → Bool
  | some k => secGone b k
  | none => false
/-- The symbol is deleted, or it is in a deleted section. -/
def symGone (b : Builder) (i : Nat) : Bool :=
  match b.symbols[i]? with
  | some y => y.delete || sectGone b y.sect
  | none => false

/-- A segment after deletion: it keeps the sections that are not deleted, and it is deleted if it had sections and has none any more. -/
def segAfter (b : Builder) (g : Segm) : Segm :=
  if g.delete ∨ g.sections = [] then g
  else { g with
    sections := g.sections.filter fun i => !secGone b i
    delete := g.sections.all fun i => secGone b i }

/-- A symbol after deletion: symbols in deleted sections are deleted. -/
def symAfter (b : Builder) (y : Sym) : Sym :=
  { y with delete := y.delete || sectGone b y.sect }

/-- A relocation is kept unless it refers to a symbol that is deleted.  (It is kept even if it refers to a deleted section.) -/
def relKept (b : Builder) (r : Rel) : Bool := match r.target with | .symbol i => !symGone b i | .section_ _ => true

/-- A section after deletion. -/
def secAfter (b : Builder) (s : Sec) : Sec := if s.delete then s else { s with relocs := s.relocs.filter (relKept b) }

/-- The segment is deleted or becomes empty. -/
def segGone (b : Builder) (i : Nat) : Bool := match b.segments[i]? with | some g => (segAfter b g).delete | none => false

/-- The library is deleted. -/
def libGone (b : Builder) (i : Nat) : Bool := match b.dylibs[i]? with | some d => d.delete | none => false

/-- A load command is kept unless its segment or library is deleted. -/
def cmdKept (b : Builder) : Cmd → Bool
  | .segment i => !segGone b i
  | .dylib i => !libGone b i
  | _ => true

/-- The builder after deletion. -/
def cleaned (b : Builder) : Builder :=
  { b with
    segments := b.segments.map (segAfter b)
    symbols := b.symbols.map (symAfter b)
    sections := b.sections.map (secAfter b)
    commands := b.commands.filter (cmdKept b) }

/-- The numbers of sections, symbols, segments and libraries that are used are those of items.  A section that a relocation refers to must even
have a number below the number of sections that are not deleted. -/
structure InRange (b : Builder) : Prop where
  segments : ∀ g ∈ b.segments, g.delete = false → ∀ i ∈ g.sections, i < b.sections.length
  symbols : ∀ y ∈ b.symbols, y.delete = false → ∀ i, y.sect = some i → i < b.sections.length
  relSymbols : ∀ s ∈ b.sections, s.delete = false → ∀ r ∈ s.relocs, ∀ i, r.target = .symbol i → i < b.symbols.length
  relSections : ∀ s ∈ b.sections, s.delete = false → ∀ r ∈ s.relocs, ∀ i, r.target = .section_ i →
    i < (b.sections.filter fun s => !s.delete).length
  commands : ∀ i, Cmd.segment i ∈ b.commands → i < b.segments.length
  libraries : ∀ i, Cmd.dylib i ∈ b.commands → i < b.dylibs.length

/-- Nothing that is kept refers to something that is deleted, except for relocations to sections. -/
structure NoOrphans (b : Builder) : Prop where
  segments : ∀ g ∈ b.segments, g.delete = false → ∀ i ∈ g.sections, ∀ s, b.sections[i]? = some s → s.delete = false
  symbols : ∀ y ∈ b.symbols, y.delete = false → ∀ i s, y.sect = some i → b.sections[i]? = some s → s.delete = false
  relocs : ∀ s ∈ b.sections, s.delete = false → ∀ r ∈ s.relocs, ∀ i y, r.target = .symbol i → b.symbols[i]? = some y → y.delete = false
  commands : ∀ i g, Cmd.segment i ∈ b.commands → b.segments[i]? = some g → g.delete = false
  libraries : ∀ i d, Cmd.dylib i ∈ b.commands → b.dylibs[i]? = some d → d.delete = false

/-! ## Load commands

A load command is a list of bytes: the number, the size and the rest. -/

/-- `cmds` are the load commands of a file: as many as the header says, one after the other, inside of the file. -/
def CommandsAll (c : Cfg) (h : Mhdr) (data : List UInt8) (cmds : List (List UInt8)) : Prop :=
  (h.sizeofcmds = 0 ∨ headerSize c.is64 + h.sizeofcmds ≤ data.length) ∧ (∀ k ∈ cmds, IsCommand c.en k) ∧ cmds.length = h.ncmds ∧
  ∃ rest, slice data (headerSize c.is64) h.sizeofcmds = cmds.flatten ++ rest

/-- The number of a load command. -/
def number (en : Endianness) (k : List UInt8) : Nat := num en k 0 4

/-- `LC_SEGMENT` or `LC_SEGMENT_64`. -/
def isSegment (en : Endianness) (k : List UInt8) : Bool := decide (number en k ∈ [1, 0x19])
/-- The class of a segment command.  It is not required to be that of the file. -/
def segCfg (en : Endianness) (k : List UInt8) : Cfg := ⟨decide (number en k = 0x19), en⟩
/-- `LC_SYMTAB`. -/
def isSymtab (en : Endianness) (k : List UInt8) : Bool := decide (number en k = 2)
/-- `LC_DYSYMTAB`. -/
def isDysymtab (en : Endianness) (k : List UInt8) : Bool := decide (number en k = 0xb)
/-- `LC_LOAD_DYLIB`, `LC_LOAD_WEAK_DYLIB`, `LC_REEXPORT_DYLIB`, `LC_LAZY_LOAD_DYLIB`, `LC_LOAD_UPWARD_DYLIB`. -/
def isLibrary (en : Endianness) (k : List UInt8) : Bool := decide (number en k ∈ [0xc, 0x80000018, 0x8000001f, 0x20, 0x80000023])

/-- The numbers of `LC_CODE_SIGNATURE`, `LC_SEGMENT_SPLIT_INFO`, `LC_FUNCTION_STARTS`, `LC_DATA_IN_CODE`, `LC_DYLIB_CODE_SIGN_DRS`,
`LC_LINKER_OPTIMIZATION_HINT`, `LC_DYLD_EXPORTS_TRIE`, `LC_DYLD_CHAINED_FIXUPS`. -/
def linkeditNumbers : List Nat := [0x1d, 0x1e, 0x26, 0x29, 0x2b, 0x2e, 0x80000033, 0x80000034]
/-- The commands that are kept as they are, and their smallest sizes: `LC_LOAD_DYLINKER`, `LC_SOURCE_VERSION`, `LC_MAIN`, `LC_UUID`,
`LC_ENCRYPTION_INFO`, `LC_ENCRYPTION_INFO_64`. -/
def rawCommands : List (Nat × Nat) := [(0xe, 12), (0x2a, 16), (0x80000028, 24), (0x1b, 24), (0x21, 20), (0x2c, 24)]

/-! ## Numbers that are used for the references in a file -/

/-- What references in a file are checked against: the number of sections, the number of symbols and the indirect symbol table. -/
structure Totals where
  sections : Nat
  symbols : Nat
  indirect : List Nat

/-- The table of indirect symbols of `LC_DYSYMTAB`: it is inside of the file. -/
def IndirectTable (en : Endianness) (data k : List UInt8) (table : List Nat) : Prop :=
  80 ≤ k.length ∧ (num en k 60 4 = 0 ∨ num en k 56 4 + 4 * num en k 60 4 ≤ data.length) ∧
  table = (List.range (num en k 60 4)).map fun i => num en data (num en k 56 4 + 4 * i) 4

/-- The sections of all segments, the symbols of the last `LC_SYMTAB` and the table of the last `LC_DYSYMTAB`. -/
structure TotalsOf (en : Endianness) (data : List UInt8) (cmds : List (List UInt8)) (t : Totals) : Prop where
  sections : t.sections = ((cmds.filter (isSegment en)).map fun k => (segmentIn (segCfg en k) k).nsects).sum
  symbols : t.symbols = (((cmds.filter (isSymtab en)).map fun k => num en k 12 4).getLast?).getD 0
  indirect : ∃ tables, Each (IndirectTable en data) (cmds.filter (isDysymtab en)) tables ∧ t.indirect = tables.getLast?.getD []

/-- The page size is the greatest power of two that divides the offsets of all segments, but at most `0x4000`. -/
def PageSize (en : Endianness) (cmds : List (List UInt8)) (size : Nat) : Prop :=
  ∃ n ≤ 14, size = 2 ^ n ∧ ∀ m ≤ 14, (∀ k ∈ cmds, isSegment en k → 2 ^ m ∣ (segmentIn (segCfg en k) k).fileoff) ↔ m ≤ n

/-! ## Sections -/

/-- The data of a section.  (The size of a section without data is truncated to 32 bits.) -/
def DataIs (data : List UInt8) (h : Sect) (off : Nat) (d : Data) : Prop :=
  Zerofill h ∧ d = .uninit (h.size % 2 ^ 32) ∨ ¬ Zerofill h ∧ ∃ l, PartIs data off h.size l ∧ d = .data l

/-- The relocation with the words `a` and `w`.  In `w`, fields start at the least significant bit in little-endian files, and at the most
significant bit in big-endian files. -/
def RelIs (en : Endianness) (t : Totals) (a w : Nat) (r : Rel) : Prop :=
  let symbolnum := match en with | .little => w % 2 ^ 24 | .big => w / 2 ^ 8
  let pcrel := match en with | .little => w / 2 ^ 24 % 2 | .big => w / 2 ^ 7 % 2
  let length := match en with | .little => w / 2 ^ 25 % 4 | .big => w / 2 ^ 5 % 4
  let extern := match en with | .little => w / 2 ^ 27 % 2 | .big => w / 2 ^ 4 % 2
  let typ := match en with | .little => w / 2 ^ 28 % 16 | .big => w % 16
  r.address = a ∧ r.pcrel = decide (pcrel = 1) ∧ r.length = length ∧ r.typ = typ ∧
  if extern = 1 then symbolnum < t.symbols ∧ r.target = .symbol symbolnum
  else 0 < symbolnum ∧ symbolnum ≤ t.sections ∧ r.target = .section_ (symbolnum - 1)

/-- The relocations of a section. -/
def RelocsAre (en : Endianness) (data : List UInt8) (t : Totals) (h : Sect) (rs : List Rel) : Prop :=
  (h.nreloc = 0 ∨ h.reloff + 8 * h.nreloc ≤ data.length) ∧
  Each (fun i r => RelIs en t (num en data (h.reloff + 8 * i) 4) (num en data (h.reloff + 8 * i + 4) 4) r) (List.range h.nreloc) rs

/-- An entry of the indirect symbol table: the two highest bits are flags (`INDIRECT_SYMBOL_LOCAL`, `INDIRECT_SYMBOL_ABS`). -/
def IndIs (t : Totals) (v : Nat) (x : Ind) : Prop :=
  if v.testBit 31 ∨ v.testBit 30 then x = .flags v else v < t.symbols ∧ x = .symbol v

/-- A section of the builder. -/
structure SectionIs (c : Cfg) (data : List UInt8) (t : Totals) (h : Sect) (off : Nat) (s : Sec) : Prop where
  delete : s.delete = false
  sectname : s.sectname = h.sectname
  segname : s.segname = h.segname
  addr : s.addr = h.addr
  align : s.align = h.align
  flags : s.flags = h.flags
  stubSize : s.stubSize = if h.flags % 256 = 8 then h.reserved2 else 0
  contents : DataIs data h off s.data
  relocs : RelocsAre c.en data t h s.relocs
  indirect : ∃ vs, IndirectOf c.is64 h t.indirect vs ∧ Each (IndIs t) vs s.indirect

/-- A segment of the builder with its sections. -/
structure SegmentIs (en : Endianness) (data : List UInt8) (t : Totals) (k : List UInt8) (g : Segm × List Sec) : Prop where
  size : segmentSize (segCfg en k).is64 + sectionSize (segCfg en k).is64 * (segmentIn (segCfg en k) k).nsects ≤ k.length
  delete : g.1.delete = false
  segname : g.1.segname = slice k 8 16
  vmaddr : g.1.vmaddr = (segmentIn (segCfg en k) k).vmaddr
  vmsize : g.1.vmsize = (segmentIn (segCfg en k) k).vmsize
  maxprot : g.1.maxprot = (segmentIn (segCfg en k) k).maxprot
  initprot : g.1.initprot = (segmentIn (segCfg en k) k).initprot
  flags : g.1.flags = (segmentIn (segCfg en k) k).flags
  ids : g.1.sections = g.2.map (·.id)
  sections : ∃ offs, OffsetsOf (segmentIn (segCfg en k) k) (sectionsIn (segCfg en k) k) offs ∧
    Each (fun x s => SectionIs (segCfg en k) data t x.1 x.2 s) ((sectionsIn (segCfg en k) k).zip offs) g.2

/-! ## Symbols and libraries -/

/-- A symbol of the builder.  It has a section if its type is `N_SECT`.  (This is so for debugging symbols, too.) -/
structure SymbolIs (data : List UInt8) (t : Totals) (strings : Elf.StrTable) (n : Nlist) (y : Sym) : Prop where
  delete : y.delete = false
  ntype : y.ntype = n.typ
  nsect : y.nsect = n.sect
  desc : y.desc = n.desc
  value : y.value = n.value
  name : BuildR.StrAt data strings n.strx y.name
  sect : if n.typ / 2 % 8 = 7 then 0 < n.sect ∧ n.sect ≤ t.sections ∧ y.sect = some (n.sect - 1) else y.sect = none

/-- The symbols of `LC_SYMTAB`. -/
def SymbolsAre (c : Cfg) (data : List UInt8) (t : Totals) (k : List UInt8) (ys : List Sym) : Prop :=
  ∃ tab, SymbolsOf c data k tab ∧ Each (SymbolIs data t tab.strings) tab.symbols ys

/-- A library of the builder. -/
structure LibraryIs (en : Endianness) (k : List UInt8) (d : Dylib) : Prop where
  size : 24 ≤ k.length
  delete : d.delete = false
  cmd : d.cmd = number en k
  name : CStrAt k (num en k 8 4) d.name
  timestamp : d.timestamp = num en k 12 4
  current : d.current = num en k 16 4
  compat : d.compat = num en k 20 4

/-- A load command of the builder: the number of the segment or library is not determined here. -/
inductive CommandIs (en : Endianness) (data k : List UInt8) : Cmd → Prop where
  | segment {i : Nat} : isSegment en k → CommandIs en data k (.segment i)
  | symtab : isSymtab en k → CommandIs en data k .symtab
  /-- There is no table of contents, module table, external reference table or table of relocations. -/
  | dysymtab : isDysymtab en k → (∀ o ∈ [36, 44, 52, 68, 76], num en k o 4 = 0) → CommandIs en data k .dysymtab
  | dylib {i : Nat} : isLibrary en k → CommandIs en data k (.dylib i)
  | idDylib {d : Dylib} : number en k = 0xd → LibraryIs en k d → CommandIs en data k (.idDylib d)
  | buildVersion : number en k = 0x32 → 24 + 8 * num en k 20 4 ≤ k.length → CommandIs en data k (.buildVersion (num en k 8 4) (num en k 12 4)
      (num en k 16 4) ((List.range (num en k 20 4)).map fun i => (num en k (24 + 8 * i) 4, num en k (28 + 8 * i) 4)))
  | linkedit {l : List UInt8} : number en k ∈ linkeditNumbers → 16 ≤ k.length → PartIs data (num en k 8 4) (num en k 12 4) l →
      CommandIs en data k (.linkedit (number en k) l)
  | dyldInfo {l1 l2 l3 l4 l5 : List UInt8} : number en k = 0x80000022 → 48 ≤ k.length →
      PartIs data (num en k 8 4) (num en k 12 4) l1 → PartIs data (num en k 16 4) (num en k 20 4) l2 →
      PartIs data (num en k 24 4) (num en k 28 4) l3 → PartIs data (num en k 32 4) (num en k 36 4) l4 →
      PartIs data (num en k 40 4) (num en k 44 4) l5 → CommandIs en data k (.dyldInfo l1 l2 l3 l4 l5)
  | other {n : Nat} : (number en k, n) ∈ rawCommands → n ≤ k.length → CommandIs en data k (.other (number en k) (k.drop 8))

/-! ## The builder -/

/-- The segments of load commands. -/
def segmentsOf (ks : List Cmd) : List Nat := ks.filterMap fun k => match k with | .segment i => some i | _ => none
/-- The libraries of load commands. -/
def librariesOf (ks : List Cmd) : List Nat := ks.filterMap fun k => match k with | .dylib i => some i | _ => none

/-- The items have their positions as numbers. -/
structure Numbered (b : Builder) : Prop where
  segments : ∀ (i : Nat) (g : Segm), b.segments[i]? = some g → g.id = i
  sections : ∀ (i : Nat) (s : Sec), b.sections[i]? = some s → s.id = i
  symbols : ∀ (i : Nat) (y : Sym), b.symbols[i]? = some y → y.id = i

/-- `b` is the builder for the file `data`. -/
structure Reads (is64 : Bool) (data : List UInt8) (b : Builder) : Prop where
  width : b.is64 = is64
  size : headerSize is64 ≤ data.length
  /-- `MH_MAGIC` or `MH_MAGIC_64`, in the byte order of the file. -/
  magic : num b.endian data 0 4 = if is64 then 0xfeedfacf else 0xfeedface
  cputype : b.cputype = (headerIn b.endian data).cputype
  cpusubtype : b.cpusubtype = (headerIn b.endian data).cpusubtype
  filetype : b.filetype = (headerIn b.endian data).filetype
  flags : b.flags = (headerIn b.endian data).flags
  numbered : Numbered b
  body : ∃ cmds t, CommandsAll ⟨is64, b.endian⟩ (headerIn b.endian data) data cmds ∧ TotalsOf b.endian data cmds t ∧ PageSize b.endian cmds b.pageSize ∧
    Each (CommandIs b.endian data) cmds b.commands ∧
    segmentsOf b.commands = List.range b.segments.length ∧ librariesOf b.commands = List.range b.dylibs.length ∧
    (∃ gs, Each (SegmentIs b.endian data t) (cmds.filter (isSegment b.endian)) gs ∧ b.segments = gs.map (·.1) ∧ b.sections = gs.flatMap (·.2)) ∧
    (∃ yss, Each (SymbolsAre ⟨is64, b.endian⟩ data t) (cmds.filter (isSymtab b.endian)) yss ∧ b.symbols = yss.flatten) ∧
    Each (LibraryIs b.endian) (cmds.filter (isLibrary b.endian)) b.dylibs ∧
    b.symbols.length = t.symbols

end Obj.Spec.MachoB

import Verif.Spec.MachoBuild

/-!
# What reading a file that a Mach-O builder has written gives

From the model only the types of the builder are used.  Reading numbers the items again: the id of an item that was read is its position in
the file.  Orders are given as lists of the ids that the items had before.
-/

namespace Obj.Spec.MachoB
open Obj Obj.MachoR Obj.MachoB
open Obj.Spec.MachoF (Each HasName ascii Zerofill)

/-- The item with the id `i` has the position `j` in the file. -/
def Place (order : List Nat) (i j : Nat) : Prop := order[j]? = some i

/-- The same for references that can be missing. -/
def Ref (order : List Nat) (x y : Option Nat) : Prop := x = none ∧ y = none ∨ ∃ i j, x = some i ∧ y = some j ∧ Place order i j

/-! ## Order -/

/-- The sections in the order of the file: those of the first segment command, those of the second, and so on. -/
def sectionOrder (b : Builder) : List Nat :=
  (segmentsOf b.commands).flatMap fun i => match b.segments[i]? with | some g => g.sections | none => []

/-- The symbols of a file are in three groups: local symbols (0), symbols that are defined and external (1; `N_EXT` is bit 0, and
`N_PEXT`, bit 4, is not set) and undefined symbols (2; `N_UNDF`, and not a debugging symbol). -/
def symGroup (y : Sym) : Nat :=
  if y.ntype / 32 = 0 ∧ y.ntype / 2 % 8 = 0 then 2 else if y.ntype % 2 = 1 ∧ y.ntype / 16 % 2 = 0 then 1 else 0

/-- The symbol `y` comes before `z`.  Local symbols keep their order, others are ordered by name. -/
def Before (y z : Sym) : Prop :=
  symGroup y < symGroup z ∨ symGroup y = symGroup z ∧
    if symGroup y = 0 then y.id < z.id else y.name < z.name ∨ y.name = z.name ∧ y.id < z.id

/-- `syms` are the symbols that are not deleted, in the order of the file. -/
structure SymbolOrder (b : Builder) (syms : List Sym) : Prop where
  all : ∀ y, y ∈ syms ↔ y ∈ b.symbols ∧ y.delete = false
  sorted : syms.Pairwise Before

/-! ## The same items -/

/-- The same target. -/
inductive TargetSame (secs syms : List Nat) : Target → Target → Prop where
  | symbol {i j : Nat} : Place syms i j → TargetSame secs syms (.symbol i) (.symbol j)
  | section_ {i j : Nat} : Place secs i j → TargetSame secs syms (.section_ i) (.section_ j)

/-- The same relocation. -/
structure RelSame (secs syms : List Nat) (r x : Rel) : Prop where
  target : TargetSame secs syms r.target x.target
  address : x.address = r.address
  pcrel : x.pcrel = r.pcrel
  length : x.length = r.length
  typ : x.typ = r.typ

/-- The same indirect symbol. -/
inductive IndSame (syms : List Nat) : Ind → Ind → Prop where
  | flags {v : Nat} : IndSame syms (.flags v) (.flags v)
  | symbol {i j : Nat} : Place syms i j → IndSame syms (.symbol i) (.symbol j)

/-- The same section.  The size of stubs is only kept for `S_SYMBOL_STUBS`. -/
structure SecSame (secs syms : List Nat) (s x : Sec) : Prop where
  delete : x.delete = false
  sectname : x.sectname = s.sectname
  segname : x.segname = s.segname
  addr : x.addr = s.addr
  align : x.align = s.align
  relocs : Each (RelSame secs syms) s.relocs x.relocs
  flags : x.flags = s.flags
  indirect : Each (IndSame syms) s.indirect x.indirect
  stubSize : x.stubSize = if s.flags % 256 = 8 then s.stubSize else 0
  data : x.data = s.data

/-- The same segment.  The size in memory is computed in object files (`MH_OBJECT = 1`) and for `__LINKEDIT`. -/
structure SegSame (b : Builder) (secs : List Nat) (g x : Segm) : Prop where
  delete : x.delete = false
  segname : x.segname = g.segname
  vmaddr : x.vmaddr = g.vmaddr
  vmsize : b.filetype ≠ 1 → ¬ HasName g.segname (ascii "__LINKEDIT") → x.vmsize = g.vmsize
  maxprot : x.maxprot = g.maxprot
  initprot : x.initprot = g.initprot
  flags : x.flags = g.flags
  sections : Each (Place secs) g.sections x.sections

/-- The same symbol.  Sections are counted from 1 in symbols. -/
structure SymSame (secs : List Nat) (y x : Sym) : Prop where
  delete : x.delete = false
  name : x.name = y.name
  sect : Ref secs y.sect x.sect
  ntype : x.ntype = y.ntype
  nsect : (y.sect = none → x.nsect = y.nsect) ∧ ∀ j, x.sect = some j → x.nsect = j + 1
  desc : x.desc = y.desc
  value : x.value = y.value

/-- The same load command, except for the numbers of segments and libraries. -/
inductive CmdSame : Cmd → Cmd → Prop where
  | segment {i j : Nat} : CmdSame (.segment i) (.segment j)
  | dylib {i j : Nat} : CmdSame (.dylib i) (.dylib j)
  | other {k : Cmd} : (∀ i, k ≠ .segment i) → (∀ i, k ≠ .dylib i) → CmdSame k k

/-- `x` has the items of `b` that are not deleted.  The page size is not kept: it is found from the offsets of the segments. -/
structure Same (b x : Builder) : Prop where
  endian : x.endian = b.endian
  is64 : x.is64 = b.is64
  cputype : x.cputype = b.cputype
  cpusubtype : x.cpusubtype = b.cpusubtype
  filetype : x.filetype = b.filetype
  flags : x.flags = b.flags
  numbered : Numbered x
  commands : Each CmdSame b.commands x.commands
  /-- The `i`-th segment command is for the `i`-th segment, and so for libraries. -/
  segmentIds : segmentsOf x.commands = List.range x.segments.length
  libraryIds : librariesOf x.commands = List.range x.dylibs.length
  /-- Nothing that is not deleted is left out. -/
  allSegments : ∀ i g, b.segments[i]? = some g → g.delete = false → i ∈ segmentsOf b.commands
  allSections : ∀ i s, b.sections[i]? = some s → s.delete = false → i ∈ sectionOrder b
  allLibraries : ∀ i d, b.dylibs[i]? = some d → d.delete = false → i ∈ librariesOf b.commands
  segments : Each (fun i g => ∃ g0, b.segments[i]? = some g0 ∧ SegSame b (sectionOrder b) g0 g) (segmentsOf b.commands) x.segments
  libraries : Each (fun i d => b.dylibs[i]? = some d) (librariesOf b.commands) x.dylibs
  body : ∃ syms, SymbolOrder b syms ∧ Each (SymSame (sectionOrder b)) syms x.symbols ∧
    Each (fun i s => ∃ s0, b.sections[i]? = some s0 ∧ SecSame (sectionOrder b) (syms.map (·.id)) s0 s) (sectionOrder b) x.sections

/-! ## Builders that can be written -/

/-- The number of values of an address. -/
def space (b : Builder) : Nat := if b.is64 then 2 ^ 64 else 2 ^ 32

/-- The number of indirect symbols of a section of a type: one for each pointer (`S_NON_LAZY_SYMBOL_POINTERS`, `S_LAZY_SYMBOL_POINTERS`,
`S_LAZY_DYLIB_SYMBOL_POINTERS`, `S_THREAD_LOCAL_VARIABLE_POINTERS`) or stub (`S_SYMBOL_STUBS`), and none in others. -/
def IndirectCount (b : Builder) (s : Sec) : Prop :=
  if s.flags % 256 ∈ [6, 7, 0x10, 0x14] then s.indirect.length = s.data.size / (if b.is64 then 8 else 4)
  else if s.flags % 256 = 8 then s.stubSize ≠ 0 ∧ s.indirect.length = s.data.size / s.stubSize
  else s.indirect = []

/-- A section that can be written: numbers fit into the fields of the header, and the flags are right for the data. -/
structure SecOk (b : Builder) (s : Sec) : Prop where
  sectname : s.sectname.length = 16
  segname : s.segname.length = 16
  addr : s.addr < space b
  align : s.align < 2 ^ 32
  flags : s.flags < 2 ^ 32
  stubSize : s.stubSize < 2 ^ 32
  /-- Exactly the sections of type `S_ZEROFILL`, `S_GB_ZEROFILL` or `S_THREAD_LOCAL_ZEROFILL` have no data in the file. -/
  data : match s.data with
    | .data _ => s.flags % 256 ∉ [1, 0xc, 0x12]
    | .uninit n => s.flags % 256 ∈ [1, 0xc, 0x12] ∧ n < 2 ^ 32
  /-- Relocations are not written correctly in big-endian files. -/
  endian : s.relocs ≠ [] → b.endian = .little
  relocs : ∀ r ∈ s.relocs, r.address < 2 ^ 32 ∧ r.length < 4 ∧ r.typ < 16
  /-- Relocations refer to sections that are not deleted.  (For symbols this is ensured by `delete_orphans`.) -/
  relSections : ∀ r ∈ s.relocs, ∀ i, r.target = .section_ i → ∃ t, b.sections[i]? = some t ∧ t.delete = false
  indirect : IndirectCount b s
  /-- Indirect symbols are flags (bits 31 and 30) or symbols that are not deleted. -/
  indFlags : ∀ v, Ind.flags v ∈ s.indirect → v < 2 ^ 32 ∧ (v.testBit 31 ∨ v.testBit 30)
  indSymbols : ∀ i, Ind.symbol i ∈ s.indirect → ∃ y, b.symbols[i]? = some y ∧ y.delete = false

/-- A segment that can be written. -/
structure SegOk (b : Builder) (g : Segm) : Prop where
  segname : g.segname.length = 16
  vmaddr : g.vmaddr < space b
  vmsize : g.vmsize < space b
  maxprot : g.maxprot < 2 ^ 32
  initprot : g.initprot < 2 ^ 32
  flags : g.flags < 2 ^ 32

/-- A symbol that can be written: it has a section if and only if its type is `N_SECT`. -/
structure SymOk (b : Builder) (y : Sym) : Prop where
  ntype : y.ntype < 2 ^ 8
  nsect : y.nsect < 2 ^ 8
  desc : y.desc < 2 ^ 16
  value : y.value < space b
  sect : y.sect ≠ none ↔ y.ntype / 2 % 8 = 7

/-- A library that can be written, for a command with one of the numbers `cmds`. -/
structure LibOk (cmds : List Nat) (d : Dylib) : Prop where
  delete : d.delete = false
  cmd : d.cmd ∈ cmds
  name : (0 : UInt8) ∉ d.name
  timestamp : d.timestamp < 2 ^ 32
  current : d.current < 2 ^ 32
  compat : d.compat < 2 ^ 32

/-- A load command that can be written. -/
def CmdOk : Cmd → Prop
  | .idDylib d => LibOk [0xd] d
  | .buildVersion platform minos sdk tools => platform < 2 ^ 32 ∧ minos < 2 ^ 32 ∧ sdk < 2 ^ 32 ∧ ∀ t ∈ tools, t.1 < 2 ^ 32 ∧ t.2 < 2 ^ 32
  | .linkedit cmd _ => cmd ∈ linkeditNumbers
  | .other cmd data => ∃ n, (cmd, n) ∈ rawCommands ∧ n ≤ 8 + data.length
  | _ => True

/-- A builder that can be written, after orphans are deleted. -/
structure Sound (b : Builder) : Prop where
  cputype : b.cputype < 2 ^ 32
  cpusubtype : b.cpusubtype < 2 ^ 32
  filetype : b.filetype < 2 ^ 32
  flags : b.flags < 2 ^ 32
  numbered : Numbered b
  /-- The `i`-th segment command is for the `i`-th segment: deleted segments come last. -/
  order : segmentsOf b.commands = List.range (segmentsOf b.commands).length
  /-- No section is in two segments. -/
  nodup : (sectionOrder b).Nodup
  segments : ∀ g ∈ b.segments, g.delete = false → SegOk b g
  sections : ∀ s ∈ b.sections, s.delete = false → SecOk b s
  symbols : ∀ y ∈ b.symbols, y.delete = false → SymOk b y
  libraries : ∀ i d, Cmd.dylib i ∈ b.commands → b.dylibs[i]? = some d → LibOk [0xc, 0x80000018, 0x8000001f, 0x20, 0x80000023] d
  commands : ∀ k ∈ b.commands, CmdOk k
  symtab : (b.commands.filter fun k => k = .symtab).length ≤ 1
  dysymtab : ∀ s ∈ b.sections, s.delete = false → s.indirect ≠ [] → Cmd.dysymtab ∈ b.commands

end Obj.Spec.MachoB

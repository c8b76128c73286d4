import Verif.Model.MachoWriter
import Verif.Spec.MachoReloc
import Verif.Spec.StrTab

/-! # What a Mach-O object written from a `write::Object` must contain

One unnamed segment holds all sections; the symbol table holds the local symbols in order, then the defined external
symbols and then the undefined and common symbols, both sorted by name. -/

namespace Obj.Spec.MachoO
open Obj Obj.MachoW Obj.MachoR

/-- The architectures with a Mach-O CPU type, with that type and the default subtype. -/
def cpuTable : List ((Arch × Option CoffW.SubArch) × (Nat × Nat)) :=
  [((.arm, none), (12, 0)), ((.aarch64, none), (0x0100000c, 0)), ((.aarch64, some .arm64E), (0x0100000c, 2)),
   ((.aarch64_Ilp32, none), (0x0200000c, 1)), ((.i386, none), (7, 3)), ((.x86_64, none), (0x01000007, 3)),
   ((.powerPc, none), (18, 0)), ((.powerPc64, none), (0x01000012, 0))]

/-- The symbol is one of those that are written: file symbols are not, section symbols only on ARM64. -/
def Emitted (o : W.Object) (s : W.Symbol) : Prop :=
  s.kind ≠ .file ∧ s.kind ≠ .label ∧ (s.kind = .sectionSym → o.arch = .aarch64 ∨ o.arch = .aarch64_Ilp32)

/-- Local (0), external (1), undefined or common (2). -/
def group (s : W.Symbol) : Nat :=
  if s.section_ = .undefined ∨ s.section_ = .common then 2 else if s.scope = .compilation then 0 else 1

/-- The order of symbols `a` and `b` given by index. -/
def Before (a : Nat) (s : W.Symbol) (b : Nat) (t : W.Symbol) : Prop :=
  group s < group t ∨
  (group s = group t ∧ (if group s = 0 then a < b else s.name < t.name ∨ (s.name = t.name ∧ a < b)))

/-- `order` lists the indices of the symbols that are written, in the order of the symbol table. -/
structure Order (o : W.Object) (order : List Nat) : Prop where
  members : ∀ i, i ∈ order ↔ ∃ s, o.symbols[i]? = some s ∧ Emitted o s
  sorted : order.Pairwise fun i j => ∃ s t, o.symbols[i]? = some s ∧ o.symbols[j]? = some t ∧ Before i s j t

/-- The symbol table index of symbol `i`; 0 for a symbol that is not written. -/
def indexIn (order : List Nat) (i : Nat) : Nat := (order.idxOf? i).getD 0

/-- The number of section `i`. -/
def sectionNumber (o : W.Object) (i : Nat) : Nat := if i < o.sections.length then i + 1 else 0

/-- The space of the segment in memory (at most). -/
def memory (o : W.Object) : Nat := (o.sections.map fun s => s.align + s.size).sum

/-- The space of the file (at most). -/
def room (o : W.Object) : Nat :=
  256 + 80 * o.sections.length + memory o + (o.sections.map fun s => 24 * s.relocs.length + 8).sum +
  16 * o.symbols.length + storedSize (o.symbols.map (·.name))

/-- The object is well formed: the architecture has an address size, alignments are powers of two, sizes agree with
contents, ids refer to existing items, names have no NUL, the target of a relocation against a section symbol is in a
section, and numbers are below those at which an addition overflows. -/
structure Valid (o : W.Object) : Prop where
  arch : o.arch ≠ .unknown
  align : ∀ s ∈ o.sections, ∃ k < 64, s.align = 2 ^ k
  contents : ∀ s ∈ o.sections, s.kind.isBss = false → s.data.length = s.size
  bss : ∀ s ∈ o.sections, s.kind.isBss = true → s.data = []
  symbolSection : ∀ s ∈ o.symbols, ∀ i, s.section_ = .inSec i → i < o.sections.length
  relocSymbol : ∀ s ∈ o.sections, ∀ r ∈ s.relocs, ∃ y, o.symbols[r.symbol]? = some y ∧
    (y.kind = .sectionSym → ∃ i, y.section_ = .inSec i)
  relocSub : ∀ s ∈ o.sections, ∀ r ∈ s.relocs, ∀ i, r.subtractor = some i → i < o.symbols.length
  symbolName : ∀ s ∈ o.symbols, (0 : UInt8) ∉ s.name
  memory : memory o < 2 ^ 62
  value : ∀ s ∈ o.symbols, s.value < 2 ^ 63
  sections : o.sections.length < 2 ^ 32
  symbols : o.symbols.length < 2 ^ 32
  relocs : ∀ s ∈ o.sections, s.relocs.length < 2 ^ 30

/-- A relocation that has a Mach-O record: it is translated, a subtractor needs ARM64 or x86-64, an explicit addend
needs ARM64. -/
def Expressible (o : W.Object) (r : W.Reloc) : Prop :=
  (∃ t p l, r.flags = .macho t p l) ∧ (r.subtractor ≠ none → MachoSpec.Arm64 o.arch ∨ o.arch = .x86_64) ∧
  (r.addend ≠ 0 → MachoSpec.Arm64 o.arch)

/-- The reasons for which writing is refused. -/
inductive Refused (o : W.Object) (x : Extra) : Prop where
  /-- the architecture has no Mach-O CPU type -/
  | arch : (∀ p, ((o.arch, x.sub), p) ∉ cpuTable) → Refused o x
  /-- too many sections -/
  | sections : 255 < o.sections.length → Refused o x
  /-- the segment of a 32-bit file is too large -/
  | memory : elfIs64 o.arch = some false → 2 ^ 32 ≤ memory o → Refused o x
  /-- the file is too large -/
  | file : 2 ^ 32 ≤ room o → Refused o x
  /-- a label -/
  | label (s : W.Symbol) : s ∈ o.symbols → s.kind = .label → Refused o x
  /-- too many symbols -/
  | symbols : 2 ^ 24 < o.symbols.length → Refused o x
  /-- a name of more than 16 bytes -/
  | name (s : W.Section) : s ∈ o.sections → 16 < s.name.length ∨ 16 < s.segment.length → Refused o x
  /-- a section without Mach-O flags -/
  | section_ (s : W.Section) : s ∈ o.sections → sectionFlags s = none → Refused o x
  /-- a relocation without Mach-O record -/
  | reloc (s : W.Section) (r : W.Reloc) : s ∈ o.sections → r ∈ s.relocs → ¬ Expressible o r → Refused o x
  /-- a symbol without Mach-O type -/
  | symbol (s : W.Symbol) : s ∈ o.symbols → Emitted o s → symbolFlags s = none → Refused o x

/-- A relocation whose numbers fit: the offset has no bit that marks a scattered relocation, the type is none of those
that modify the next record, and the addend has 24 bits. -/
structure RelocFits (o : W.Object) (r : W.Reloc) : Prop where
  offset : r.offset < (if o.arch = .x86_64 then 4294967296 else 2147483648)
  addend : -8388608 ≤ r.addend ∧ r.addend < 8388608
  flags : ∀ t p l, r.flags = .macho t p l → t < 16 ∧ l < 4 ∧
    ¬ (MachoSpec.Arm64 o.arch ∧ (t = 1 ∨ t = 10)) ∧ ¬ (o.arch = .x86_64 ∧ t = 5)

/-- The values given by the user have the size of their Rust types. -/
structure Fits (o : W.Object) (x : Extra) : Prop where
  cpuSubtype : ∀ n, x.cpuSubtype = some n → n < 2 ^ 32
  flags : ∀ n, x.flags = some n → n < 2 ^ 32
  version : ∀ v, x.version = some v → v.platform < 2 ^ 32 ∧ v.minos < 2 ^ 32 ∧ v.sdk < 2 ^ 32
  sectionFlags : ∀ s ∈ o.sections, ∀ f r, s.flags = .macho f r → f < 2 ^ 32 ∧ r < 2 ^ 32
  symbolFlags : ∀ s ∈ o.symbols, ∀ t d, s.flags = .macho t d → t < 2 ^ 8 ∧ d < 2 ^ 16
  symbolSize : ∀ s ∈ o.symbols, s.size < 2 ^ 64

/-- The type of a section without contents in the file. -/
def zeroFill (flags : Nat) : Prop := flags % 256 = 1 ∨ flags % 256 = 0xc ∨ flags % 256 = 0x12

/-- The relocations in the order in which they are written: that of the object, or the reverse. -/
def Rearranged (rs ordered : List W.Reloc) : Prop :=
  (ordered = rs ∨ ordered = rs.reverse) ∧
  (rs.Pairwise (fun a b => a.offset ≤ b.offset) → ordered.Pairwise fun a b => b.offset ≤ a.offset)

/-- `x` is section `s` of the object. -/
structure SectionBack (c : Cfg) (o : W.Object) (data : List UInt8) (order : List Nat) (seg : Seg) (cpu : Nat) (s : W.Section)
    (x : SecInt) : Prop where
  name : (0 : UInt8) ∉ s.name → upToNul x.sect.sectname = s.name
  segment : (0 : UInt8) ∉ s.segment → upToNul x.sect.segname = s.segment
  size : x.sect.size = s.size
  align : x.sect.alignment = s.align
  aligned : x.sect.addr % s.align = 0
  inside : x.sect.addr + s.size ≤ seg.vmsize
  flags : MachoW.sectionFlags s = some (x.sect.flags, x.sect.reserved2) ∧ x.sect.reserved1 = 0 ∧ x.sect.reserved3 = 0
  /-- the kind is the one that type, attributes and segment name give -/
  kind : x.kind = sectKind none x.sect
  /-- the contents are in the segment, at the place that the address gives -/
  contents : s.kind.isBss = false → ¬ zeroFill x.sect.flags →
    x.data data = .ok s.data ∧ x.offset = seg.fileoff + x.sect.addr ∧ x.sect.addr + s.size ≤ seg.filesize
  bss : zeroFill x.sect.flags → x.data data = .ok []
  relocCount : ∃ ws, x.sect.relocations c data = .ok ws ∧
    ws.length = (s.relocs.map fun r => 1 + (if r.addend ≠ 0 then 1 else 0) + (if r.subtractor ≠ none then 1 else 0)).sum
  /-- the relocations (the records of big-endian files are damaged: C64) -/
  relocs : o.endian = .little → (∀ r ∈ s.relocs, RelocFits o r) → ∃ ws ordered, x.sect.relocations c data = .ok ws ∧
    Rearranged s.relocs ordered ∧
    MachoSpec.All2 (MachoSpec.ReadsAs cpu (indexIn order) (sectionNumber o) o.symbols) ordered (machoAll .little cpu ws)

/-- The number of the section of a symbol, 0 if it is in none. -/
def numberOf : W.SymSection → Nat
  | .inSec i => i + 1
  | _ => 0

/-- `y` is symbol `s` of the object. -/
structure SymbolBack (o : W.Object) (data : List UInt8) (f : File) (s : W.Symbol) (y : Nlist) : Prop where
  name : f.symbols.name data y = .ok s.name
  flags : MachoW.symbolFlags s = some (y.typ, y.desc)
  section_ : y.sect = numberOf s.section_
  /-- The value: the size of a common symbol, the address of a symbol in a section.  A 32-bit file has the low 32 bits. -/
  value : ∃ v, (f.cfg.is64 = true → y.value = v) ∧ (v < 2 ^ 32 → y.value = v) ∧
    (s.section_ = .common → v = s.size) ∧
    (∀ i, s.section_ = .inSec i → ∃ x, f.sections[i]? = some x ∧ v = x.sect.addr + s.value) ∧
    (s.section_ ≠ .common → (∀ i, s.section_ ≠ .inSec i) → v = s.value)

/-- The `LC_DYSYMTAB` command describes the three groups of the symbol table. -/
structure GroupsBack (o : W.Object) (order : List Nat) (d : DysymtabCmd) : Prop where
  groups : ∀ (k i : Nat) (s : W.Symbol), order[k]? = some i → o.symbols[i]? = some s →
    (group s = 0 ↔ d.ilocalsym ≤ k ∧ k < d.ilocalsym + d.nlocalsym) ∧
    (group s = 1 ↔ d.iextdefsym ≤ k ∧ k < d.iextdefsym + d.nextdefsym) ∧
    (group s = 2 ↔ d.iundefsym ≤ k ∧ k < d.iundefsym + d.nundefsym)
  total : d.nlocalsym + d.nextdefsym + d.nundefsym = order.length
  rest : d.rest = List.replicate 12 0

/-- The load commands: segment, build version if there is one, symbol table, groups of symbols. -/
structure CommandsBack (c : Cfg) (o : W.Object) (x : Extra) (order : List Nat) (cmds : List MachO.LoadCommandData) : Prop where
  kinds : cmds.map (·.cmd) = [if c.is64 then 0x19 else 1] ++ (if x.version = none then [] else [0x32]) ++ [2, 0xb]
  version : ∀ v, x.version = some v → ∃ cmd ∈ cmds, buildVersion c cmd = .ok (some (⟨v.platform, v.minos, v.sdk, 0⟩, []))
  groups : ∃ cmd ∈ cmds, ∃ d, dysymtab c cmd = .ok (some d) ∧ GroupsBack o order d

/-- Reading `data` gives back the object. -/
structure ReadsBack (o : W.Object) (x : Extra) (data : List UInt8) (order : List Nat) (f : File) (seg : Seg) : Prop where
  parse : elfIs64 o.arch = some f.cfg.is64 ∧ File.parse f.cfg.is64 data = .ok f
  endian : f.cfg.en = o.endian
  cpu : ∃ sub, ((o.arch, x.sub), (f.header.cputype, sub)) ∈ cpuTable ∧ f.header.cpusubtype = x.cpuSubtype.getD sub
  filetype : f.header.filetype = 1
  flags : ∀ b, f.header.flags.testBit b = true ↔
    (∃ n, x.flags = some n ∧ n.testBit b = true) ∨ (b = 13 ∧ o.subsectionsViaSymbols = true)
  /-- one segment, readable, writable and executable, at address 0 -/
  segments : f.segments = [seg] ∧ upToNul seg.segname = [] ∧ seg.vmaddr = 0 ∧ seg.maxprot = 7 ∧ seg.initprot = 7 ∧
    seg.nsects = o.sections.length ∧ seg.flags = 0
  count : f.sections.length = o.sections.length
  sections : ∀ (i : Nat) (s : W.Section), o.sections[i]? = some s →
    ∃ y, f.sections[i]? = some y ∧ SectionBack f.cfg o data order seg f.header.cputype s y
  /-- no two sections overlap in memory -/
  disjoint : ∀ (i j : Nat) (a b : SecInt), f.sections[i]? = some a → f.sections[j]? = some b → i ≠ j →
    a.sect.addr + a.sect.size ≤ b.sect.addr ∨ b.sect.addr + b.sect.size ≤ a.sect.addr
  ordered : Order o order
  symbolCount : f.symbols.symbols.length = order.length
  symbols : ∀ (k i : Nat) (s : W.Symbol), order[k]? = some i → o.symbols[i]? = some s →
    ∃ y, f.symbols.symbols[k]? = some y ∧ SymbolBack o data f s y
  commands : ∃ cs cmds, loadCommands f.cfg f.header data = .ok cs ∧
    Runs (fun cs : MachO.LoadCommands => cs.next f.cfg.en) cs cmds .done ∧ CommandsBack f.cfg o x order cmds

end Obj.Spec.MachoO

import Verif.Model.ElfWriter
import Verif.Spec.Elf
import Verif.Spec.Reserve
import Verif.Spec.StrTab

/-! # What an ELF relocatable object written from a `write::Object` must contain

The section headers are, in order: null, one group per COMDAT, for each section its header and (if it has
relocations) that of its relocation section, then symbol table, extended indices if needed, strings, section
names. -/

namespace Obj.Spec.ElfO
open Obj Obj.W Obj.Elf Obj.ElfW Obj.Spec.ElfS

/-- Number of section headers for a section. -/
def hdrCount (s : Section) : Nat := if s.relocs = [] then 1 else 2

/-- The section header index of section `i` of the object. -/
def secIndex (o : Object) (i : Nat) : Nat := 1 + o.comdats.length + ((o.sections.take i).map hdrCount).sum

/-- The section header index of the symbol table. -/
def symtabIndex (o : Object) : Nat := secIndex o o.sections.length

/-- Symbols with `Compilation` scope come first in the symbol table. -/
def localSym (s : Symbol) : Bool := decide (s.scope = .compilation)

/-- The symbol table index of symbol `i` of the object: after the null symbol, the local symbols in order,
then the others in order. -/
def symIndex (o : Object) (i : Nat) : Nat :=
  match o.symbols[i]? with
  | some s =>
    if localSym s then 1 + ((o.symbols.take i).filter localSym).length
    else 1 + (o.symbols.filter localSym).length + ((o.symbols.take i).filter fun s => !localSym s).length
  | none => 0

/-- The name stored for a symbol: section symbols have none. -/
def storedName (s : Symbol) : List UInt8 := if s.kind = .sectionSym then [] else s.name

/-- An upper bound of the file size: headers, and for every item its size and alignment. -/
def room (o : Object) : Nat :=
  4096 + (o.sections.map fun s => s.align + s.data.length + 32 + 24 * s.relocs.length + 2 * 64).sum +
  (o.comdats.map fun d => 4 * d.sections.length + 128).sum + 28 * o.symbols.length

/-- All names that may be stored. -/
def names (o : Object) : List (List UInt8) :=
  (o.sections.map (·.name)) ++ (o.sections.map fun s => ".rela".toUTF8.toList ++ s.name) ++
  (o.symbols.map storedName)

/-- The object is well formed: ids refer to existing items, names have no NUL, alignments are powers of two,
and the sizes leave room for the arithmetic. -/
structure Valid (o : Object) : Prop where
  comdatSymbol : ∀ d ∈ o.comdats, d.symbol < o.symbols.length
  comdatSections : ∀ d ∈ o.comdats, ∀ i ∈ d.sections, i < o.sections.length
  symbolSection : ∀ s ∈ o.symbols, ∀ i, s.section_ = .inSec i → i < o.sections.length
  noSection : ∀ s ∈ o.symbols, s.section_ = .none → s.kind = .file
  relocSymbol : ∀ s ∈ o.sections, ∀ r ∈ s.relocs, r.symbol < o.symbols.length
  sectionName : ∀ s ∈ o.sections, (0 : UInt8) ∉ s.name
  symbolName : ∀ s ∈ o.symbols, (0 : UInt8) ∉ storedName s
  align : ∀ s ∈ o.sections, AlignOk s.align
  room : room o < 2 ^ 63
  sections : o.comdats.length + 2 * o.sections.length < 2 ^ 31
  symbols : o.symbols.length < 2 ^ 29

/-- The reasons for which writing is refused. -/
inductive Refused (o : Object) (hasSub : Bool) : Prop where
  /-- the architecture has no ELF machine or no relocation format, or there is a sub-architecture -/
  | arch : hasSub = true ∨ (∀ m, elfMachine o.arch ≠ .ok m) ∨ (∀ b, elfHasAddend o.arch ≠ .ok b) → Refused o hasSub
  /-- a COMDAT selection other than `Any` -/
  | comdat (d : Comdat) : d ∈ o.comdats → d.kind ≠ 1 → Refused o hasSub
  /-- a section without ELF type -/
  | section_ (s : Section) : s ∈ o.sections → sectionFlags s = none → Refused o hasSub
  /-- a symbol without ELF type -/
  | symbol (s : Symbol) : s ∈ o.symbols → symbolFlags s = none → Refused o hasSub
  /-- a relocation that was not translated to an ELF type -/
  | reloc (s : Section) (r : Reloc) : s ∈ o.sections → r ∈ s.relocs → (∀ t, r.flags ≠ .elf t) → Refused o hasSub
  /-- a string table of 4 GiB -/
  | strings : 2 ^ 32 ≤ storedSize (names o) + 64 → Refused o hasSub
  /-- a 32-bit file of 4 GiB -/
  | size : elfIs64 o.arch = some false → 2 ^ 32 ≤ room o + storedSize (names o) + 64 → Refused o hasSub

/-- The values of the object can be stored in a file of the class: 32-bit ELF has 32-bit sizes and values,
24-bit symbol numbers and 8-bit types in relocations; the fields of explicit flags have the size of their
Rust types. -/
structure Fits (o : Object) (is64 isRela : Bool) : Prop where
  size : ∀ s ∈ o.sections, s.size < wordMax is64 ∧ s.align < wordMax is64
  secFlags : ∀ s ∈ o.sections, ∀ t f, sectionFlags s = some (t, f) → t < 2 ^ 32 ∧ f < wordMax is64
  value : ∀ s ∈ o.symbols, s.value < wordMax is64 ∧ s.size < wordMax is64
  symFlags : ∀ s ∈ o.symbols, ∀ i x, symbolFlags s = some (i, x) → i < 2 ^ 8 ∧ x < 2 ^ 8
  relocs : ∀ s ∈ o.sections, ∀ r ∈ s.relocs, ∀ t, r.flags = .elf t →
    RelFits is64 isRela ⟨r.offset, symIndex o r.symbol, t, if isRela then r.addend else 0⟩

/-- Header `h` of the section table is that of section `i` of the object. -/
structure SectionBack (o : Object) (data : List UInt8) (t : SectionTable) (i : Nat) (s : Section) (h : Shdr) : Prop where
  index : t.section (secIndex o i) = .ok h
  name : t.sectionName data h = .ok s.name
  flags : sectionFlags s = some (h.type, h.flags)
  addr : h.addr = 0
  size : h.size = s.size
  align : h.addralign = s.align
  entsize : h.entsize = if s.kind = .readOnlyString ∨ s.kind = .otherString then 1 else 0
  links : h.link = 0 ∧ h.info = 0
  placed : s.align ≠ 0 → h.offset % s.align = 0
  /-- the contents (`SHT_NOBITS` sections have none) -/
  data : h.type ≠ 8 → s.data.length = s.size → h.data data = .ok s.data

/-- The relocation section after section `i` holds its relocations, in order, with the same offset, the entry
of the same symbol, the same type and, if the format has them, the same addend. -/
structure RelocsBack (o : Object) (c : Cfg) (mips isRela : Bool) (data : List UInt8) (t : SectionTable) (i : Nat) (s : Section) (h : Shdr)
    (rels : List Rel) : Prop where
  index : t.section (secIndex o i + 1) = .ok h
  name : t.sectionName data h = .ok ((if isRela then ".rela" else ".rel").toUTF8.toList ++ s.name)
  target : h.info = secIndex o i
  flags : h.flags = 0x40
  read : h.rels c mips isRela data = .ok (some (rels, symtabIndex o))
  length : rels.length = s.relocs.length
  each : ∀ (k : Nat) (x : Reloc), s.relocs[k]? = some x → ∃ y, rels[k]? = some y ∧ y.offset = x.offset ∧
    y.sym = symIndex o x.symbol ∧ x.flags = .elf y.type ∧ y.addend = if isRela then x.addend else 0

/-- Entry `y` of the symbol table is symbol `i` of the object. -/
structure SymbolBack (o : Object) (data : List UInt8) (tab : SymTab) (i : Nat) (s : Symbol) (y : Sym) : Prop where
  index : tab.symbol (symIndex o i) = .ok y
  name : tab.symbolName data y = .ok (storedName s)
  flags : symbolFlags s = some (y.info, y.other)
  value : y.value = s.value
  size : y.size = s.size
  inSection : ∀ j, s.section_ = .inSec j → tab.symbolSection y (symIndex o i) = .ok (some (secIndex o j))
  special : (∀ j, s.section_ ≠ .inSec j) → tab.symbolSection y (symIndex o i) = .ok none ∧
    y.shndx = match s.section_ with
      | .undefined => 0
      | .common => 0xfff2
      | _ => 0xfff1

/-- The symbol table holds the symbols of the object and no others, the local ones first. -/
structure SymbolsBack (o : Object) (c : Cfg) (data : List UInt8) (t : SectionTable) (h : Shdr) (tab : SymTab) : Prop where
  index : t.section (symtabIndex o) = .ok h
  byIndex : SectionTable.symbolTableByIndex c data t (symtabIndex o) = .ok tab
  byType : (∀ s ∈ o.sections, ∀ f, sectionFlags s ≠ some (2, f)) → SectionTable.symbols c data t 2 = .ok tab
  firstGlobal : h.info = 1 + (o.symbols.filter localSym).length
  length : tab.symbols.length = 1 + o.symbols.length
  each : ∀ (i : Nat) (s : Symbol), o.symbols[i]? = some s → ∃ y, SymbolBack o data tab i s y

/-- Group `i` is COMDAT `i` of the object. -/
structure ComdatBack (o : Object) (c : Cfg) (data : List UInt8) (t : SectionTable) (i : Nat) (d : Comdat) (h : Shdr) : Prop where
  index : t.section (1 + i) = .ok h
  name : t.sectionName data h = .ok ".group".toUTF8.toList
  symbol : h.link = symtabIndex o ∧ h.info = symIndex o d.symbol
  members : h.group c data = .ok (some (1, d.sections.map (secIndex o)))
  listed : (h, d.sections.map (secIndex o)) ∈ comdats c t data

/-- The header of the file. -/
structure HeaderBack (arch : Arch) (machine : Nat) (flags : FileFlags) (e : Ehdr) : Prop where
  type : e.type = 1
  machine : e.machine = machine
  entry : e.entry = 0
  version : e.version = 1
  osAbi : ∀ a b f, flags = .elf a b f → e.osAbi = a ∧ e.abiVersion = b ∧ e.flags = elfFlags arch f
  default : flags = .other → e.osAbi = 0 ∧ e.abiVersion = 0 ∧ e.flags = elfFlags arch 0

/-- Reading `data` gives back the object. -/
structure ReadsBack (o : Object) (machine : Nat) (flags : FileFlags) (is64 isRela : Bool) (data : List UInt8) (e : Ehdr) (t : SectionTable) : Prop where
  parse : parseHeader is64 data = .ok (⟨is64, o.endian⟩, e)
  header : HeaderBack o.arch machine flags e
  segments : programHeaders ⟨is64, o.endian⟩ e data = .ok []
  table : sections ⟨is64, o.endian⟩ e data = .ok t
  /-- nothing but the null header, the headers described below, the strings and, if some symbol is in a section
  with an index from 0xff00 on, the extended indices -/
  count : ((∃ s ∈ o.symbols, ∃ j, s.section_ = .inSec j ∧ 0xff00 ≤ secIndex o j) ∧ t.sections.length = symtabIndex o + 4) ∨
    ((∀ s ∈ o.symbols, ∀ j, s.section_ = .inSec j → secIndex o j < 0xff00) ∧ t.sections.length = symtabIndex o + 3)
  sections : ∀ (i : Nat) (s : Section), o.sections[i]? = some s → ∃ h, SectionBack o data t i s h
  relocs : ∀ (i : Nat) (s : Section), o.sections[i]? = some s → s.relocs ≠ [] →
    ∃ h rels, RelocsBack o ⟨is64, o.endian⟩ (isMips64el ⟨is64, o.endian⟩ e.machine) isRela data t i s h rels
  symbols : ∃ h tab, SymbolsBack o ⟨is64, o.endian⟩ data t h tab
  comdats : ∀ (i : Nat) (d : Comdat), o.comdats[i]? = some d → ∃ h, ComdatBack o ⟨is64, o.endian⟩ data t i d h
  /-- the types: the null header, the groups (`SHT_GROUP`), the sections of the object with their relocations (`SHT_RELA` or `SHT_REL`),
  the symbols (`SHT_SYMTAB`), and strings (`SHT_STRTAB`) and extended indices (`SHT_SYMTAB_SHNDX`) -/
  types : ∀ (k : Nat) (h : Shdr), t.sections[k]? = some h →
    (k = 0 ∧ h.type = 0) ∨ (∃ i, i < o.comdats.length ∧ k = 1 + i ∧ h.type = 17) ∨
    (∃ i s, o.sections[i]? = some s ∧ (k = secIndex o i ∨ (k = secIndex o i + 1 ∧ s.relocs ≠ [] ∧ h.type = if isRela then 4 else 9))) ∨
    (k = symtabIndex o ∧ h.type = 2) ∨ (symtabIndex o < k ∧ (h.type = 3 ∨ h.type = 18))

end Obj.Spec.ElfO

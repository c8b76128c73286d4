import Verif.Model.CoffWriter
import Verif.Spec.Coff
import Verif.Spec.StrTab

/-! # What a COFF object written from a `write::Object` must contain

The symbol table holds the symbols of the object in order; a weak symbol is preceded by the symbol that it defaults
to, and file, section and weak symbols are followed by auxiliary records. -/

namespace Obj.Spec.CoffO
open Obj Obj.CoffW Obj.Spec.CoffS

/-- Number of auxiliary records of a symbol: one for a weak symbol and for a section symbol, one for every 18 bytes of
a file name. -/
def auxRecords (s : W.Symbol) : Nat :=
  if s.weak then 1
  else match s.kind, s.section_ with
    | .file, _ => (s.name.length + 17) / 18
    | .sectionSym, .inSec _ => 1
    | _, _ => 0

/-- Number of records that a symbol takes. -/
def symRecords (s : W.Symbol) : Nat := (if s.weak then 1 else 0) + 1 + auxRecords s

/-- The index of the first record of symbol `i`. -/
def firstIndex (o : W.Object) (i : Nat) : Nat := ((o.symbols.take i).map symRecords).sum

/-- The symbol table index of symbol `i`: a weak symbol comes after its default symbol. -/
def symIndex (o : W.Object) (i : Nat) : Nat :=
  match o.symbols[i]? with
  | some s => firstIndex o i + if s.weak then 1 else 0
  | none => 0

/-- The indices of all symbols, from a given index on. -/
def indices : Nat → List W.Symbol → List Nat
  | _, [] => []
  | n, s :: ss => (if s.weak then [n, n + 1] else [n]) ++ indices (n + symRecords s) ss

/-- The size of the file without its string table (at most). -/
def room (o : W.Object) : Nat :=
  20 + 40 * o.sections.length + (o.sections.map fun s => 4 + s.data.length + 10 * (s.relocs.length + 1)).sum +
  18 * (o.symbols.map symRecords).sum

/-- The object is well formed: ids refer to existing items, names have no NUL, file names fit in 255 records, there
are fewer than 65536 sections, and the file without its strings is below 4 GiB (file offsets have 32 bits). -/
structure Valid (o : W.Object) : Prop where
  comdatSymbol : ∀ d ∈ o.comdats, d.symbol < o.symbols.length
  comdatSections : ∀ d ∈ o.comdats, ∀ i ∈ d.sections, i < o.sections.length
  symbolSection : ∀ s ∈ o.symbols, ∀ i, s.section_ = .inSec i → i < o.sections.length
  noSection : ∀ s ∈ o.symbols, s.section_ = .none → s.kind = .file ∨ s.weak = true
  relocSymbol : ∀ s ∈ o.sections, ∀ r ∈ s.relocs, r.symbol < o.symbols.length
  sectionName : ∀ s ∈ o.sections, (0 : UInt8) ∉ s.name
  symbolName : ∀ s ∈ o.symbols, (0 : UInt8) ∉ s.name
  fileName : ∀ s ∈ o.symbols, s.kind = .file → s.name.length ≤ 255 * 18
  sections : o.sections.length < 2 ^ 16
  room : room o < 2 ^ 32

/-- The bytes of all names (at most): the default symbols have a prefix and a suffix. -/
def nameBytes (o : W.Object) : Nat :=
  storedSize (o.sections.map (·.name)) + storedSize (o.symbols.map (·.name)) +
  (o.symbols.map fun s => if s.weak then storedSize (o.symbols.map (·.name)) + s.name.length + 16 else 0).sum

/-- The reasons for which writing is refused. -/
inductive Refused (o : W.Object) (sub : Option SubArch) : Prop where
  /-- the architecture has no COFF machine -/
  | arch : (∀ m, machineOf o.arch sub o.endian ≠ .ok m) → Refused o sub
  /-- the symbol of a COMDAT is not in a section -/
  | comdatSymbol (d : W.Comdat) (s : W.Symbol) : d ∈ o.comdats → o.symbols[d.symbol]? = some s →
      (∀ i, s.section_ ≠ .inSec i) → Refused o sub
  /-- the selection of a COMDAT is unknown -/
  | comdatKind (d : W.Comdat) : d ∈ o.comdats → d.kind = 0 ∨ 6 < d.kind → Refused o sub
  /-- a section of a COMDAT has no section symbol -/
  | comdatSection (d : W.Comdat) (i : Nat) (s : W.Section) : d ∈ o.comdats → i ∈ d.sections → o.sections[i]? = some s →
      s.symbol = none → Refused o sub
  /-- a section without COFF flags -/
  | section_ (s : W.Section) : s ∈ o.sections → sectionFlags s = none → Refused o sub
  /-- an alignment other than a power of two up to 8192 -/
  | align (s : W.Section) : s ∈ o.sections → (∀ k ≤ 13, s.align ≠ 2 ^ k) → Refused o sub
  /-- a relocation that was not translated to a COFF type -/
  | reloc (s : W.Section) (r : W.Reloc) : s ∈ o.sections → r ∈ s.relocs → (∀ t, r.flags ≠ .coff t) → Refused o sub
  /-- a symbol without COFF type and class -/
  | symbol (s : W.Symbol) : s ∈ o.symbols → symbolFlags s = none → Refused o sub
  /-- a weak symbol that is neither undefined nor in a section -/
  | weak (s : W.Symbol) : s ∈ o.symbols → s.weak = true → s.section_ ≠ .undefined → (∀ i, s.section_ ≠ .inSec i) →
      Refused o sub
  /-- a string table of 4 GiB -/
  | strings : 2 ^ 32 ≤ nameBytes o + 4 → Refused o sub

/-- The values of the object can be stored: 32-bit sizes, values and offsets, 15-bit section numbers in symbols, and
the fields of explicit flags have the size of their Rust types. -/
structure Fits (o : W.Object) (crc : List UInt8 → Nat) (flags : Option Nat) : Prop where
  fileFlags : ∀ c, flags = some c → c < 2 ^ 16
  sections : o.sections.length < 0xff00
  size : ∀ s ∈ o.sections, s.size < 2 ^ 32
  secFlags : ∀ s ∈ o.sections, ∀ c, sectionFlags s = some c → c < 2 ^ 32
  value : ∀ s ∈ o.symbols, s.value < 2 ^ 32 ∧ s.size < 2 ^ 32
  symFlags : ∀ s ∈ o.symbols, ∀ t c, symbolFlags s = some (t, c) → t < 2 ^ 16 ∧ c < 2 ^ 8
  relocs : ∀ s ∈ o.sections, ∀ r ∈ s.relocs, r.offset < 2 ^ 32 ∧ ∀ t, r.flags = .coff t → t < 2 ^ 16
  crc : ∀ d, crc d < 2 ^ 32

/-- Section `i` is the section of the symbol of the COMDAT. -/
def Leads (o : W.Object) (d : W.Comdat) (i : Nat) : Prop := ∃ s, o.symbols[d.symbol]? = some s ∧ s.section_ = .inSec i

/-- Section `i` belongs to the COMDAT. -/
def Belongs (o : W.Object) (d : W.Comdat) (i : Nat) : Prop := Leads o d i ∨ i ∈ d.sections

/-- No section belongs to two COMDATs. -/
def Disjoint (o : W.Object) : Prop :=
  ∀ (a b : Nat) (d e : W.Comdat) (i : Nat), o.comdats[a]? = some d → o.comdats[b]? = some e → Belongs o d i → Belongs o e i → a = b

/-- The COFF selection for a COMDAT kind: no duplicates, any, same size, exact match, largest, newest. -/
def selectionCode (kind selection : Nat) : Prop :=
  (kind, selection) ∈ [(1, 2), (2, 1), (3, 3), (4, 4), (5, 6), (6, 7)]

/-- The COMDAT data of section `i`: the section of the group symbol has the selection, the other members are
associated (selection 5) with it, by its 1-based number; sections outside of groups have none. -/
inductive GroupInfo (o : W.Object) (i : Nat) : Nat → Nat → Prop where
  | leader (d : W.Comdat) (selection : Nat) : d ∈ o.comdats → Leads o d i → selectionCode d.kind selection →
      GroupInfo o i selection 0
  | member (d : W.Comdat) (j : Nat) : d ∈ o.comdats → i ∈ d.sections → Leads o d j → i ≠ j → GroupInfo o i 5 (j + 1)
  | outside : (∀ d ∈ o.comdats, ¬ Belongs o d i) → GroupInfo o i 0 0

/-- `sec` is the header of section `i` of the object. -/
structure SectionBack (o : W.Object) (data : List UInt8) (strings : Elf.StrTable) (i : Nat) (s : W.Section) (sec : Coff.Section) : Prop where
  /-- a name of at most 8 bytes that starts with a slash would be taken for an offset -/
  name : 8 < s.name.length ∨ s.name.head? ≠ some 47 → Coff.readSectionName strings data sec.name = .ok s.name
  address : sec.virtualSize = 0 ∧ sec.virtualAddress = 0
  size : sec.sizeOfRawData = s.size
  align : Coff.coffAlignment sec.characteristics = s.align
  /-- the other flags, with the flag for COMDAT members and that for large relocation counts -/
  flags : ∃ c, sectionFlags s = some c ∧ ∀ b, b < 20 ∨ 24 ≤ b →
    (sec.characteristics.testBit b = true ↔ c.testBit b = true ∨ (b = 12 ∧ ∃ d ∈ o.comdats, Belongs o d i) ∨
      (b = 24 ∧ 0xffff < s.relocs.length))
  placed : sec.pointerToRawData % 4 = 0
  /-- the contents (sections of uninitialized data have none) -/
  contents : ∀ c, sectionFlags s = some c → c &&& 0x80 = 0 → s.data.length = s.size → sec.data data = .ok s.data
  bss : ∀ c, sectionFlags s = some c → c &&& 0x80 = 0x80 → sec.data data = .ok []
  /-- the relocations, in order, with the same offset and type and the entry of the same symbol (an explicit overflow
  flag would be misunderstood for exactly 0xffff relocations) -/
  relocs : ∀ c, sectionFlags s = some c → (c &&& 0x1000000 = 0x1000000 → s.relocs.length ≠ 0xffff) →
    ∃ rs, sec.relocations data = .ok rs ∧ rs.length = s.relocs.length ∧
      ∀ (k : Nat) (x : W.Reloc), s.relocs[k]? = some x → ∃ y, rs[k]? = some y ∧ y.virtualAddress = x.offset ∧
        y.symbol = symIndex o x.symbol ∧ x.flags = .coff y.type

/-- The class says that the symbol is a file name exactly if it is one.  (Always so for default flags.) -/
def ClassOk (s : W.Symbol) : Prop := ∀ t c, symbolFlags s = some (t, c) → (c = 0x67 ↔ s.kind = .file ∧ s.weak = false)

/-- The section number of a strong symbol. -/
def sectionNumberOf : W.SymSection → Int
  | .none => -2
  | .undefined => 0
  | .absolute => -1
  | .common => 0
  | .inSec i => i + 1

/-- The default of weak symbol `s` is `y`, the symbol before it. -/
structure DefaultBack (data suffix : List UInt8) (t : Coff.SymTab) (index : Nat) (s : W.Symbol) (y : Coff.Symbol) : Prop where
  sym : t.symbol index = .ok y
  name : t.nameBytes data index y = .ok (".weak.".toUTF8.toList ++ s.name ++ suffix)
  value : y.value = s.value
  /-- an undefined weak symbol defaults to an absolute symbol -/
  section_ : (∀ i, s.section_ = .inSec i → y.sectionNumber = i + 1) ∧ (s.section_ = .undefined → y.sectionNumber = -1)
  class_ : y.typ = 0 ∧ y.storageClass = 2 ∧ y.auxCount = 0
  link : t.auxWeak (index + 1) = .ok (index, 3)

/-- Entry `y` of the symbol table is symbol `i` of the object. -/
structure SymbolBack (crc : List UInt8 → Nat) (o : W.Object) (data suffix : List UInt8) (t : Coff.SymTab) (i : Nat)
    (s : W.Symbol) (y : Coff.Symbol) : Prop where
  sym : t.symbol (symIndex o i) = .ok y
  /-- an empty name would be taken for an offset -/
  name : s.name ≠ [] → ClassOk s → t.nameBytes data (symIndex o i) y = .ok s.name
  flags : symbolFlags s = some (y.typ, y.storageClass)
  value : y.value = if s.weak then 0 else if s.section_ = .common then s.size else s.value
  section_ : y.sectionNumber = if s.weak then 0 else sectionNumberOf s.section_
  aux : y.auxCount = auxRecords s
  weak : s.weak = true → ∃ d, DefaultBack data suffix t (firstIndex o i) s d
  /-- the auxiliary record of a section symbol describes the section -/
  sectionAux : s.weak = false → s.kind = .sectionSym → ∀ j, s.section_ = .inSec j → ∃ sec, o.sections[j]? = some sec ∧
    ∃ a, t.auxSection (symIndex o i) = .ok a ∧ a.length = sec.size ∧ a.numberOfRelocations = min sec.relocs.length 0xffff ∧
      a.numberOfLinenumbers = 0 ∧ a.checkSum = (if sec.kind.isBss then 0 else crc sec.data) ∧
      (Disjoint o → GroupInfo o j a.selection a.number)

/-- A symbol that other files can see and that this file defines. -/
def StrongExternal (s : W.Symbol) : Prop :=
  s.weak = false ∧ (s.scope = .linkage ∨ s.scope = .dynamic) ∧ ((∃ i, s.section_ = .inSec i) ∨ s.section_ = .absolute)

/-- The suffix that makes the names of default symbols unique: the name of an external symbol that this file defines,
if there is one. -/
def SuffixOk (o : W.Object) (suffix : List UInt8) : Prop :=
  (suffix = [] ∨ ∃ x ∈ o.symbols, StrongExternal x ∧ suffix = 46 :: x.name) ∧
  ((∃ x ∈ o.symbols, StrongExternal x) → (∀ x ∈ o.symbols, x.name ≠ []) →
    (∃ x ∈ o.symbols, StrongExternal x ∧ suffix = 46 :: x.name))

/-- Reading `data` gives back the object. -/
structure ReadsBack (crc : List UInt8 → Nat) (o : W.Object) (machine : Nat) (flags : Option Nat) (data : List UInt8) (h : Coff.Header)
    (ss : List Coff.Section) (t : Coff.SymTab) (suffix : List UInt8) : Prop where
  parse : Coff.parseHeader false data 0 = .ok (h, 20)
  arch : h.machine = machine ∧ h.big = false
  fileFlags : (Coff.FileHeader.decode (data.take 20)).characteristics = flags.getD 0
  table : Coff.parseSections h data 20 = .ok ss
  count : ss.length = o.sections.length
  sections : ∀ (i : Nat) (s : W.Section), o.sections[i]? = some s → ∃ sec, ss[i]? = some sec ∧ SectionBack o data t.strings i s sec
  symbolTable : Coff.SymTab.parse h data = .ok t
  /-- nothing but the symbols described below -/
  iterate : ∃ xs, Runs t.next 0 xs .done ∧ xs.map (·.1) = indices 0 o.symbols
  unique : SuffixOk o suffix
  symbols : ∀ (i : Nat) (s : W.Symbol), o.symbols[i]? = some s → ∃ y, SymbolBack crc o data suffix t i s y

end Obj.Spec.CoffO

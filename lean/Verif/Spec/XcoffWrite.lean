import Verif.Model.XcoffWriter
import Verif.Spec.Xcoff
import Verif.Spec.StrTab

/-! # What an XCOFF object written from a `write::Object` must contain

The symbol table holds the symbols in order; a file symbol and an external symbol are followed by one auxiliary record. -/

namespace Obj.Spec.XcoffO
open Obj Obj.XcoffW Obj.Xcoff Obj.Spec.XcoffS

/-- The number of symbol table records of a symbol. -/
def recordsOf (o : W.Object) (s : W.Symbol) : Nat :=
  match XcoffW.symbolFlags o s with
  | .ok (some f) => if f.sclass = 103 ∨ f.sclass = 2 ∨ f.sclass = 111 ∨ f.sclass = 107 then 2 else 1
  | _ => 1

/-- The symbol table index of symbol `i`. -/
def indexOf (o : W.Object) (i : Nat) : Nat := ((o.symbols.take i).map (recordsOf o)).sum

/-- The space of the file without the strings (at most). -/
def room (o : W.Object) : Nat :=
  24 + 72 * o.sections.length + (o.sections.map fun s => 4 + s.data.length + 14 * s.relocs.length).sum + 36 * o.symbols.length

/-- The space of the strings (at most). -/
def nameBytes (o : W.Object) : Nat := 10 + storedSize (o.symbols.map (·.name))

/-- The object is well formed: the architecture has an address size, ids refer to existing items, only file symbols are
in no section at all, symbol names have no NUL, and numbers are below those at which an addition overflows. -/
structure Valid (o : W.Object) : Prop where
  arch : o.arch ≠ .unknown
  sections : o.sections.length < 2 ^ 15
  symbols : 2 * o.symbols.length < 2 ^ 32
  symbolSection : ∀ s ∈ o.symbols, ∀ i, s.section_ = .inSec i → i < o.sections.length
  noSection : ∀ s ∈ o.symbols, s.section_ = .none → s.kind = .file
  symbolName : ∀ s ∈ o.symbols, (0 : UInt8) ∉ s.name
  value : ∀ s ∈ o.symbols, s.value < 2 ^ 63
  csect : ∀ s ∈ o.symbols, ∀ a b c d i, s.flags = .xcoff a b c d (some i) → i < o.symbols.length
  relocSymbol : ∀ s ∈ o.sections, ∀ r ∈ s.relocs, r.symbol < o.symbols.length
  room : room o < 2 ^ 62

/-- The reasons for which writing is refused. -/
inductive Refused (o : W.Object) : Prop where
  /-- a section name of more than 8 bytes -/
  | name (s : W.Section) : s ∈ o.sections → 8 < s.name.length → Refused o
  /-- a section without XCOFF flags -/
  | section_ (s : W.Section) : s ∈ o.sections → XcoffW.sectionFlags s = none → Refused o
  /-- a symbol without XCOFF class -/
  | symbol (s : W.Symbol) : s ∈ o.symbols → XcoffW.symbolFlags o s = .ok none → Refused o
  /-- a relocation without XCOFF type -/
  | reloc (s : W.Section) (r : W.Reloc) : s ∈ o.sections → r ∈ s.relocs → (∀ t n, r.flags ≠ .xcoff t n) → Refused o
  /-- too many strings -/
  | strings : 2 ^ 32 ≤ nameBytes o → Refused o

/-- The values fit the fields of the format. -/
structure Fits (is64 : Bool) (o : W.Object) (flags : Option Nat) : Prop where
  flags : ∀ n, flags = some n → n < 2 ^ 16
  file : is64 = false → room o < 2 ^ 32
  sectionFlags : ∀ s ∈ o.sections, ∀ f, s.flags = .xcoff f → f < 2 ^ 32
  relocCount : ∀ s ∈ o.sections, s.relocs.length < if is64 then 2 ^ 32 else 65535
  relocOffset : ∀ s ∈ o.sections, ∀ r ∈ s.relocs, r.offset < if is64 then 2 ^ 64 else 2 ^ 32
  relocFlags : ∀ s ∈ o.sections, ∀ r ∈ s.relocs, ∀ t n, r.flags = .xcoff t n → t < 2 ^ 8 ∧ n < 2 ^ 8
  symbolFlags : ∀ s ∈ o.symbols, ∀ a b c d i, s.flags = .xcoff a b c d i → a < 2 ^ 16 ∧ 0 < b ∧ b < 2 ^ 8 ∧ c < 2 ^ 8 ∧ d < 2 ^ 8
  symbolSize : ∀ s ∈ o.symbols, s.size < if is64 then 2 ^ 64 else 2 ^ 32

/-- The sections that have an address. -/
def Loaded (k : SectionKind) : Prop := k = .text ∨ k = .data ∨ k = .uninitializedData

/-- `y` is relocation `r` of the object. -/
structure RelocBack (o : W.Object) (r : W.Reloc) (y : Rel) : Prop where
  offset : y.vaddr = r.offset
  symbol : y.symndx = indexOf o r.symbol
  flags : r.flags = .xcoff y.rtype y.rsize

/-- `x` is section `s` of the object. -/
structure SectionBack (is64 : Bool) (o : W.Object) (data : List UInt8) (s : W.Section) (x : Sect) : Prop where
  name : (0 : UInt8) ∉ s.name → x.nameOf = s.name
  flags : XcoffW.sectionFlags s = some x.flags
  size : x.size = s.data.length
  contents : x.data data = .ok s.data
  address : x.paddr = x.vaddr ∧ x.vaddr % 4 = 0
  unloaded : ¬ Loaded s.kind → x.vaddr = 0
  lines : x.lnnoptr = 0 ∧ x.nlnno = 0
  relocs : ∃ rs, x.relocations is64 data = .ok rs ∧ rs.length = s.relocs.length ∧
    ∀ (k : Nat) (r : W.Reloc), s.relocs[k]? = some r → ∃ y, rs[k]? = some y ∧ RelocBack o r y

/-- The section number of a symbol. -/
def numberOf : W.SymSection → Int
  | .none => -2
  | .absolute => -1
  | .undefined | .common => 0
  | .inSec i => i + 1

/-- `y`, with index `i`, is symbol `s` of the object. -/
structure SymbolBack (o : W.Object) (data : List UInt8) (f : File) (s : W.Symbol) (i : Nat) (y : Sym) : Prop where
  flags : ∃ c d e, XcoffW.symbolFlags o s = .ok (some ⟨y.typ, y.sclass, c, d, e⟩) ∧
    (Csect y.sclass → ∃ a, csectOf f.symbols i y = .ok (some a) ∧ a.smtyp = c ∧ a.smclas = d ∧
      (e = none → a.scnlen = s.size) ∧ ∀ j, e = some j → a.scnlen = indexOf o j)
  aux : (y.sclass = 103 ∨ Csect y.sclass → y.numaux = 1) ∧ (¬ (y.sclass = 103 ∨ Csect y.sclass) → y.numaux = 0)
  section_ : y.scnumI = numberOf s.section_
  /-- The value is an address in a section.  A 32-bit file has the low 32 bits. -/
  value : ∃ v, (f.is64 = true → y.value = v) ∧ (v < 2 ^ 32 → y.value = v) ∧
    (∀ j, s.section_ = .inSec j → ∃ x, f.sections[j]? = some x ∧ v = x.vaddr + s.value) ∧
    ((∀ j, s.section_ ≠ .inSec j) → v = s.value)
  /-- The name.  An empty name can only be read from the string table of a 64-bit file, and only if that table is not
  empty. -/
  name : s.name ≠ [] ∨ (f.is64 = true ∧ y.sclass ≠ 103 ∧ ∃ t ∈ o.symbols, t.name ≠ []) → symName f.symbols data i y = .ok s.name
  file : y.sclass = 103 → f.symbols.name data y = .ok ".file".toUTF8.toList

/-- Reading `data` gives back the object. -/
structure ReadsBack (o : W.Object) (flags : Option Nat) (data : List UInt8) (f : File) : Prop where
  parse : elfIs64 o.arch = some f.is64 ∧ File.parse f.is64 data = .ok f
  header : f.header.timdat = 0 ∧ f.header.opthdr = 0 ∧ f.header.flags = flags.getD 0
  count : f.sections.length = o.sections.length
  sections : ∀ (i : Nat) (s : W.Section), o.sections[i]? = some s → ∃ x, f.sections[i]? = some x ∧ SectionBack f.is64 o data s x
  /-- sections with an address are in order and do not overlap -/
  disjoint : ∀ (i j : Nat) (s t : W.Section) (x y : Sect), i < j → o.sections[i]? = some s → o.sections[j]? = some t →
    Loaded s.kind → Loaded t.kind → f.sections[i]? = some x → f.sections[j]? = some y → x.vaddr + x.size ≤ y.vaddr
  symbols : ∀ (i : Nat) (s : W.Symbol), o.symbols[i]? = some s →
    ∃ y, f.symbols.symbol (indexOf o i) = .ok y ∧ SymbolBack o data f s (indexOf o i) y
  /-- iteration yields exactly these symbols -/
  all : ∃ xs, Runs f.symbols.next 0 xs .done ∧ xs.map (·.1) = (List.range o.symbols.length).map (indexOf o)
  total : f.header.nsyms = indexOf o o.symbols.length

end Obj.Spec.XcoffO

import Verif.Model.CoffView
import Verif.Spec.CoffWrite

/-! # What the unified view of a written COFF symbol, section and COMDAT group must report -/

namespace Obj.Spec.CoffO
open Obj Obj.CoffW
open Obj.ElfV (ViewSection)

/-- COFF keeps the kind of a symbol, except that everything but functions is data if the symbol is weak, and that
thread-local data and undefined symbols of unknown kind are data. -/
def keptKind (s : W.Symbol) : SymbolKind :=
  if s.weak then (if s.kind = .text then .text else .data)
  else if s.kind = .tls ∨ s.kind = .unknown then .data
  else s.kind

/-- The symbol can be seen by other files: weak symbols, and functions and data that are not local to the compilation
unit or that are not defined here. -/
def External (s : W.Symbol) : Prop :=
  s.weak = true ∨
  ((s.kind = .text ∨ s.kind = .data ∨ s.kind = .tls ∨ s.kind = .unknown) ∧
    (s.scope ≠ .compilation ∨ s.section_ = .undefined ∨ s.section_ = .common))

/-- A symbol without its own place: its section is that of the default symbol, or it cannot be undefined or common. -/
def Placeless (s : W.Symbol) : Prop := s.weak = true ∨ ((s.kind = .file ∨ s.kind = .label) ∧ (s.section_ = .undefined ∨ s.section_ = .common))

/-- The section of a symbol. -/
inductive KeptSection (s : W.Symbol) : ViewSection → Prop where
  | placeless : Placeless s → KeptSection s .unknown
  | none : s.weak = false → s.section_ = .none → KeptSection s .none
  | undefined : ¬ Placeless s → s.section_ = .undefined → KeptSection s .undefined
  | common : ¬ Placeless s → s.section_ = .common → s.kind ≠ .sectionSym → KeptSection s .common
  | commonSection : s.weak = false → s.section_ = .common → s.kind = .sectionSym → KeptSection s .undefined
  | absolute : s.weak = false → s.section_ = .absolute → KeptSection s .absolute
  | inSec (j : Nat) : s.weak = false → s.section_ = .inSec j → KeptSection s (.sec (j + 1))

/-- The symbol is a definition: of a function or of data in a section. -/
def Definition (s : W.Symbol) : Prop :=
  s.weak = false ∧ (∃ j, s.section_ = .inSec j) ∧ (s.kind = .text ∨ s.kind = .data ∨ s.kind = .tls)

/-- The size of a symbol: that of the section for a section symbol, and of common data. -/
inductive KeptSize (o : W.Object) (s : W.Symbol) : Nat → Prop where
  | section_ (j : Nat) (sec : W.Section) : s.weak = false → s.kind = .sectionSym → s.section_ = .inSec j → o.sections[j]? = some sec →
      KeptSize o s sec.size
  | common : s.weak = false → s.section_ = .common → (s.kind = .text ∨ s.kind = .data ∨ s.kind = .tls) → KeptSize o s s.size
  | none : s.weak = true ∨ (s.section_ ≠ .common ∧ s.kind ≠ .sectionSym) ∨ s.kind = .file ∨ s.kind = .label ∨
      (s.kind = .sectionSym ∧ ∀ j, s.section_ ≠ .inSec j) → KeptSize o s 0

/-- What is reported for entry `y` is what was asked for in `s`. -/
structure Reported (o : W.Object) (ss : List Coff.Section) (t : Coff.SymTab) (index : Nat) (s : W.Symbol) (y : Coff.Symbol) : Prop where
  kind : CoffV.kind y = keptKind s
  global : CoffV.isGlobal y = true ↔ External s
  scope : (External s → CoffV.scope y = .linkage) ∧ (¬ External s → CoffV.scope y = .compilation)
  weak : CoffV.isWeak y = s.weak
  undefined : CoffV.isUndefined y = true ↔ s.weak = false ∧ s.section_ = .undefined ∧ s.kind ≠ .sectionSym ∧ s.kind ≠ .file ∧ s.kind ≠ .label
  common : CoffV.isCommon y = true ↔ s.weak = false ∧ s.section_ = .common ∧ s.kind ≠ .sectionSym ∧ s.kind ≠ .file ∧ s.kind ≠ .label
  section_ : KeptSection s (CoffV.symSection y)
  address : (s.weak = false → s.kind ≠ .file → (∃ j, s.section_ = .inSec j) → CoffV.address y 0 ss = s.value) ∧
    (s.weak = true ∨ s.kind = .file ∨ (∀ j, s.section_ ≠ .inSec j) → CoffV.address y 0 ss = 0)
  definition : CoffV.isDefinition y = true ↔ Definition s
  size : KeptSize o s (CoffV.size t index y)

/-- The kinds of sections that COFF can tell apart; the others are read as one of these. -/
def keptSectionKind : SectionKind → SectionKind
  | .readOnlyDataWithRel | .readOnlyString => .readOnlyData
  | .debug | .debugString | .otherString => .other
  | k => k

/-- Symbol `k` is a section symbol of section `j`. -/
def SectionSymbol (o : W.Object) (k j : Nat) : Prop :=
  ∃ s, o.symbols[k]? = some s ∧ s.weak = false ∧ s.kind = .sectionSym ∧ s.section_ = .inSec j

/-- The COMDAT groups are such that COFF can express them: no symbol has explicit flags, a section has one section symbol
at most and belongs to one group at most, and the group symbol is not weak and is the first symbol in its section after
the section symbol. -/
structure Grouped (o : W.Object) : Prop where
  flags : ∀ s ∈ o.symbols, s.flags = .none
  /-- (the writer accepts no other weak symbols, see `C69_accepted`) -/
  weak : ∀ s ∈ o.symbols, s.weak = true → s.section_ = .undefined ∨ ∃ i, s.section_ = .inSec i
  unique : ∀ a b j, SectionSymbol o a j → SectionSymbol o b j → a = b
  disjoint : Disjoint o
  order : ∀ d ∈ o.comdats, ∃ k i x, SectionSymbol o k i ∧ o.symbols[d.symbol]? = some x ∧ x.section_ = .inSec i ∧ x.weak = false ∧
    k < d.symbol ∧ ∀ (j : Nat) (y : W.Symbol), k < j → j < d.symbol → o.symbols[j]? = some y → y.section_ ≠ .inSec i

/-- The group `c` is the COMDAT `d` of the object: symbol, section and selection. -/
def IsGroup (o : W.Object) (d : W.Comdat) (c : Coff.Comdat) : Prop :=
  ∃ i, Leads o d i ∧ c.symbolIndex = symIndex o d.symbol ∧ c.sectionIndex = i + 1 ∧ CoffV.comdatKind c.selection = d.kind

end Obj.Spec.CoffO

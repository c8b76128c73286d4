import Verif.Model.ElfView
import Verif.Spec.ElfWrite

/-! # What the unified view of a written ELF symbol and section must report -/

namespace Obj.Spec.ElfO
open Obj Obj.W Obj.Elf Obj.ElfV

/-- ELF keeps the kind of a symbol, except that undefined symbols and labels have none. -/
def keptKind (s : Symbol) : SymbolKind :=
  if s.kind = .label then .unknown
  else if s.section_ = .undefined ∧ (s.kind = .text ∨ s.kind = .data) then .unknown
  else s.kind

/-- ELF keeps the scope of a defined symbol, except that weak symbols are visible outside the compilation
unit. -/
def keptScope (s : Symbol) : SymbolScope :=
  if s.section_ = .undefined then .unknown
  else if s.scope = .linkage then .linkage
  else if s.scope = .compilation ∧ s.weak = false then .compilation
  else .dynamic

/-- The section of a symbol: file symbols have none. -/
def keptSection (o : Object) (s : Symbol) : ViewSection :=
  match s.section_ with
  | .none => .none
  | .undefined => .undefined
  | .absolute => if s.kind = .file then .none else .absolute
  | .common => .common
  | .inSec j => .sec (secIndex o j)

/-- The symbol is a definition: of a function, of data or (unless it is a local mapping symbol, with a name
that starts with `$`) of a label, in a section. -/
def Definition (s : Symbol) : Prop :=
  (∃ j, s.section_ = .inSec j) ∧
  (s.kind = .text ∨ s.kind = .data ∨ s.kind = .label ∧ ¬ (s.weak = false ∧ s.scope = .compilation ∧ ∃ rest, s.name = 36 :: rest))

/-- What is reported for entry `y`, at `index`, is what was asked for in `s`. -/
structure Reported (o : Object) (data : List UInt8) (tab : SymTab) (index : Nat) (s : Symbol) (y : Sym) : Prop where
  kind : ElfV.kind y = keptKind s
  scope : ElfV.scope y = keptScope s
  weak : ElfV.isWeak y = s.weak
  local_ : ElfV.isLocal y = decide (s.weak = false ∧ s.section_ ≠ .undefined ∧ s.scope = .compilation)
  undefined : ElfV.isUndefined y = decide (s.section_ = .undefined)
  common : ElfV.isCommon y = decide (s.section_ = .common)
  section_ : ElfV.symSection tab y index = keptSection o s
  address : ElfV.address y = if s.section_ = .common then 0 else s.value
  definition : ElfV.isDefinition tab data y = true ↔ Definition s

/-- The kinds of sections that ELF can tell apart by type and flags; the others are read as one of these. -/
def keptSectionKind : SectionKind → SectionKind
  | .readOnlyDataWithRel => .data
  | .debugString => .otherString
  | .debug | .linker | .metadata => .other
  | k => k

end Obj.Spec.ElfO

import Verif.Spec.XcoffWrite

/-! # What the unified view of a written XCOFF symbol and section must report -/

namespace Obj.Spec.XcoffO
open Obj Obj.XcoffW Obj.Xcoff
open Obj.ElfV (ViewSection)

/-- A symbol that other objects can see: not a file, and not local. -/
def Global (s : W.Symbol) : Prop := s.kind ≠ .file ∧ s.scope ≠ .compilation

/-- A symbol without a section number. -/
def Unplaced (s : W.Symbol) : Prop := s.section_ = .undefined ∨ s.section_ = .common

/-- The section of a symbol.  XCOFF has no common section: a common symbol reads as undefined. -/
inductive KeptSection (s : W.Symbol) : ViewSection → Prop where
  | unplaced : Unplaced s → KeptSection s .undefined
  | absolute : s.section_ = .absolute → KeptSection s .absolute
  | none : s.section_ = .none → KeptSection s .none
  | inSec (j : Nat) : s.section_ = .inSec j → KeptSection s (.sec (j + 1))

/-- The scope of a symbol: an undefined symbol has none. -/
inductive KeptScope (s : W.Symbol) : SymbolScope → Prop where
  | unplaced : Unplaced s → KeptScope s .unknown
  | linkage : ¬ Unplaced s → Global s → s.scope = .linkage → KeptScope s .linkage
  | dynamic : ¬ Unplaced s → Global s → s.scope ≠ .linkage → KeptScope s .dynamic
  | local_ : ¬ Unplaced s → ¬ Global s → KeptScope s .compilation

/-- What is reported for entry `y` with index `i` is what was asked for in `s`.  The kind and the size of a local symbol
are lost. -/
structure Reported (f : File) (s : W.Symbol) (i : Nat) (y : Sym) : Prop where
  kind : symKind f.symbols i y = .ok (if s.kind = .file then .file else if s.scope = .compilation then .unknown else s.kind)
  section_ : KeptSection s (symSection y)
  scope : KeptScope s (symScope y)
  global : isGlobal y = true ↔ Global s
  local_ : isLocal y = true ↔ ¬ Global s
  weak : isWeak y = true ↔ Global s ∧ s.weak = true
  undefined : isUndefined y = true ↔ Global s ∧ Unplaced s
  /-- every symbol that is undefined and not weak is also called common -/
  common : isCommon y = true ↔ Global s ∧ s.weak = false ∧ Unplaced s
  definition : ∃ b, isDefinition f.symbols i y = .ok b ∧ (b = true ↔ Global s ∧ ∃ j, s.section_ = .inSec j)
  size : (Global s → symSize f.symbols i y = .ok s.size) ∧ (¬ Global s → symSize f.symbols i y = .ok 0)
  /-- the address (low 32 bits in a 32-bit file) -/
  address : (s.kind = .file → symAddress y = 0) ∧
    (s.kind ≠ .file → ∃ v, (f.is64 = true ∨ v < 2 ^ 32 → symAddress y = v) ∧
      (∀ j, s.section_ = .inSec j → ∃ x, f.sections[j]? = some x ∧ v = x.vaddr + s.value) ∧
      ((∀ j, s.section_ ≠ .inSec j) → v = s.value))

/-- The kind of a section: read-only sections are text, other string sections are other sections, and other sections and
metadata have no kind. -/
def keptSectionKind (k : SectionKind) : SectionKind :=
  match k with
  | .text | .readOnlyData | .readOnlyString | .readOnlyDataWithRel => .text
  | .data => .data
  | .uninitializedData => .uninitializedData
  | .tls => .tls
  | .uninitializedTls => .uninitializedTls
  | .otherString => .other
  | .debug | .debugString => .debug
  | _ => .unknown

end Obj.Spec.XcoffO

import Verif.Model.MachoView
import Verif.Spec.MachoWrite
import Verif.Spec.WriteObject

/-! # What the unified view of a written Mach-O symbol and section must report -/

namespace Obj.Spec.MachoO
open Obj Obj.MachoW Obj.MachoR
open Obj.ElfV (ViewSection)
open Obj.W.Spec (ascii)

/-- The section of a symbol. -/
inductive KeptSection (s : W.Symbol) : ViewSection → Prop where
  | undefined : s.section_ = .undefined → KeptSection s .undefined
  | common : s.section_ = .common → KeptSection s .common
  | absolute : s.section_ = .absolute → KeptSection s .absolute
  | inSec (j : Nat) : s.section_ = .inSec j → KeptSection s (.sec (j + 1))

/-- The scope of a symbol: undefined symbols have none, common symbols are never local, and defined symbols of unknown
scope are local. -/
def keptScope (s : W.Symbol) : SymbolScope :=
  if s.section_ = .undefined then .unknown
  else if s.scope = .linkage then .linkage
  else if s.scope = .dynamic ∨ s.section_ = .common then .dynamic
  else .compilation

/-- A name `ltmp` followed by decimal digits: the name of a section symbol. -/
def LtmpName (name : List UInt8) : Prop :=
  ∃ digits, digits ≠ [] ∧ name = ascii "ltmp" ++ digits ∧ ∀ b ∈ digits, b ∈ ascii "0123456789"

/-- The kind of a symbol in a section of kind `k`. -/
inductive KindIn : SectionKind → SymbolKind → Prop where
  | text : KindIn .text .text
  | data {k : SectionKind} : k ∈ [SectionKind.data, .readOnlyData, .readOnlyDataWithRel, .readOnlyString, .uninitializedData, .otherString,
      .other, .linker, .metadata] → KindIn k .data
  | tls {k : SectionKind} : k ∈ [SectionKind.tls, .uninitializedTls, .tlsVariables] → KindIn k .tls
  | debug {k : SectionKind} : k ∈ [SectionKind.debug, .debugString] → KindIn k .unknown

/-- The kind of a symbol: Mach-O has none, so that it is that of the section; a symbol at the start of its section with
the name of a section symbol that is local is a section symbol. -/
inductive KeptKind (o : W.Object) (s : W.Symbol) : SymbolKind → Prop where
  | section_ (j : Nat) : s.section_ = .inSec j → s.value = 0 → LtmpName s.name → keptScope s = .compilation → KeptKind o s .sectionSym
  | debug (j : Nat) (x : W.Section) : s.section_ = .inSec j → o.sections[j]? = some x → x.segment = ascii "__DWARF" →
      ¬ (s.value = 0 ∧ LtmpName s.name ∧ keptScope s = .compilation) → KeptKind o s .unknown
  | inSec (j : Nat) (x : W.Section) {k : SymbolKind} : s.section_ = .inSec j → o.sections[j]? = some x → x.segment ≠ ascii "__DWARF" →
      ¬ (s.value = 0 ∧ LtmpName s.name ∧ keptScope s = .compilation) → KindIn x.kind k → KeptKind o s k
  | common : s.section_ = .common → KeptKind o s .data
  | other : s.section_ = .undefined ∨ s.section_ = .absolute → KeptKind o s .unknown

/-- What is reported for entry `y` is what was asked for in `s`. -/
structure Reported (o : W.Object) (data : List UInt8) (f : File) (s : W.Symbol) (y : Nlist) : Prop where
  kind : KeptKind o s (MachoV.kind f data y)
  section_ : KeptSection s (MachoV.symSection y)
  scope : MachoV.scope y = keptScope s
  global : MachoV.isGlobal y = true ↔ keptScope s ≠ .compilation
  local_ : MachoV.isLocal y = true ↔ keptScope s = .compilation
  weak : MachoV.isWeak y = s.weak
  undefined : MachoV.isUndefined y = true ↔ s.section_ = .undefined
  common : MachoV.isCommon y = true ↔ s.section_ = .common
  definition : MachoV.isDefinition y = true ↔ ∃ j, s.section_ = .inSec j
  address : (∀ j, s.section_ = .inSec j → ∃ x, f.sections[j]? = some x ∧ MachoV.address y = x.sect.addr + s.value) ∧
    (s.section_ = .absolute → MachoV.address y = s.value) ∧ (s.section_ = .undefined ∨ s.section_ = .common → MachoV.address y = 0)
  size : (s.section_ = .common → MachoV.size y = s.size) ∧ (s.section_ ≠ .common → MachoV.size y = 0)
  /-- the alignment of a common symbol is its value -/
  alignment : s.section_ = .common → ∀ k ≤ 15, s.value = 2 ^ k → MachoV.commonAlignment y = k

/-- The kinds of sections that Mach-O can tell apart; the others are read as one of these. -/
def keptSectionKind (segment : List UInt8) (k : SectionKind) : SectionKind :=
  if segment = ascii "__DWARF" then .debug
  else match k with
    | .text => .text
    | .readOnlyString | .otherString => .readOnlyString
    | .uninitializedData => .uninitializedData
    | .tls => .tls
    | .uninitializedTls => .uninitializedTls
    | .tlsVariables => .tlsVariables
    | .debug | .debugString => .unknown
    | _ => if segment = ascii "__TEXT" then .readOnlyData else .data

end Obj.Spec.MachoO

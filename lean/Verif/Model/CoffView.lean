import Verif.Model.Coff
import Verif.Model.Common
import Verif.Model.ElfView

/-!
# Model of the unified view of COFF symbols, sections and COMDAT groups

`CoffSymbol` (`src/read/coff/symbol.rs:345-536`), `ImageSectionHeader::kind` (`src/read/coff/section.rs:441-462`) and
`CoffComdat::kind` (`src/read/coff/comdat.rs:131-141`).
-/

namespace Obj.CoffV
open Obj Obj.Coff
open Obj.ElfV (ViewSection)

/-- `SymbolType::derived_type`, src/pe.rs:1014-1016; `N_TMASK = 0x30`, `N_BTSHFT = 4`. -/
def derivedType (y : Symbol) : Nat := (y.typ &&& 0x30) >>> 4

/-- `address`, src/read/coff/symbol.rs:367-372. -/
def address (y : Symbol) (imageBase : Nat) (ss : List Section) : Nat :=
  match y.address imageBase ss with
  | .ok (some a) => a
  | _ => 0

/-- `has_aux_function`, src/read/coff/symbol.rs:617-622. -/
def hasAuxFunction (y : Symbol) : Bool :=
  decide (0 < y.auxCount) && derivedType y == 2 && (y.storageClass == 2 || y.storageClass == 3)

/-- `SymbolTable::aux_function`, src/read/coff/symbol.rs:109-111: `total_size` is at offset 4 (src/pe.rs:1176). -/
def auxFunctionSize (t : SymTab) (index : Nat) : Res Nat := (t.get index 1 18).bind fun img => .ok (field .little img 4 4)

/-- The size of a static symbol, src/read/coff/symbol.rs:376-387. -/
def staticSize (t : SymTab) (index : Nat) (y : Symbol) : Nat :=
  if y.hasAuxSection then
    match t.auxSection index with
    | .ok aux => aux.length
    | _ => 0
  else 0

/-- The size of an external symbol, src/read/coff/symbol.rs:388-403. -/
def externalSize (t : SymTab) (index : Nat) (y : Symbol) : Nat :=
  if y.sectionNumber = 0 then y.value
  else if hasAuxFunction y then
    match auxFunctionSize t index with
    | .ok n => n
    | _ => 0
  else 0

/-- `size`, src/read/coff/symbol.rs:374-407. -/
def size (t : SymTab) (index : Nat) (y : Symbol) : Nat :=
  if y.storageClass = 3 then staticSize t index y
  else if y.storageClass = 2 then externalSize t index y
  else 0

/-- `kind`, src/read/coff/symbol.rs:409-429. -/
def kind (y : Symbol) : SymbolKind :=
  let derived := if derivedType y = 2 then .text else .data
  if y.storageClass = 3 then (if y.hasAuxSection then .sectionSym else derived)
  else if y.storageClass = 2 ∨ y.storageClass = 0x69 then derived
  else if y.storageClass = 0x68 then .sectionSym
  else if y.storageClass = 0x67 then .file
  else if y.storageClass = 6 then .label
  else .unknown

/-- `section`, src/read/coff/symbol.rs:431-461. -/
def symSection (y : Symbol) : ViewSection :=
  if y.sectionNumber = 0 then
    if y.storageClass = 2 then (if y.value = 0 then .undefined else .common)
    else if y.storageClass = 0x68 then .undefined
    else .unknown
  else if y.sectionNumber = -1 then .absolute
  else if y.sectionNumber = -2 then (if y.storageClass = 0x67 then .none else .unknown)
  else match y.section with
    | some i => .sec i
    | none => .unknown

/-- `is_undefined`, src/read/coff/symbol.rs:464-468. -/
def isUndefined (y : Symbol) : Bool := y.storageClass = 2 ∧ y.sectionNumber = 0 ∧ y.value = 0

/-- `is_common`, src/read/coff/symbol.rs:476-480. -/
def isCommon (y : Symbol) : Bool := y.storageClass = 2 ∧ y.sectionNumber = 0 ∧ y.value ≠ 0

/-- `is_definition`, src/read/coff/symbol.rs:600-609. -/
def isDefinition (y : Symbol) : Bool :=
  if y.sectionNumber ≤ 0 then false
  else if y.storageClass = 3 then !y.hasAuxSection
  else decide (y.storageClass = 2 ∨ y.storageClass = 0x69)

/-- `is_weak`, src/read/coff/symbol.rs:483-485. -/
def isWeak (y : Symbol) : Bool := y.storageClass = 0x69

/-- `is_global`, src/read/coff/symbol.rs:499-504; `is_local` is its negation. -/
def isGlobal (y : Symbol) : Bool := y.storageClass = 2 ∨ y.storageClass = 0x69

/-- `scope`, src/read/coff/symbol.rs:488-496. -/
def scope (y : Symbol) : SymbolScope := if y.storageClass = 2 ∨ y.storageClass = 0x69 then .linkage else .compilation

/-- `ImageSectionHeader::kind`, src/read/coff/section.rs:442-461: code (0x20) or executable (0x20000000), initialized
data (0x40), discardable (0x2000000), writable (0x80000000), uninitialized data (0x80), linker information (0x200). -/
def sectionKind (c : Nat) : SectionKind :=
  if c &&& 0x20 ≠ 0 ∨ c &&& 0x20000000 ≠ 0 then .text
  else if c &&& 0x40 ≠ 0 then
    if c &&& 0x2000000 ≠ 0 then .other
    else if c &&& 0x80000000 ≠ 0 then .data
    else .readOnlyData
  else if c &&& 0x80 ≠ 0 then .uninitializedData
  else if c &&& 0x200 ≠ 0 then .linker
  else .unknown

/-- `CoffComdat::kind`, src/read/coff/comdat.rs:131-141, as a discriminant of `ComdatKind` (src/common.rs:258-285). -/
def comdatKind (selection : Nat) : Nat :=
  if selection = 1 then 2
  else if selection = 2 then 1
  else if selection = 3 then 3
  else if selection = 4 then 4
  else if selection = 6 then 5
  else if selection = 7 then 6
  else 0

end Obj.CoffV

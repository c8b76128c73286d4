import Verif.Model.MachoRead
import Verif.Model.ElfView

/-!
# Model of the unified view of Mach-O symbols

`MachOSymbol` (`src/read/macho/symbol.rs:320-510`) and the accessors of `Nlist` (530-565).  The kind of a section is
`Obj.MachoR.sectKind`.
-/

namespace Obj.MachoV
open Obj Obj.MachoR
open Obj.ElfV (ViewSection)

/-- `SymbolFlags::is_stab`, src/macho.rs:3351-3353; `N_STAB = 0xe0`. -/
def isStab (y : Nlist) : Bool := y.typ &&& 0xe0 ≠ 0
/-- `SymbolFlags::typ`, src/macho.rs:3367-3369; `N_TYPE = 0xe`. -/
def typ (y : Nlist) : Nat := y.typ &&& 0xe
/-- `SymbolFlags::is_ext`, src/macho.rs:3379-3381. -/
def isExt (y : Nlist) : Bool := y.typ &&& 1 = 1
/-- `SymbolFlags::is_pext`, src/macho.rs:3388-3390. -/
def isPext (y : Nlist) : Bool := y.typ &&& 0x11 = 0x11
/-- `SymbolDesc::common_alignment`, src/macho.rs:3529-3531. -/
def commonAlignment (y : Nlist) : Nat := (y.desc >>> 8) &&& 0xf

/-- `Nlist::is_undefined`, src/read/macho/symbol.rs:543-549; `N_UNDF = 0`. -/
def isUndefined (y : Nlist) : Bool := !isStab y && decide (typ y = 0) && decide (y.value = 0)
/-- `Nlist::is_common`, src/read/macho/symbol.rs:552-559. -/
def isCommon (y : Nlist) : Bool := !isStab y && decide (typ y = 0) && decide (y.value ≠ 0)
/-- `Nlist::is_definition`, src/read/macho/symbol.rs:562-565; `N_SECT = 0xe`. -/
def isDefinition (y : Nlist) : Bool := !isStab y && decide (typ y = 0xe)

/-- `address`, src/read/macho/symbol.rs:381-387. -/
def address (y : Nlist) : Nat := if isCommon y then 0 else y.value
/-- `size`, src/read/macho/symbol.rs:390-395. -/
def size (y : Nlist) : Nat := if isCommon y then y.value else 0

/-- `section`, src/read/macho/symbol.rs:432-452; `N_ABS = 2`. -/
def symSection (y : Nlist) : ViewSection :=
  if typ y = 0 then (if isCommon y then .common else .undefined)
  else if typ y = 2 then .absolute
  else if typ y = 0xe then (if y.sect ≠ 0 then .sec y.sect else .unknown)
  else .unknown

/-- `is_weak`, src/read/macho/symbol.rs:470-473; `N_WEAK_REF = 0x40`, `N_WEAK_DEF = 0x80`. -/
def isWeak (y : Nlist) : Bool := y.desc &&& 0xc0 ≠ 0

/-- `scope`, src/read/macho/symbol.rs:475-486. -/
def scope (y : Nlist) : SymbolScope :=
  if isUndefined y then .unknown
  else if !isExt y then .compilation
  else if isPext y then .linkage
  else .dynamic

/-- `is_global`, src/read/macho/symbol.rs:489-491. -/
def isGlobal (y : Nlist) : Bool := scope y ≠ .compilation
/-- `is_local`, src/read/macho/symbol.rs:494-496. -/
def isLocal (y : Nlist) : Bool := scope y = .compilation

/-- The section that `kind` looks at, src/read/macho/symbol.rs:398-402, with `section_internal`,
src/read/macho/file.rs:202-211. -/
def sectionOf (f : File) (y : Nlist) : Option SecInt :=
  match symSection y with
  | .sec i => if i = 0 then none else f.sections[i - 1]?
  | _ => none

/-- `name.len() > 4 && name.starts_with(b"ltmp") && name[4..].iter().all(|b| b.is_ascii_digit())`,
src/read/macho/symbol.rs:407-409. -/
def isLtmp (name : List UInt8) : Bool :=
  decide (4 < name.length) && decide (name.take 4 = [108, 116, 109, 112]) && (name.drop 4).all fun b => decide (48 ≤ b ∧ b ≤ 57)

/-- The condition for a section symbol, src/read/macho/symbol.rs:404-414. -/
def isSectionSymbol (f : File) (data : List UInt8) (y : Nlist) (s : SecInt) : Bool :=
  match f.symbols.name data y with
  | .ok name => isLocal y && isLtmp name && decide (address y = s.sect.addr)
  | _ => false

/-- The kind of a symbol in a section of kind `k`, src/read/macho/symbol.rs:416-426. -/
def kindIn (k : SectionKind) : SymbolKind :=
  match k with
  | .text => .text
  | .data | .readOnlyData | .readOnlyString | .uninitializedData => .data
  | .tls | .uninitializedTls | .tlsVariables => .tls
  | _ => .unknown

/-- `kind`, src/read/macho/symbol.rs:397-430. -/
def kind (f : File) (data : List UInt8) (y : Nlist) : SymbolKind :=
  match sectionOf f y with
  | some s => if isSectionSymbol f data y s then .sectionSym else kindIn s.kind
  | none => if isCommon y then .data else .unknown

/-- `symbol_by_index`, src/read/macho/symbol.rs:232-235, with `MachOSymbol::new`, 331-340. -/
def symbolByIndex (t : SymTab) (i : Nat) : Res Nlist :=
  match t.symbols[i]? with
  | none => .err
  | some y => if isStab y then .err else .ok y

/-- `MachOSymbolIterator::next`, src/read/macho/symbol.rs:292-302, on the remaining entries: the item, its index and
the next index. -/
def nextFrom (i : Nat) : List Nlist → Option (Nat × Nlist) × Nat
  | [] => (none, i)
  | y :: ys => if isStab y then nextFrom (i + 1) ys else (some (i, y), i + 1)

/-- `MachOSymbolIterator::next`, src/read/macho/symbol.rs:292-302: the state is the index. -/
def symbolNext (t : SymTab) (i : Nat) : Res (Option (Nat × Nlist)) × Nat :=
  let r := nextFrom i (t.symbols.drop i)
  (.ok r.1, r.2)

end Obj.MachoV

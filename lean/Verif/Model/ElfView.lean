import Verif.Model.Elf
import Verif.Model.Common

/-!
# Model of the unified view of ELF symbols and sections

`ElfSymbol` (`src/read/elf/symbol.rs:370-497`) and `ElfSection::kind` (`src/read/elf/section.rs:631-676`).
-/

namespace Obj.ElfV
open Obj Obj.Elf

/-- `read::SymbolSection`, src/read/mod.rs. -/
inductive ViewSection where
  | unknown | none | undefined | absolute | common
  | sec (index : Nat)
  deriving DecidableEq, Repr

/-- `SymbolInfo::st_bind`, src/elf.rs:1468-1470. -/
def stBind (y : Sym) : Nat := y.info >>> 4
/-- `SymbolInfo::st_type`, src/elf.rs:1473-1475. -/
def stType (y : Sym) : Nat := y.info &&& 0xf
/-- `SymbolOther::visibility`, src/elf.rs:1580-1582; `STV_MASK = 3`. -/
def stVis (y : Sym) : Nat := y.other &&& 3

/-- `Sym::is_common`, src/read/elf/symbol.rs:558-560. -/
def isCommon (y : Sym) : Bool := y.shndx = 0xfff2

/-- `address`, src/read/elf/symbol.rs:389-395. -/
def address (y : Sym) : Nat := if isCommon y then 0 else y.value

/-- `kind`, src/read/elf/symbol.rs:402-412. -/
def kind (y : Sym) : SymbolKind :=
  match stType y with
  | 0 => .unknown
  | 1 | 5 => .data
  | 2 | 10 => .text
  | 3 => .sectionSym
  | 4 => .file
  | 6 => .tls
  | _ => .unknown

/-- `section` for an extended index, src/read/elf/symbol.rs:425-429. -/
def extSection : Option Nat → ViewSection
  | some 0 => .none
  | some i => .sec i
  | none => .unknown

/-- `section`, src/read/elf/symbol.rs:414-439. -/
def symSection (t : SymTab) (y : Sym) (index : Nat) : ViewSection :=
  if y.shndx = 0 then .undefined
  else if y.shndx = 0xfff1 then (if stType y = 4 then .none else .absolute)
  else if y.shndx = 0xfff2 then .common
  else if y.shndx = 0xffff then extSection t.shndx[index]?
  else match symbolSectionIndex y.shndx with
    | some i => .sec i
    | none => .unknown

/-- `Sym::is_undefined`, src/read/elf/symbol.rs:526-528. -/
def isUndefined (y : Sym) : Bool := y.shndx = 0

/-- `!name.starts_with(b"$")` or no name, src/read/elf/symbol.rs:543-548. -/
def notMapping : Res (List UInt8) → Bool
  | .ok (36 :: _) => false
  | _ => true

/-- `Sym::is_definition`, src/read/elf/symbol.rs:531-555. -/
def isDefinition (t : SymTab) (data : List UInt8) (y : Sym) : Bool :=
  if (symbolSectionIndex y.shndx).isNone ∧ y.shndx ≠ 0xffff then false
  else if stType y = 0 ∧ stBind y = 0 then notMapping (t.symbolName data y)
  else decide (stType y = 2 ∨ stType y = 1 ∨ stType y = 0)

/-- `Sym::is_weak`, src/read/elf/symbol.rs:573-575. -/
def isWeak (y : Sym) : Bool := stBind y = 2
/-- `Sym::is_local`, src/read/elf/symbol.rs:568-570. -/
def isLocal (y : Sym) : Bool := stBind y = 0

/-- `scope`, src/read/elf/symbol.rs:463-480. -/
def scope (y : Sym) : SymbolScope :=
  if y.shndx = 0 then .unknown
  else if stBind y = 0 then .compilation
  else if stBind y = 1 ∨ stBind y = 2 then (if stVis y = 2 then .linkage else .dynamic)
  else .unknown

/-- `flags.contains(..)` for a flag of one bit. -/
def has (flags bit : Nat) : Bool := flags &&& bit = bit

/-- `ElfSection::kind`, src/read/elf/section.rs:631-676; `SHF_WRITE = 1`, `SHF_ALLOC = 2`,
`SHF_EXECINSTR = 4`, `SHF_STRINGS = 0x20`, `SHF_TLS = 0x400`. -/
def sectionKind (type flags : Nat) : SectionKind :=
  if type = 1 then
    if has flags 2 then
      if has flags 4 then .text
      else if has flags 0x400 then .tls
      else if has flags 1 then .data
      else if has flags 0x20 then .readOnlyString
      else .readOnlyData
    else if has flags 0x20 then .otherString
    else .other
  else if type = 8 then (if has flags 0x400 then .uninitializedTls else .uninitializedData)
  else if type = 7 then .note
  else if type ∈ [0, 2, 3, 4, 5, 6, 9, 11, 17, 18, 19, 0x40000014] then .metadata
  else .unknown

end Obj.ElfV

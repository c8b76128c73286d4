import Verif.Model.ElfFile
import Verif.Spec.ElfWrite
import Verif.Drain

/-! # Specification of C87: reading an ELF file that was written with the `write` API -/

namespace Obj.Spec.ElfBack
open Obj Obj.Elf Obj.ElfF Obj.ElfW Obj.W
open Obj.Spec.ElfO (ReadsBack SymbolsBack secIndex symIndex)

/-- Only the object gives a meaning to the contents of its sections: none is a table of symbols (`SHT_SYMTAB`, `SHT_DYNSYM`) or of relocations
(`SHT_RELA`, `SHT_REL`, `SHT_CREL`). -/
def Plain (o : Object) : Prop := ∀ s ∈ o.sections, ∀ t f, sectionFlags s = some (t, f) → t ≠ 2 ∧ t ≠ 11 ∧ t ≠ 4 ∧ t ≠ 9 ∧ t ≠ 0x40000014

/-- `y` is what is reported for relocation `x` of the object: its offset, the meaning of its type on the machine, the entry of its symbol, and its
addend, if the format has them. -/
def RelocBack (o : Object) (machine : Nat) (is64 isRela : Bool) (x : Reloc) (y : Nat × Relocation) : Prop :=
  ∃ t, x.flags = .elf t ∧ y.1 = x.offset ∧ y.2.rtype = t ∧ (y.2.kind, y.2.encoding, y.2.size) = elfKind machine is64 o.endian t ∧
    y.2.target = some (symIndex o x.symbol) ∧ y.2.addend = (if isRela then x.addend else 0) ∧ y.2.implicitAddend = !isRela

/-- The file that is read from `data` has the contents of the object. -/
structure FileBack (o : Object) (machine : Nat) (flags : FileFlags) (is64 isRela : Bool) (data : List UInt8) (f : File) : Prop where
  format : f.cfg = ⟨is64, o.endian⟩
  tables : ReadsBack o machine flags is64 isRela data f.header f.sections
  segments : f.segments = []
  symbols : ∃ h, SymbolsBack o f.cfg data f.sections h f.symbols
  dynamicSymbols : f.dynamicSymbols.symbols = []
  kind : ElfF.kind f.header.type = .relocatable
  /-- `EF_MIPS_ABI2` (bit 5) in explicit flags is another architecture -/
  architecture : (o.arch = .mips → ∀ a b x, flags = .elf a b x → x.testBit 5 = false) → f.architecture = o.arch
  /-- the relocations of each section, in order -/
  relocations : ∀ (i : Nat) (s : Section), o.sections[i]? = some s → ∃ ys, Runs (sectionRelocNext f data) (relocationsOf (secIndex o i)) ys .done ∧
    ys.length = s.relocs.length ∧ ∀ (k : Nat) x y, s.relocs[k]? = some x → ys[k]? = some y → RelocBack o machine is64 isRela x y

end Obj.Spec.ElfBack

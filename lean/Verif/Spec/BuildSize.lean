import Verif.Spec.BuildWrite

/-! # What the sizes that are computed in advance must be -/

namespace Obj.Spec.BuildW
open Obj Obj.Build

/-- `SHF_ALLOC`: the section is loaded. -/
def loaded (s : Sec) : Bool := s.shFlags.testBit 1

/-- The dynamic symbols that are in the GNU hash table: those that have a name and are neither local nor undefined. -/
def inGnuHash (s : Build.Sym) : Bool := !localSym s && s.name != [] && (s.section_ != none || s.shndx != 0)

/-- How the size `n` computed in advance is related to the size that is written.  The sizes are equal except that a hash table has one chain
without a dynamic symbol table, and that the size of a GNU hash table is computed from the symbols for which the field `st_shndx` is
set. -/
def SizeRel (b : Full) (d : SecData) (n written : Nat) : Prop :=
  match d with
  | .hash => (has b .dynamicSymbol → n = written) ∧ (¬ has b .dynamicSymbol → n = written + 4)
  | .gnuHash => n + 4 * ((live b.tables.dynamicSymbols).filter inGnuHash).length =
      written + 4 * ((live b.tables.dynamicSymbols).filter fun s => s.shndx != 0).length
  | _ => n = written

/-- `s'` is the section `s` with its size set by `size`, if it is loaded and not deleted. -/
def SizeSet (size : Sec → Res Nat) (s s' : Sec) : Prop :=
  if s.delete = false ∧ loaded s = true then ∃ n, size s = .ok n ∧ s' = { s with shSize := n } else s' = s

end Obj.Spec.BuildW

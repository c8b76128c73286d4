import Verif.Model.ElfHash

/-! # Specification of ELF symbol hash tables -/

namespace Obj.Spec.ElfHashS
open Obj Obj.Elf

/-- The reference implementation in the System V ABI (chapter 5, "Hash Table"):
`h = (h << 4) + *name++; if (g = h & 0xf0000000) h ^= g >> 24; h &= ~g;` with 32-bit unsigned arithmetic. -/
def abiHash (name : List UInt8) : UInt32 :=
  name.foldl (fun h c =>
    let h := (h <<< 4) + c.toUInt32
    let g := h &&& 0xf0000000
    let h := if g != 0 then h ^^^ (g >>> 24) else h
    h &&& ~~~g) 0

/-- The reference GNU hash (Bernstein's): `h = (h << 5) + h + c`, starting at 5381. -/
def djbHash (name : List UInt8) : UInt32 := name.foldl (fun h c => (h <<< 5) + h + c.toUInt32) 5381

/-- What a lookup is meant to find: symbol `j` (not the null symbol) has the given name and a matching version. -/
def Hit (symbols : SymTab) (versions : VersionTable) (data name : List UInt8) (version : Option Version) (j : Nat) (s : Sym) :
    Prop :=
  1 ≤ j ∧ symbols.symbols[j]? = some s ∧ symbols.strings.get data s.name = .ok name ∧ versions.matches j version = true

/-- Symbol `k` was entered in a SysV table of `bucketCount` buckets and `chainCount` symbols, in the bucket of `h`. -/
def InBucket (bucketCount chainCount : Nat) (hashOf : Nat → Option Nat) (h k : Nat) : Prop :=
  k < chainCount ∧ ∃ h', hashOf k = some h' ∧ h' % bucketCount = h % bucketCount

/-- The symbols of a GNU table are sorted by bucket, as the writer requires. -/
def SortedByBucket (bucketCount count : Nat) (hash : Nat → Nat) : Prop :=
  ∀ i j, i ≤ j → j < count → hash i % bucketCount ≤ hash j % bucketCount

end Obj.Spec.ElfHashS

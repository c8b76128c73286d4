import Verif.Model.MachoReloc

/-!
# Specification of Mach-O relocation records
-/

namespace Obj.MachoSpec

open Obj.W

/-- The fields of a record fit the bit fields. -/
def RecordFits (r : RelInfo) : Prop :=
  r.address < 4294967296 ∧ r.symbolnum < 16777216 ∧ r.length < 4 ∧ r.typ < 16

/-- The CPU types of the 64-bit and ILP32 ARM architectures. -/
def Arm64 (a : Arch) : Prop := a = .aarch64 ∨ a = .aarch64_Ilp32

/-- A relocation can be stored: the offset fits (without looking like a scattered relocation), the type is
not one of the types that only modify the next record, the addend is a signed 24-bit number, and the
numbers of the symbols and sections fit 24 bits. -/
structure Storable (a : Arch) (symIdx secIdx : Nat → Nat) (r : Reloc) (typ len : Nat) : Prop where
  offset : r.offset < (if a = .x86_64 then 4294967296 else 2147483648)
  typ_lt : typ < 16
  len_lt : len < 4
  plain : ¬ (Arm64 a ∧ (typ = 1 ∨ typ = 10)) ∧ ¬ (a = .x86_64 ∧ typ = 5)
  addend : -8388608 ≤ r.addend ∧ r.addend < 8388608
  syms : ∀ i, symIdx i < 16777216
  secs : ∀ i, secIdx i < 16777216

/-- What a record reads as: the relocation `r` at its offset, with its flags, its target, its subtractor
and its addend less the pc adjustment. -/
structure ReadsAs (cpu : Nat) (symIdx secIdx : Nat → Nat) (symbols : List Symbol) (r : Reloc)
    (x : Nat × MachoRelocation) : Prop where
  offset : x.1 = r.offset
  flags : r.flags = .macho x.2.typ x.2.pcrel x.2.length
  subtractor : x.2.subtractor = r.subtractor.map symIdx
  target : ∃ y, symbols[r.symbol]? = some y ∧
    (y.kind ≠ .sectionSym → x.2.target = .symbol (symIdx r.symbol)) ∧
    (y.kind = .sectionSym → ∃ i, y.section_.id? = some i ∧
      x.2.target = if secIdx i = 0 then .absolute else .section_ (secIdx i))
  /-- The kind is that of the reader's table for these flags. -/
  kind : ∀ address symbolnum ext,
    machoAction cpu ⟨address, symbolnum, x.2.pcrel, x.2.length, ext, x.2.typ⟩ = .yield_ x.2.kind x.2.enc x.2.size
  addend : x.2.addend = r.addend - (if x.2.pcrel = false then 0
    else if cpu = 7 then (2 : Int) ^ x.2.length
    else if cpu = 0x01000007 then (2 : Int) ^ x.2.length +
      (if x.2.typ = 6 then 1 else if x.2.typ = 7 then 2 else if x.2.typ = 8 then 4 else 0)
    else 0)
  implicit : x.2.implicit = decide (r.addend = 0)

/-- One-to-one correspondence of two lists, in order. -/
inductive All2 {α β : Type} (R : α → β → Prop) : List α → List β → Prop where
  | nil : All2 R [] []
  | cons {a b as bs} : R a b → All2 R as bs → All2 R (a :: as) (b :: bs)

end Obj.MachoSpec

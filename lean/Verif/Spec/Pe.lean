import Verif.Model.Pe

/-!
# PE address mapping and exports

From the model only the types of headers and results are used, and `field`/`rd`, which read little-endian numbers.
-/

namespace Obj.Spec.Pe
open Obj Obj.Coff Obj.Pe

/-- Section `s` has file data for the address `va`: it is at file offset `o` (a 32-bit number), and `n > 0` bytes are left in the
section.  The file data of a section covers the smaller one of its virtual size and its size in the file. -/
def Maps (s : Coff.Section) (va o n : Nat) : Prop :=
  s.virtualAddress ≤ va ∧ va + n = s.virtualAddress + min s.virtualSize s.sizeOfRawData ∧ 0 < n ∧
  o = s.pointerToRawData + (va - s.virtualAddress) ∧ o < 2 ^ 32

/-- `s` is the first element of `ss` with property `P`. -/
def First (P : Coff.Section → Prop) (ss : List Coff.Section) (s : Coff.Section) : Prop :=
  ∃ pre post, ss = pre ++ s :: post ∧ P s ∧ ∀ t ∈ pre, ¬ P t

/-- The address `a` is `off` bytes after `va`, in 32-bit arithmetic. -/
def Rva (va a off : Nat) : Prop := off < 2 ^ 32 ∧ (va + off) % 2 ^ 32 = a

/-- There is a NUL-terminated string `s` at offset `off`. -/
def CStrAt (data : List UInt8) (off : Nat) (s : List UInt8) : Prop :=
  ∃ pre tl, data = pre ++ s ++ 0 :: tl ∧ pre.length = off ∧ (0 : UInt8) ∉ s

/-- There is a NUL-terminated string `s` at the address `a`. -/
def NameAt (data : List UInt8) (va a : Nat) (s : List UInt8) : Prop := ∃ off, Rva va a off ∧ CStrAt data off s

/-- An optional table (absent if its address is 0) of `count` little-endian numbers of `w` bytes. -/
def TableAt (data : List UInt8) (va w rva count : Nat) (xs : List Nat) : Prop :=
  (rva = 0 ∧ xs = []) ∨
  (rva ≠ 0 ∧ ∃ off, Rva va rva off ∧ off + w * count ≤ data.length ∧
    xs = (List.range count).map fun i => rd .little (slice data (off + w * i) w))

/-- A decimal number. -/
def Decimal (digits : List UInt8) (v : Nat) : Prop :=
  digits ≠ [] ∧ (∀ d ∈ digits, 48 ≤ d.toNat ∧ d.toNat ≤ 57) ∧ digits.foldl (fun a d => 10 * a + (d.toNat - 48)) 0 = v

/-- What the entry `a` of the export address table refers to: an address outside of the export data, or a forwarder string
`LIBRARY.name` or `LIBRARY.#ordinal` inside of it.  The library name ends at the last dot. -/
inductive TargetOf (data : List UInt8) (va a : Nat) : ExportTarget → Prop where
  | address : (∀ off, Rva va a off → data.length ≤ off) → TargetOf data va a (.address a)
  | byName {lib name : List UInt8} : (∃ off, Rva va a off ∧ off < data.length) → NameAt data va a (lib ++ 46 :: name) →
      (46 : UInt8) ∉ name → name ≠ [] → name.head? ≠ some 35 → TargetOf data va a (.forwardByName lib name)
  | byOrdinal {lib digits : List UInt8} {o : Nat} : (∃ off, Rva va a off ∧ off < data.length) →
      NameAt data va a (lib ++ 46 :: 35 :: digits) →
      (46 : UInt8) ∉ digits → Decimal digits o → o < 2 ^ 16 → TargetOf data va a (.forwardByOrdinal lib o)

/-- Name of the export with address index `i`: if there are several, the last one. -/
def lastName (ordinals : List Nat) (names : List (List UInt8)) (i : Nat) : Option (List UInt8) :=
  (((ordinals.zip names).filter fun p => p.1 = i).getLast?).map (·.2)

/-- A target in the unified API: addresses are absolute. -/
def absolute (imageBase : Nat) : ExportTarget → GTarget
  | .address a => .address ((imageBase + a) % 2 ^ 64)
  | .forwardByOrdinal lib o => .reexport lib (.ordinal o)
  | .forwardByName lib n => .reexport lib (.name n)

/-- The result for entry `(pointer, i)` of the name table: an export if the index is valid, the name is readable and the target is
readable; otherwise an error. -/
def NamedItem (t : ExportTable) (imageBase pointer i : Nat) (r : Res GExport) : Prop :=
  r ≠ .panic ∧ ∀ e, r = .ok e ↔ ∃ a name target, t.addresses[i]? = some a ∧ NameAt t.data t.virtualAddress pointer name ∧
    TargetOf t.data t.virtualAddress a target ∧ e = ⟨.name name, absolute imageBase target, t.ordinalBase + i⟩

/-- The result for address `a` at index `i`, which has no name. -/
def UnnamedItem (t : ExportTable) (imageBase i a : Nat) (r : Res GExport) : Prop :=
  r ≠ .panic ∧ ∀ e, r = .ok e ↔ ∃ target, TargetOf t.data t.virtualAddress a target ∧
    e = ⟨.ordinal (t.ordinalBase + i), absolute imageBase target, t.ordinalBase + i⟩

end Obj.Spec.Pe

import Verif.Model.PeResource
import Verif.Spec.PeImport

/-! # PE resources -/

namespace Obj.Spec.Pe
open Obj Obj.Pe

/-- The 16-bit number at offset `o`. -/
def u16At (i : List UInt8) (o : Nat) : Nat := rd .little (slice i o 2)

/-- There is a resource table at offset `o`: a header of 16 bytes and one entry of 8 bytes for each named entry and each entry with an
id. -/
def ResTableAt (data : List UInt8) (o : Nat) (t : ResTable) : Prop :=
  let n := u16At data (o + 12) + u16At data (o + 14)
  o + 16 + 8 * n ≤ data.length ∧
  t.header = ⟨u32At data o, u32At data (o + 4), u16At data (o + 8), u16At data (o + 10), u16At data (o + 12), u16At data (o + 14)⟩ ∧
  t.entries = (List.range n).map fun i => ⟨u32At data (o + 16 + 8 * i), u32At data (o + 20 + 8 * i)⟩

/-- What an entry refers to: with the highest bit a table, otherwise a data entry of 16 bytes, at the offset given by the low 31 bits. -/
inductive ResNodeOf (data : List UInt8) (v : Nat) : ResNode → Prop where
  | table {t : ResTable} : 2 ^ 31 ≤ v → ResTableAt data (v - 2 ^ 31) t → ResNodeOf data v (.table t)
  | data : v < 2 ^ 31 → v + 16 ≤ data.length →
      ResNodeOf data v (.data ⟨u32At data v, u32At data (v + 4), u32At data (v + 8), u32At data (v + 12)⟩)

/-- There is a name at offset `o`: the number of 16-bit units and the units. -/
def ResNameAt (data : List UInt8) (o : Nat) (us : List Nat) : Prop :=
  o + 2 + 2 * u16At data o ≤ data.length ∧ us = (List.range (u16At data o)).map fun i => u16At data (o + 2 + 2 * i)

/-- The UTF-16 encoding of a scalar value. -/
def utf16 (c : Nat) : List Nat :=
  if c < 0x10000 then [c] else [0xd800 + (c - 0x10000) / 0x400, 0xdc00 + (c - 0x10000) % 0x400]

/-- Unicode scalar values. -/
def Scalar (c : Nat) : Prop := c < 0xd800 ∨ (0xe000 ≤ c ∧ c < 0x110000)

/-- Decoding: units that are not part of the encoding of a scalar value are replaced by U+FFFD.  `lone` is a surrogate that is not the
first half of a pair. -/
inductive Lossy : List Nat → List Nat → Prop where
  | nil : Lossy [] []
  | char {c : Nat} {us cs : List Nat} : Scalar c → Lossy us cs → Lossy (utf16 c ++ us) (c :: cs)
  | lone {u : Nat} {us cs : List Nat} : (∀ c r, Scalar c → u :: us ≠ utf16 c ++ r) → Lossy us cs → Lossy (u :: us) (0xfffd :: cs)

end Obj.Spec.Pe

import Verif.Model.ElfReloc
import Verif.Spec.Leb
import Verif.Proof.Iter

/-! # Specification of relocation chains, RELR and CREL -/

namespace Obj.Spec.ElfRelocS
open Obj Obj.Elf Obj.Spec

/-! ## Chains -/

/-- A relocation section (`SHT_RELA` 4, `SHT_REL` 9, `SHT_CREL` 0x40000014). -/
def IsReloc (s : Shdr) : Prop := s.type = 4 ∨ s.type = 9 ∨ s.type = 0x40000014

instance (s : Shdr) : Decidable (IsReloc s) := by unfold IsReloc; infer_instance

/-- Section `j` holds the relocations of section `i`, with symbols in section `symtab`. -/
def Applies (sections : List Shdr) (symtab i j : Nat) : Prop :=
  ∃ s, sections[j]? = some s ∧ IsReloc s ∧ s.link = symtab ∧ s.info = i ∧ i ≠ 0

instance (sections : List Shdr) (symtab i j : Nat) : Decidable (Applies sections symtab i j) :=
  match h : sections[j]? with
  | none => .isFalse (by rintro ⟨s, hs, -⟩; rw [h] at hs; simp at hs)
  | some s =>
    if hc : IsReloc s ∧ s.link = symtab ∧ s.info = i ∧ i ≠ 0 then .isTrue ⟨s, h, hc⟩
    else .isFalse (by rintro ⟨s', hs, hc'⟩; rw [h] at hs; cases hs; exact hc hc')

/-- Following `get` from `i` gives the sections `js`, and then ends. -/
inductive Chain (get : Nat → Option Nat) : Nat → List Nat → Prop where
  | nil {i : Nat} : get i = none → Chain get i []
  | cons {i j : Nat} {js : List Nat} : get i = some j → Chain get j js → Chain get i (j :: js)

/-! ## RELR -/

/-- The offsets described by RELR words of `w` bytes (gABI): an even word is an address; an odd word is a bitmap whose
bit `i ≥ 1` describes the `i`-th word after the last word covered so far. `last` is the last word covered. -/
def relrOffsets (w : Nat) : (last : Nat) → List Nat → List Nat
  | _, [] => []
  | last, x :: xs =>
    if x % 2 = 0 then x :: relrOffsets w x xs
    else ((List.range' 1 (8 * w - 1)).filter fun i => x.testBit i).map (fun i => (last + i * w) % 256 ^ w) ++
      relrOffsets w ((last + (8 * w - 1) * w) % 256 ^ w) xs

/-! ## CREL -/

/-- The members of a CREL entry: the (scaled) offset delta, and the deltas that are present. -/
structure Delta where
  offset : Nat
  sym : Option Int
  type : Option Int
  addend : Option Int

/-- The relocation after a delta: all arithmetic is modular. -/
def Delta.apply (shift : Nat) (prev : Crel) (d : Delta) : Crel where
  offset := (prev.offset + d.offset * 2 ^ shift) % 2 ^ 64
  sym := (((prev.sym : Int) + d.sym.getD 0) % 2 ^ 32).toNat
  type := (((prev.type : Int) + d.type.getD 0) % 2 ^ 32).toNat
  addend := (prev.addend + d.addend.getD 0 + 2 ^ 63) % 2 ^ 64 - 2 ^ 63

/-- The flags of an entry. -/
def Delta.flags (d : Delta) : Nat :=
  (if d.sym.isSome then 1 else 0) + (if d.type.isSome then 2 else 0) + (if d.addend.isSome then 4 else 0)

/-- A signed LEB128 encoding of an optional 64-bit number. -/
def EncodesS : Option Int → List UInt8 → Prop
  | none, b => b = []
  | some v, b => LebGroup b ∧ slebValue b = v ∧ b.length ≤ 10 ∧ -2 ^ 63 ≤ v ∧ v < 2 ^ 63

/-- `bytes` encodes the delta: an unsigned LEB128 number holding the offset delta and the flags (2 bits of flags without
addends, 3 with), then the deltas present.  The number may exceed 64 bits; its part above the lowest 7 bits may not. -/
def EncodesDelta (rela : Bool) (d : Delta) (bytes : List UInt8) : Prop :=
  ∃ g s t a, bytes = g ++ (s ++ (t ++ a)) ∧ LebGroup g ∧ g.length ≤ 11 ∧
    ulebValue g = d.offset * 2 ^ (if rela then 3 else 2) + d.flags ∧ ulebValue g / 128 < 2 ^ 64 ∧
    EncodesS d.sym s ∧ EncodesS d.type t ∧ EncodesS d.addend a ∧ (rela = false → d.addend = none)

/-- `bytes` encodes a list of deltas. -/
inductive EncodesDeltas (rela : Bool) : List Delta → List UInt8 → Prop where
  | nil : EncodesDeltas rela [] []
  | cons {d : Delta} {ds : List Delta} {b bs : List UInt8} :
      EncodesDelta rela d b → EncodesDeltas rela ds bs → EncodesDeltas rela (d :: ds) (b ++ bs)

/-- The relocations described by deltas. -/
def relocsOf (shift : Nat) : Crel → List Delta → List Crel
  | _, [] => []
  | prev, d :: ds => d.apply shift prev :: relocsOf shift (d.apply shift prev) ds

/-! ### An encoder (as in LLVM's `ELFWriter`) -/

/-- The deltas between two relocations; members that do not change are not recorded. -/
def deltaOf (rela : Bool) (shift : Nat) (prev cur : Crel) : Delta where
  offset := ((cur.offset + 2 ^ 64 - prev.offset) % 2 ^ 64) / 2 ^ shift
  sym := if cur.sym = prev.sym then none else some ((cur.sym : Int) - prev.sym)
  type := if cur.type = prev.type then none else some ((cur.type : Int) - prev.type)
  addend := if rela = false ∨ cur.addend = prev.addend then none else some ((cur.addend - prev.addend + 2 ^ 63) % 2 ^ 64 - 2 ^ 63)

/-- Offset and flags: one byte if they fit in 7 bits, otherwise a byte and the rest. -/
def encodeFirst (flagBits : Nat) (d : Delta) : List UInt8 :=
  if d.offset < 2 ^ (7 - flagBits) then [UInt8.ofNat (d.offset * 2 ^ flagBits + d.flags)]
  else UInt8.ofNat (128 + (d.offset % 2 ^ (7 - flagBits)) * 2 ^ flagBits + d.flags) :: uleb (d.offset / 2 ^ (7 - flagBits))

def encodeOpt : Option Int → List UInt8
  | none => []
  | some v => sleb v

def encodeDelta (rela : Bool) (d : Delta) : List UInt8 :=
  encodeFirst (if rela then 3 else 2) d ++ (encodeOpt d.sym ++ (encodeOpt d.type ++ encodeOpt d.addend))

def encodeCrels (rela : Bool) (shift : Nat) : Crel → List Crel → List UInt8
  | _, [] => []
  | prev, r :: rs => encodeDelta rela (deltaOf rela shift prev r) ++ encodeCrels rela shift r rs

/-- A CREL section. -/
def crelSection (rela : Bool) (shift : Nat) (rs : List Crel) : List UInt8 :=
  uleb (rs.length * 8 + (if rela then 4 else 0) + shift) ++ encodeCrels rela shift ⟨0, 0, 0, 0⟩ rs

/-- The relocations that CREL can hold with a shift: the offset deltas are multiples of `2^shift`; without addends they
are zero. -/
def Encodable (rela : Bool) (shift : Nat) : Crel → List Crel → Prop
  | _, [] => True
  | prev, r :: rs => r.offset < 2 ^ 64 ∧ r.sym < 2 ^ 32 ∧ r.type < 2 ^ 32 ∧ -2 ^ 63 ≤ r.addend ∧ r.addend < 2 ^ 63 ∧
      (rela = false → r.addend = 0) ∧ ((r.offset + 2 ^ 64 - prev.offset) % 2 ^ 64) % 2 ^ shift = 0 ∧ Encodable rela shift r rs

end Obj.Spec.ElfRelocS

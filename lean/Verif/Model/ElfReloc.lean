import Verif.Model.Elf
import Verif.Model.Iter

/-!
# Model of `src/read/elf/relocation.rs`: relocation section chains, RELR and CREL
-/

namespace Obj.Elf

/-! ## `RelocationSections` -/

/-- `sh_type == SHT_REL || sh_type == SHT_RELA || sh_type == SHT_CREL` (9, 4, 0x40000014), src/elf.rs:1070-1088. -/
def isRelocType (t : Nat) : Bool := t == 9 || t == 4 || t == 0x40000014

/-- The body of the loop of `RelocationSections::parse`, src/read/elf/relocation.rs:32-65, for the section at `index`. -/
def relocStep (t : SectionTable) (symbolSection : Nat) (index : Nat) (s : Shdr) (relocations : List Nat) : Res (List Nat) :=
  if isRelocType s.type then
    if s.link ≠ symbolSection then .ok relocations
    else if s.info = 0 then .ok relocations
    else if relocations.length ≤ s.info then .err
    else do
      let target ← t.section s.info
      if isRelocType target.type then .err
      else match relocations[s.info]? with
        | none => .panic
        | some next =>
          if relocations.length ≤ index then .panic
          else .ok ((relocations.set s.info index).set index next)
  else .ok relocations

/-- The loop, src/read/elf/relocation.rs:31-66: `enumerate().rev()` over the first `n` sections. -/
def relocLoop (t : SectionTable) (symbolSection : Nat) : (n : Nat) → List Nat → Res (List Nat)
  | 0, relocations => .ok relocations
  | n + 1, relocations =>
    match t.sections[n]? with
    | none => .panic
    | some s => (relocStep t symbolSection n s relocations).bind (relocLoop t symbolSection n)

/-- `RelocationSections::parse`, src/read/elf/relocation.rs:26-68. -/
def relocationSections (t : SectionTable) (symbolSection : Nat) : Res (List Nat) :=
  relocLoop t symbolSection t.sections.length (List.replicate t.sections.length 0)

/-- `RelocationSections::get`, src/read/elf/relocation.rs:74-80. -/
def relocGet (relocations : List Nat) (index : Nat) : Option Nat :=
  match relocations[index]? with
  | some x => if x ≠ 0 then some x else none
  | none => none

/-! ## RELR -/

/-- `RelrIterator`, src/read/elf/relocation.rs:734-740 (decoded words). -/
structure RelrIter where
  offset : Nat
  bits : Nat
  count : Nat
  words : List Nat
  deriving DecidableEq, Repr

/-- `RelrIterator::new`, src/read/elf/relocation.rs:744-752. -/
def RelrIter.new (words : List Nat) : RelrIter := ⟨0, 0, 0, words⟩

/-- The `while` loop of `RelrIterator::next`, src/read/elf/relocation.rs:760-766, with `Relr::next` (812-816, 830-834):
the offset found, and the new offset, bits and count.  `w` is the size of a word. -/
def relrBits (w : Nat) : (count offset bits : Nat) → Option Nat × Nat × Nat × Nat
  | 0, offset, bits => (none, offset, bits, 0)
  | count + 1, offset, bits =>
    let offset := (offset + w) % 256 ^ w
    let bits := bits >>> 1
    if bits &&& 1 ≠ 0 then (some offset, offset, bits, count) else relrBits w count offset bits

/-- The outer `loop` of `RelrIterator::next`, src/read/elf/relocation.rs:759-774. -/
def relrLoop (w : Nat) : List Nat → (offset bits count : Nat) → Option Nat × RelrIter
  | words, offset, bits, count =>
    match relrBits w count offset bits with
    | (some r, o, b, c) => (some r, ⟨o, b, c, words⟩)
    | (none, o, b, c) =>
      match words with
      | [] => (none, ⟨o, b, c, []⟩)
      | next :: words =>
        if next &&& 1 = 0 then (some next, ⟨next, b, c, words⟩)
        else relrLoop w words o next (8 * w - 1)

/-- `RelrIterator::next`, src/read/elf/relocation.rs:758-775; it cannot fail. -/
def relrNext (w : Nat) (s : RelrIter) : Res (Option Nat) × RelrIter :=
  let r := relrLoop w s.words s.offset s.bits s.count
  (.ok r.1, r.2)

/-! ## CREL -/

/-- `Crel`, src/read/elf/relocation.rs:841-852. -/
structure Crel where
  offset : Nat
  sym : Nat
  type : Nat
  addend : Int
  deriving DecidableEq, Repr

/-- `CrelIterator` with its header, src/read/elf/relocation.rs:888-908. -/
structure CrelIter where
  data : List UInt8
  count : Nat
  flagBits : Nat
  shift : Nat
  isRela : Bool
  state : Crel
  deriving DecidableEq, Repr

/-- `CrelIterator::new`, src/read/elf/relocation.rs:912-937. -/
def CrelIter.new (data : List UInt8) : Res CrelIter :=
  match Bytes.readUleb data with
  | (.ok header, data) =>
    .ok ⟨data, header >>> 3, if header &&& 4 ≠ 0 then 3 else 2, header &&& 3, header &&& 4 != 0, ⟨0, 0, 0, 0⟩⟩
  | (.err, _) => .err
  | (.panic, _) => .panic

/-- `a.wrapping_add(delta as u32)` for a `u32` and an `i64`. -/
def wrapAdd32 (a : Nat) (delta : Int) : Nat := ((((a : Int) + delta) % (4294967296 : Int))).toNat

/-- `a.wrapping_add(delta)` for `i64`. -/
def wrapAddI64 (a delta : Int) : Int := toI64 (((a + delta) % (18446744073709551616 : Int)).toNat)

/-- An optional signed delta, src/read/elf/relocation.rs:980-1000. -/
def crelDelta (present : Bool) (data : List UInt8) : Res (Option Int × List UInt8) :=
  if present then
    match Bytes.readSleb data with
    | (.ok v, data) => .ok (some v, data)
    | (.err, _) => .err
    | (.panic, _) => .panic
  else .ok (none, data)

/-- The rest of the offset, src/read/elf/relocation.rs:967-974; `<<` drops the bits that do not fit. -/
def crelOffset (flagBits : Nat) (byte : UInt8) (data : List UInt8) : Res (Nat × List UInt8) :=
  let low := (byte.toNat &&& 0x7f) >>> flagBits
  if byte.toNat &&& 0x80 ≠ 0 then
    match Bytes.readUleb data with
    | (.ok v, data) => .ok (low ||| ((v <<< (7 - flagBits)) % U64), data)
    | (.err, _) => .err
    | (.panic, _) => .panic
  else .ok (low, data)

/-- `CrelIterator::parse`, src/read/elf/relocation.rs:954-1003.  On an error, the partially updated data and state are not
kept: `next` sets the count to 0, so that they are never used. `count -= 1` cannot underflow, as `next` checks it. -/
def CrelIter.parse (s : CrelIter) : Res (Crel × List UInt8) :=
  match s.data with
  | [] => .err
  | byte :: data => do
    let flags := byte.toNat &&& ((1 <<< s.flagBits) - 1)
    let r ← crelOffset s.flagBits byte data
    let offset := (s.state.offset + ((r.1 <<< s.shift) % U64)) % U64
    let dsym ← crelDelta (flags &&& 1 != 0) r.2
    let sym := match dsym.1 with
      | some d => wrapAdd32 s.state.sym d
      | none => s.state.sym
    let dtype ← crelDelta (flags &&& 2 != 0) dsym.2
    let type := match dtype.1 with
      | some d => wrapAdd32 s.state.type d
      | none => s.state.type
    let dadd ← crelDelta (s.isRela && flags &&& 4 != 0) dtype.2
    let addend := match dadd.1 with
      | some d => wrapAddI64 s.state.addend d
      | none => s.state.addend
    .ok (⟨offset, sym, type, addend⟩, dadd.2)

/-- `CrelIterator::next`, src/read/elf/relocation.rs:1009-1019. -/
def crelNext (s : CrelIter) : Res (Option Crel) × CrelIter :=
  if s.count = 0 then (.ok none, s)
  else match s.parse with
    | .ok (r, d) => (.ok (some r), { s with data := d, count := s.count - 1, state := r })
    | .err => (.err, { s with count := 0 })
    | .panic => (.panic, s)

end Obj.Elf

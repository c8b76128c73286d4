import Verif.Model.Iter
import Verif.Model.Endian

/-!
# Model of `src/read/pe/relocation.rs` and of the base relocation part of `src/write/pe.rs`
-/

namespace Obj.Pe

/-! ## Reader -/

/-- `RelocationIterator`, src/read/pe/relocation.rs:68-72. -/
structure RelocBlockData where
  virtualAddress : Nat
  size : Nat
  relocs : List Nat
  deriving DecidableEq, Repr

/-- `Relocation`, src/read/pe/relocation.rs:104-109. -/
structure Reloc where
  virtualAddress : Nat
  typ : Nat
  deriving DecidableEq, Repr

/-- `RelocationBlockIterator::parse`, src/read/pe/relocation.rs:34-55.  `ImageBaseRelocation`
(src/pe.rs:2118-2121) is two little-endian `u32`s. -/
def parseBlock (data : List UInt8) : Res RelocBlockData × List UInt8 :=
  match Bytes.read data 8 with
  | (.ok header, data) =>
    let virtualAddress := field .little header 0 4
    let size := field .little header 4 4
    if size ≤ 8 ∨ size &&& 3 ≠ 0 then (.err, data)
    else
      let count := (size - 8) / 2
      match Bytes.readSlice data 2 count with
      | (.ok relocs, data) => (.ok ⟨virtualAddress, size, relocs.map (rd .little)⟩, data)
      | (.err, data) => (.err, data)
      | (.panic, data) => (.panic, data)
  | (.err, data) => (.err, data)
  | (.panic, data) => (.panic, data)

/-- `RelocationBlockIterator::next`, src/read/pe/relocation.rs:22-32. -/
def nextBlock : List UInt8 → Res (Option RelocBlockData) × List UInt8 := fuseNext parseBlock

/-- The loop of `RelocationIterator::next`, src/read/pe/relocation.rs:89-99; `va` is the block's address. -/
def relocLoop (va : Nat) : List Nat → Option Reloc × List Nat
  | [] => (none, [])
  | reloc :: tl =>
    if reloc ≠ 0 then (some ⟨(va + (reloc &&& 0xfff)) % U32, reloc >>> 12⟩, tl)
    else relocLoop va tl

/-- `RelocationIterator::next`, src/read/pe/relocation.rs:86-100. -/
def RelocBlockData.next (b : RelocBlockData) : Res (Option Reloc) × RelocBlockData :=
  ((.ok (relocLoop b.virtualAddress b.relocs).1), { b with relocs := (relocLoop b.virtualAddress b.relocs).2 })

/-! ## Writer -/

/-- `RelocBlock`, src/write/pe.rs:849-852. -/
structure WBlock where
  virtualAddress : Nat
  count : Nat
  deriving DecidableEq, Repr

/-- `RelocBlock::size`, src/write/pe.rs:854-858; `u32` arithmetic, panics on overflow. -/
def WBlock.size (b : WBlock) : Res Nat :=
  if U32 ≤ b.count * 2 then .panic
  else if U32 ≤ 8 + b.count * 2 then .panic
  else .ok (8 + b.count * 2)

/-- The relocation part of `write::pe::Writer`, src/write/pe.rs:43-44.  `blocks` is kept newest first. -/
structure RelocWriter where
  blocks : List WBlock
  relocs : List Nat
  deriving DecidableEq, Repr

/-- `Writer::new`, src/write/pe.rs:85-86. -/
def RelocWriter.new : RelocWriter := ⟨[], []⟩

/-- `block.count += 1` on `u32`. -/
def WBlock.inc (b : WBlock) : Res WBlock :=
  if U32 ≤ b.count + 1 then .panic else .ok { b with count := b.count + 1 }

/-- `if block.count & 1 != 0 { self.relocs.push(0); block.count += 1 }`, src/write/pe.rs:698-701 and
723-727. -/
def padBlock (b : WBlock) (relocs : List Nat) : Res (WBlock × List Nat) :=
  if b.count &&& 1 ≠ 0 then do
    let b ← b.inc
    .ok (b, relocs ++ [0])
  else .ok (b, relocs)

/-- `Writer::add_reloc`, src/write/pe.rs:688-709.  `typ.0 << 12` on `u16` drops high bits;
`!0xfff` on `u32`.  The `debug_assert!` is a panic. -/
def RelocWriter.add (w : RelocWriter) (virtualAddress typ : Nat) : Res RelocWriter :=
  let reloc := ((typ <<< 12) % U16) ||| ((virtualAddress &&& 0xfff) % U16)
  let virtualAddress := virtualAddress &&& (U32 - 1 - 0xfff)
  match w.blocks with
  | block :: older =>
    if block.virtualAddress = virtualAddress then do
      let block ← block.inc
      .ok ⟨block :: older, w.relocs ++ [reloc]⟩
    else do
      let (block, relocs) ← padBlock block w.relocs
      if block.virtualAddress < virtualAddress then
        .ok ⟨⟨virtualAddress, 1⟩ :: block :: older, relocs ++ [reloc]⟩
      else .panic
  | [] => .ok ⟨[⟨virtualAddress, 1⟩], w.relocs ++ [reloc]⟩

/-- Sum of `u32`s, panicking on overflow (`Iterator::sum`). -/
def sumU32 : List (Res Nat) → Nat → Res Nat
  | [], acc => .ok acc
  | x :: xs, acc => do
    let x ← x
    if U32 ≤ acc + x then .panic else sumU32 xs (acc + x)

/-- `Writer::reserve_reloc_section`, src/write/pe.rs:721-746, up to the computation of the size that is
reserved and stored in the data directory (the reservation itself is `reserve_section`). -/
def RelocWriter.reserve (w : RelocWriter) : Res (RelocWriter × Nat) := do
  let w ← match w.blocks with
    | block :: older => do
      let (block, relocs) ← padBlock block w.relocs
      .ok (⟨block :: older, relocs⟩ : RelocWriter)
    | [] => .ok w
  let size ← sumU32 (w.blocks.reverse.map WBlock.size) 0
  .ok (w, size)

/-- The loop of `Writer::write_reloc_section`, src/write/pe.rs:757-766; returns the bytes appended to the
buffer.  Slicing past the end panics. -/
def writeBlocks (relocs : List Nat) : List WBlock → (total : Nat) → Res (List UInt8)
  | [], total => if total = relocs.length then .ok [] else .panic  -- debug_assert_eq!, line 767
  | block :: bs, total => do
    let size ← block.size
    if relocs.length < total then .panic
    else if (relocs.drop total).length < block.count then .panic
    else do
      let tl ← writeBlocks relocs bs (total + block.count)
      .ok (encode .little [(4, block.virtualAddress), (4, size)] ++
        ((relocs.drop total).take block.count).flatMap (wr .little 2) ++ tl)

/-- `Writer::write_reloc_section`, src/write/pe.rs:751-770, without the padding around the section. -/
def RelocWriter.write (w : RelocWriter) : Res (List UInt8) := writeBlocks w.relocs w.blocks.reverse 0

/-- A sequence of `add_reloc` calls. -/
def RelocWriter.addAll (w : RelocWriter) : List Reloc → Res RelocWriter
  | [] => .ok w
  | r :: rs => do
    let w ← w.add r.virtualAddress r.typ
    w.addAll rs

end Obj.Pe

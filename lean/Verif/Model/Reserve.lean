import Verif.Model.WriteUtil

/-!
# Model of the range reservations of the two-phase writers

`write::elf::Writer` (src/write/elf/writer.rs), `write::coff::Writer` (src/write/coff/writer.rs) and
`write::pe::Writer` (src/write/pe.rs).  A length is a `u64` or `u32`; arithmetic overflow is a panic.
-/

namespace Obj.Reserve

/-- `u64` addition of a debug build. -/
def addU64 (a b : Nat) : Res Nat := if a + b < U64 then .ok (a + b) else .panic
/-- `u32` addition of a debug build. -/
def addU32 (a b : Nat) : Res Nat := if a + b < U32 then .ok (a + b) else .panic
/-- `u64` multiplication of a debug build. -/
def mulU64 (a b : Nat) : Res Nat := if a * b < U64 then .ok (a * b) else .panic

/-- `if align_start > 1 { len = util::align(len, align_start) }`, src/write/elf/writer.rs:1481-1483. -/
def alignIf (len align : Nat) : Res Nat := if 1 < align then align64 len align else .ok len

/-- `elf::Writer::reserve`, src/write/elf/writer.rs:1480-1487: the offset and the new length. -/
def elf (len size align : Nat) : Res (Nat × Nat) := do
  let offset ← alignIf len align
  let len ← addU64 offset size
  .ok (offset, len)

/-- `elf::Writer::reserve_until`, src/write/elf/writer.rs:1490-1493. -/
def elfUntil (len offset : Nat) : Res Nat := if offset < len then .panic else .ok offset

/-- `coff::Writer::reserve`, src/write/coff/writer.rs:81-88: `offset as u32` drops high bits. -/
def coff (len size align : Nat) : Res (Nat × Nat) := do
  let offset ← alignIf len align
  let len ← addU64 offset size
  .ok (offset % U32, len)

/-- `coff::Writer::reserve_section`, src/write/coff/writer.rs:227-233. -/
def coffSection (len size : Nat) : Res (Nat × Nat) := if size = 0 then .ok (0, len) else coff len size 4

/-- `if count > 0xffff { count += 1 }`, src/write/coff/writer.rs:277-279. -/
def coffCount (count : Nat) : Res Nat := if 0xffff < count then addU64 count 1 else .ok count

/-- `coff::Writer::reserve_relocations`, src/write/coff/writer.rs:273-284 (`ImageRelocation` is 10 bytes). -/
def coffRelocations (len count : Nat) : Res (Nat × Nat) :=
  if count = 0 then .ok (0, len)
  else do
    let count ← coffCount count
    let size ← mulU64 count 10
    coff len size 1

/-- `pe::Writer::reserve`, src/write/pe.rs:132-140 (with `reserve_align`, 155-157). -/
def pe (len size align : Nat) : Res (Nat × Nat) :=
  if size = 0 then .ok (len % U32, len)
  else do
    let offset ← align64 len align
    let len ← addU64 offset size
    .ok (offset % U32, len)

/-- `pe::Writer::reserve_until`, src/write/pe.rs:170-173. -/
def peUntil (len offset : Nat) : Res Nat := if offset < len then .panic else .ok offset

/-- `pe::Writer::reserve_virtual`, src/write/pe.rs:103-108. -/
def peVirtual (sectionAlign vlen size : Nat) : Res (Nat × Nat) := do
  let l ← addU32 vlen size
  let l ← align32 l sectionAlign
  .ok (vlen, l)

/-- `pe::Writer::reserve_virtual_until`, src/write/pe.rs:113-116. -/
def peVirtualUntil (sectionAlign vlen address : Nat) : Res Nat :=
  if address < vlen then .panic else align32 address sectionAlign

/-- `pe::SectionRange`, src/write/pe.rs. -/
structure SectionRange where
  virtualAddress : Nat
  virtualSize : Nat
  fileOffset : Nat
  fileSize : Nat
  deriving DecidableEq, Repr

/-- The fields of `pe::Writer` used when reserving sections, src/write/pe.rs:18-45 (names and
characteristics of the sections are not modelled). -/
structure PeState where
  sectionAlign : Nat
  fileAlign : Nat
  len : Nat
  vlen : Nat
  codeAddress : Nat
  dataAddress : Nat
  codeLen : Nat
  dataLen : Nat
  bssLen : Nat
  sections : List SectionRange
  deriving DecidableEq, Repr

/-- The class of a section by its characteristics, src/write/pe.rs:496-511: the first that applies of code,
initialized data, uninitialized data. -/
inductive Content where
  | code | data | bss | other
  deriving DecidableEq, Repr

/-- `self.<content>_len += aligned_virtual_size` if the section is of that class, src/write/pe.rs:496-511. -/
def addIf (b : Bool) (len size : Nat) : Res Nat := if b then addU32 len size else .ok len

/-- The file range of a section, src/write/pe.rs:488-492. -/
def peFileRange (w : PeState) (fileSize : Nat) : Res (Nat × Nat) :=
  if fileSize ≠ 0 then pe w.len fileSize w.fileAlign else .ok (0, w.len)

/-- `pe::Writer::reserve_section`, src/write/pe.rs:478-524. -/
def peSection (w : PeState) (content : Content) (virtualSize dataSize : Nat) : Res (SectionRange × PeState) := do
  let (va, vlen) ← peVirtual w.sectionAlign w.vlen virtualSize
  let fileSize ← align32 dataSize w.fileAlign
  let (fileOffset, len) ← peFileRange w fileSize
  let av ← align32 virtualSize w.fileAlign
  let codeLen ← addIf (content = .code) w.codeLen av
  let dataLen ← addIf (content = .data) w.dataLen av
  let bssLen ← addIf (content = .bss) w.bssLen av
  let codeAddress := if content = .code ∧ w.codeAddress = 0 then va else w.codeAddress
  let dataAddress := if (content = .data ∨ content = .bss) ∧ w.dataAddress = 0 then va else w.dataAddress
  let range : SectionRange := ⟨va, virtualSize, fileOffset, fileSize⟩
  .ok (range, ⟨w.sectionAlign, w.fileAlign, len, vlen, codeAddress, dataAddress, codeLen, dataLen, bssLen,
    w.sections ++ [range]⟩)

/-- `CountingBuffer::write_align` on a byte vector (src/write/util.rs:150-152). -/
def bufAlign (out : List UInt8) (align : Nat) : Res (List UInt8) := do
  let n ← align64 out.length align
  if n < out.length then .panic else .ok (out ++ List.replicate (n - out.length) 0)

/-- `CountingBuffer::write_bytes` on a byte vector (src/write/util.rs:163-166). -/
def bufBytes (out data : List UInt8) : Res (List UInt8) :=
  if U64 ≤ out.length + data.length then .panic else .ok (out ++ data)

/-- `CountingBuffer::resize` on a byte vector, as `pad_until` (src/write/util.rs:144-147,
src/write/elf/writer.rs:271-275, src/write/pe.rs:176-179). -/
def bufUntil (out : List UInt8) (offset : Nat) : Res (List UInt8) :=
  if offset < out.length then .panic else .ok (out ++ List.replicate (offset - out.length) 0)

/-- `pe::Writer::write_section`, src/write/pe.rs:527-534. -/
def peWriteSection (fileAlign : Nat) (out : List UInt8) (offset : Nat) (data : List UInt8) : Res (List UInt8) :=
  if data = [] then .ok out
  else do
    let out ← bufUntil out offset
    let out ← bufBytes out data
    bufAlign out fileAlign

/-- The reservations a client can make with `elf::Writer`. -/
inductive ElfOp where
  | reserve (size align : Nat)
  | until_ (offset : Nat)
  deriving DecidableEq, Repr

/-- A reserved range with the alignment asked for. -/
structure Range where
  offset : Nat
  size : Nat
  align : Nat
  deriving DecidableEq, Repr

/-- A sequence of calls on `elf::Writer`: the ranges returned, in order, and the final `reserved_len`. -/
def runElf (len : Nat) : List ElfOp → Res (List Range × Nat)
  | [] => .ok ([], len)
  | .reserve size align :: ops => do
    let (offset, len) ← elf len size align
    let (rs, len) ← runElf len ops
    .ok (⟨offset, size, align⟩ :: rs, len)
  | .until_ offset :: ops => do
    let len ← elfUntil len offset
    runElf len ops

/-- The reservations a client can make with `coff::Writer`. -/
inductive CoffOp where
  | reserve (size align : Nat)
  | section_ (size : Nat)
  | relocations (count : Nat)
  | until_ (offset : Nat)
  deriving DecidableEq, Repr

/-- A sequence of calls on `coff::Writer`. -/
def runCoff (len : Nat) : List CoffOp → Res (List Range × Nat)
  | [] => .ok ([], len)
  | .reserve size align :: ops => do
    let (offset, len) ← coff len size align
    let (rs, len) ← runCoff len ops
    .ok (⟨offset, size, align⟩ :: rs, len)
  | .section_ size :: ops => do
    let (offset, len) ← coffSection len size
    let (rs, len) ← runCoff len ops
    .ok (⟨offset, size, 4⟩ :: rs, len)
  | .relocations count :: ops => do
    let (offset, len) ← coffRelocations len count
    let (rs, len) ← runCoff len ops
    .ok (⟨offset, (if 0xffff < count then count + 1 else count) * 10, 1⟩ :: rs, len)
  | .until_ offset :: ops => do
    let len ← elfUntil len offset
    runCoff len ops

/-- `pe::Writer::reserve_section` for a sequence of sections (content, virtual size, data size). -/
def runPe (w : PeState) : List (Content × Nat × Nat) → Res (List SectionRange × PeState)
  | [] => .ok ([], w)
  | (c, v, d) :: ops => do
    let (r, w) ← peSection w c v d
    let (rs, w) ← runPe w ops
    .ok (r :: rs, w)

/-- `pe::Writer::write_section` for each section in order. -/
def writePe (fileAlign : Nat) (out : List UInt8) : List (SectionRange × List UInt8) → Res (List UInt8)
  | [] => .ok out
  | (r, data) :: rest => do
    let out ← peWriteSection fileAlign out r.fileOffset data
    writePe fileAlign out rest

end Obj.Reserve

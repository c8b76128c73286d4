import Verif.Model.Bytes
import Verif.Model.Endian

/-!
# Model of the Mach-O chained fixups, `src/read/macho/fixup.rs` and the bit fields of `src/macho.rs:4436-5137`

`usize` is 64 bits.
-/

namespace Obj.Fixup
open Obj

/-! ## The header, the imports and the segments -/

/-- `DyldChainedFixupsHeader`, src/macho.rs:4442-4457, without the version (which is checked) and with decoded fields. -/
structure Header where
  startsOffset : Nat
  importsOffset : Nat
  symbolsOffset : Nat
  importsCount : Nat
  importsFormat : Nat
  symbolsFormat : Nat
  deriving DecidableEq, Repr

/-- `DyldChainedFixups`, src/read/macho/fixup.rs:30-33. -/
structure Fixups where
  data : List UInt8
  header : Header
  deriving DecidableEq, Repr

/-- `DyldChainedFixups::parse`, src/read/macho/fixup.rs:39-50. -/
def Fixups.parse (en : Endianness) (data : List UInt8) : Res Fixups :=
  (Bytes.readAt data 0 28).bind fun h =>
    if field en h 0 4 ≠ 0 then .err
    else .ok ⟨data, field en h 4 4, field en h 8 4, field en h 12 4, field en h 16 4, field en h 20 4, field en h 24 4⟩

/-- `LinkeditDataCommand::chained_fixups`, src/read/macho/fixup.rs:9-21. -/
def chainedFixups (en : Endianness) (file : List UInt8) (dataoff datasize : Nat) : Res Fixups :=
  (ReadRef.readBytesAt file dataoff datasize).bind (Fixups.parse en)

/-- `DyldChainedImport`, src/read/macho/fixup.rs:149-158. -/
structure Import where
  dylib : Int
  weak : Bool
  addend : Int
  name : List UInt8
  deriving DecidableEq, Repr

/-- `DyldChainedImportIterator`, src/read/macho/fixup.rs:111-117; the endianness, the strings and the format do not change. -/
structure ImportIt where
  en : Endianness
  symbols : List UInt8
  format : Nat
  imports : List UInt8
  count : Nat
  deriving DecidableEq, Repr

/-- `DyldChainedFixups::imports`, src/read/macho/fixup.rs:58-80. -/
def Fixups.imports (en : Endianness) (f : Fixups) : Res ImportIt :=
  if f.header.symbolsFormat ≠ 0 then .err
  else if f.header.importsOffset ≤ f.data.length then
    if f.header.symbolsOffset ≤ f.data.length then
      .ok ⟨en, f.data.drop f.header.symbolsOffset, f.header.importsFormat, f.data.drop f.header.importsOffset, f.header.importsCount⟩
    else .err
  else .err

/-- `DyldChainedImport32::{lib_ordinal, dylib}`, src/macho.rs:5077-5089. -/
def dylib32 (v : Nat) : Int := if 0xf0 < v &&& 0xff then toSigned 1 (v &&& 0xff) else ((v &&& 0xff : Nat) : Int)

/-- `DyldChainedImport64::{lib_ordinal, dylib}`, src/macho.rs:5114-5126. -/
def dylib64 (v : Nat) : Int := if 0xfff0 < v &&& 0xffff then toSigned 2 (v &&& 0xffff) else ((v &&& 0xffff : Nat) : Int)

/-- The fields of an entry (library, whether it is weak, offset of the name, addend) and the rest of the data,
src/read/macho/fixup.rs:168-201.  A failed read leaves an empty rest (src/read/util.rs:91-102). -/
def entry (en : Endianness) (format : Nat) (imports : List UInt8) : Res (Int × Bool × Nat × Int) × List UInt8 :=
  if format = 1 ∨ format = 2 then
    match Bytes.read imports 4 with
    | (.ok b, tl) =>
      let v := rd en b
      if format = 2 then
        match Bytes.read tl 4 with
        | (.ok a, tl') => (.ok (dylib32 v, (v >>> 8) &&& 1 != 0, v >>> 9, rdI en a), tl')
        | (.err, tl') => (.err, tl')
        | (.panic, tl') => (.panic, tl')
      else (.ok (dylib32 v, (v >>> 8) &&& 1 != 0, v >>> 9, 0), tl)
    | (.err, tl) => (.err, tl)
    | (.panic, tl) => (.panic, tl)
  else if format = 3 then
    match Bytes.read imports 8 with
    | (.ok b, tl) =>
      let v := rd en b
      match Bytes.read tl 8 with
      | (.ok a, tl') => (.ok (dylib64 v, (v >>> 16) &&& 1 != 0, (v >>> 32) % U32, toI64 (rd en a)), tl')
      | (.err, tl') => (.err, tl')
      | (.panic, tl') => (.panic, tl')
    | (.err, tl) => (.err, tl)
    | (.panic, tl) => (.panic, tl)
  else (.err, imports)

/-- `DyldChainedImport::parse`, src/read/macho/fixup.rs:161-211. -/
def Import.parse (en : Endianness) (format : Nat) (symbols imports : List UInt8) : Res Import × List UInt8 :=
  match entry en format imports with
  | (.ok (dylib, weak, nameOffset, addend), tl) =>
    ((Bytes.readStringAt symbols nameOffset).bind fun name => .ok ⟨dylib, weak, addend, name⟩, tl)
  | (.err, tl) => (.err, tl)
  | (.panic, tl) => (.panic, tl)

/-- `DyldChainedImportIterator::next`, src/read/macho/fixup.rs:121-134. -/
def ImportIt.next (s : ImportIt) : Res (Option Import) × ImportIt :=
  if s.count = 0 then (.ok none, s)
  else match Import.parse s.en s.format s.symbols s.imports with
    | (.ok i, tl) => (.ok (some i), { s with imports := tl, count := s.count - 1 })
    | (.err, tl) => (.err, { s with imports := tl, count := 0 })
    | (.panic, tl) => (.panic, { s with imports := tl })

/-- `DyldChainedStartsInSegment`, src/macho.rs:4476-4500, with decoded fields. -/
structure SegHeader where
  size : Nat
  pageSize : Nat
  pointerFormat : Nat
  segmentOffset : Nat
  maxValidPointer : Nat
  pageCount : Nat
  deriving DecidableEq, Repr

/-- `DyldChainedSegment`, src/read/macho/fixup.rs:271-276. -/
structure Seg where
  index : Nat
  header : SegHeader
  starts : List Nat
  deriving DecidableEq, Repr

/-- The fields of an image of `DyldChainedStartsInSegment` (22 bytes). -/
def SegHeader.decode (en : Endianness) (h : List UInt8) : SegHeader :=
  ⟨field en h 0 4, field en h 4 2, field en h 6 2, field en h 8 8, field en h 16 4, field en h 20 2⟩

/-- `DyldChainedSegmentIterator`, src/read/macho/fixup.rs:217-222. -/
structure SegIt where
  en : Endianness
  data : List UInt8
  offsets : List Nat
  index : Nat
  deriving DecidableEq, Repr

/-- `DyldChainedFixups::segments`, src/read/macho/fixup.rs:83-104. -/
def Fixups.segments (en : Endianness) (f : Fixups) : Res SegIt :=
  match Bytes.skip f.data f.header.startsOffset with
  | (.ok (), data) => match Bytes.read data 4 with
    | (.ok c, tl) => match Bytes.readSlice tl 4 (rd en c) with
      | (.ok imgs, _) => .ok ⟨en, data, imgs.map (rd en), 0⟩
      | (.err, _) => .err
      | (.panic, _) => .panic
    | (.err, _) => .err
    | (.panic, _) => .panic
  | (.err, _) => .err
  | (.panic, _) => .panic

/-- The chain starts at an offset, src/read/macho/fixup.rs:236-253. -/
def segAt (en : Endianness) (data : List UInt8) (index offset : Nat) : Res Seg :=
  match Bytes.skip data offset with
  | (.ok (), d) => match Bytes.read d 22 with
    | (.ok h, tl) =>
      if 22 ≤ (SegHeader.decode en h).size then
        match Bytes.readSlice tl 2 (((SegHeader.decode en h).size - 22) / 2) with
        | (.ok imgs, _) => .ok ⟨index, SegHeader.decode en h, imgs.map (rd en)⟩
        | (.err, _) => .err
        | (.panic, _) => .panic
      else .err
    | (.err, _) => .err
    | (.panic, _) => .panic
  | (.err, _) => .err
  | (.panic, _) => .panic

/-- The loop of `DyldChainedSegmentIterator::next`, src/read/macho/fixup.rs:226-257, over the offsets from the index on. -/
def segLoop (en : Endianness) (data : List UInt8) : List Nat → Nat → Res (Option Seg) × Nat
  | [], index => (.ok none, index)
  | o :: rest, index =>
    if o = 0 then segLoop en data rest (index + 1)
    else ((segAt en data index o).bind fun s => .ok (some s), index + 1)

/-- `DyldChainedSegmentIterator::next`. -/
def SegIt.next (s : SegIt) : Res (Option Seg) × SegIt :=
  let r := segLoop s.en s.data (s.offsets.drop s.index) s.index
  (r.1, { s with index := r.2 })

/-! ## Pointers -/

/-- `PtrauthKey`, src/macho.rs:509-518. -/
inductive Key where
  | ia | ib | da | db
  deriving DecidableEq, Repr

/-- `FixupAuth`, src/read/macho/fixup.rs:508-515. -/
structure Auth where
  key : Key
  diversity : Nat
  addrDiv : Bool
  deriving DecidableEq, Repr

/-- `Fixup`, `FixupRebase`, `FixupBind`, `FixupKernelCacheRebase` and `FixupSegmentedRebase`, src/read/macho/fixup.rs:451-502. -/
inductive Fix where
  | rebase (targetOffset : Nat) (auth : Option Auth)
  | bnd (ordinal : Nat) (addend : Int) (auth : Option Auth)
  | kernelCache (targetOffset cacheLevel : Nat) (auth : Option Auth)
  | segmented (segmentIndex segmentOffset : Nat) (auth : Option Auth)
  deriving DecidableEq, Repr

/-- The choice of the key, src/read/macho/fixup.rs:555-560 and the same code elsewhere. -/
def keyOf (k : Nat) : Key := if k = 1 then .ib else if k = 2 then .da else if k = 3 then .db else .ia

/-- `diversity`, `addr_div` and `key` of the arm64e and kernel cache pointers, src/macho.rs:4634-4655, 4677-4698, 4720-4741,
4746-4788, 4856-4898. -/
def authOf (v : Nat) : Auth := ⟨keyOf ((v >>> 49) &&& 3), (v >>> 32) &&& 0xffff, (v >>> 48) &&& 1 != 0⟩

/-- `u64::wrapping_sub`. -/
def wsub (a b : Nat) : Nat := (a + U64 - b) % U64

/-- `addend` of `DyldChainedPtrArm64eBind`, src/macho.rs:4660-4671, `((v >> 19) as i32) >> 13`. -/
def addend19 (v : Nat) : Int := toSigned 4 ((v >>> 19) % U32) / 8192

/-- `Fixup::parse_arm64e_rebase`, src/read/macho/fixup.rs:581-608. -/
def arm64eRebase (v vmaddr : Nat) : Fix :=
  if (v >>> 63) &&& 1 != 0 then .rebase (v &&& 0xffffffff) (some (authOf v))
  else .rebase (wsub (v &&& (2 ^ 43 - 1)) vmaddr ||| (((v >>> 43) &&& 0xff) <<< 56) % U64) none

/-- `Fixup::parse_arm64e_bind`, src/read/macho/fixup.rs:552-579. -/
def arm64eBind (v : Nat) : Fix :=
  if (v >>> 63) &&& 1 != 0 then .bnd (v &&& 0xffff) 0 (some (authOf v))
  else .bnd (v &&& 0xffff) (addend19 v) none

/-- `Fixup::parse_arm64e_bind24`, src/read/macho/fixup.rs:620-647. -/
def arm64eBind24 (v : Nat) : Fix :=
  if (v >>> 63) &&& 1 != 0 then .bnd (v &&& (2 ^ 24 - 1)) 0 (some (authOf v))
  else .bnd (v &&& (2 ^ 24 - 1)) (addend19 v) none

/-- `Fixup::parse_arm64e`, src/read/macho/fixup.rs:542-550. -/
def parseArm64e (v stride vmaddr : Nat) : Nat × Fix :=
  (((v >>> 51) &&& (2 ^ 11 - 1)) * stride, if (v >>> 62) &&& 1 != 0 then arm64eBind v else arm64eRebase v vmaddr)

/-- `Fixup::parse_userland24`, src/read/macho/fixup.rs:610-618. -/
def parseUserland24 (v : Nat) : Nat × Fix :=
  (((v >>> 51) &&& (2 ^ 11 - 1)) * 8, if (v >>> 62) &&& 1 != 0 then arm64eBind24 v else arm64eRebase v 0)

/-- `Fixup::parse_64`, src/read/macho/fixup.rs:649-667. -/
def parse64 (v vmaddr : Nat) : Nat × Fix :=
  (((v >>> 51) &&& (2 ^ 12 - 1)) * 4,
    if (v >>> 63) &&& 1 != 0 then .bnd (v &&& (2 ^ 24 - 1)) (((v >>> 24) &&& 0xff : Nat) : Int) none
    else .rebase (wsub (v &&& (2 ^ 36 - 1)) vmaddr ||| (((v >>> 36) &&& 0xff) <<< 56) % U64) none)

/-- `Fixup::parse_64_kernel_cache`, src/read/macho/fixup.rs:669-692. -/
def parseKernelCache (v stride : Nat) : Nat × Fix :=
  (((v >>> 51) &&& (2 ^ 12 - 1)) * stride,
    .kernelCache (v &&& (2 ^ 30 - 1)) ((v >>> 30) &&& 3) (if (v >>> 63) &&& 1 != 0 then some (authOf v) else none))

/-- `Fixup::parse_32`, src/read/macho/fixup.rs:694-712. -/
def parse32 (v vmaddr : Nat) : Nat × Fix :=
  (((v >>> 26) &&& (2 ^ 5 - 1)) * 4,
    if (v >>> 31) &&& 1 != 0 then .bnd (v &&& (2 ^ 20 - 1)) (((v >>> 20) &&& (2 ^ 6 - 1) : Nat) : Int) none
    else .rebase (wsub (v &&& (2 ^ 26 - 1)) vmaddr) none)

/-- `Fixup::parse_32_cache`, src/read/macho/fixup.rs:714-721. -/
def parse32Cache (v : Nat) : Nat × Fix := (((v >>> 30) &&& (2 ^ 2 - 1)) * 4, .rebase (v &&& (2 ^ 30 - 1)) none)

/-- `Fixup::parse_32_firmware`, src/read/macho/fixup.rs:723-730. -/
def parse32Firmware (v : Nat) : Nat × Fix := (((v >>> 26) &&& (2 ^ 6 - 1)) * 4, .rebase (v &&& (2 ^ 26 - 1)) none)

/-- `Fixup::parse_arm64e_segmented`, src/read/macho/fixup.rs:732-755. -/
def parseSegmented (v : Nat) : Nat × Fix :=
  (((v >>> 51) &&& (2 ^ 12 - 1)) * 4,
    .segmented ((v >>> 28) &&& 0xf) (v &&& (2 ^ 28 - 1)) (if (v >>> 63) &&& 1 != 0 then some (authOf v) else none))

/-- `Fixup::parse_arm64e_shared_cache`, src/read/macho/fixup.rs:757-783 with src/macho.rs:4989-5051. -/
def parseSharedCache (v : Nat) : Nat × Fix :=
  (((v >>> 52) &&& (2 ^ 11 - 1)) * 8,
    if (v >>> 63) &&& 1 != 0 then
      .rebase (v &&& (2 ^ 34 - 1))
        (some ⟨if (v >>> 51) &&& 1 != 0 then .da else .ia, (v >>> 34) &&& 0xffff, (v >>> 50) &&& 1 != 0⟩)
    else .rebase ((v &&& (2 ^ 34 - 1)) ||| (((v >>> 34) &&& 0xff) <<< 56) % U64) none)

/-- `Fixup::parse`, src/read/macho/fixup.rs:518-540: the distance to the next pointer of the chain and the fixup.  The value of a
32-bit format comes from a `u32`, so the conversions back to `u32` there do nothing. -/
def Fix.parse (format v vmaddr : Nat) : Res (Nat × Fix) :=
  if format = 1 then .ok (parseArm64e v 8 vmaddr)
  else if format = 7 then .ok (parseArm64e v 4 0)
  else if format = 9 then .ok (parseArm64e v 8 0)
  else if format = 10 then .ok (parseArm64e v 4 vmaddr)
  else if format = 12 then .ok (parseUserland24 v)
  else if format = 2 then .ok (parse64 v vmaddr)
  else if format = 6 then .ok (parse64 v 0)
  else if format = 8 then .ok (parseKernelCache v 4)
  else if format = 11 then .ok (parseKernelCache v 1)
  else if format = 3 then .ok (parse32 v vmaddr)
  else if format = 4 then .ok (parse32Cache v)
  else if format = 5 then .ok (parse32Firmware v)
  else if format = 14 then .ok (parseSegmented v)
  else if format = 13 then .ok (parseSharedCache v)
  else .err

/-! ## The chains -/

/-- `FixupState`, src/read/macho/fixup.rs:322-327. -/
inductive State where
  | start | chain | page | pageChain
  deriving DecidableEq, Repr

/-- The part of `DyldChainedFixupIterator` (src/read/macho/fixup.rs:333-351) that does not change. -/
structure Ctx where
  en : Endianness
  vmaddr : Nat
  seg : List UInt8
  format : Nat
  pageSize : Nat
  pageCount : Nat
  starts : List Nat
  deriving DecidableEq, Repr

/-- The part of `DyldChainedFixupIterator` that changes. -/
structure St where
  state : State
  pageIndex : Nat
  chainIndex : Nat
  pageOffset : Nat
  offset : Nat
  deriving DecidableEq, Repr

/-- `DyldChainedSegment::fixups`, src/read/macho/fixup.rs:297-318. -/
def Seg.ctx (s : Seg) (en : Endianness) (vmaddr : Nat) (seg : List UInt8) : Ctx :=
  ⟨en, vmaddr, seg, s.header.pointerFormat, s.header.pageSize, s.header.pageCount, s.starts⟩

/-- The initial state, src/read/macho/fixup.rs:312-316. -/
def St.init : St := ⟨.start, 0, 0, 0, 0⟩

/-- The pointer at an offset, src/read/macho/fixup.rs:407-422. -/
def pointer (c : Ctx) (offset : Nat) : Res Nat :=
  if c.format = 3 ∨ c.format = 4 ∨ c.format = 5 then (Bytes.readAt c.seg offset 4).bind fun b => .ok (rd c.en b)
  else (Bytes.readAt c.seg offset 8).bind fun b => .ok (rd c.en b)

/-- `FixupState::Page | FixupState::PageChain`, src/read/macho/fixup.rs:406-436.  The addition overflows a `u64` only for
segment data that does not fit in memory. -/
def pageNext (c : Ctx) (s : St) : Res (Option (Nat × Fix)) × St :=
  match pointer c s.offset with
  | .ok v => match Fix.parse c.format v c.vmaddr with
    | .ok (next, fixup) =>
      if next = 0 then
        (.ok (some (s.offset, fixup)), { s with state := if s.state = .pageChain then .chain else .start })
      else if s.offset + next < U64 then (.ok (some (s.offset, fixup)), { s with offset := s.offset + next })
      else (.panic, s)
    | .err => (.err, s)
    | .panic => (.panic, s)
  | .err => (.err, s)
  | .panic => (.panic, s)

/-- `FixupState::Chain`, src/read/macho/fixup.rs:391-405, and the next turn of the loop. -/
def chainNext (c : Ctx) (s : St) : Res (Option (Nat × Fix)) × St :=
  match c.starts[s.chainIndex]? with
  | none => (.err, s)
  | some x =>
    pageNext c { s with
      chainIndex := s.chainIndex + 1
      offset := s.pageOffset + (x &&& 0x7fff)
      state := if x &&& 0x8000 ≠ 0 then .page else .pageChain }

/-- `FixupState::Start`, src/read/macho/fixup.rs:369-390, and the next turns of the loop.  The products and sums are below
`2^33`. -/
def startNext (c : Ctx) (s : St) : Res (Option (Nat × Fix)) × St :=
  if _h : c.pageCount ≤ s.pageIndex then (.ok none, s)
  else match c.starts[s.pageIndex]? with
    | none => (.err, s)
    | some x =>
      let s' := { s with pageOffset := s.pageIndex * c.pageSize, pageIndex := s.pageIndex + 1 }
      if x = 0xffff then startNext c s'
      else if x &&& 0x8000 ≠ 0 then chainNext c { s' with state := .chain, chainIndex := x &&& 0x7fff }
      else pageNext c { s' with state := .page, offset := s.pageIndex * c.pageSize + x }
termination_by c.pageCount - s.pageIndex

/-- `DyldChainedFixupIterator::next_inner`, src/read/macho/fixup.rs:366-440. -/
def nextInner (c : Ctx) (s : St) : Res (Option (Nat × Fix)) × St :=
  match s.state with
  | .start => startNext c s
  | .chain => chainNext c s
  | .page => pageNext c s
  | .pageChain => pageNext c s

/-- `DyldChainedFixupIterator::next`, src/read/macho/fixup.rs:357-364. -/
def Ctx.next (c : Ctx) (s : St) : Res (Option (Nat × Fix)) × St :=
  match nextInner c s with
  | (.err, s') => (.err, { s' with state := .start, pageIndex := c.pageCount })
  | r => r

end Obj.Fixup

import Verif.Model.Elf
import Verif.Model.Common
import Verif.Model.MachoFixup

/-!
# Model of the dyld shared cache, `src/read/macho/dyld_cache.rs`

The endianness parameter is `Endianness`, so that both byte orders are supported.  Paths and suffixes are byte strings (the conversion to
`str` is not modelled).  `usize` is 64 bits.
-/

namespace Obj.Dyld
open Obj
open Obj.Elf (readSliceAt)
open Obj.Fixup (Key Auth)

/-! ## The header and its tables -/

/-- The fields of `DyldCacheHeader` (src/macho.rs:530-695, 552 bytes) that are used. -/
structure Header where
  magic : List UInt8
  mappingOffset : Nat
  mappingCount : Nat
  imagesOffsetOld : Nat
  imagesCountOld : Nat
  uuid : List UInt8
  mappingWithSlideOffset : Nat
  mappingWithSlideCount : Nat
  subCacheArrayOffset : Nat
  subCacheArrayCount : Nat
  symbolFileUuid : List UInt8
  imagesOffset : Nat
  imagesCount : Nat
  deriving DecidableEq, Repr

/-- `DyldCacheHeader::parse`, src/read/macho/dyld_cache.rs:960-963. -/
def readHeader (data : List UInt8) : Res (List UInt8) := ReadRef.readBytesAt data 0 552

/-- The fields of an image of the header, which are read with the byte order that `parse_magic` gives. -/
def Header.decode (en : Endianness) (h : List UInt8) : Header :=
  ⟨slice h 0 16, field en h 16 4, field en h 20 4, field en h 24 4, field en h 28 4, slice h 88 16, field en h 312 4, field en h 316 4,
   field en h 392 4, field en h 396 4, slice h 400 16, field en h 448 4, field en h 452 4⟩

/-- The magic numbers of `parse_magic`, src/read/macho/dyld_cache.rs:967-980. -/
def magics : List (List UInt8 × Obj.Arch × Endianness) :=
  -- b"dyld_v1    i386\0"
  [([0x64, 0x79, 0x6c, 0x64, 0x5f, 0x76, 0x31, 0x20, 0x20, 0x20, 0x20, 0x69, 0x33, 0x38, 0x36, 0], .i386, .little),
   -- b"dyld_v1  x86_64\0"
   ([0x64, 0x79, 0x6c, 0x64, 0x5f, 0x76, 0x31, 0x20, 0x20, 0x78, 0x38, 0x36, 0x5f, 0x36, 0x34, 0], .x86_64, .little),
   -- b"dyld_v1 x86_64h\0"
   ([0x64, 0x79, 0x6c, 0x64, 0x5f, 0x76, 0x31, 0x20, 0x78, 0x38, 0x36, 0x5f, 0x36, 0x34, 0x68, 0], .x86_64, .little),
   -- b"dyld_v1     ppc\0"
   ([0x64, 0x79, 0x6c, 0x64, 0x5f, 0x76, 0x31, 0x20, 0x20, 0x20, 0x20, 0x20, 0x70, 0x70, 0x63, 0], .powerPc, .big),
   -- b"dyld_v1   armv6\0"
   ([0x64, 0x79, 0x6c, 0x64, 0x5f, 0x76, 0x31, 0x20, 0x20, 0x20, 0x61, 0x72, 0x6d, 0x76, 0x36, 0], .arm, .little),
   -- b"dyld_v1   armv7\0"
   ([0x64, 0x79, 0x6c, 0x64, 0x5f, 0x76, 0x31, 0x20, 0x20, 0x20, 0x61, 0x72, 0x6d, 0x76, 0x37, 0], .arm, .little),
   -- b"dyld_v1  armv7f\0"
   ([0x64, 0x79, 0x6c, 0x64, 0x5f, 0x76, 0x31, 0x20, 0x20, 0x61, 0x72, 0x6d, 0x76, 0x37, 0x66, 0], .arm, .little),
   -- b"dyld_v1  armv7s\0"
   ([0x64, 0x79, 0x6c, 0x64, 0x5f, 0x76, 0x31, 0x20, 0x20, 0x61, 0x72, 0x6d, 0x76, 0x37, 0x73, 0], .arm, .little),
   -- b"dyld_v1  armv7k\0"
   ([0x64, 0x79, 0x6c, 0x64, 0x5f, 0x76, 0x31, 0x20, 0x20, 0x61, 0x72, 0x6d, 0x76, 0x37, 0x6b, 0], .arm, .little),
   -- b"dyld_v1   arm64\0"
   ([0x64, 0x79, 0x6c, 0x64, 0x5f, 0x76, 0x31, 0x20, 0x20, 0x20, 0x61, 0x72, 0x6d, 0x36, 0x34, 0], .aarch64, .little),
   -- b"dyld_v1  arm64e\0"
   ([0x64, 0x79, 0x6c, 0x64, 0x5f, 0x76, 0x31, 0x20, 0x20, 0x61, 0x72, 0x6d, 0x36, 0x34, 0x65, 0], .aarch64, .little)]

/-- `parse_magic`, src/read/macho/dyld_cache.rs:966-984. -/
def parseMagic (h : List UInt8) : Res (Obj.Arch × Endianness) :=
  match magics.lookup (slice h 0 16) with
  | some r => .ok r
  | none => .err

/-- `DyldCacheMapping`, src/read/macho/dyld_cache.rs:391-408, with the decoded fields of `DyldCacheMappingInfo` or
`DyldCacheMappingAndSlideInfo` (src/macho.rs:697-741); `slide` is the offset and the size of the slide info of the latter. -/
structure Mapping where
  address : Nat
  size : Nat
  fileOffset : Nat
  maxProt : Nat
  initProt : Nat
  slide : Option (Nat × Nat)
  deriving DecidableEq, Repr

/-- An image of `DyldCacheMappingInfo` (32 bytes). -/
def Mapping.decode1 (en : Endianness) (b : List UInt8) : Mapping :=
  ⟨field en b 0 8, field en b 8 8, field en b 16 8, field en b 24 4, field en b 28 4, none⟩

/-- An image of `DyldCacheMappingAndSlideInfo` (56 bytes). -/
def Mapping.decode2 (en : Endianness) (b : List UInt8) : Mapping :=
  ⟨field en b 0 8, field en b 8 8, field en b 16 8, field en b 48 4, field en b 52 4, some (field en b 24 8, field en b 32 8)⟩

/-- `DyldCacheHeader::mappings`, src/read/macho/dyld_cache.rs:987-1010, with the iteration of src/read/macho/dyld_cache.rs:369-387. -/
def Header.mappings (h : Header) (en : Endianness) (data : List UInt8) : Res (List Mapping) :=
  if 0x140 ≤ h.mappingOffset then
    (readSliceAt data h.mappingWithSlideOffset 56 h.mappingWithSlideCount).bind fun l => .ok (l.map (Mapping.decode2 en))
  else
    (readSliceAt data h.mappingOffset 32 h.mappingCount).bind fun l => .ok (l.map (Mapping.decode1 en))

/-- `DyldSubCacheSlice`, src/read/macho/dyld_cache.rs:31-36; `DyldSubCacheEntryV1` and `DyldSubCacheEntryV2`, src/macho.rs:921-946: the
UUIDs, and the file suffixes of the second version (fixed-size arrays). -/
inductive SubCaches where
  | v1 (uuids : List (List UInt8))
  | v2 (entries : List (List UInt8 × List UInt8))
  deriving DecidableEq, Repr

/-- `DyldCacheHeader::subcaches`, src/read/macho/dyld_cache.rs:1015-1040. -/
def Header.subcaches (h : Header) (data : List UInt8) : Res (Option SubCaches) :=
  if 0x1d0 ≤ h.mappingOffset then
    (readSliceAt data h.subCacheArrayOffset 56 h.subCacheArrayCount).bind fun l =>
      .ok (some (.v2 (l.map fun b => (slice b 0 16, slice b 24 32))))
  else if 0x1c8 ≤ h.mappingOffset then
    (readSliceAt data h.subCacheArrayOffset 24 h.subCacheArrayCount).bind fun l => .ok (some (.v1 (l.map fun b => slice b 0 16)))
  else .ok none

/-- `DyldCacheHeader::symbols_subcache_uuid`, src/read/macho/dyld_cache.rs:1043-1051. -/
def Header.symbolsUuid (h : Header) : Option (List UInt8) :=
  if 0x1c8 ≤ h.mappingOffset then if h.symbolFileUuid ≠ List.replicate 16 0 then some h.symbolFileUuid else none
  else none

/-- `DyldCacheImageInfo`, src/macho.rs:754-761. -/
structure ImageInfo where
  address : Nat
  modTime : Nat
  inode : Nat
  pathFileOffset : Nat
  pad : Nat
  deriving DecidableEq, Repr

/-- An image of `DyldCacheImageInfo` (32 bytes). -/
def ImageInfo.decode (en : Endianness) (b : List UInt8) : ImageInfo :=
  ⟨field en b 0 8, field en b 8 8, field en b 16 8, field en b 24 4, field en b 28 4⟩

/-- `DyldCacheHeader::images`, src/read/macho/dyld_cache.rs:1054-1072. -/
def Header.images (h : Header) (en : Endianness) (data : List UInt8) : Res (List ImageInfo) :=
  if 0x1c8 ≤ h.mappingOffset then
    (readSliceAt data h.imagesOffset 32 h.imagesCount).bind fun l => .ok (l.map (ImageInfo.decode en))
  else
    (readSliceAt data h.imagesOffsetOld 32 h.imagesCountOld).bind fun l => .ok (l.map (ImageInfo.decode en))

/-! ## The cache -/

/-- `DyldFile`, src/read/macho/dyld_cache.rs:221-228. -/
structure DyldFile where
  data : List UInt8
  mappings : List Mapping
  deriving DecidableEq, Repr

/-- `DyldCache`, src/read/macho/dyld_cache.rs:12-23. -/
structure Cache where
  en : Endianness
  data : List UInt8
  files : List DyldFile
  images : List ImageInfo
  arch : Obj.Arch
  deriving DecidableEq, Repr

/-- The suffix of a version 1 subcache, `format!(".{i}")`. -/
def numSuffix (i : Nat) : List UInt8 := 0x2e :: (Nat.toDigits 10 i).map fun c => UInt8.ofNat c.toNat

/-- The suffixes of the subcaches, src/read/macho/dyld_cache.rs:58-75 (before the conversion from UTF-8): numbers for the first version, the names in the entries for the second. -/
def SubCaches.suffixes : SubCaches → List (List UInt8)
  | .v1 u => (List.range u.length).map fun i => numSuffix (i + 1)
  | .v2 e => e.map fun x => x.2.takeWhile (· ≠ 0)

/-- `DyldCache::subcache_suffixes`, src/read/macho/dyld_cache.rs:52-80; `b".symbols"` is `2e 73 79 6d 62 6f 6c 73`. -/
def subcacheSuffixes (data : List UInt8) : Res (List (List UInt8)) :=
  (readHeader data).bind fun b => (parseMagic b).bind fun m =>
    let h := Header.decode m.2 b
    (h.subcaches data).bind fun s =>
      match s with
      | none => .ok []
      | some s =>
        .ok (if h.symbolsUuid.isSome then s.suffixes ++ [[0x2e, 0x73, 0x79, 0x6d, 0x62, 0x6f, 0x6c, 0x73]] else s.suffixes)

/-- One subcache: header, UUID and mappings, src/read/macho/dyld_cache.rs:125-135 and 141-151. -/
def readSub (en : Endianness) (data uuid : List UInt8) : Res DyldFile :=
  (readHeader data).bind fun b =>
    if slice b 88 16 ≠ uuid then .err
    else ((Header.decode en b).mappings en data).bind fun m => .ok ⟨data, m⟩

/-- The loop over the subcaches (a `zip`), src/read/macho/dyld_cache.rs:125-134. -/
def readSubs (en : Endianness) : List (List UInt8) → List (List UInt8) → Res (List DyldFile)
  | d :: ds, u :: us => (readSub en d u).bind fun f => (readSubs en ds us).bind fun fs => .ok (f :: fs)
  | _, _ => .ok []

/-- The UUIDs of the subcaches, src/read/macho/dyld_cache.rs:120-124. -/
def SubCaches.uuids : SubCaches → List (List UInt8)
  | .v1 u => u
  | .v2 e => e.map (·.1)

/-- The UUIDs of the subcaches that are expected, src/read/macho/dyld_cache.rs:95-99 and 118-124: none if the header does not have them. -/
def uuidsOf : Option SubCaches → List (List UInt8)
  | some s => s.uuids
  | none => []

/-- Splitting off the file with the symbols, src/read/macho/dyld_cache.rs:105-112.  `split_last().unwrap()` panics on an empty list. -/
def splitSymbols (uuid : Option (List UInt8)) (subs : List (List UInt8)) : Res (Option (List UInt8 × List UInt8) × List (List UInt8)) :=
  match uuid with
  | some u => match subs.getLast? with
    | some d => .ok (some (d, u), subs.dropLast)
    | none => .panic
  | none => .ok (none, subs)

/-- The file with the symbols, src/read/macho/dyld_cache.rs:139-153, which is only checked. -/
def checkSymbols (en : Endianness) : Option (List UInt8 × List UInt8) → Res Unit
  | some (d, u) => (readSub en d u).bind fun _ => .ok ()
  | none => .ok ()

/-- `DyldCache::parse`, src/read/macho/dyld_cache.rs:87-163. -/
def Cache.parse (data : List UInt8) (subs : List (List UInt8)) : Res Cache :=
  (readHeader data).bind fun b => (parseMagic b).bind fun m =>
    let h := Header.decode m.2 b
    (h.mappings m.2 data).bind fun maps =>
      (h.subcaches data).bind fun info =>
        if subs.length ≠ (uuidsOf info).length + (if h.symbolsUuid.isSome then 1 else 0) then .err
        else
          (splitSymbols h.symbolsUuid subs).bind fun split =>
          (readSubs m.2 split.2 (uuidsOf info)).bind fun files =>
          (checkSymbols m.2 split.1).bind fun _ =>
          (h.images m.2 data).bind fun images => .ok ⟨m.2, data, ⟨data, maps⟩ :: files, images, m.1⟩

/-- `DyldCache::mappings`, src/read/macho/dyld_cache.rs:200-205: the mappings with the data they are in. -/
def Cache.mappings (c : Cache) : List (List UInt8 × Mapping) := c.files.flatMap fun f => f.mappings.map fun m => (f.data, m)

/-- `DyldFile::address_to_file_offset`, src/read/macho/dyld_cache.rs:249-258. -/
def addressToFileOffset : List Mapping → Nat → Option Nat
  | [], _ => none
  | m :: rest, address =>
    if m.address ≤ address ∧ address - m.address < m.size then
      if m.fileOffset + (address - m.address) < U64 then some (m.fileOffset + (address - m.address)) else none
    else addressToFileOffset rest address

/-- `DyldCache::data_and_offset_for_address`, src/read/macho/dyld_cache.rs:209-216; the first part of the result is the index of the file. -/
def findAddress : List DyldFile → Nat → Nat → Option (Nat × Nat)
  | [], _, _ => none
  | f :: rest, i, address =>
    match addressToFileOffset f.mappings address with
    | some o => some (i, o)
    | none => findAddress rest (i + 1) address

/-- `DyldCache::data_and_offset_for_address`. -/
def Cache.dataAndOffset (c : Cache) (address : Nat) : Option (Nat × Nat) := findAddress c.files 0 address

/-- `DyldCacheImageInfo::path`, src/read/macho/dyld_cache.rs:1079-1084, as used by `DyldCacheImage::path`, src/read/macho/dyld_cache.rs:310-315
(before the conversion to `str`). -/
def Cache.path (c : Cache) (i : ImageInfo) : Res (List UInt8) := ReadRef.readBytesAtUntil c.data i.pathFileOffset c.data.length 0

/-- `DyldCacheImage::image_data_and_offset`, src/read/macho/dyld_cache.rs:319-324. -/
def Cache.imageDataAndOffset (c : Cache) (i : ImageInfo) : Res (Nat × Nat) :=
  match c.dataAndOffset i.address with
  | some r => .ok r
  | none => .err

/-- `DyldCacheMapping::data`, src/read/macho/dyld_cache.rs:472-476. -/
def Mapping.data (m : Mapping) (file : List UInt8) : Res (List UInt8) := ReadRef.readBytesAt file m.fileOffset m.size

/-! ## Slide information -/

/-- `DyldCacheSlideInfo`, src/read/macho/dyld_cache.rs:546-562, with decoded fields (src/macho.rs:772-798, 800-811, 868-879). -/
inductive Slide where
  | none
  | v2 (pageSize deltaMask valueAdd : Nat) (starts extras : List Nat)
  | v3 (pageSize authValueAdd : Nat) (starts : List Nat)
  | v5 (pageSize valueAdd : Nat) (starts : List Nat)
  deriving DecidableEq, Repr

/-- `checked_add` of an offset, then `read_slice_at::<U16<E>>`. -/
def readU16s (en : Endianness) (data : List UInt8) (base offset count : Nat) : Res (List Nat) :=
  if base + offset < U64 then (readSliceAt data (base + offset) 2 count).bind fun l => .ok (l.map (rd en)) else .err

/-- `DyldCacheMappingAndSlideInfo::slide`, src/read/macho/dyld_cache.rs:1089-1165; for a mapping without slide info (version 1) there is
nothing to read (src/read/macho/dyld_cache.rs:483). -/
def Mapping.slideInfo (m : Mapping) (en : Endianness) (data : List UInt8) : Res Slide :=
  match m.slide with
  | .none => .ok .none
  | some (o, size) =>
    if size = 0 then .ok .none
    else (ReadRef.readBytesAt data o 4).bind fun v =>
      if rd en v = 2 then
        (ReadRef.readBytesAt data o 40).bind fun b =>
          (readU16s en data o (field en b 8 4) (field en b 12 4)).bind fun starts =>
            (readU16s en data o (field en b 16 4) (field en b 20 4)).bind fun extras =>
              .ok (.v2 (field en b 4 4) (field en b 24 8) (field en b 32 8) starts extras)
      else if rd en v = 3 then
        (ReadRef.readBytesAt data o 24).bind fun b =>
          (readU16s en data o 24 (field en b 8 4)).bind fun starts => .ok (.v3 (field en b 4 4) (field en b 16 8) starts)
      else if rd en v = 5 then
        (ReadRef.readBytesAt data o 24).bind fun b =>
          (readU16s en data o 24 (field en b 8 4)).bind fun starts => .ok (.v5 (field en b 4 4) (field en b 16 8) starts)
      else .err

/-- `DyldRelocation` and `DyldRelocationAuth`, src/read/macho/dyld_cache.rs:914-946. -/
structure Reloc where
  offset : Nat
  value : Nat
  auth : Option Auth
  deriving DecidableEq, Repr

/-! ### Versions 3 and 5 -/

/-- The part of `DyldCacheRelocationIteratorV3` (src/read/macho/dyld_cache.rs:725-742) or `DyldCacheRelocationIteratorV5`
(src/read/macho/dyld_cache.rs:825-842) that does not change; `v5` says which. -/
structure Ctx3 where
  v5 : Bool
  data : List UInt8
  en : Endianness
  fileOffset : Nat
  pageSize : Nat
  valueAdd : Nat
  starts : List Nat
  deriving DecidableEq, Repr

/-- The part that changes: `page` is `RelocationStateV3::Page` (or that of V5), otherwise the state is `Start`. -/
structure St3 where
  page : Bool
  startIndex : Nat
  offset : Nat
  deriving DecidableEq, Repr

/-- A pointer of version 3, src/read/macho/dyld_cache.rs:774-812 with src/macho.rs:816-866: the distance to the next one in units of 8
bytes, the value and the authentication. -/
def ptr3 (v valueAdd : Nat) : Nat × Nat × Option Auth :=
  ((v >>> 51) &&& (2 ^ 11 - 1),
    if (v >>> 63) &&& 1 != 0 then
      (((v &&& (2 ^ 32 - 1)) + valueAdd) % U64, some ⟨Fixup.keyOf ((v >>> 49) &&& 3), (v >>> 32) &&& 0xffff, (v >>> 48) &&& 1 != 0⟩)
    else ((v &&& (2 ^ 43 - 1)) ||| (((v >>> 43) &&& 0xff) <<< 56) % U64, none))

/-- A pointer of version 5, src/read/macho/dyld_cache.rs:874-904 with src/macho.rs:884-915. -/
def ptr5 (v valueAdd : Nat) : Nat × Nat × Option Auth :=
  ((v >>> 52) &&& 0x7ff,
    if (v >>> 63) &&& 1 != 0 then
      (((v &&& 0x3ffffffff) + valueAdd) % U64,
        some ⟨if (v >>> 51) &&& 1 != 0 then .da else .ia, (v >>> 34) &&& 0xffff, (v >>> 50) &&& 1 != 0⟩)
    else ((((v &&& 0x3ffffffff) + valueAdd) % U64) ||| (((v >>> 34) &&& 0xff) <<< 56) % U64, none))

/-- The state `Page` of `next`, src/read/macho/dyld_cache.rs:767-813 and 867-909. -/
def Ctx3.pageNext (c : Ctx3) (s : St3) : Res (Option Reloc) × St3 :=
  if c.fileOffset + s.offset < U64 then
    match ReadRef.readBytesAt c.data (c.fileOffset + s.offset) 8 with
    | .ok b =>
      let p := if c.v5 then ptr5 (rd c.en b) c.valueAdd else ptr3 (rd c.en b) c.valueAdd
      if p.1 = 0 then (.ok (some ⟨s.offset, p.2.1, p.2.2⟩), { s with page := false })
      else if s.offset + p.1 * 8 < U64 then (.ok (some ⟨s.offset, p.2.1, p.2.2⟩), { s with offset := s.offset + p.1 * 8 })
      else (.err, s)
    | .err => (.err, s)
    | .panic => (.panic, s)
  else (.err, s)

/-- The state `Start` of `next`, src/read/macho/dyld_cache.rs:752-766 and 852-866: the loop over the page starts from the index on. -/
def Ctx3.startNext (c : Ctx3) (s : St3) : Res (Option Reloc) × St3 :=
  match h : c.starts[s.startIndex]? with
  | none => (.ok none, s)
  | some start =>
    if start = 0xffff then c.startNext { s with startIndex := s.startIndex + 1 }
    else if U64 ≤ s.startIndex * c.pageSize + start then (.panic, s)
    else c.pageNext ⟨true, s.startIndex + 1, s.startIndex * c.pageSize + start⟩
termination_by c.starts.length - s.startIndex
decreasing_by
  have := (List.getElem?_eq_some_iff.1 h).1
  omega

/-- `next`, src/read/macho/dyld_cache.rs:749-816 and 849-912. -/
def Ctx3.next (c : Ctx3) (s : St3) : Res (Option Reloc) × St3 := if s.page then c.pageNext s else c.startNext s

/-! ### Version 2 -/

/-- `u64::trailing_zeros`. -/
def trailingZeros (m : Nat) : Nat := ((List.range 64).find? (m.testBit ·)).getD 64

/-- The part of `DyldCacheRelocationIteratorV2` (src/read/macho/dyld_cache.rs:612-636) that does not change. -/
structure Ctx2 where
  data : List UInt8
  en : Endianness
  fileOffset : Nat
  pageSize : Nat
  deltaMask : Nat
  valueAdd : Nat
  starts : List Nat
  extras : List Nat
  deriving DecidableEq, Repr

/-- `RelocationStateV2`, src/read/macho/dyld_cache.rs:603-609. -/
inductive State2 where
  | start | extra | page | pageExtra
  deriving DecidableEq, Repr

/-- The part that changes. -/
structure St2 where
  state : State2
  startIndex : Nat
  extraIndex : Nat
  pageOffset : Nat
  offset : Nat
  deriving DecidableEq, Repr

/-- A round of the loop of `next`: it returns, or the loop goes on. -/
inductive Step2 where
  | ret (r : Res (Option Reloc)) (s : St2)
  | go (s : St2)

/-- The states `Page` and `PageExtra`, src/read/macho/dyld_cache.rs:680-713.  A shift by 64 (of an empty mask) panics. -/
def Ctx2.pageStep (c : Ctx2) (s : St2) : Step2 :=
  if c.fileOffset + s.pageOffset < U64 then
    if c.fileOffset + s.pageOffset + s.offset < U64 then
      match ReadRef.readBytesAt c.data (c.fileOffset + s.pageOffset + s.offset) 8 with
      | .ok b =>
        let pointer := rd c.en b
        if 64 ≤ trailingZeros c.deltaMask then .ret .panic s
        else
          let next := (pointer &&& c.deltaMask) >>> trailingZeros c.deltaMask
          let value := pointer &&& (U64 - 1 - c.deltaMask)
          if next = 0 then
            let s' := { s with state := if s.state = .pageExtra then .extra else .start }
            if value ≠ 0 then .ret (.ok (some ⟨s.offset, (value + c.valueAdd) % U64, none⟩)) s' else .go s'
          else if next * 4 < U64 then
            if s.offset + next * 4 < U64 then
              let s' := { s with offset := s.offset + next * 4 }
              if value ≠ 0 then .ret (.ok (some ⟨s.offset, (value + c.valueAdd) % U64, none⟩)) s' else .go s'
            else .ret .err s
          else .ret .err s
      | .err => .ret .err s
      | .panic => .ret .panic s
    else .ret .err s
  else .ret .err s

/-- A round of the loop of `next`, src/read/macho/dyld_cache.rs:644-715. -/
def Ctx2.step (c : Ctx2) (s : St2) : Step2 :=
  match s.state with
  | .start =>
    match c.starts[s.startIndex]? with
    | none => .ret (.ok none) s
    | some start =>
      if U64 ≤ s.startIndex * c.pageSize then .ret .panic s
      else if start &&& 0x4000 ≠ 0 then .go { s with pageOffset := s.startIndex * c.pageSize, startIndex := s.startIndex + 1 }
      else if start &&& 0x8000 ≠ 0 then
        .go { s with pageOffset := s.startIndex * c.pageSize, startIndex := s.startIndex + 1, state := .extra, extraIndex := start &&& 0x3fff }
      else .go { s with pageOffset := s.startIndex * c.pageSize, startIndex := s.startIndex + 1, state := .page, offset := (start &&& 0x3fff) * 4 }
  | .extra =>
    match c.extras[s.extraIndex]? with
    | none => .ret (.ok none) s
    | some extra =>
      .go { s with extraIndex := s.extraIndex + 1, offset := (extra &&& 0x3fff) * 4, state := if extra &&& 0x8000 ≠ 0 then .page else .pageExtra }
  | .page => c.pageStep s
  | .pageExtra => c.pageStep s

/-- 0 in the state `Start`, and 1 in the others. -/
def State2.busy : State2 → Nat
  | .start => 0
  | _ => 1

/-- 1 in a chain, and 0 otherwise. -/
def State2.chain : State2 → Nat
  | .page => 1
  | .pageExtra => 1
  | _ => 0

/-- In a chain, the offset moves on. -/
theorem pageStep_go {c : Ctx2} {s s' : St2} (h : c.pageStep s = .go s') :
    s'.startIndex = s.startIndex ∧ s'.extraIndex = s.extraIndex ∧
      ((s.state = .pageExtra ∧ s'.state = .extra) ∨ (s.state ≠ .pageExtra ∧ s'.state = .start) ∨
        (s'.state = s.state ∧ s.offset < s'.offset ∧ s.offset < c.data.length)) := by
  unfold Ctx2.pageStep at h
  by_cases h1 : c.fileOffset + s.pageOffset < U64
  rotate_left
  · rw [if_neg h1] at h; cases h
  rw [if_pos h1] at h
  by_cases h2 : c.fileOffset + s.pageOffset + s.offset < U64
  rotate_left
  · rw [if_neg h2] at h; cases h
  rw [if_pos h2] at h
  have hin : ∀ b, ReadRef.readBytesAt c.data (c.fileOffset + s.pageOffset + s.offset) 8 = .ok b → s.offset < c.data.length := by
    intro b hb
    unfold ReadRef.readBytesAt at hb
    simp only [Nat.reduceEqDiff, if_false, List.length_drop] at hb
    by_cases k1 : c.data.length < c.fileOffset + s.pageOffset + s.offset
    · rw [if_pos k1] at hb; cases hb
    rw [if_neg k1] at hb
    by_cases k2 : c.data.length - (c.fileOffset + s.pageOffset + s.offset) < 8
    · rw [if_pos k2] at hb; cases hb
    omega
  cases hr : ReadRef.readBytesAt c.data (c.fileOffset + s.pageOffset + s.offset) 8 with
  | err => rw [hr] at h; cases h
  | panic => rw [hr] at h; cases h
  | ok b =>
    have hin := hin b hr
    rw [hr] at h
    simp only [] at h
    generalize (rd c.en b &&& c.deltaMask) >>> trailingZeros c.deltaMask = next at h
    generalize rd c.en b &&& (U64 - 1 - c.deltaMask) = value at h
    by_cases k1 : 64 ≤ trailingZeros c.deltaMask
    · rw [if_pos k1] at h; cases h
    rw [if_neg k1] at h
    by_cases k2 : next = 0
    · rw [if_pos k2] at h
      by_cases k3 : value ≠ 0
      · rw [if_pos k3] at h; cases h
      rw [if_neg k3] at h
      injection h with h
      subst h
      refine ⟨rfl, rfl, ?_⟩
      by_cases k4 : s.state = .pageExtra
      · exact .inl ⟨k4, if_pos k4⟩
      · exact .inr (.inl ⟨k4, if_neg k4⟩)
    rw [if_neg k2] at h
    by_cases k3 : next * 4 < U64
    rotate_left
    · rw [if_neg k3] at h; cases h
    rw [if_pos k3] at h
    by_cases k4 : s.offset + next * 4 < U64
    rotate_left
    · rw [if_neg k4] at h; cases h
    rw [if_pos k4] at h
    by_cases k5 : value ≠ 0
    · rw [if_pos k5] at h; cases h
    rw [if_neg k5] at h
    injection h with h
    subst h
    exact ⟨rfl, rfl, .inr (.inr ⟨rfl, by simp only []; omega, hin⟩)⟩

/-- `next`, src/read/macho/dyld_cache.rs:643-716.  The loop ends because every round moves on: to the next page, to the next extra start, or
along the chain. -/
def Ctx2.next (c : Ctx2) (s : St2) : Res (Option Reloc) × St2 :=
  match h : c.step s with
  | .ret r s' => (r, s')
  | .go s' => c.next s'
termination_by (c.starts.length - s.startIndex, s.state.busy, c.extras.length - s.extraIndex, s.state.chain, c.data.length - s.offset)
decreasing_by
  simp only [Prod.lex_def]
  unfold Ctx2.step at h
  split at h
  · rename_i hs
    split at h
    · cases h
    · rename_i x hx
      have hi := (List.getElem?_eq_some_iff.1 hx).1
      left
      split at h
      · cases h
      split at h
      · injection h with h; subst h; simp only []; omega
      split at h
      · injection h with h; subst h; simp only []; omega
      · injection h with h; subst h; simp only []; omega
  · rename_i hs
    split at h
    · cases h
    · rename_i x hx
      have hi := (List.getElem?_eq_some_iff.1 hx).1
      injection h with h
      subst h
      refine .inr ⟨rfl, .inr ⟨?_, .inl (by simp only []; omega)⟩⟩
      simp only [hs]
      by_cases hb : x &&& 0x8000 ≠ 0
      · rw [if_pos hb]; rfl
      · rw [if_neg hb]; rfl
  · rename_i hs
    obtain ⟨e1, e2, e3⟩ := pageStep_go h
    rw [e1, e2]
    rcases e3 with ⟨k, -⟩ | ⟨-, k⟩ | ⟨k1, k2, k3⟩
    · rw [hs] at k; cases k
    · rw [k, hs]; simp [State2.busy]
    · rw [k1]; refine .inr ⟨rfl, .inr ⟨rfl, .inr ⟨rfl, .inr ⟨rfl, ?_⟩⟩⟩⟩; omega
  · rename_i hs
    obtain ⟨e1, e2, e3⟩ := pageStep_go h
    rw [e1, e2]
    rcases e3 with ⟨-, k⟩ | ⟨k, -⟩ | ⟨k1, k2, k3⟩
    · rw [k, hs]; simp [State2.busy, State2.chain]
    · exact absurd hs k
    · rw [k1]; refine .inr ⟨rfl, .inr ⟨rfl, .inr ⟨rfl, .inr ⟨rfl, ?_⟩⟩⟩⟩; omega

/-! ### The iterator -/

/-- `DyldCacheRelocationIteratorVersion`, src/read/macho/dyld_cache.rs:592-601, with the changing part of the iterators. -/
inductive RelocIt where
  | none
  | v2 (c : Ctx2) (s : St2)
  | v3 (c : Ctx3) (s : St3)
  deriving DecidableEq, Repr

/-- `DyldCacheMapping::relocations`, src/read/macho/dyld_cache.rs:479-536. -/
def Mapping.relocations (m : Mapping) (en : Endianness) (data : List UInt8) : Res RelocIt :=
  (m.slideInfo en data).bind fun i =>
    .ok (match i with
    | .none => .none
    | .v2 pageSize deltaMask valueAdd starts extras => .v2 ⟨data, en, m.fileOffset, pageSize, deltaMask, valueAdd, starts, extras⟩ ⟨.start, 0, 0, 0, 0⟩
    | .v3 pageSize authValueAdd starts => .v3 ⟨false, data, en, m.fileOffset, pageSize, authValueAdd, starts⟩ ⟨false, 0, 0⟩
    | .v5 pageSize valueAdd starts => .v3 ⟨true, data, en, m.fileOffset, pageSize, valueAdd, starts⟩ ⟨false, 0, 0⟩)

/-- `DyldCacheRelocationIterator::next`, src/read/macho/dyld_cache.rs:580-588. -/
def RelocIt.next : RelocIt → Res (Option Reloc) × RelocIt
  | .none => (.ok Option.none, .none)
  | .v2 c s => ((c.next s).1, .v2 c (c.next s).2)
  | .v3 c s => ((c.next s).1, .v3 c (c.next s).2)

end Obj.Dyld

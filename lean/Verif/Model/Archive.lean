import Verif.Model.Bytes
import Verif.Model.Endian

/-!
# Model of `src/read/archive.rs` over a byte slice

The mutable `offset` cursor of the member parsers is returned with the member; after an error no caller looks at it
(`ArchiveFile::parse` propagates the error, the iterator sets the cursor to the end).  Error messages are dropped.
-/

namespace Obj.Archive

/-- `ArchiveKind`, src/read/archive.rs:31-53. -/
inductive Kind where
  | unknown | gnu | gnu64 | bsd | bsd64 | coff | aixBig | zos
  deriving DecidableEq, Repr

/-- `MAGIC`, `THIN_MAGIC`, `AIX_BIG_MAGIC`, `ZOS_MAGIC`, `TERMINATOR`, `ZOS_TERMINATOR`, src/archive.rs:9-30. -/
def magic : List UInt8 := [0x21, 0x3c, 0x61, 0x72, 0x63, 0x68, 0x3e, 0x0a]
def thinMagic : List UInt8 := [0x21, 0x3c, 0x74, 0x68, 0x69, 0x6e, 0x3e, 0x0a]
def aixBigMagic : List UInt8 := [0x3c, 0x62, 0x69, 0x67, 0x61, 0x66, 0x3e, 0x0a]
def zosMagic : List UInt8 := [0x5a, 0x4c, 0x81, 0x99, 0x83, 0x88, 0x6e, 0x15]
def terminator : List UInt8 := [0x60, 0x0a]
def zosTerminator : List UInt8 := [0x79, 0x15]

/-! ## Numeric fields -/

/-- The loop of `parse_u64_digits` (src/read/archive.rs:969-982) and of `parse_u64_ebcdic_digits` (985-1000):
`zero` is the code of the digit 0, `space` the code of the space.  `char::to_digit(radix)` and `ebcdic_to_digit`
(1008-1014) accept `zero..zero+radix` for the radices used (8 and 10). -/
def digitsLoop (zero space : UInt8) (radix : Nat) : (result : Nat) → List UInt8 → Option Nat
  | result, [] => some result
  | result, c :: cs =>
    if c = space then some result
    else if zero.toNat ≤ c.toNat ∧ c.toNat < zero.toNat + radix then
      if U64 ≤ result * radix then none
      else if U64 ≤ result * radix + (c.toNat - zero.toNat) then none
      else digitsLoop zero space radix (result * radix + (c.toNat - zero.toNat)) cs
    else none

/-- `parse_u64_digits`, src/read/archive.rs:965-982. -/
def parseDigits (digits : List UInt8) (radix : Nat) : Option Nat :=
  if digits.head? = some 0x20 then none else digitsLoop 0x30 0x20 radix 0 digits

/-- `parse_u64_ebcdic_digits`, src/read/archive.rs:984-1000. -/
def parseEbcdicDigits (digits : List UInt8) (radix : Nat) : Option Nat :=
  if digits.head? = some 0x40 then none else digitsLoop 0xf0 0x40 radix 0 digits

/-! ## Members -/

/-- `MemberHeader`, src/read/archive.rs:430-440. -/
inductive HeaderKind where
  | common | aixBig | zos
  deriving DecidableEq, Repr

/-- `ArchiveMember`, src/read/archive.rs:442-450; the header is kept as its bytes. -/
structure Member where
  headerKind : HeaderKind
  header : List UInt8
  name : List UInt8
  offset : Nat
  size : Nat
  deriving DecidableEq, Repr

/-- The fields of `archive::Header` (60 bytes, src/archive.rs:33-52). -/
def hdrName (h : List UInt8) : List UInt8 := slice h 0 16
def hdrDate (h : List UInt8) : List UInt8 := slice h 16 12
def hdrUid (h : List UInt8) : List UInt8 := slice h 28 6
def hdrGid (h : List UInt8) : List UInt8 := slice h 34 6
def hdrMode (h : List UInt8) : List UInt8 := slice h 40 8
def hdrSize (h : List UInt8) : List UInt8 := slice h 48 10
def hdrTerminator (h : List UInt8) : List UInt8 := slice h 58 2

/-- `memchr::memchr2(a, b, l)`: the index of the first byte equal to either (external crate, contract assumed). -/
def memchr2 (a b : UInt8) : List UInt8 → Option Nat
  | [] => none
  | x :: xs => if x = a ∨ x = b then some 0 else (memchr2 a b xs).map (· + 1)

/-- `parse_sysv_extended_name`, src/read/archive.rs:1016-1033. -/
def parseSysvName (digits names : List UInt8) : Res (List UInt8) := do
  let offset ← Res.ofOption (parseDigits digits 10)
  if names.length < offset then .err else
  let nameData := names.drop offset
  let len ← Res.ofOption (memchr2 0x0a 0 nameData)
  match nameData[len]? with
  | none => .panic
  | some c =>
    if c = 0x0a then
      if len < 1 then .err
      else match nameData[len - 1]? with
        | none => .panic
        | some s => if s ≠ 0x2f then .err else .ok (nameData.take (len - 1))
    else .ok (nameData.take len)

/-- The name up to the first NUL, src/read/archive.rs:1046-1049. -/
def trimNul (nameData : List UInt8) : List UInt8 :=
  match memchr 0 nameData with
  | some len => nameData.take len
  | none => nameData

/-- The common part of `parse_bsd_extended_name` (src/read/archive.rs:1037-1051) and
`zos_parse_bsd_extended_name` (1056-1070): given the parsed length, the name and the new offset and size. -/
def bsdName (len : Option Nat) (data : List UInt8) (offset size : Nat) : Res (List UInt8 × Nat × Nat) := do
  let len ← Res.ofOption len
  if size < len then .err else
  let nameData ← (ReadRef.readBytes data offset len).1
  .ok (trimNul nameData, (ReadRef.readBytes data offset len).2, size - len)

/-- `char::is_ascii_digit` of a byte, and `is_ebcdic_digit`. -/
def isDigit (zero c : UInt8) : Bool := zero.toNat ≤ c.toNat && c.toNat < zero.toNat + 10

/-- Index into a fixed array. -/
def idx (l : List UInt8) (i : Nat) : UInt8 := (l[i]?).getD 0

/-- The name of a common member, src/read/archive.rs:474-493, from the name field: name, file offset, file size. -/
def commonName (data names name : List UInt8) (offset size : Nat) : Res (List UInt8 × Nat × Nat) :=
  if idx name 0 = 0x2f ∧ isDigit 0x30 (idx name 1) then do
    let n ← parseSysvName (name.drop 1) names
    .ok (n, offset, size)
  else if name.take 3 = [0x23, 0x31, 0x2f] ∧ isDigit 0x30 (idx name 3) then
    bsdName (parseDigits (name.drop 3) 10) data offset size
  else if idx name 0 = 0x2f then
    .ok (name.take ((memchr 0x20 name).getD name.length), offset, size)
  else
    .ok (name.take (((memchr 0x2f name).or (memchr 0x20 name)).getD name.length), offset, size)

/-- Skip the file data and the padding byte, src/read/archive.rs:505-512 and 549-556. -/
def skipData (offset size : Nat) : Res Nat :=
  if U64 ≤ offset + size then .err
  else .ok (if size % 2 ≠ 0 then min (offset + size + 1) (U64 - 1) else offset + size)

/-- `ArchiveMember::parse`, src/read/archive.rs:456-520. -/
def parseCommon (data : List UInt8) (offset : Nat) (names : List UInt8) (thin : Bool) : Res (Member × Nat) := do
  let h ← (ReadRef.read data offset 60).1
  let offset := (ReadRef.read data offset 60).2
  if hdrTerminator h ≠ terminator then .err else
  let hsize ← Res.ofOption (parseDigits (hdrSize h) 10)
  let (name, fileOffset, fileSize) ← commonName data names (hdrName h) offset hsize
  if thin ∧ name ≠ [0x2f] ∧ name ≠ [0x2f, 0x2f] ∧ name ≠ [0x2f, 0x53, 0x59, 0x4d, 0x36, 0x34, 0x2f] then
    .ok (⟨.common, h, name, 0, fileSize⟩, offset)
  else do
    let next ← skipData offset hsize
    .ok (⟨.common, h, name, fileOffset, fileSize⟩, next)

/-- `ArchiveMember::parse_zos`, src/read/archive.rs:525-564. -/
def parseZos (data : List UInt8) (offset : Nat) : Res (Member × Nat) := do
  let h ← (ReadRef.read data offset 60).1
  let offset := (ReadRef.read data offset 60).2
  if hdrTerminator h ≠ zosTerminator then .err else
  let hsize ← Res.ofOption (parseEbcdicDigits (hdrSize h) 10)
  let name := hdrName h
  let (name, fileOffset, fileSize) ←
    (if name.take 3 = [0x7b, 0xf1, 0x61] ∧ isDigit 0xf0 (idx name 3) then
      bsdName (parseEbcdicDigits (name.drop 3) 10) data offset hsize
    else .ok (name.take ((memchr 0x40 name).getD name.length), offset, hsize) : Res (List UInt8 × Nat × Nat))
  let next ← skipData offset hsize
  .ok (⟨.zos, h, name, fileOffset, fileSize⟩, next)

/-- `ArchiveMember::parse_aixbig`, src/read/archive.rs:578-613.  `AixHeader` is 112 bytes: `size` at 0 (20 bytes),
`date` at 60, `uid` at 72, `gid` at 84, `mode` at 96 (12 bytes each) and `namlen` at 108 (4 bytes),
src/archive.rs:55-74. -/
def parseAixBig (data : List UInt8) (offset : Nat) : Res Member := do
  let h ← (ReadRef.read data offset 112).1
  let offset := (ReadRef.read data offset 112).2
  let nameLength ← Res.ofOption (parseDigits (slice h 108 4) 10)
  let name ← (ReadRef.readBytes data offset nameLength).1
  let offset := (ReadRef.readBytes data offset nameLength).2
  let offset := if offset % 2 ≠ 0 then min (offset + 1) (U64 - 1) else offset
  let term ← (ReadRef.readBytes data offset 2).1
  let offset := (ReadRef.readBytes data offset 2).2
  if term ≠ terminator then .err else
  let size ← Res.ofOption (parseDigits (slice h 0 20) 10)
  .ok ⟨.aixBig, h, name, offset, size⟩

/-- `ArchiveMember::parse_aixbig_index`, src/read/archive.rs:568-575. -/
def parseAixBigIndex (data index : List UInt8) : Res Member := do
  let offset ← Res.ofOption (parseDigits index 10)
  parseAixBig data offset

/-- `ArchiveMember::date`/`uid`/`gid`/`mode`, src/read/archive.rs:646-682. -/
def Member.date (m : Member) : Option Nat :=
  match m.headerKind with
  | .common => parseDigits (hdrDate m.header) 10
  | .aixBig => parseDigits (slice m.header 60 12) 10
  | .zos => parseEbcdicDigits (hdrDate m.header) 10
def Member.uid (m : Member) : Option Nat :=
  match m.headerKind with
  | .common => parseDigits (hdrUid m.header) 10
  | .aixBig => parseDigits (slice m.header 72 12) 10
  | .zos => parseEbcdicDigits (hdrUid m.header) 10
def Member.gid (m : Member) : Option Nat :=
  match m.headerKind with
  | .common => parseDigits (hdrGid m.header) 10
  | .aixBig => parseDigits (slice m.header 84 12) 10
  | .zos => parseEbcdicDigits (hdrGid m.header) 10
def Member.mode (m : Member) : Option Nat :=
  match m.headerKind with
  | .common => parseDigits (hdrMode m.header) 8
  | .aixBig => parseDigits (slice m.header 96 12) 8
  | .zos => parseEbcdicDigits (hdrMode m.header) 8

/-- `ArchiveMember::data`, src/read/archive.rs:705-712 with `is_thin` (697-699). -/
def Member.data (m : Member) (data : List UInt8) : Res (List UInt8) :=
  if m.offset = 0 then .ok [] else ReadRef.readBytesAt data m.offset m.size

/-! ## The file -/

/-- `Members`, src/read/archive.rs:55-69. -/
inductive Members where
  | common (offset endOffset : Nat)
  | aixBig (index : List (List UInt8))
  | zos (offset endOffset : Nat)
  deriving DecidableEq, Repr

/-- `ArchiveFile`, src/read/archive.rs:71-80. -/
structure File where
  data : List UInt8
  kind : Kind
  members : Members
  symbols : Nat × Nat
  names : List UInt8
  thin : Bool
  deriving DecidableEq, Repr

/-- The closure `parse_member`, src/read/archive.rs:119-125: `none` at the end of the data. -/
def parseMember (data names : List UInt8) (thin : Bool) (tail : Nat) : Res (Option (Member × Nat)) :=
  if tail < data.length then (parseCommon data tail names thin).bind fun r => .ok (some r) else .ok none

/-- What the special members determine: kind, symbol table, names table and offset of the first ordinary member. -/
structure Special where
  kind : Kind
  symbols : Nat × Nat
  names : List UInt8
  membersOffset : Nat
  deriving DecidableEq, Repr

/-- The optional names table after a GNU symbol table, src/read/archive.rs:177-187. -/
def gnuNames (data : List UInt8) (thin : Bool) (s : Special) : Res Special := do
  match ← parseMember data [] thin s.membersOffset with
  | some (m, tail) =>
    if m.name = [0x2f, 0x2f] then do
      let names ← m.data data
      .ok { s with names := names, membersOffset := tail }
    else .ok s
  | none => .ok s

/-- COFF: after the second linker member, an optional names table and then an optional EC symbol table,
src/read/archive.rs:153-174. -/
def coffRest (data : List UInt8) (thin : Bool) (s : Special) : Res Special := do
  match ← parseMember data [] thin s.membersOffset with
  | some (m, tail) =>
    if m.name = [0x2f, 0x2f] then do
      let names ← m.data data
      match ← parseMember data names thin tail with
      | some (m', tail') =>
        if m'.name = [0x2f, 0x3c, 0x45, 0x43, 0x53, 0x59, 0x4d, 0x42, 0x4f, 0x4c, 0x53, 0x3e, 0x2f] then
          .ok { s with names := names, membersOffset := tail' }
        else .ok { s with names := names, membersOffset := tail }
      | none => .ok { s with names := names, membersOffset := tail }
    else if m.name = [0x2f, 0x3c, 0x45, 0x43, 0x53, 0x59, 0x4d, 0x42, 0x4f, 0x4c, 0x53, 0x3e, 0x2f] then
      .ok { s with membersOffset := tail }
    else .ok s
  | none => .ok s

/-- The names `__.SYMDEF`, `__.SYMDEF SORTED`, `__.SYMDEF_64`, `__.SYMDEF_64 SORTED` as bytes. -/
def symdef : List UInt8 := [0x5f, 0x5f, 0x2e, 0x53, 0x59, 0x4d, 0x44, 0x45, 0x46]
def sorted : List UInt8 := [0x20, 0x53, 0x4f, 0x52, 0x54, 0x45, 0x44]
def symdef64 : List UInt8 := symdef ++ [0x5f, 0x36, 0x34]

/-- The special members of a common archive, src/read/archive.rs:142-205. -/
def special (data : List UInt8) (thin : Bool) (start : Nat) : Res Special := do
  match ← parseMember data [] thin start with
  | none => .ok ⟨.unknown, (0, 0), [], start⟩
  | some (m, tail) =>
    if m.name = [0x2f] then do
      let s : Special := ⟨.gnu, (m.offset, m.size), [], tail⟩
      match ← parseMember data [] thin tail with
      | some (m', tail') =>
        if m'.name = [0x2f, 0x2f] then do
          let names ← m'.data data
          .ok { s with names := names, membersOffset := tail' }
        else if m'.name = [0x2f] then coffRest data thin ⟨.coff, (m'.offset, m'.size), [], tail'⟩
        else .ok s
      | none => .ok s
    else if m.name = [0x2f, 0x53, 0x59, 0x4d, 0x36, 0x34, 0x2f] then
      gnuNames data thin ⟨.gnu64, (m.offset, m.size), [], tail⟩
    else if m.name = [0x2f, 0x2f] then do
      let names ← m.data data
      .ok ⟨.gnu, (0, 0), names, tail⟩
    else if m.name = symdef ∨ m.name = symdef ++ sorted then
      .ok ⟨.bsd, (m.offset, m.size), [], tail⟩
    else if m.name = symdef64 ∨ m.name = symdef64 ++ sorted then
      .ok ⟨.bsd64, (m.offset, m.size), [], tail⟩
    else .ok ⟨.unknown, (0, 0), [], start⟩

/-- `ArchiveFile::parse_aixbig`, src/read/archive.rs:213-279.  `AixFileHeader` is 128 bytes with `memoff` at 8,
`gstoff` at 28 and `gst64off` at 48 (20 bytes each), src/archive.rs:76-94.  The `debug_assert_eq!` on the magic
repeats the caller's check and is not modelled. -/
def parseAixBigFile (data : List UInt8) : Res File := do
  let h ← (ReadRef.read data 0 128).1
  let symtbl64 ← Res.ofOption (parseDigits (slice h 48 20) 10)
  let symbols ←
    (if 0 < symtbl64 then (parseAixBig data symtbl64).bind fun m => .ok (m.offset, m.size)
    else do
      let symtbl ← Res.ofOption (parseDigits (slice h 28 20) 10)
      if 0 < symtbl then (parseAixBig data symtbl).bind fun m => .ok (m.offset, m.size)
      else .ok (0, 0) : Res (Nat × Nat))
  let memberTable ← Res.ofOption (parseDigits (slice h 8 20) 10)
  if memberTable = 0 then .ok ⟨data, .aixBig, .aixBig [], symbols, [], false⟩ else
  let m ← parseAixBig data memberTable
  let d ← m.data data
  let countBytes ← (Bytes.readSlice d 1 20).1
  let count ← Res.ofOption (parseDigits countBytes.flatten 10)
  let index ← (Bytes.readSlice (Bytes.readSlice d 1 20).2 20 count).1
  .ok ⟨data, .aixBig, .aixBig index, symbols, [], false⟩

/-- `ArchiveFile::parse_zos`, src/read/archive.rs:282-319. -/
def parseZosFile (data : List UInt8) : Res File := do
  let _ ← (ReadRef.readBytes data 0 8).1
  if 8 < data.length then do
    let (m, tail) ← parseZos data 8
    if m.name = [0x6d, 0x6d, 0x4b, 0xe2, 0xe8, 0xd4, 0xc4, 0xc5, 0xc6] then
      .ok ⟨data, .zos, .zos tail data.length, (m.offset, m.size), [], false⟩
    else .ok ⟨data, .zos, .zos 8 data.length, (0, 0), [], false⟩
  else .ok ⟨data, .zos, .zos 8 data.length, (0, 0), [], false⟩

/-- `ArchiveFile::parse`, src/read/archive.rs:83-211. -/
def parse (data : List UInt8) : Res File := do
  let m ← (ReadRef.readBytes data 0 8).1
  if m = aixBigMagic then parseAixBigFile data
  else if m = zosMagic then parseZosFile data
  else if m = thinMagic ∨ m = magic then do
    let thin : Bool := m = thinMagic
    let s ← special data thin 8
    .ok ⟨data, s.kind, .common s.membersOffset data.length, s.symbols, s.names, thin⟩
  else .err

/-! ## Iterating the members -/

/-- The fixed part of `ArchiveMemberIterator`; `Members` is the part that changes. -/
structure Iter where
  data : List UInt8
  names : List UInt8
  thin : Bool

/-- `ArchiveFile::members`, src/read/archive.rs:336-343. -/
def File.iter (f : File) : Iter := ⟨f.data, f.names, f.thin⟩

/-- `ArchiveMemberIterator::next`, src/read/archive.rs:393-427. -/
def next (it : Iter) : Members → Res (Option Member) × Members
  | .common offset endOffset =>
    if endOffset ≤ offset then (.ok none, .common offset endOffset)
    else match parseCommon it.data offset it.names it.thin with
      | .ok (m, o) => (.ok (some m), .common o endOffset)
      | .err => (.err, .common endOffset endOffset)
      | .panic => (.panic, .common offset endOffset)
  | .aixBig [] => (.ok none, .aixBig [])
  | .aixBig (first :: rest) =>
    match parseAixBigIndex it.data first with
    | .ok m => (.ok (some m), .aixBig rest)
    | .err => (.err, .aixBig [])
    | .panic => (.panic, .aixBig rest)
  | .zos offset endOffset =>
    if endOffset ≤ offset then (.ok none, .zos offset endOffset)
    else match parseZos it.data offset with
      | .ok (m, o) => (.ok (some m), .zos o endOffset)
      | .err => (.err, .zos endOffset endOffset)
      | .panic => (.panic, .zos offset endOffset)

/-- `ArchiveFile::member`, src/read/archive.rs:346-367. -/
def File.member (f : File) (member : Nat) : Res Member :=
  match f.members with
  | .common offset endOffset =>
    if member < offset ∨ endOffset ≤ member then .err
    else (parseCommon f.data member f.names f.thin).bind fun r => .ok r.1
  | .aixBig _ => parseAixBig f.data member
  | .zos offset endOffset =>
    if member < offset ∨ endOffset ≤ member then .err
    else (parseZos f.data member).bind fun r => .ok r.1

/-! ## Symbols -/

/-- `SymbolIteratorInternal`, src/read/archive.rs:723-783; offsets are already decoded (decoding is pointwise). -/
inductive Symbols where
  | none
  | gnu (offsets : List Nat) (names : List UInt8)
  | bsd (entries : List (Nat × Nat)) (names : List UInt8)
  | coff (members : List Nat) (indices : List Nat) (names : List UInt8)
  deriving DecidableEq, Repr

/-- A pair of little-endian integers of width `w`. -/
def pairOf (w : Nat) (b : List UInt8) : Nat × Nat := (rd .little (b.take w), rd .little (b.drop w))

/-- Read an unsigned integer of width `w` and advance. -/
def readInt (e : Endianness) (w : Nat) (d : List UInt8) : Res Nat × List UInt8 :=
  match Bytes.read d w with
  | (.ok b, d') => (.ok (rd e b), d')
  | (.err, d') => (.err, d')
  | (.panic, d') => (.panic, d')

/-- The GNU arm of `ArchiveSymbolIterator::new`, src/read/archive.rs:795-810; `w` is 4 or 8. -/
def newGnu (w : Nat) (d : List UInt8) : Res Symbols := do
  let count ← (readInt .big w d).1
  let offsets ← (Bytes.readSlice (readInt .big w d).2 w count).1
  .ok (.gnu (offsets.map (rd .big)) (Bytes.readSlice (readInt .big w d).2 w count).2)

/-- The BSD arm, src/read/archive.rs:811-830. -/
def newBsd (w : Nat) (d : List UInt8) : Res Symbols := do
  let size ← (readInt .little w d).1
  let offsets ← (Bytes.readSlice (readInt .little w d).2 (2 * w) (size / (2 * w))).1
  let d2 := (Bytes.readSlice (readInt .little w d).2 (2 * w) (size / (2 * w))).2
  let namesSize ← (readInt .little w d2).1
  let names ← (Bytes.readBytes (readInt .little w d2).2 namesSize).1
  .ok (.bsd (offsets.map (pairOf w)) names)

/-- The COFF arm, src/read/archive.rs:831-841. -/
def newCoff (d : List UInt8) : Res Symbols := do
  let mc ← (readInt .little 4 d).1
  let members ← (Bytes.readSlice (readInt .little 4 d).2 4 mc).1
  let d2 := (Bytes.readSlice (readInt .little 4 d).2 4 mc).2
  let ic ← (readInt .little 4 d2).1
  let indices ← (Bytes.readSlice (readInt .little 4 d2).2 2 ic).1
  let d3 := (Bytes.readSlice (readInt .little 4 d2).2 2 ic).2
  .ok (.coff (members.map (rd .little)) (indices.map (rd .little)) d3)

/-- `ArchiveSymbolIterator::new`, src/read/archive.rs:786-848. -/
def newSymbols (kind : Kind) (data : List UInt8) (offset size : Nat) : Res Symbols := do
  let d ← ReadRef.readBytesAt data offset size
  match kind with
  | .unknown => .ok .none
  | .gnu => newGnu 4 d
  | .gnu64 => newGnu 8 d
  | .bsd => newBsd 4 d
  | .bsd64 => newBsd 8 d
  | .coff => newCoff d
  | .aixBig => .ok .none
  | .zos => .ok .none

/-- `ArchiveFile::symbols`, src/read/archive.rs:370-378. -/
def File.symbolIter (f : File) : Res (Option Symbols) :=
  if f.symbols = (0, 0) then .ok none
  else (newSymbols f.kind f.data f.symbols.1 f.symbols.2).bind fun s => .ok (some s)

/-- `ArchiveSymbolIterator::next`, src/read/archive.rs:853-924: item is name and member offset.
The iterator is a plain `Iterator<Item = Result>`: an error does not end it. -/
def nextSymbol : Symbols → Option (Res (List UInt8 × Nat)) × Symbols
  | .none => (Option.none, .none)
  | .gnu [] names => (Option.none, .gnu [] names)
  | .gnu (o :: os) names =>
    (some ((Bytes.readString names).1.bind fun n => .ok (n, o)), .gnu os (Bytes.readString names).2)
  | .bsd [] names => (Option.none, .bsd [] names)
  | .bsd (e :: es) names => (some ((Bytes.readStringAt names e.1).bind fun n => .ok (n, e.2)), .bsd es names)
  | .coff members [] names => (Option.none, .coff members [] names)
  | .coff members (i :: is) names =>
    (some (match members[(i + U16 - 1) % U16]? with
      | some m => (Bytes.readString names).1.bind fun n => .ok (n, m)
      | Option.none => .err), .coff members is (Bytes.readString names).2)

/-- Collecting the symbol iterator. -/
def collectSymbols : Nat → Symbols → List (Res (List UInt8 × Nat))
  | 0, _ => []
  | n + 1, s =>
    match nextSymbol s with
    | (some r, s') => r :: collectSymbols n s'
    | (Option.none, _) => []

end Obj.Archive

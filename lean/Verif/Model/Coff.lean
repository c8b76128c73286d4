import Verif.Model.Elf
import Verif.Model.WriteString
import Verif.Model.FileKind

/-!
# Model of COFF objects

* `src/write/coff/writer.rs`: names, section headers, relocations, symbols, auxiliary symbols, string table;
* `src/read/coff/{file,section,symbol,comdat}.rs`: headers, section names, relocations, symbols, COMDAT groups.

All integers of the format are little endian.
-/

namespace Obj.Coff
open Obj Obj.Elf

/-! ## File header -/

/-- `pe::ImageFileHeader`, src/pe.rs:325-333 (20 bytes). -/
structure FileHeader where
  machine : Nat
  numberOfSections : Nat
  timeDateStamp : Nat
  pointerToSymbolTable : Nat
  numberOfSymbols : Nat
  sizeOfOptionalHeader : Nat
  characteristics : Nat
  deriving DecidableEq, Repr

/-- The image of the file header, src/pe.rs:325-333; written by `write_file_header`, src/write/coff/writer.rs:129-150. -/
def FileHeader.encode (h : FileHeader) : List UInt8 :=
  Obj.encode .little [(2, h.machine), (2, h.numberOfSections), (4, h.timeDateStamp), (4, h.pointerToSymbolTable),
    (4, h.numberOfSymbols), (2, h.sizeOfOptionalHeader), (2, h.characteristics)]

/-- The fields of a file header, src/pe.rs:325-333. -/
def FileHeader.decode (img : List UInt8) : FileHeader :=
  ⟨field .little img 0 2, field .little img 2 2, field .little img 4 4, field .little img 8 4, field .little img 12 4,
   field .little img 16 2, field .little img 18 2⟩

/-- The values of `CoffHeader` used by the readers, src/read/coff/file.rs:314-325. -/
structure Header where
  big : Bool
  machine : Nat
  numberOfSections : Nat
  pointerToSymbolTable : Nat
  numberOfSymbols : Nat
  deriving DecidableEq, Repr

/-- `CoffHeader::parse` for `ImageFileHeader`, src/read/coff/file.rs:390-403: the header and the offset of the sections. -/
def parseSmall (data : List UInt8) (offset : Nat) : Res (Header × Nat) :=
  match ReadRef.read data offset 20 with
  | (.ok img, o) =>
    let h := FileHeader.decode img
    if U64 ≤ o + h.sizeOfOptionalHeader then .err
    else .ok (⟨false, h.machine, h.numberOfSections, h.pointerToSymbolTable, h.numberOfSymbols⟩, o + h.sizeOfOptionalHeader)
  | (.err, _) => .err
  | (.panic, _) => .panic

/-- `CoffHeader::parse` for `AnonObjectHeaderBigobj` (56 bytes, src/pe.rs:765-792), src/read/coff/file.rs:435-451. -/
def parseBig (data : List UInt8) (offset : Nat) : Res (Header × Nat) :=
  match ReadRef.read data offset 56 with
  | (.ok img, o) =>
    if field .little img 0 2 ≠ 0 ∨ field .little img 2 2 ≠ 0xffff ∨ field .little img 4 2 < 2 ∨
        (img.drop 12).take 16 ≠ bigobjClassId then .err
    else .ok (⟨true, field .little img 6 2, field .little img 44 4, field .little img 48 4, field .little img 52 4⟩, o)
  | (.err, _) => .err
  | (.panic, _) => .panic

/-- `CoffHeader::parse`. -/
def parseHeader (big : Bool) (data : List UInt8) (offset : Nat) : Res (Header × Nat) :=
  if big then parseBig data offset else parseSmall data offset

/-! ## Names -/

/-- `Name`, src/write/coff/writer.rs:483-488. -/
inductive Name where
  | short (name : List UInt8)
  | long (id : Nat)
  deriving DecidableEq, Repr

/-- `Writer::add_name`, src/write/coff/writer.rs:436-444. -/
def addName (t : StrTab) (name : List UInt8) : Name × StrTab :=
  if 8 < name.length then
    let r := t.add name
    (.long r.1, r.2)
  else (.short (name ++ List.replicate (8 - name.length) 0), t)

/-- The `while` loop of `write_section_header`, src/write/coff/writer.rs:191-196; `acc` is the last `len` bytes of the
array of 7, so that `name[6 - len]` is the byte before it. -/
def decLoop (off : Nat) (acc : List UInt8) : Res (List UInt8) :=
  if h : off = 0 then .ok acc
  else if 7 ≤ acc.length then .panic
  else decLoop (off / 10) (UInt8.ofNat (48 + off % 10) :: acc)
  termination_by off
  decreasing_by exact Nat.div_lt_self (Nat.pos_of_ne_zero h) (by decide)

/-- The base 64 digit, src/write/coff/writer.rs:207-214. -/
def b64Char (rem : Nat) : UInt8 :=
  if rem ≤ 25 then UInt8.ofNat (65 + rem)
  else if rem ≤ 51 then UInt8.ofNat (97 + rem - 26)
  else if rem ≤ 61 then UInt8.ofNat (48 + rem - 52)
  else if rem = 62 then 43
  else 47

/-- The `for` loop, src/write/coff/writer.rs:204-216: `name[7 - i]` for `i` from 0 to 5. -/
def b64Loop : Nat → Nat → List UInt8 → List UInt8
  | 0, _, acc => acc
  | n + 1, off, acc => b64Loop n (off / 64) (b64Char (off % 64) :: acc)

/-- The name of a section header whose name is at an offset of the string table, src/write/coff/writer.rs:182-218. -/
def longName (off : Nat) : Res (List UInt8) :=
  if off ≤ 9999999 then
    (if off = 0 then .ok [48] else decLoop off []).bind fun digits =>
    .ok (47 :: digits ++ List.replicate (7 - digits.length) 0)
  else .ok (47 :: 47 :: b64Loop 6 off [])

/-- The `name` field of a section header, src/write/coff/writer.rs:180-219. -/
def sectionName (t : StrTab) : Name → Res (List UInt8)
  | .short name => .ok name
  | .long id => (t.getOffset id).bind longName

/-- The `name` field of a symbol, src/write/coff/writer.rs:336-342. -/
def symbolName (t : StrTab) : Name → Res (List UInt8)
  | .short name => .ok name
  | .long id => (t.getOffset id).bind fun off => .ok (List.replicate 4 0 ++ wr .little 4 off)

/-- The base 64 loop of `name_offset`, src/read/coff/section.rs:476-487, in `u64`. -/
def b64Offset : List UInt8 → Nat → Res Nat
  | [], offset => .ok offset
  | b :: bs, offset =>
    let b := b.toNat
    if 65 ≤ b ∧ b ≤ 90 then b64Offset bs (offset * 64 + (b - 65))
    else if 97 ≤ b ∧ b ≤ 122 then b64Offset bs (offset * 64 + (b - 97 + 26))
    else if 48 ≤ b ∧ b ≤ 57 then b64Offset bs (offset * 64 + (b - 48 + 52))
    else if b = 43 then b64Offset bs (offset * 64 + 62)
    else if b = 47 then b64Offset bs (offset * 64 + 63)
    else .err

/-- The decimal loop of `name_offset`, src/read/coff/section.rs:493-501, in `u32`. -/
def decOffset : List UInt8 → Nat → Res Nat
  | [], offset => .ok offset
  | b :: bs, offset =>
    if 48 ≤ b.toNat ∧ b.toNat ≤ 57 then
      if U32 ≤ offset * 10 + (b.toNat - 48) then .panic else decOffset bs (offset * 10 + (b.toNat - 48))
    else if b = 0 then .ok offset
    else .err

/-- `ImageSectionHeader::name_offset`, src/read/coff/section.rs:469-504, for the 8 bytes of the name. -/
def nameOffset (name : List UInt8) : Res (Option Nat) :=
  match name with
  | b0 :: b1 :: rest =>
    if b0 ≠ 47 then .ok none
    else if b1 = 47 then
      (b64Offset rest 0).bind fun offset => if offset < U32 then .ok (some offset) else .err
    else (decOffset (b1 :: rest) 0).bind fun offset => .ok (some offset)
  | _ => .panic

/-- The bytes up to the first NUL, or all of them: `raw_name`, src/read/coff/section.rs:523-529, and the inline symbol name
and file name, src/read/coff/symbol.rs:562-565 and 141-144. -/
def untilNul (bytes : List UInt8) : List UInt8 :=
  match memchr 0 bytes with
  | some n => bytes.take n
  | none => bytes

/-- `ImageSectionHeader::name`, src/read/coff/section.rs:509-520. -/
def readSectionName (strings : StrTable) (data : List UInt8) (name : List UInt8) : Res (List UInt8) :=
  (nameOffset name).bind fun o =>
  match o with
  | some offset => strings.get data offset
  | none => .ok (untilNul name)

/-- `Symbol::name`, src/read/coff/symbol.rs:549-567, for the 8 bytes of the name. -/
def readSymbolName (strings : StrTable) (data : List UInt8) (name : List UInt8) : Res (List UInt8) :=
  match name with
  | b0 :: _ =>
    if b0 = 0 then strings.get data (field .little name 4 4)
    else .ok (untilNul name)
  | [] => .panic

/-! ## Section headers -/

/-- `pe::ImageSectionHeader`, src/pe.rs:802-813 (40 bytes). -/
structure Section where
  name : List UInt8
  virtualSize : Nat
  virtualAddress : Nat
  sizeOfRawData : Nat
  pointerToRawData : Nat
  pointerToRelocations : Nat
  pointerToLinenumbers : Nat
  numberOfRelocations : Nat
  numberOfLinenumbers : Nat
  characteristics : Nat
  deriving DecidableEq, Repr

/-- The image of a section header, src/pe.rs:802-813. -/
def Section.encode (s : Section) : List UInt8 :=
  s.name ++ Obj.encode .little [(4, s.virtualSize), (4, s.virtualAddress), (4, s.sizeOfRawData), (4, s.pointerToRawData),
    (4, s.pointerToRelocations), (4, s.pointerToLinenumbers), (2, s.numberOfRelocations), (2, s.numberOfLinenumbers),
    (4, s.characteristics)]

/-- The fields of a section header, src/pe.rs:802-813. -/
def Section.decode (img : List UInt8) : Section :=
  ⟨img.take 8, field .little img 8 4, field .little img 12 4, field .little img 16 4, field .little img 20 4,
   field .little img 24 4, field .little img 28 4, field .little img 32 2, field .little img 34 2, field .little img 36 4⟩

/-- The writer's `SectionHeader`, src/write/coff/writer.rs:507-517. -/
structure WSection where
  name : Name
  sizeOfRawData : Nat
  pointerToRawData : Nat
  pointerToRelocations : Nat
  pointerToLinenumbers : Nat
  numberOfRelocations : Nat
  numberOfLinenumbers : Nat
  characteristics : Nat
  deriving DecidableEq, Repr

/-- `Writer::write_section_header`, src/write/coff/writer.rs:163-221. -/
def writeSection (t : StrTab) (s : WSection) : Res (List UInt8) :=
  (sectionName t s.name).bind fun name =>
  .ok (Section.encode ⟨name, 0, 0, s.sizeOfRawData, s.pointerToRawData, s.pointerToRelocations, s.pointerToLinenumbers,
    if 0xffff < s.numberOfRelocations then 0xffff else s.numberOfRelocations % U16, 0, s.characteristics⟩)

/-- `SectionTable::parse`, src/read/coff/section.rs:29-38. -/
def parseSections (h : Header) (data : List UInt8) (offset : Nat) : Res (List Section) :=
  (readSliceAt data offset 40 h.numberOfSections).bind fun imgs => .ok (imgs.map Section.decode)

/-- `SectionTable::section`, src/read/coff/section.rs:73-77; `0usize.wrapping_sub(1)` is not a valid index. -/
def sectionAt (ss : List Section) (index : Nat) : Res Section :=
  if index = 0 then .err else Res.ofOption ss[index - 1]?

/-- `SectionTable::section_by_name`, src/read/coff/section.rs:84-91: the 1-based index and the section. -/
def sectionByName (ss : List Section) (strings : StrTable) (data name : List UInt8) : Option (Nat × Section) :=
  ((ss.zipIdx 1).find? fun p => readSectionName strings data p.1.name == .ok name).map fun p => (p.2, p.1)

/-- `SectionTable::max_section_file_offset`, src/read/coff/section.rs:97-113; the sum of two `u32` is a `u64`. -/
def maxFileOffset (ss : List Section) : Nat :=
  ss.foldl (fun max s => if max < s.pointerToRawData + s.sizeOfRawData then s.pointerToRawData + s.sizeOfRawData else max) 0

/-- `coff_file_range`, src/read/coff/section.rs:534-548; `IMAGE_SCN_CNT_UNINITIALIZED_DATA = 0x80`. -/
def Section.fileRange (s : Section) : Option (Nat × Nat) :=
  if s.characteristics &&& 0x80 = 0x80 then none else some (s.pointerToRawData, s.sizeOfRawData)

/-- `coff_data`, src/read/coff/section.rs:553-559. -/
def Section.data (s : Section) (data : List UInt8) : Res (List UInt8) :=
  match s.fileRange with
  | some (offset, size) => ReadRef.readBytesAt data offset size
  | none => .ok []

/-- `SectionFlags::with_align`, src/pe.rs:829-831. -/
def withAlign (flags align : Nat) : Nat := (flags &&& (0xffffffff - 0xf00000)) ||| (align &&& 0xf00000)

/-- The alignment flags written for a section, src/write/coff/object.rs:643-666; `none` is an error. -/
def alignFlags (align : Nat) : Option Nat :=
  if align = 1 then some 0x100000 else if align = 2 then some 0x200000 else if align = 4 then some 0x300000
  else if align = 8 then some 0x400000 else if align = 16 then some 0x500000 else if align = 32 then some 0x600000
  else if align = 64 then some 0x700000 else if align = 128 then some 0x800000 else if align = 256 then some 0x900000
  else if align = 512 then some 0xa00000 else if align = 1024 then some 0xb00000 else if align = 2048 then some 0xc00000
  else if align = 4096 then some 0xd00000 else if align = 8192 then some 0xe00000 else none

/-- `coff_alignment`, src/read/coff/section.rs:564-582. -/
def coffAlignment (characteristics : Nat) : Nat :=
  let a := characteristics &&& 0xf00000
  if a = 0x100000 then 1 else if a = 0x200000 then 2 else if a = 0x300000 then 4 else if a = 0x400000 then 8
  else if a = 0x500000 then 16 else if a = 0x600000 then 32 else if a = 0x700000 then 64 else if a = 0x800000 then 128
  else if a = 0x900000 then 256 else if a = 0xa00000 then 512 else if a = 0xb00000 then 1024 else if a = 0xc00000 then 2048
  else if a = 0xd00000 then 4096 else if a = 0xe00000 then 8192 else 16

/-! ## Relocations -/

/-- `pe::ImageRelocation`, src/pe.rs:1270-1275 (10 bytes), and the writer's `Relocation`. -/
structure Reloc where
  virtualAddress : Nat
  symbol : Nat
  type : Nat
  deriving DecidableEq, Repr

/-- The image of a relocation, src/pe.rs:1270-1275; `write_relocation`, src/write/coff/writer.rs:301-308. -/
def Reloc.encode (r : Reloc) : List UInt8 := Obj.encode .little [(4, r.virtualAddress), (4, r.symbol), (2, r.type)]

/-- The fields of a relocation. -/
def Reloc.decode (img : List UInt8) : Reloc := ⟨field .little img 0 4, field .little img 4 4, field .little img 8 2⟩

/-- `reserve_relocations`, src/write/coff/writer.rs:273-284: the number of bytes reserved. -/
def relocationsLen (count : Nat) : Nat :=
  if count = 0 then 0 else if 0xffff < count then (count + 1) * 10 else count * 10

/-- `write_relocations_count`, src/write/coff/writer.rs:289-298; `count as u32 + 1` is checked in a debug build. -/
def relocationsCount (count : Nat) : Res (List UInt8) :=
  if 0xffff < count then
    if U32 ≤ count % U32 + 1 then .panic else .ok (Reloc.encode ⟨count % U32 + 1, 0, 0⟩)
  else .ok []

/-- The relocations of a section as written by `coff_write`, src/write/coff/object.rs:682-697. -/
def writeRelocations (rs : List Reloc) : Res (List UInt8) :=
  if rs.isEmpty then .ok []
  else (relocationsCount rs.length).bind fun c => .ok (c ++ rs.flatMap Reloc.encode)

/-- The flags that `coff_write` adds for the number of relocations, src/write/coff/object.rs:640-642. -/
def relocFlags (count characteristics : Nat) : Nat :=
  if 0xffff < count then characteristics ||| 0x1000000 else characteristics

/-- `coff_relocations`, src/read/coff/section.rs:587-615; `IMAGE_SCN_LNK_NRELOC_OVFL = 0x1000000`.  The pointer is a `u32`
widened to `u64`, so that adding 10 does not overflow. -/
def Section.relocations (s : Section) (data : List UInt8) : Res (List Reloc) :=
  let rest (pointer number : Nat) : Res (List Reloc) :=
    (readSliceAt data pointer 10 number).bind fun imgs => .ok (imgs.map Reloc.decode)
  if s.numberOfRelocations = 0xffff ∧ s.characteristics &&& 0x1000000 = 0x1000000 then
    (ReadRef.readBytesAt data s.pointerToRelocations 10).bind fun img =>
    let number := (Reloc.decode img).virtualAddress
    if number = 0 then .err else rest (s.pointerToRelocations + 10) (number - 1)
  else rest s.pointerToRelocations s.numberOfRelocations

/-! ## Symbols -/

/-- `pe::ImageSymbol` and `pe::ImageSymbolEx`, src/pe.rs:923-949. -/
structure Symbol where
  name : List UInt8
  value : Nat
  sectionNumber : Int
  typ : Nat
  storageClass : Nat
  auxCount : Nat
  deriving DecidableEq, Repr

/-- `size_of` the symbol, src/pe.rs:933, 951. -/
def symbolSize (big : Bool) : Nat := if big then 20 else 18

/-- The fields of a symbol, src/read/coff/symbol.rs:650-697: the section number of the small format is sign extended
only above 0xfeff. -/
def Symbol.decode (big : Bool) (img : List UInt8) : Symbol :=
  if big then
    ⟨img.take 8, field .little img 8 4, toSigned 4 (field .little img 12 4), field .little img 16 2, field .little img 18 1,
     field .little img 19 1⟩
  else
    let n := field .little img 12 2
    ⟨img.take 8, field .little img 8 4, if 0xfeff < n then toSigned 2 n else n, field .little img 14 2, field .little img 16 1,
     field .little img 17 1⟩

/-- The writer's `Symbol`, src/write/coff/writer.rs:522-530. -/
structure WSymbol where
  name : Name
  value : Nat
  sectionNumber : Int
  typ : Nat
  storageClass : Nat
  auxCount : Nat
  deriving DecidableEq, Repr

/-- `Writer::write_symbol`, src/write/coff/writer.rs:327-344. -/
def writeSymbol (t : StrTab) (s : WSymbol) : Res (List UInt8) :=
  (symbolName t s.name).bind fun name =>
  .ok (name ++ Obj.encode .little [(4, s.value), (2, ofSigned 2 s.sectionNumber), (2, s.typ), (1, s.storageClass),
    (1, s.auxCount)])

/-- `reserve_aux_file_name`, src/write/coff/writer.rs:351-356: the number of auxiliary symbols. -/
def auxFileNameCount (name : List UInt8) : Nat := ((name.length + 17) / 18) % 256

/-- `write_aux_file_name`, src/write/coff/writer.rs:359-365, with its debug assertion. -/
def auxFileName (name : List UInt8) (auxCount : Nat) : Res (List UInt8) :=
  if auxCount * 18 < name.length then .panic
  else .ok (name ++ List.replicate (auxCount * 18 - name.length) 0)

/-- The writer's `AuxSymbolSection`, src/write/coff/writer.rs:534-543. -/
structure AuxSection where
  length : Nat
  numberOfRelocations : Nat
  numberOfLinenumbers : Nat
  checkSum : Nat
  number : Nat
  selection : Nat
  deriving DecidableEq, Repr

/-- `write_aux_section`, src/write/coff/writer.rs:379-395. -/
def auxSection (a : AuxSection) : List UInt8 :=
  Obj.encode .little [(4, a.length), (2, if 0xffff < a.numberOfRelocations then 0xffff else a.numberOfRelocations % U16),
    (2, a.numberOfLinenumbers), (4, a.checkSum), (2, a.number % U16), (1, a.selection), (1, 0), (2, (a.number >>> 16) % U16)]

/-- `write_aux_weak_external`, src/write/coff/writer.rs:409-418. -/
def auxWeak (defaultIndex searchType : Nat) : List UInt8 :=
  Obj.encode .little [(4, defaultIndex), (4, searchType)] ++ List.replicate 10 0

/-- `write_strtab`, src/write/coff/writer.rs:465-469: the length (which includes itself) and the strings. -/
def strtabBytes (size : Nat) (out : List UInt8) : List UInt8 := wr .little 4 size ++ out

/-- `SymbolTable`, src/read/coff/symbol.rs:24-31. -/
structure SymTab where
  big : Bool
  symbols : List (List UInt8)
  strings : StrTable
  deriving DecidableEq, Repr

/-- `SymbolTable::parse`, src/read/coff/symbol.rs:44-70. -/
def SymTab.parse (h : Header) (data : List UInt8) : Res SymTab :=
  if h.pointerToSymbolTable ≠ 0 then
    match ReadRef.readSlice data h.pointerToSymbolTable (symbolSize h.big) h.numberOfSymbols with
    | (.ok symbols, offset) =>
      match ReadRef.readBytesAt data offset 4 with
      | .ok len =>
        if U64 ≤ offset + rd .little len then .err
        else .ok ⟨h.big, symbols, some (offset, offset + rd .little len)⟩
      | .err => .err
      | .panic => .panic
    | (.err, _) => .err
    | (.panic, _) => .panic
  else .ok ⟨h.big, [], none⟩

/-- `SymbolTable::get`, src/read/coff/symbol.rs:148-157: the first `size` bytes of the record. -/
def SymTab.get (t : SymTab) (index offset size : Nat) : Res (List UInt8) :=
  if U64 ≤ index + offset then .err
  else match t.symbols[index + offset]? with
    | some img => (Bytes.read img size).1
    | none => .err

/-- `SymbolTable::symbol`, src/read/coff/symbol.rs:101-103. -/
def SymTab.symbol (t : SymTab) (index : Nat) : Res Symbol :=
  (t.get index 0 (symbolSize t.big)).bind fun img => .ok (Symbol.decode t.big img)

/-- `SymbolTable::aux_section`, src/read/coff/symbol.rs:117-119, with the fields of `ImageAuxSymbolSection`
(src/pe.rs:1205-1221) and the number as computed in src/read/coff/symbol.rs:512-516. -/
def SymTab.auxSection (t : SymTab) (index : Nat) : Res AuxSection :=
  (t.get index 1 18).bind fun img =>
  .ok ⟨field .little img 0 4, field .little img 4 2, field .little img 6 2, field .little img 8 4,
    if t.big then field .little img 12 2 ||| (field .little img 16 2 <<< 16) else field .little img 12 2,
    field .little img 14 1⟩

/-- `SymbolTable::aux_weak_external`, src/read/coff/symbol.rs:125-127. -/
def SymTab.auxWeak (t : SymTab) (index : Nat) : Res (Nat × Nat) :=
  (t.get index 1 8).bind fun img => .ok (field .little img 0 4, field .little img 4 4)

/-- `SymbolTable::aux_file_name`, src/read/coff/symbol.rs:132-145. -/
def SymTab.auxFileName (t : SymTab) (index auxCount : Nat) : Res (List UInt8) :=
  if U64 ≤ index + 1 ∨ U64 ≤ index + 1 + auxCount then .err
  else if t.symbols.length < index + 1 + auxCount then .err
  else .ok (untilNul ((t.symbols.drop (index + 1)).take auxCount).flatten)

/-- `SymbolIterator::next`, src/read/coff/symbol.rs:195-200 (and `CoffSymbolIterator::next`, 291-300). -/
def SymTab.next (t : SymTab) (index : Nat) : Res (Option (Nat × Symbol)) × Nat :=
  match t.symbol index with
  | .ok s => if U64 ≤ index + (1 + s.auxCount) then (.panic, index) else (.ok (some (index, s)), index + (1 + s.auxCount))
  | .err => (.ok none, index)
  | .panic => (.panic, index)

/-- `has_aux_file_name`, src/read/coff/symbol.rs:612-614; `IMAGE_SYM_CLASS_FILE = 0x67`. -/
def Symbol.hasAuxFileName (s : Symbol) : Bool := decide (0 < s.auxCount) && s.storageClass == 0x67

/-- `has_aux_section`, src/read/coff/symbol.rs:625-629; `IMAGE_SYM_CLASS_STATIC = 3`. -/
def Symbol.hasAuxSection (s : Symbol) : Bool := decide (0 < s.auxCount) && s.storageClass == 3 && s.typ == 0

/-- `CoffSymbol::name_bytes`, src/read/coff/symbol.rs:350-358. -/
def SymTab.nameBytes (t : SymTab) (data : List UInt8) (index : Nat) (s : Symbol) : Res (List UInt8) :=
  if s.hasAuxFileName then t.auxFileName index s.auxCount else readSymbolName t.strings data s.name

/-- `SymbolSection::index`, src/pe.rs:969-975. -/
def Symbol.section (s : Symbol) : Option Nat := if 0 < s.sectionNumber then some s.sectionNumber.toNat else none

/-- `Symbol::address`, src/read/coff/symbol.rs:573-590, with the classes static (3), weak external (0x69), label (6) and
external (2). -/
def Symbol.address (s : Symbol) (imageBase : Nat) (ss : List Section) : Res (Option Nat) :=
  if s.storageClass = 3 ∨ s.storageClass = 0x69 ∨ s.storageClass = 6 ∨ s.storageClass = 2 then
    match s.section with
    | none => .ok none
    | some i => (sectionAt ss i).bind fun sec => .ok (some (((imageBase + sec.virtualAddress) % U64 + s.value) % U64))
  else .ok none

/-! ## COMDAT groups -/

/-- `CoffComdat`, src/read/coff/comdat.rs:62-74. -/
structure Comdat where
  symbolIndex : Nat
  symbol : Symbol
  sectionIndex : Nat
  selection : Nat
  deriving DecidableEq, Repr

/-- The loop that finds the COMDAT symbol, src/read/coff/comdat.rs:98-106; the fuel is an upper bound of the number of
symbols left, see `C55_comdat`. -/
def findComdatSymbol (t : SymTab) (sectionNumber : Int) : Nat → Nat → Symbol → Res (Option (Nat × Symbol))
  | 0, _, _ => .ok none
  | fuel + 1, index, symbol =>
    if U64 ≤ index + (1 + symbol.auxCount) then .panic
    else
      let index := index + (1 + symbol.auxCount)
      match t.symbol index with
      | .ok s => if sectionNumber = s.sectionNumber then .ok (some (index, s)) else findComdatSymbol t sectionNumber fuel index s
      | .err => .ok none
      | .panic => .panic

/-- `CoffComdat::parse`, src/read/coff/comdat.rs:77-116. -/
def parseComdat (t : SymTab) (s : Symbol) (index : Nat) : Res (Option Comdat) :=
  if !s.hasAuxSection then .ok none
  else match s.section with
    | none => .ok none
    | some sectionIndex =>
      match t.auxSection index with
      | .ok aux =>
        if aux.selection = 0 ∨ aux.selection = 5 then .ok none
        else (findComdatSymbol t s.sectionNumber (t.symbols.length + 1) index s).bind fun r =>
          match r with
          | some (i, sym) => .ok (some ⟨i, sym, sectionIndex, aux.selection⟩)
          | none => .ok none
      | .err => .ok none
      | .panic => .panic

/-- `CoffComdatIterator::next`, src/read/coff/comdat.rs:41-50; the fuel bounds the symbols skipped. -/
def comdatLoop (t : SymTab) : Nat → Nat → Res (Option Comdat) × Nat
  | 0, index => (.ok none, index)
  | fuel + 1, index =>
    match t.next index with
    | (.ok (some (i, s)), index) =>
      match parseComdat t s i with
      | .ok (some c) => (.ok (some c), index)
      | .ok none => comdatLoop t fuel index
      | .err => (.err, index)
      | .panic => (.panic, index)
    | (.ok none, index) => (.ok none, index)
    | (.err, index) => (.err, index)
    | (.panic, index) => (.panic, index)

/-- `CoffComdatIterator::next`. -/
def comdatNext (t : SymTab) (index : Nat) : Res (Option Comdat) × Nat := comdatLoop t (t.symbols.length + 1) index

/-- `CoffComdatSectionIterator::next`, src/read/coff/comdat.rs:192-225; the fuel bounds the symbols skipped. -/
def comdatSectionLoop (t : SymTab) (sectionIndex : Nat) : Nat → Nat → Res (Option Nat) × Nat
  | 0, index => (.ok none, index)
  | fuel + 1, index =>
    match t.next index with
    | (.ok (some (i, s)), index) =>
      if !s.hasAuxSection then comdatSectionLoop t sectionIndex fuel index
      else match s.section with
        | none => comdatSectionLoop t sectionIndex fuel index
        | some si =>
          match t.auxSection i with
          | .ok aux =>
            if aux.selection = 5 then
              if aux.number = sectionIndex then (.ok (some si), index) else comdatSectionLoop t sectionIndex fuel index
            else if aux.selection ≠ 0 then
              if si = sectionIndex then (.ok (some si), index) else comdatSectionLoop t sectionIndex fuel index
            else comdatSectionLoop t sectionIndex fuel index
          | .err => (.ok none, index)
          | .panic => (.panic, index)
    | (.ok none, index) => (.ok none, index)
    | (.err, index) => (.err, index)
    | (.panic, index) => (.panic, index)

/-- `CoffComdatSectionIterator::next`. -/
def comdatSectionNext (t : SymTab) (sectionIndex index : Nat) : Res (Option Nat) × Nat :=
  comdatSectionLoop t sectionIndex (t.symbols.length + 1) index

end Obj.Coff

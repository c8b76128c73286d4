import Verif.Model.Bytes
import Verif.Model.Endian
import Verif.Model.Compression

/-!
# Model of the ELF structures: `src/elf.rs`, the writer's `src/write/elf/encoder.rs`, and the readers in
`src/read/elf/{file,section,segment,symbol,relocation}.rs`

A structure is a record of `Nat` fields; its image is the concatenation of its fields in declaration
order (`Obj.encode`), and the reader's accessors are `Obj.decode` with the same widths.  The reader is
instantiated at `Endian = Endianness` (byte order chosen at run time).
-/

namespace Obj.Elf

/-- ELF class and byte order: the type parameters of the reader (`FileHeader32<Endianness>` or
`FileHeader64<Endianness>` and the `endian` argument), the fields of `Encoder`
(src/write/elf/encoder.rs:355-360). -/
structure Cfg where
  is64 : Bool
  en : Endianness
  deriving DecidableEq, Repr

/-- Bytes in a `Word` of the class. -/
def Cfg.w (c : Cfg) : Nat := if c.is64 then 8 else 4

/-! ## File header -/

/-- `FileHeader32`/`FileHeader64`, src/elf.rs:122-214, after the identification bytes. -/
structure Ehdr where
  osAbi : UInt8
  abiVersion : UInt8
  type : Nat
  machine : Nat
  version : Nat
  entry : Nat
  phoff : Nat
  shoff : Nat
  flags : Nat
  ehsize : Nat
  phentsize : Nat
  phnum : Nat
  shentsize : Nat
  shnum : Nat
  shstrndx : Nat
  deriving DecidableEq, Repr

/-- Size of the file header. -/
def Cfg.ehdrSize (c : Cfg) : Nat := if c.is64 then 64 else 52

/-- `elf::Ident`, src/elf.rs:216-235, as the writer fills it (src/write/elf/encoder.rs:432-448). -/
def identBytes (c : Cfg) (osAbi abiVersion : UInt8) : List UInt8 :=
  [0x7f, 0x45, 0x4c, 0x46, if c.is64 then 2 else 1,
    match c.en with | .little => 1 | .big => 2, 1, osAbi, abiVersion, 0, 0, 0, 0, 0, 0, 0]

/-- Widths of the fields after `e_ident`, src/elf.rs:126-162 and 172-208. -/
def ehdrWidths (c : Cfg) : List Nat := [2, 2, 4, c.w, c.w, c.w, 4, 2, 2, 2, 2, 2, 2]

/-- The image of a file header. -/
def Ehdr.encode (c : Cfg) (h : Ehdr) : List UInt8 :=
  identBytes c h.osAbi h.abiVersion ++
  Obj.encode c.en [(2, h.type), (2, h.machine), (4, h.version), (c.w, h.entry), (c.w, h.phoff), (c.w, h.shoff),
    (4, h.flags), (2, h.ehsize), (2, h.phentsize), (2, h.phnum), (2, h.shentsize), (2, h.shnum), (2, h.shstrndx)]

/-- The accessors of a file header image, src/read/elf/file.rs:576-590. -/
def Ehdr.decode (c : Cfg) (img : List UInt8) : Ehdr :=
  let f := Obj.decode c.en (ehdrWidths c) (img.drop 16)
  ⟨img.getD 7 0, img.getD 8 0, f.getD 0 0, f.getD 1 0, f.getD 2 0, f.getD 3 0, f.getD 4 0, f.getD 5 0, f.getD 6 0,
    f.getD 7 0, f.getD 8 0, f.getD 9 0, f.getD 10 0, f.getD 11 0, f.getD 12 0⟩

/-- `FileHeader` of the writer, src/write/elf/encoder.rs:27-36. -/
structure WEhdr where
  osAbi : UInt8
  abiVersion : UInt8
  type : Nat
  machine : Nat
  entry : Nat
  flags : Nat
  deriving DecidableEq, Repr

/-- `FileHeaderLayout`, src/write/elf/encoder.rs:55-71. -/
structure Layout where
  phoff : Nat
  segmentNum : Nat
  shoff : Nat
  sectionNum : Nat
  shstrtabIndex : Nat
  deriving DecidableEq, Repr

/-- `elf::SymbolSection::new`, src/elf.rs:964-970: `SHN_LORESERVE = 0xff00`, `SHN_XINDEX = 0xffff`. -/
def symbolSectionNew (index : Nat) : Nat := if 0xff00 ≤ index then 0xffff else index

/-- `elf::SymbolSection::index`, src/elf.rs:973-990. -/
def symbolSectionIndex (shndx : Nat) : Option Nat := if shndx = 0 ∨ 0xff00 ≤ shndx then none else some shndx

/-- Size of a program header. -/
def Cfg.phdrSize (c : Cfg) : Nat := if c.is64 then 56 else 32
/-- Size of a section header. -/
def Cfg.shdrSize (c : Cfg) : Nat := if c.is64 then 64 else 40

/-- `Encoder::file_header`, src/write/elf/encoder.rs:425-516.  (`as u32` truncations for 32-bit ELF are
those of `wr`.) -/
def fileHeader (c : Cfg) (h : WEhdr) (l : Layout) : Res (List UInt8) :=
  let phentsize := if l.segmentNum = 0 then 0 else c.phdrSize
  let shentsize := if l.sectionNum = 0 then 0 else c.shdrSize
  let shnum := if 0xff00 ≤ l.sectionNum then 0 else l.sectionNum
  let write (phnum : Nat) : Res (List UInt8) :=
    .ok (Ehdr.encode c ⟨h.osAbi, h.abiVersion, h.type, h.machine, 1, h.entry, l.phoff, l.shoff, h.flags,
      c.ehdrSize, phentsize, phnum, shentsize, shnum, symbolSectionNew l.shstrtabIndex⟩)
  if 0xffff ≤ l.segmentNum then
    if l.sectionNum = 0 then .err else write 0xffff
  else write l.segmentNum

/-- `FileHeader::is_supported`, src/read/elf/file.rs:608-616, for the type `FileHeader64` if `is64`. -/
def isSupported (is64 : Bool) (img : List UInt8) : Bool :=
  img.take 4 == [0x7f, 0x45, 0x4c, 0x46]
    && (is64 || img.getD 4 0 == 1) && (!is64 || img.getD 4 0 == 2)
    && (img.getD 5 0 == 1 || img.getD 5 0 == 2)
    && img.getD 6 0 == 1

/-- `FileHeader::endian`, src/read/elf/file.rs:634-636 (`Endianness::from_big_endian` always succeeds). -/
def endianOf (img : List UInt8) : Endianness := if img.getD 5 0 == 2 then .big else .little

/-- `FileHeader::parse`, src/read/elf/file.rs:594-603, and `endian`: class, byte order and header. -/
def parseHeader (is64 : Bool) (data : List UInt8) : Res (Cfg × Ehdr) :=
  match ReadRef.readBytesAt data 0 (if is64 then 64 else 52) with
  | .ok img =>
    if isSupported is64 img then .ok (⟨is64, endianOf img⟩, Ehdr.decode ⟨is64, endianOf img⟩ img)
    else .err
  | .err => .err
  | .panic => .panic

/-! ## Section headers -/

/-- `SectionHeader32`/`SectionHeader64`, src/elf.rs:888-948, and the writer's `SectionHeader`,
src/write/elf/encoder.rs:134-146. -/
structure Shdr where
  name : Nat
  type : Nat
  flags : Nat
  addr : Nat
  offset : Nat
  size : Nat
  link : Nat
  info : Nat
  addralign : Nat
  entsize : Nat
  deriving DecidableEq, Repr

/-- Widths of the fields, src/elf.rs:888-948. -/
def shdrWidths (c : Cfg) : List Nat := [4, 4, c.w, c.w, c.w, c.w, 4, 4, c.w, c.w]

/-- `Encoder::section_header`, src/write/elf/encoder.rs:641-677. -/
def Shdr.encode (c : Cfg) (s : Shdr) : List UInt8 :=
  Obj.encode c.en [(4, s.name), (4, s.type), (c.w, s.flags), (c.w, s.addr), (c.w, s.offset), (c.w, s.size),
    (4, s.link), (4, s.info), (c.w, s.addralign), (c.w, s.entsize)]

/-- The accessors, src/read/elf/section.rs:1209-1330. -/
def Shdr.decode (c : Cfg) (img : List UInt8) : Shdr :=
  let f := Obj.decode c.en (shdrWidths c) img
  ⟨f.getD 0 0, f.getD 1 0, f.getD 2 0, f.getD 3 0, f.getD 4 0, f.getD 5 0, f.getD 6 0, f.getD 7 0, f.getD 8 0,
    f.getD 9 0⟩

/-- `Encoder::null_section_header`, src/write/elf/encoder.rs:583-633. -/
def nullSectionHeader (c : Cfg) (l : Layout) : List UInt8 :=
  Shdr.encode c ⟨0, 0, 0, 0, 0, if 0xff00 ≤ l.sectionNum then l.sectionNum else 0,
    if 0xff00 ≤ l.shstrtabIndex then l.shstrtabIndex else 0,
    if 0xffff ≤ l.segmentNum then l.segmentNum else 0, 0, 0⟩

/-- `FileHeader::section_0`, src/read/elf/file.rs:642-660. -/
def section0 (c : Cfg) (h : Ehdr) (data : List UInt8) : Res (Option Shdr) :=
  if h.shoff = 0 then .ok none
  else if h.shentsize ≠ c.shdrSize then .err
  else match ReadRef.readBytesAt data h.shoff c.shdrSize with
    | .ok img => .ok (some (Shdr.decode c img))
    | .err => .err
    | .panic => .panic

/-- `FileHeader::phnum`, src/read/elf/file.rs:665-675. -/
def phnum (c : Cfg) (h : Ehdr) (data : List UInt8) : Res Nat :=
  if h.phnum < 0xffff then .ok h.phnum
  else match section0 c h data with
    | .ok (some s) => .ok s.info
    | .ok none => .err
    | .err => .err
    | .panic => .panic

/-- `FileHeader::shnum`, src/read/elf/file.rs:680-695. -/
def shnum (c : Cfg) (h : Ehdr) (data : List UInt8) : Res Nat :=
  if 0 < h.shnum then .ok h.shnum
  else match section0 c h data with
    | .ok (some s) => if s.size < U32 then .ok s.size else .err
    | .ok none => .ok 0
    | .err => .err
    | .panic => .panic

/-- `FileHeader::shstrndx`, src/read/elf/file.rs:700-720. -/
def shstrndx (c : Cfg) (h : Ehdr) (data : List UInt8) : Res Nat :=
  match symbolSectionIndex h.shstrndx with
  | some index => .ok index
  | none =>
    if h.shstrndx = 0xffff then
      match section0 c h data with
      | .ok (some s) => .ok s.link
      | .ok none => .err
      | .err => .err
      | .panic => .panic
    else .err

/-- `ReadRef::read_slice_at`, src/read/read_ref.rs:118-124. -/
def readSliceAt (data : List UInt8) (offset size count : Nat) : Res (List (List UInt8)) :=
  (ReadRef.readSlice data offset size count).1

/-- `FileHeader::section_headers`, src/read/elf/file.rs:754-776. -/
def sectionHeaders (c : Cfg) (h : Ehdr) (data : List UInt8) : Res (List Shdr) :=
  if h.shoff = 0 then .ok []
  else match shnum c h data with
    | .ok n =>
      if n = 0 then .ok []
      else if h.shentsize ≠ c.shdrSize then .err
      else match readSliceAt data h.shoff c.shdrSize n with
        | .ok imgs => .ok (imgs.map (Shdr.decode c))
        | .err => .err
        | .panic => .panic
    | .err => .err
    | .panic => .panic

/-! ## Program headers -/

/-- `ProgramHeader32`/`ProgramHeader64`, src/elf.rs:1841-1882, and the writer's `ProgramHeader`. -/
structure Phdr where
  type : Nat
  flags : Nat
  offset : Nat
  vaddr : Nat
  paddr : Nat
  filesz : Nat
  memsz : Nat
  align : Nat
  deriving DecidableEq, Repr

/-- `Encoder::program_header`, src/write/elf/encoder.rs:536-568; the position of `p_flags` depends on the
class. -/
def Phdr.encode (c : Cfg) (p : Phdr) : List UInt8 :=
  if c.is64 then
    Obj.encode c.en [(4, p.type), (4, p.flags), (8, p.offset), (8, p.vaddr), (8, p.paddr), (8, p.filesz),
      (8, p.memsz), (8, p.align)]
  else
    Obj.encode c.en [(4, p.type), (4, p.offset), (4, p.vaddr), (4, p.paddr), (4, p.filesz),
      (4, p.memsz), (4, p.flags), (4, p.align)]

/-- The accessors, src/read/elf/segment.rs:283-382, of the layouts at src/elf.rs:1841-1882. -/
def Phdr.decode (c : Cfg) (img : List UInt8) : Phdr :=
  if c.is64 then
    let f := Obj.decode c.en [4, 4, 8, 8, 8, 8, 8, 8] img
    ⟨f.getD 0 0, f.getD 1 0, f.getD 2 0, f.getD 3 0, f.getD 4 0, f.getD 5 0, f.getD 6 0, f.getD 7 0⟩
  else
    let f := Obj.decode c.en [4, 4, 4, 4, 4, 4, 4, 4] img
    ⟨f.getD 0 0, f.getD 6 0, f.getD 1 0, f.getD 2 0, f.getD 3 0, f.getD 4 0, f.getD 5 0, f.getD 7 0⟩

/-- `FileHeader::program_headers`, src/read/elf/file.rs:726-748. -/
def programHeaders (c : Cfg) (h : Ehdr) (data : List UInt8) : Res (List Phdr) :=
  if h.phoff = 0 then .ok []
  else match phnum c h data with
    | .ok n =>
      if n = 0 then .ok []
      else if h.phentsize ≠ c.phdrSize then .err
      else match readSliceAt data h.phoff c.phdrSize n with
        | .ok imgs => .ok (imgs.map (Phdr.decode c))
        | .err => .err
        | .panic => .panic
    | .err => .err
    | .panic => .panic

/-- `ProgramHeader::data`, src/read/elf/segment.rs:183-193. -/
def Phdr.data (p : Phdr) (data : List UInt8) : Res (List UInt8) := ReadRef.readBytesAt data p.offset p.filesz

/-- `ProgramHeader::data_range`, src/read/elf/segment.rs:210-223. -/
def Phdr.dataRange (p : Phdr) (data : List UInt8) (address size : Nat) : Res (Option (List UInt8)) :=
  match p.data data with
  | .ok d => .ok (Obj.dataRange d p.vaddr address size)
  | .err => .err
  | .panic => .panic

/-- `ProgramHeader::interpreter`, src/read/elf/segment.rs:246-263; `PT_INTERP = 3`. -/
def Phdr.interpreter (p : Phdr) (data : List UInt8) : Res (Option (List UInt8)) :=
  if p.type ≠ 3 then .ok none
  else match p.data data with
    | .ok d => match memchr 0 d with
      | some len => .ok (some (d.take len))
      | none => .err
    | .err => .err
    | .panic => .panic

/-! ## Sections -/

/-- `read::StringTable` over the file: `none` is the default (empty) table, otherwise its start and end. -/
abbrev StrTable := Option (Nat × Nat)

/-- `StringTable::get`, src/read/util.rs:297-305. -/
def StrTable.get (t : StrTable) (data : List UInt8) (offset : Nat) : Res (List UInt8) :=
  match t with
  | some (s, e) => stringTableGet (some data) s e offset
  | none => stringTableGet none 0 0 offset

/-- `SectionHeader::file_range`, src/read/elf/section.rs:749-755; `SHT_NOBITS = 8`. -/
def Shdr.fileRange (s : Shdr) : Option (Nat × Nat) := if s.type = 8 then none else some (s.offset, s.size)

/-- `SectionHeader::data`, src/read/elf/section.rs:761-772. -/
def Shdr.data (s : Shdr) (data : List UInt8) : Res (List UInt8) :=
  match s.fileRange with
  | some (offset, size) => ReadRef.readBytesAt data offset size
  | none => .ok []

/-- `pod::slice_from_all_bytes`, src/pod.rs:128-135; `size = size_of::<T>()`. -/
def sliceFromAllBytes (size : Nat) (data : List UInt8) : Res (List (List UInt8)) :=
  match Bytes.readSlice data size (data.length / size) with
  | (.ok slice, tail) => if tail ≠ [] then .err else .ok slice
  | (.err, _) => .err
  | (.panic, _) => .panic

/-- `SectionHeader::data_as_array`, src/read/elf/section.rs:779-786. -/
def Shdr.dataAsArray (s : Shdr) (data : List UInt8) (size : Nat) : Res (List (List UInt8)) :=
  match s.data data with
  | .ok d => sliceFromAllBytes size d
  | .err => .err
  | .panic => .panic

/-- `SectionHeader::strings`, src/read/elf/section.rs:792-806; `SHT_STRTAB = 3`. -/
def Shdr.strings (s : Shdr) : Res (Option StrTable) :=
  if s.type ≠ 3 then .ok none
  else if U64 ≤ s.offset + s.size then .err
  else .ok (some (some (s.offset, s.offset + s.size)))

/-- `SectionTable`, src/read/elf/section.rs:24-33. -/
structure SectionTable where
  sections : List Shdr
  strings : StrTable
  deriving DecidableEq, Repr

/-- `FileHeader::section_strings`, src/read/elf/file.rs:791-811. -/
def sectionStrings (c : Cfg) (h : Ehdr) (data : List UInt8) (sections : List Shdr) : Res StrTable :=
  if sections = [] then .ok none
  else match shstrndx c h data with
    | .ok index =>
      match sections[index]? with
      | none => .err
      | some s =>
        match s.fileRange with
        | some (offset, size) => if U64 ≤ offset + size then .err else .ok (some (offset, offset + size))
        | none => .ok none
    | .err => .err
    | .panic => .panic

/-- `FileHeader::sections`, src/read/elf/file.rs:814-822. -/
def sections (c : Cfg) (h : Ehdr) (data : List UInt8) : Res SectionTable := do
  let ss ← sectionHeaders c h data
  let st ← sectionStrings c h data ss
  .ok ⟨ss, st⟩

/-- `SectionTable::section`, src/read/elf/section.rs:84-91. -/
def SectionTable.section (t : SectionTable) (index : Nat) : Res Shdr :=
  if index = 0 then .err
  else match t.sections[index]? with
    | some s => .ok s
    | none => .err

/-- `SectionTable::section_name`, src/read/elf/section.rs:105-112 with `SectionHeader::name` (715-724). -/
def SectionTable.sectionName (t : SectionTable) (data : List UInt8) (s : Shdr) : Res (List UInt8) :=
  t.strings.get data s.name

/-- `SectionTable::section_by_name`, src/read/elf/section.rs:96-103: `find` over `enumerate()`. -/
def SectionTable.sectionByName (t : SectionTable) (data : List UInt8) (name : List UInt8) : Option (Nat × Shdr) :=
  (t.sections.zipIdx.find? fun p => t.sectionName data p.1 == Res.ok name).map fun p => (p.2, p.1)

/-- `SectionTable::strings`, src/read/elf/section.rs:119-131. -/
def SectionTable.stringsAt (t : SectionTable) (index : Nat) : Res StrTable :=
  if index = 0 then .ok none
  else match t.section index with
    | .ok s => match s.strings with
      | .ok (some st) => .ok st
      | .ok none => .err
      | .err => .err
      | .panic => .panic
    | .err => .err
    | .panic => .panic

/-! ## Compression -/

/-- The fields used of `CompressionHeader32` (12 bytes) and `CompressionHeader64` (24 bytes),
src/elf.rs:1200-1226. -/
structure Chdr where
  type : Nat
  size : Nat
  addralign : Nat
  deriving DecidableEq, Repr

/-- Size of the compression header. -/
def Cfg.chdrSize (c : Cfg) : Nat := if c.is64 then 24 else 12

/-- The image of a compression header. -/
def Chdr.encode (c : Cfg) (h : Chdr) : List UInt8 :=
  if c.is64 then Obj.encode c.en [(4, h.type), (4, 0), (8, h.size), (8, h.addralign)]
  else Obj.encode c.en [(4, h.type), (4, h.size), (4, h.addralign)]

/-- The accessors, src/read/elf/compression.rs. -/
def Chdr.decode (c : Cfg) (img : List UInt8) : Chdr :=
  if c.is64 then
    let f := Obj.decode c.en [4, 4, 8, 8] img
    ⟨f.getD 0 0, f.getD 2 0, f.getD 3 0⟩
  else
    let f := Obj.decode c.en [4, 4, 4] img
    ⟨f.getD 0 0, f.getD 1 0, f.getD 2 0⟩

/-- `SectionHeader::compression`, src/read/elf/section.rs:1176-1202; `SHF_COMPRESSED = 0x800`.
`offset - section_offset` is a `u64` subtraction. -/
def Shdr.compression (c : Cfg) (s : Shdr) (data : List UInt8) : Res (Option (Chdr × Nat × Nat)) :=
  if s.flags &&& 0x800 = 0 then .ok none
  else match s.fileRange with
    | none => .err
    | some (sectionOffset, sectionSize) =>
      match ReadRef.read data sectionOffset c.chdrSize with
      | (.ok img, offset) =>
        if offset < sectionOffset then .panic
        else if sectionSize < offset - sectionOffset then .err
        else .ok (some (Chdr.decode c img, offset, sectionSize - (offset - sectionOffset)))
      | (.err, _) => .err
      | (.panic, _) => .panic

/-- `ElfSection::maybe_compressed`, src/read/elf/section.rs:506-526; `ELFCOMPRESS_ZLIB = 1`,
`ELFCOMPRESS_ZSTD = 2`. -/
def maybeCompressed (c : Cfg) (s : Shdr) (data : List UInt8) : Res (Option CompressedFileRange) :=
  match s.compression c data with
  | .ok (some (h, offset, compressedSize)) =>
    if h.type = 1 then .ok (some ⟨.zlib, offset, compressedSize, h.size⟩)
    else if h.type = 2 then .ok (some ⟨.zstandard, offset, compressedSize, h.size⟩)
    else .err
  | .ok none => .ok none
  | .err => .err
  | .panic => .panic

/-- `ElfSection::maybe_compressed_gnu`, src/read/elf/section.rs:529-538.  `name` is
`ObjectSection::name`, which fails also when the name is not UTF-8: `validUtf8` stands for
`core::str::from_utf8(name).is_ok()`, which is not modelled.  b".zdebug_". -/
def maybeCompressedGnu (validUtf8 : List UInt8 → Bool) (t : SectionTable) (s : Shdr) (data : List UInt8) :
    Res (Option CompressedFileRange) :=
  let named := match t.sectionName data s with
    | .ok name => validUtf8 name && [0x2e, 0x7a, 0x64, 0x65, 0x62, 0x75, 0x67, 0x5f].isPrefixOf name
    | .err => false
    | .panic => false
  if !named then .ok none
  else match s.fileRange with
    | none => .err
    | some (offset, size) => match gnuCompressedFileRange data offset size with
      | .ok r => .ok (some r)
      | .err => .err
      | .panic => .panic

/-- `ElfSection::compressed_file_range`, src/read/elf/section.rs:594-602. -/
def compressedFileRange (c : Cfg) (validUtf8 : List UInt8 → Bool) (t : SectionTable) (s : Shdr)
    (data : List UInt8) : Res CompressedFileRange :=
  match maybeCompressed c s data with
  | .ok (some r) => .ok r
  | .ok none => match maybeCompressedGnu validUtf8 t s data with
    | .ok (some r) => .ok r
    | .ok none => .ok (CompressedFileRange.ofRange s.fileRange)
    | .err => .err
    | .panic => .panic
  | .err => .err
  | .panic => .panic

/-! ## Symbols -/

/-- `Sym32`/`Sym64`, src/elf.rs:1273-1345. -/
structure Sym where
  name : Nat
  info : Nat
  other : Nat
  shndx : Nat
  value : Nat
  size : Nat
  deriving DecidableEq, Repr

/-- Size of a symbol. -/
def Cfg.symSize (c : Cfg) : Nat := if c.is64 then 24 else 16

/-- The image of a symbol: fields in the order of src/elf.rs:1273-1290 (32-bit) and 1323-1340 (64-bit). -/
def Sym.encode (c : Cfg) (s : Sym) : List UInt8 :=
  if c.is64 then
    Obj.encode c.en [(4, s.name), (1, s.info), (1, s.other), (2, s.shndx), (8, s.value), (8, s.size)]
  else
    Obj.encode c.en [(4, s.name), (4, s.value), (4, s.size), (1, s.info), (1, s.other), (2, s.shndx)]

/-- The accessors of `read::elf::Sym`. -/
def Sym.decode (c : Cfg) (img : List UInt8) : Sym :=
  if c.is64 then
    let f := Obj.decode c.en [4, 1, 1, 2, 8, 8] img
    ⟨f.getD 0 0, f.getD 1 0, f.getD 2 0, f.getD 3 0, f.getD 4 0, f.getD 5 0⟩
  else
    let f := Obj.decode c.en [4, 4, 4, 1, 1, 2] img
    ⟨f.getD 0 0, f.getD 3 0, f.getD 4 0, f.getD 5 0, f.getD 1 0, f.getD 2 0⟩

/-- `Sym` of the writer, src/write/elf/encoder.rs:170-182: `section` overrides `shndx`. -/
structure WSym where
  name : Nat
  info : Nat
  other : Nat
  shndx : Nat
  value : Nat
  size : Nat
  sec : Option Nat
  deriving DecidableEq, Repr

/-- `Encoder::symbol`, src/write/elf/encoder.rs:929-965: the bytes and the extended index. -/
def writeSymbol (c : Cfg) (s : WSym) : List UInt8 × Option Nat :=
  let shndx := match s.sec with
    | some section_ => symbolSectionNew section_
    | none => s.shndx
  (Sym.encode c ⟨s.name, s.info, s.other, shndx, s.value, s.size⟩,
    if shndx = 0xffff then some (s.sec.getD 0) else none)

/-- The `.symtab` data after `Writer::write_null_symbol` and one `Writer::write_symbol` per symbol,
src/write/elf/writer.rs:427-466 with `Encoder::null_symbol`, src/write/elf/encoder.rs:913-919 (an all-zero
symbol). -/
def symtabBytes (c : Cfg) (syms : List WSym) : List UInt8 :=
  Sym.encode c ⟨0, 0, 0, 0, 0, 0⟩ ++ syms.flatMap fun s => (writeSymbol c s).1

/-- The `.symtab_shndx` data collected by the same calls, src/write/elf/writer.rs:434-436, 450-459. -/
def symtabShndxBytes (c : Cfg) (syms : List WSym) : List UInt8 :=
  wr c.en 4 0 ++ syms.flatMap fun s => wr c.en 4 ((writeSymbol c s).2.getD 0)

/-- Whether `.symtab_shndx` is written: src/write/elf/writer.rs:452-453 (single phase) and
`reserve_symbol_index`, 1699-1703 (two phases, called with the symbol's section). -/
def needSymtabShndx (syms : List WSym) : Bool := syms.any fun s => match s.sec with
  | some n => 0xff00 ≤ n
  | none => false

/-- `SymbolTable`, src/read/elf/symbol.rs:22-33. -/
structure SymTab where
  sec : Nat
  stringSection : Nat
  shndxSection : Nat
  symbols : List Sym
  strings : StrTable
  shndx : List Nat
  deriving DecidableEq, Repr

/-- The loop of `SymbolTable::parse`, src/read/elf/symbol.rs:70-78; `SHT_SYMTAB_SHNDX = 18`. -/
def shndxLoop (c : Cfg) (data : List UInt8) (sectionIndex : Nat) :
    List (Shdr × Nat) → Nat × List Nat → Res (Nat × List Nat)
  | [], acc => .ok acc
  | (s, i) :: rest, acc =>
    if s.type = 18 ∧ s.link = sectionIndex then
      match s.dataAsArray data 4 with
      | .ok d => shndxLoop c data sectionIndex rest (i, d.map (rd c.en))
      | .err => .err
      | .panic => .panic
    else shndxLoop c data sectionIndex rest acc

/-- `SymbolTable::parse`, src/read/elf/symbol.rs:51-88.  The `debug_assert!` is on the section type
(`SHT_SYMTAB = 2`, `SHT_DYNSYM = 11`). -/
def SymTab.parse (c : Cfg) (data : List UInt8) (t : SectionTable) (sectionIndex : Nat) (s : Shdr) : Res SymTab :=
  if s.type ≠ 11 ∧ s.type ≠ 2 then .panic
  else do
    let symbols ← s.dataAsArray data c.symSize
    let strings ← t.stringsAt s.link
    let (shndxSection, shndx) ← shndxLoop c data sectionIndex t.sections.zipIdx (0, [])
    .ok ⟨sectionIndex, s.link, shndxSection, symbols.map (Sym.decode c), strings, shndx⟩

/-- `SectionTable::symbol_table_by_index`, src/read/elf/section.rs:157-170. -/
def SectionTable.symbolTableByIndex (c : Cfg) (data : List UInt8) (t : SectionTable) (index : Nat) : Res SymTab := do
  let s ← t.section index
  if s.type = 11 ∨ s.type = 2 then SymTab.parse c data t index s else .err

/-- `SectionTable::symbols`, src/read/elf/section.rs:137-152. -/
def SectionTable.symbols (c : Cfg) (data : List UInt8) (t : SectionTable) (shType : Nat) : Res SymTab :=
  match t.sections.zipIdx.find? fun p => p.1.type == shType with
  | some (s, index) => SymTab.parse c data t index s
  | none => .ok ⟨0, 0, 0, [], none, []⟩

/-- `SymbolTable::symbol`, src/read/elf/symbol.rs:151-158. -/
def SymTab.symbol (t : SymTab) (index : Nat) : Res Sym :=
  if index = 0 then .err
  else match t.symbols[index]? with
    | some s => .ok s
    | none => .err

/-- `SymbolTable::symbol_section`, src/read/elf/symbol.rs:169-192 with `shndx` (162-164). -/
def SymTab.symbolSection (t : SymTab) (s : Sym) (index : Nat) : Res (Option Nat) :=
  match symbolSectionIndex s.shndx with
  | some i => .ok (some i)
  | none =>
    if s.shndx = 0xffff then
      match t.shndx[index]? with
      | none => .err
      | some x => if x = 0 then .ok none else .ok (some x)
    else .ok none

/-- `SymbolTable::symbol_name`, src/read/elf/symbol.rs:195-197. -/
def SymTab.symbolName (t : SymTab) (data : List UInt8) (s : Sym) : Res (List UInt8) := t.strings.get data s.name

/-! ## Relocations -/

/-- `Rel32::r_info`/`Rela32::r_info`, src/elf.rs:1659-1661, 1699-1701: `r_sym << 8` drops high bits. -/
def rInfo32 (sym typ : Nat) : Nat := ((sym <<< 8) % U32) ||| (typ &&& 0xff)
/-- `Rel32::r_sym`, src/elf.rs:1646-1648. -/
def rSym32 (info : Nat) : Nat := info >>> 8
/-- `Rel32::r_type`, src/elf.rs:1652-1654. -/
def rType32 (info : Nat) : Nat := info &&& 0xff

/-- `Rela64::r_info`, src/elf.rs:1803-1813 (`Rel64::r_info`, 1745-1747, is the case `mips = false`). -/
def rInfo64 (mips : Bool) (sym typ : Nat) : Nat :=
  let t := (sym <<< 32) ||| typ
  if mips then
    (t >>> 32) ||| (((t &&& 0xff000000) <<< 8) % U64) ||| (((t &&& 0x00ff0000) <<< 24) % U64)
      ||| (((t &&& 0x0000ff00) <<< 40) % U64) ||| (((t &&& 0x000000ff) <<< 56) % U64)
  else t

/-- `Rela64::get_r_info`, src/elf.rs:1778-1788. -/
def getRInfo64 (mips : Bool) (info : Nat) : Nat :=
  if mips then
    ((info <<< 32) % U64) ||| ((info >>> 8) &&& 0xff000000) ||| ((info >>> 24) &&& 0x00ff0000)
      ||| ((info >>> 40) &&& 0x0000ff00) ||| ((info >>> 56) &&& 0x000000ff)
  else info

/-- `Rela64::r_sym`, src/elf.rs:1792-1794, and `Rel64::r_sym`, 1734-1736. -/
def rSym64 (mips : Bool) (info : Nat) : Nat := (getRInfo64 mips info >>> 32) % U32
/-- `Rela64::r_type`, src/elf.rs:1798-1800, and `Rel64::r_type`, 1740-1742. -/
def rType64 (mips : Bool) (info : Nat) : Nat := (getRInfo64 mips info &&& 0xffffffff) % U32

/-- `Rel` of the writer, src/write/elf/encoder.rs:206-211. -/
structure Rel where
  offset : Nat
  sym : Nat
  type : Nat
  addend : Int
  deriving DecidableEq, Repr

/-- `Encoder::rel_size`, src/write/elf/encoder.rs:978-992. -/
def Cfg.relSize (c : Cfg) (isRela : Bool) : Nat := if isRela then 3 * c.w else 2 * c.w

/-- `Encoder::relocation`, src/write/elf/encoder.rs:1009-1043. -/
def writeRel (c : Cfg) (mips isRela : Bool) (r : Rel) : List UInt8 :=
  (if c.is64 then Obj.encode c.en [(8, r.offset), (8, rInfo64 (mips && isRela) r.sym r.type)]
   else Obj.encode c.en [(4, r.offset), (4, rInfo32 r.sym r.type)]) ++
  (if isRela then wrI c.en c.w r.addend else [])

/-- The accessors of `read::elf::Rel` and `read::elf::Rela`, src/read/elf/relocation.rs, collected as by
`Rel::from_rel` and `Rel::from_rela` (src/write/elf/encoder.rs:216-233). -/
def readRel (c : Cfg) (mips isRela : Bool) (img : List UInt8) : Rel :=
  let offset := field c.en img 0 c.w
  let info := field c.en img c.w c.w
  let addend := if isRela then rdI c.en ((img.drop (2 * c.w)).take c.w) else 0
  if c.is64 then ⟨offset, rSym64 (mips && isRela) info, rType64 (mips && isRela) info, addend⟩
  else ⟨offset, rSym32 info, rType32 info, addend⟩

/-- `SectionHeader::rel` and `rela`, src/read/elf/section.rs:838-875 (`SHT_RELA = 4`, `SHT_REL = 9`), with
the accessors applied to each entry. -/
def Shdr.rels (c : Cfg) (mips isRela : Bool) (s : Shdr) (data : List UInt8) : Res (Option (List Rel × Nat)) :=
  if s.type ≠ (if isRela then 4 else 9) then .ok none
  else match s.dataAsArray data (c.relSize isRela) with
    | .ok imgs => .ok (some (imgs.map (readRel c mips isRela), s.link))
    | .err => .err
    | .panic => .panic

/-- `FileHeader::is_mips64el`, src/read/elf/file.rs:825-827 (`EM_MIPS = 8`), and `Encoder::set_machine`,
src/write/elf/encoder.rs:379-381. -/
def isMips64el (c : Cfg) (machine : Nat) : Bool := c.is64 && c.en == .little && machine == 8

/-! ## Dynamic entries and groups -/

/-- `Dyn32`/`Dyn64`, src/elf.rs:2109-2125; the tag is signed. -/
structure Dyn where
  tag : Int
  val : Nat
  deriving DecidableEq, Repr

/-- `Encoder::dynamic`, src/write/elf/encoder.rs:1058-1084. -/
def writeDyn (c : Cfg) (d : Dyn) : Res (List UInt8) :=
  if c.is64 then .ok (wrI c.en 8 d.tag ++ wr c.en 8 d.val)
  else match newI64 c.en d.tag with
    | .ok tag => if d.val < U32 then .ok (tag ++ wr c.en 4 d.val) else .err
    | .err => .err
    | .panic => .panic

/-- The accessors of `read::elf::Dyn`, src/read/elf/dynamic.rs. -/
def readDyn (c : Cfg) (img : List UInt8) : Dyn :=
  ⟨rdI c.en (img.take c.w), rd c.en ((img.drop c.w).take c.w)⟩

/-- `SectionHeader::dynamic`, src/read/elf/section.rs:934-946; `SHT_DYNAMIC = 6`. -/
def Shdr.dynamic (c : Cfg) (s : Shdr) (data : List UInt8) : Res (Option (List Dyn × Nat)) :=
  if s.type ≠ 6 then .ok none
  else match s.dataAsArray data (2 * c.w) with
    | .ok imgs => .ok (some (imgs.map (readDyn c), s.link))
    | .err => .err
    | .panic => .panic

/-- `SectionHeader::group`, src/read/elf/section.rs:974-987; `SHT_GROUP = 17`. -/
def Shdr.group (c : Cfg) (s : Shdr) (data : List UInt8) : Res (Option (Nat × List Nat)) :=
  if s.type ≠ 17 then .ok none
  else match s.data data with
    | .ok d =>
      match Bytes.read d 4 with
      | (.ok flag, tl) => match sliceFromAllBytes 4 tl with
        | .ok l => .ok (some (rd c.en flag, l.map (rd c.en)))
        | .err => .err
        | .panic => .panic
      | (.err, _) => .err
      | (.panic, _) => .panic
    | .err => .err
    | .panic => .panic

/-- `DynamicTable`, src/read/elf/dynamic.rs:17-25. -/
structure DynamicTable where
  dynamics : List Dyn
  strings : StrTable
  deriving DecidableEq, Repr

/-- `SectionTable::dynamic_table`, src/read/elf/section.rs:184-194, with `DynamicTable::parse`,
src/read/elf/dynamic.rs:39-61. -/
def SectionTable.dynamicTable (c : Cfg) (t : SectionTable) (data : List UInt8) : Res DynamicTable :=
  match t.sections.find? fun s => s.type == 6 with
  | none => .ok ⟨[], none⟩
  | some s =>
    if s.type ≠ 6 then .panic
    else do
      let imgs ← s.dataAsArray data (2 * c.w)
      let strings ← t.stringsAt s.link
      .ok ⟨imgs.map (readDyn c), strings⟩

/-- `DynamicIterator::next`, src/read/elf/dynamic.rs:138-148 (`DT_NULL = 0`): the state is the rest of the
entries. -/
def dynNext : List Dyn → Res (Option Dyn) × List Dyn
  | [] => (.ok none, [])
  | d :: rest => if d.tag = 0 then (.ok none, []) else (.ok (some d), rest)

/-- `Dynamic::string`, src/read/elf/dynamic.rs:178-187. -/
def Dyn.string (d : Dyn) (strings : StrTable) (data : List UInt8) : Res (List UInt8) :=
  if d.val < U32 then strings.get data d.val else .err

/-- `ElfComdatIterator` with `ElfComdat::parse`, src/read/elf/comdat.rs:30-56, 82-96 (`GRP_COMDAT = 1`): the
group headers after the null section and the sections of each. -/
def comdats (c : Cfg) (t : SectionTable) (data : List UInt8) : List (Shdr × List Nat) :=
  (t.sections.drop 1).filterMap fun s => match s.group c data with
    | .ok (some (flag, sections)) => if flag &&& 1 = 1 then some (s, sections) else none
    | _ => none

/-- The data of a COMDAT section: `Writer::write_comdat_header` then one `write_comdat_entry` per section,
src/write/elf/writer.rs:1080-1088 (the alignment padding is before the data). -/
def comdatBytes (c : Cfg) (sections : List Nat) : List UInt8 :=
  wr c.en 4 1 ++ sections.flatMap fun s => wr c.en 4 s

end Obj.Elf

import Verif.Model.Pe
import Verif.Model.CoffView
import Verif.Model.FileKind

/-!
# Model of the PE image reader

`src/read/pe/file.rs` and the unified view of sections and segments in `src/read/pe/section.rs`.  `is64` selects
`pe::ImageNtHeaders32` or `pe::ImageNtHeaders64`.  All values are little-endian.
-/

namespace Obj.Pe
open Obj Obj.Coff

/-- `pe::ImageOptionalHeader32` and `pe::ImageOptionalHeader64`, src/pe.rs:473-561; `baseOfData` is absent in the 64-bit header. -/
structure OptHeader where
  magic : Nat
  majorLinkerVersion : Nat
  minorLinkerVersion : Nat
  sizeOfCode : Nat
  sizeOfInitializedData : Nat
  sizeOfUninitializedData : Nat
  addressOfEntryPoint : Nat
  baseOfCode : Nat
  baseOfData : Option Nat
  imageBase : Nat
  sectionAlignment : Nat
  fileAlignment : Nat
  majorOperatingSystemVersion : Nat
  minorOperatingSystemVersion : Nat
  majorImageVersion : Nat
  minorImageVersion : Nat
  majorSubsystemVersion : Nat
  minorSubsystemVersion : Nat
  win32VersionValue : Nat
  sizeOfImage : Nat
  sizeOfHeaders : Nat
  checkSum : Nat
  subsystem : Nat
  dllCharacteristics : Nat
  sizeOfStackReserve : Nat
  sizeOfStackCommit : Nat
  sizeOfHeapReserve : Nat
  sizeOfHeapCommit : Nat
  loaderFlags : Nat
  numberOfRvaAndSizes : Nat
  deriving DecidableEq, Repr

/-- `size_of::<ImageOptionalHeader32>()` and `size_of::<ImageOptionalHeader64>()`, src/pe.rs:473-561. -/
def optSize (is64 : Bool) : Nat := if is64 then 112 else 96

/-- The fields of the 32-bit optional header in order with their widths, src/pe.rs:473-507. -/
def OptHeader.fields32 (h : OptHeader) : List (Nat × Nat) :=
  [(2, h.magic), (1, h.majorLinkerVersion), (1, h.minorLinkerVersion), (4, h.sizeOfCode), (4, h.sizeOfInitializedData),
   (4, h.sizeOfUninitializedData), (4, h.addressOfEntryPoint), (4, h.baseOfCode), (4, h.baseOfData.getD 0), (4, h.imageBase),
   (4, h.sectionAlignment), (4, h.fileAlignment), (2, h.majorOperatingSystemVersion), (2, h.minorOperatingSystemVersion),
   (2, h.majorImageVersion), (2, h.minorImageVersion), (2, h.majorSubsystemVersion), (2, h.minorSubsystemVersion),
   (4, h.win32VersionValue), (4, h.sizeOfImage), (4, h.sizeOfHeaders), (4, h.checkSum), (2, h.subsystem), (2, h.dllCharacteristics),
   (4, h.sizeOfStackReserve), (4, h.sizeOfStackCommit), (4, h.sizeOfHeapReserve), (4, h.sizeOfHeapCommit), (4, h.loaderFlags),
   (4, h.numberOfRvaAndSizes)]

/-- The fields of the 64-bit optional header in order with their widths, src/pe.rs:530-561. -/
def OptHeader.fields64 (h : OptHeader) : List (Nat × Nat) :=
  [(2, h.magic), (1, h.majorLinkerVersion), (1, h.minorLinkerVersion), (4, h.sizeOfCode), (4, h.sizeOfInitializedData),
   (4, h.sizeOfUninitializedData), (4, h.addressOfEntryPoint), (4, h.baseOfCode), (8, h.imageBase),
   (4, h.sectionAlignment), (4, h.fileAlignment), (2, h.majorOperatingSystemVersion), (2, h.minorOperatingSystemVersion),
   (2, h.majorImageVersion), (2, h.minorImageVersion), (2, h.majorSubsystemVersion), (2, h.minorSubsystemVersion),
   (4, h.win32VersionValue), (4, h.sizeOfImage), (4, h.sizeOfHeaders), (4, h.checkSum), (2, h.subsystem), (2, h.dllCharacteristics),
   (8, h.sizeOfStackReserve), (8, h.sizeOfStackCommit), (8, h.sizeOfHeapReserve), (8, h.sizeOfHeapCommit), (4, h.loaderFlags),
   (4, h.numberOfRvaAndSizes)]

/-- The byte image of an optional header (`write_pod`). -/
def OptHeader.encode (is64 : Bool) (h : OptHeader) : List UInt8 :=
  Obj.encode .little (if is64 then h.fields64 else h.fields32)

/-- The accessors of `ImageOptionalHeader`, src/read/pe/file.rs:760-1050, on the byte image `img`. -/
def OptHeader.decode (is64 : Bool) (img : List UInt8) : OptHeader :=
  if is64 then
    ⟨field .little img 0 2, field .little img 2 1, field .little img 3 1, field .little img 4 4, field .little img 8 4,
     field .little img 12 4, field .little img 16 4, field .little img 20 4, none, field .little img 24 8,
     field .little img 32 4, field .little img 36 4, field .little img 40 2, field .little img 42 2,
     field .little img 44 2, field .little img 46 2, field .little img 48 2, field .little img 50 2,
     field .little img 52 4, field .little img 56 4, field .little img 60 4, field .little img 64 4, field .little img 68 2,
     field .little img 70 2, field .little img 72 8, field .little img 80 8, field .little img 88 8, field .little img 96 8,
     field .little img 104 4, field .little img 108 4⟩
  else
    ⟨field .little img 0 2, field .little img 2 1, field .little img 3 1, field .little img 4 4, field .little img 8 4,
     field .little img 12 4, field .little img 16 4, field .little img 20 4, some (field .little img 24 4), field .little img 28 4,
     field .little img 32 4, field .little img 36 4, field .little img 40 2, field .little img 42 2,
     field .little img 44 2, field .little img 46 2, field .little img 48 2, field .little img 50 2,
     field .little img 52 4, field .little img 56 4, field .little img 60 4, field .little img 64 4, field .little img 68 2,
     field .little img 70 2, field .little img 72 4, field .little img 76 4, field .little img 80 4, field .little img 84 4,
     field .little img 88 4, field .little img 92 4⟩

/-- `ImageDosHeader::parse` and `nt_headers_offset`, src/read/pe/file.rs:552-567: the value of `e_lfanew`. -/
def parseDos (data : List UInt8) : Res Nat :=
  (ReadRef.readBytesAt data 0 64).bind fun dos =>
  if field .little dos 0 2 ≠ 0x5a4d then .err else .ok (field .little dos 60 4)

/-- `is_valid_optional_magic`, src/read/pe/file.rs:724-726 and 890-892; `IMAGE_NT_OPTIONAL_HDR32_MAGIC`, `IMAGE_NT_OPTIONAL_HDR64_MAGIC`. -/
def optMagic (is64 : Bool) : Nat := if is64 then 0x20b else 0x10b

/-- `ImageNtHeaders::parse`, src/read/pe/file.rs:620-653: the headers, the data directories and the offset after the optional
header. -/
def parseNt (is64 : Bool) (data : List UInt8) (offset : Nat) : Res (FileHeader × OptHeader × List DataDir × Nat) :=
  match ReadRef.read data offset (24 + optSize is64) with
  | (.ok img, offset) =>
    if field .little img 0 4 ≠ 0x4550 then .err
    else
      let header := FileHeader.decode ((img.drop 4).take 20)
      let opt := OptHeader.decode is64 (img.drop 24)
      if opt.magic ≠ optMagic is64 then .err
      else if header.sizeOfOptionalHeader < optSize is64 then .err
      else match ReadRef.readBytes data offset (header.sizeOfOptionalHeader - optSize is64) with
        | (.ok optional, offset) => (parseDirs optional opt.numberOfRvaAndSizes).bind fun dirs => .ok (header, opt, dirs, offset)
        | (.err, _) => .err
        | (.panic, _) => .panic
  | (.err, _) => .err
  | (.panic, _) => .panic

/-- The values of the file header that `SectionTable::parse` and `SymbolTable::parse` use,
`impl CoffHeader for ImageFileHeader`, src/read/coff/file.rs:369-412. -/
def coffHeader (h : FileHeader) : Header := ⟨false, h.machine, h.numberOfSections, h.pointerToSymbolTable, h.numberOfSymbols⟩

/-- `PeFile`, src/read/pe/file.rs:47-57; the DOS header is represented by its `e_lfanew`. -/
structure PeFile where
  is64 : Bool
  data : List UInt8
  ntOffset : Nat
  header : FileHeader
  opt : OptHeader
  dirs : List DataDir
  sections : List Coff.Section
  symbols : Coff.SymTab
  deriving DecidableEq, Repr

/-- `coff_symbols.unwrap_or_default()`, src/read/pe/file.rs:81. -/
def symbolsOrDefault : Res Coff.SymTab → Res Coff.SymTab
  | .ok t => .ok t
  | .err => .ok ⟨false, [], none⟩
  | .panic => .panic

/-- `PeFile::parse`, src/read/pe/file.rs:65-86. -/
def PeFile.parse (is64 : Bool) (data : List UInt8) : Res PeFile :=
  (parseDos data).bind fun nt =>
  (parseNt is64 data nt).bind fun (header, opt, dirs, offset) =>
  (parseSections (coffHeader header) data offset).bind fun sections =>
  (symbolsOrDefault (Coff.SymTab.parse (coffHeader header) data)).bind fun symbols =>
  .ok ⟨is64, data, nt, header, opt, dirs, sections, symbols⟩

/-! ## `impl Object for PeFile` -/

/-- `architecture`, src/read/pe/file.rs:229-237. -/
def PeFile.architecture (f : PeFile) : Arch :=
  if f.header.machine = 0x1c4 then .arm
  else if f.header.machine = 0xaa64 ∨ f.header.machine = 0xa641 then .aarch64
  else if f.header.machine = 0x14c then .i386
  else if f.header.machine = 0x8664 then .x86_64
  else .unknown

/-- `sub_architecture`, src/read/pe/file.rs:239-244: whether it is `Arm64EC`. -/
def PeFile.isArm64EC (f : PeFile) : Bool := f.header.machine = 0xa641

/-- The values of `ObjectKind` used for PE, src/read/mod.rs. -/
inductive PeKind where
  | dynamic | unknown | executable
  deriving DecidableEq, Repr

/-- `kind`, src/read/pe/file.rs:257-266; `IMAGE_FILE_DLL = 0x2000`, `IMAGE_FILE_SYSTEM = 0x1000`. -/
def PeFile.kind (f : PeFile) : PeKind :=
  if f.header.characteristics &&& 0x2000 ≠ 0 then .dynamic
  else if f.header.characteristics &&& 0x1000 ≠ 0 then .unknown
  else .executable

/-- `relative_address_base`, src/read/pe/file.rs:402-404. -/
def PeFile.imageBase (f : PeFile) : Nat := f.opt.imageBase

/-- `entry`, src/read/pe/file.rs:406-409. -/
def PeFile.entry (f : PeFile) : Nat := (f.opt.addressOfEntryPoint + f.imageBase) % U64

/-- `section_by_name_bytes`, src/read/pe/file.rs:275-287. -/
def PeFile.sectionByName (f : PeFile) (name : List UInt8) : Option (Nat × Coff.Section) :=
  Coff.sectionByName f.sections f.symbols.strings f.data name

/-- `section_by_index`, src/read/pe/file.rs:289-296. -/
def PeFile.sectionByIndex (f : PeFile) (index : Nat) : Res Coff.Section := Coff.sectionAt f.sections index

/-- `sections`, src/read/pe/file.rs:298-303 with `PeSectionIterator::next`, src/read/pe/section.rs:176-182: the sections with their
indices. -/
def PeFile.sectionsIter (f : PeFile) : List (Nat × Coff.Section) := (f.sections.zipIdx).map fun p => (p.2 + 1, p.1)

/-- `has_debug_symbols`, src/read/pe/file.rs:398-400. -/
def PeFile.hasDebugSymbols (f : PeFile) : Bool := (f.sectionByName ".debug_info".toUTF8.toList).isSome

/-- `CodeView`, src/read/mod.rs. -/
structure CodeView where
  guid : List UInt8
  path : List UInt8
  age : Nat
  deriving DecidableEq, Repr

/-- `pod::slice_from_all_bytes`, src/pod.rs:128-135. -/
def sliceFromAll (size : Nat) (bytes : List UInt8) : Res (List (List UInt8)) :=
  if bytes.length % size ≠ 0 then .err else .ok (Bytes.chunks size (bytes.length / size) bytes)

/-- One CodeView record, src/read/pe/file.rs:362-394: `none` is `continue`. -/
def codeView (info : List UInt8) : Res (Option CodeView) :=
  match Bytes.readBytes info 4 with
  | (.ok sig, info) =>
    if sig ≠ [0x52, 0x53, 0x44, 0x53] then .ok none
    else match Bytes.readBytes info 16 with
      | (.ok guid, info) =>
        match Bytes.read info 4 with
        | (.ok age, info) => (Bytes.readString info).1.bind fun path => .ok (some ⟨guid, path, rd .little age⟩)
        | (.err, _) => .err
        | (.panic, _) => .panic
      | (.err, _) => .err
      | (.panic, _) => .panic
  | (.err, _) => .err
  | (.panic, _) => .panic

/-- The loop of `pdb_info`, src/read/pe/file.rs:348-396.  `ImageDebugDirectory` is 28 bytes: `typ` at 12, `size_of_data` at 16,
`pointer_to_raw_data` at 24 (src/pe.rs); `IMAGE_DEBUG_TYPE_CODEVIEW = 2`. -/
def pdbLoop (data : List UInt8) : List (List UInt8) → Res (Option CodeView)
  | [] => .ok none
  | d :: ds =>
    if field .little d 12 4 ≠ 2 then pdbLoop data ds
    else (ReadRef.readBytesAt data (field .little d 24 4) (field .little d 16 4)).bind fun info =>
      (codeView info).bind fun cv =>
      match cv with
      | some cv => .ok (some cv)
      | none => pdbLoop data ds

/-- `pdb_info`, src/read/pe/file.rs:338-396; `IMAGE_DIRECTORY_ENTRY_DEBUG = 6`. -/
def PeFile.pdbInfo (f : PeFile) : Res (Option CodeView) :=
  match getDir f.dirs 6 with
  | none => .ok none
  | some d => (d.data f.data f.sections).bind fun bytes => (sliceFromAll 28 bytes).bind fun ds => pdbLoop f.data ds

/-! ## `impl ObjectSection for PeSection` and `impl ObjectSegment for PeSegment` -/

/-- `address`, src/read/pe/section.rs:83-85 and 229-231. -/
def PeFile.sectionAddress (f : PeFile) (s : Coff.Section) : Nat := (s.virtualAddress + f.imageBase) % U64

/-- `PeSection::file_range`, src/read/pe/section.rs:243-251. -/
def sectionFileRange (s : Coff.Section) : Option (Nat × Nat) :=
  if (fileRange s).2 = 0 then none else some (fileRange s)

/-- `data_range`, src/read/pe/section.rs:107-114 and 257-264. -/
def PeFile.sectionDataRange (f : PeFile) (s : Coff.Section) (address size : Nat) : Res (Option (List UInt8)) :=
  (sectionData s f.data).bind fun d => .ok (dataRange d (f.sectionAddress s) address size)

/-- `name_bytes`, src/read/pe/section.rs:117-121 and 277-279. -/
def PeFile.sectionName (f : PeFile) (s : Coff.Section) : Res (List UInt8) := readSectionName f.symbols.strings f.data s.name

/-- `PeSegment::permissions`, src/read/pe/section.rs:139-146: read, write, execute. -/
def permissions (s : Coff.Section) : Bool × Bool × Bool :=
  (s.characteristics &&& 0x40000000 ≠ 0, s.characteristics &&& 0x80000000 ≠ 0, s.characteristics &&& 0x20000000 ≠ 0)

end Obj.Pe

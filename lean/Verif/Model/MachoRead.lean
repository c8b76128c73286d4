import Verif.Model.Elf
import Verif.Model.MachOIter
import Verif.Model.MachoReloc

/-!
# Model of the Mach-O structures and of `read::macho::MachOFile`

`src/macho.rs`, `src/read/macho/{file,load_command,segment,section,symbol}.rs`.  A structure is a record of `Nat`
fields; its image is the concatenation of its fields in declaration order.  The class (32 or 64 bits) and the byte
order are a `Cfg`; the reader is instantiated at `Endian = Endianness`.
-/

namespace Obj.MachoR
open Obj

/-- Class and byte order: the type parameters of the reader, and the fields of `Encoder`
(src/write/macho/encoder.rs:303-307). -/
abbrev Cfg := Elf.Cfg

/-! ## File header -/

/-- `MachHeader32`/`MachHeader64`, src/macho.rs:1043-1088 and `MachHeader` of the writer,
src/write/macho/encoder.rs:13-22. -/
structure Mhdr where
  cputype : Nat
  cpusubtype : Nat
  filetype : Nat
  ncmds : Nat
  sizeofcmds : Nat
  flags : Nat
  deriving DecidableEq, Repr

/-- Size of the file header, src/write/macho/encoder.rs:334-340. -/
def hdrSize (c : Cfg) : Nat := if c.is64 then 32 else 28

/-- `magic`, src/write/macho/encoder.rs:348-352, 366-370, written as a big-endian word:
`MH_MAGIC = 0xfeedface`, `MH_CIGAM = 0xcefaedfe`, `MH_MAGIC_64 = 0xfeedfacf`, `MH_CIGAM_64 = 0xcffaedfe`. -/
def magic (c : Cfg) : List UInt8 :=
  match c.en, c.is64 with
  | .big, true => [0xfe, 0xed, 0xfa, 0xcf]
  | .little, true => [0xcf, 0xfa, 0xed, 0xfe]
  | .big, false => [0xfe, 0xed, 0xfa, 0xce]
  | .little, false => [0xce, 0xfa, 0xed, 0xfe]

/-- `Encoder::mach_header`, src/write/macho/encoder.rs:345-381; `reserved` is 0 in the 64-bit header. -/
def Mhdr.encode (c : Cfg) (h : Mhdr) : List UInt8 :=
  magic c ++ (Obj.encode c.en [(4, h.cputype), (4, h.cpusubtype), (4, h.filetype), (4, h.ncmds), (4, h.sizeofcmds),
    (4, h.flags)] ++ if c.is64 then [0, 0, 0, 0] else [])

/-- The accessors of a file header image, src/read/macho/file.rs:747-800. -/
def Mhdr.decode (c : Cfg) (img : List UInt8) : Mhdr :=
  let f := Obj.decode c.en [4, 4, 4, 4, 4, 4] (img.drop 4)
  ⟨f.getD 0 0, f.getD 1 0, f.getD 2 0, f.getD 3 0, f.getD 4 0, f.getD 5 0⟩

/-- `MachHeader::parse`, src/read/macho/file.rs:697-705, with `is_supported` and `endian`, 707-713. -/
def parseHeader (is64 : Bool) (data : List UInt8) : Res (Cfg × Mhdr) :=
  (ReadRef.readBytesAt data 0 (if is64 then 32 else 28)).bind fun img =>
    if img.take 4 = magic ⟨is64, .little⟩ then .ok (⟨is64, .little⟩, Mhdr.decode ⟨is64, .little⟩ img)
    else if img.take 4 = magic ⟨is64, .big⟩ then .ok (⟨is64, .big⟩, Mhdr.decode ⟨is64, .big⟩ img)
    else .err

/-- `MachHeader::load_commands`, src/read/macho/file.rs:715-731. -/
def loadCommands (c : Cfg) (h : Mhdr) (data : List UInt8) : Res MachO.LoadCommands :=
  (ReadRef.readBytesAt data (hdrSize c) h.sizeofcmds).bind fun d => .ok ⟨d, h.ncmds, hdrSize c⟩

/-! ## Segments and sections -/

/-- `SegmentCommand32`/`SegmentCommand64`, src/macho.rs:1414-1479, and `SegmentCommand` of the writer,
src/write/macho/encoder.rs:40-52 (without `cmd` and `cmdsize`). -/
structure Seg where
  segname : List UInt8
  vmaddr : Nat
  vmsize : Nat
  fileoff : Nat
  filesize : Nat
  maxprot : Nat
  initprot : Nat
  nsects : Nat
  flags : Nat
  deriving DecidableEq, Repr

/-- Size of a segment command without its sections. -/
def segSize (c : Cfg) : Nat := if c.is64 then 72 else 56
/-- Size of a section header, src/write/macho/encoder.rs:465-471. -/
def sectSize (c : Cfg) : Nat := if c.is64 then 80 else 68
/-- `LC_SEGMENT_64` or `LC_SEGMENT`. -/
def segCmd (c : Cfg) : Nat := if c.is64 then 0x19 else 1

/-- `Encoder::segment_command`, src/write/macho/encoder.rs:424-462; `as u32` truncations are those of `wr`. -/
def Seg.encode (c : Cfg) (s : Seg) : List UInt8 :=
  Obj.encode c.en [(4, segCmd c), (4, segSize c + s.nsects * sectSize c)] ++ (s.segname ++
  Obj.encode c.en [(c.w, s.vmaddr), (c.w, s.vmsize), (c.w, s.fileoff), (c.w, s.filesize), (4, s.maxprot),
    (4, s.initprot), (4, s.nsects), (4, s.flags)])

/-- The accessors of a segment command image, src/read/macho/segment.rs:309-392. -/
def Seg.decode (c : Cfg) (img : List UInt8) : Seg :=
  let f := Obj.decode c.en [c.w, c.w, c.w, c.w, 4, 4, 4, 4] (img.drop 24)
  ⟨(img.drop 8).take 16, f.getD 0 0, f.getD 1 0, f.getD 2 0, f.getD 3 0, f.getD 4 0, f.getD 5 0, f.getD 6 0, f.getD 7 0⟩

/-- `Section32`/`Section64`, src/macho.rs:1520-1576, and `SectionHeader` of the writer,
src/write/macho/encoder.rs:72-88.  (`reserved3` is 0 in a 32-bit file.) -/
structure Sect where
  sectname : List UInt8
  segname : List UInt8
  addr : Nat
  size : Nat
  offset : Nat
  align : Nat
  reloff : Nat
  nreloc : Nat
  flags : Nat
  reserved1 : Nat
  reserved2 : Nat
  reserved3 : Nat
  deriving DecidableEq, Repr

/-- The fields after the names. -/
def Sect.fields (c : Cfg) (s : Sect) : List (Nat × Nat) :=
  [(c.w, s.addr), (c.w, s.size), (4, s.offset), (4, s.align), (4, s.reloff), (4, s.nreloc), (4, s.flags), (4, s.reserved1),
    (4, s.reserved2)] ++ if c.is64 then [(4, s.reserved3)] else []

/-- `Encoder::section_header`, src/write/macho/encoder.rs:477-515. -/
def Sect.encode (c : Cfg) (s : Sect) : List UInt8 := s.sectname ++ (s.segname ++ Obj.encode c.en (s.fields c))

/-- The accessors of a section header image, src/read/macho/section.rs:478-600. -/
def Sect.decode (c : Cfg) (img : List UInt8) : Sect :=
  let f := Obj.decode c.en ([c.w, c.w, 4, 4, 4, 4, 4, 4, 4] ++ if c.is64 then [4] else []) (img.drop 32)
  ⟨img.take 16, (img.drop 16).take 16, f.getD 0 0, f.getD 1 0, f.getD 2 0, f.getD 3 0, f.getD 4 0, f.getD 5 0, f.getD 6 0,
    f.getD 7 0, f.getD 8 0, f.getD 9 0⟩

/-- The bytes up to the first NUL, src/read/macho/section.rs:366-382. -/
def upToNul (l : List UInt8) : List UInt8 := l.takeWhile (· ≠ 0)

/-- `Section::file_size`, src/read/macho/section.rs:392-397: `S_ZEROFILL`, `S_GB_ZEROFILL`,
`S_THREAD_LOCAL_ZEROFILL` have none. -/
def Sect.fileSize (s : Sect) : Option Nat :=
  let t := s.flags &&& 0xff
  if t = 1 ∨ t = 0xc ∨ t = 0x12 then none else some s.size

/-- `Section::relocations`, src/read/macho/section.rs:434-441 (the words of the records). -/
def Sect.relocations (c : Cfg) (s : Sect) (data : List UInt8) : Res (List (Nat × Nat)) :=
  (Elf.readSliceAt data s.reloff 8 s.nreloc).bind fun imgs =>
    .ok (imgs.map fun i => (rd c.en (i.take 4), rd c.en ((i.drop 4).take 4)))

/-- `MachOSection::align`, src/read/macho/section.rs:149-152. -/
def Sect.alignment (s : Sect) : Nat := if s.align < 64 then 2 ^ s.align else 0

/-- `MachOSectionInternal::parse_kind`, src/read/macho/section.rs:265-317. -/
def sectKind (readonly : Option Bool) (s : Sect) : SectionKind :=
  let segment := upToNul s.segname
  let t := s.flags &&& 0xff
  if segment = [95, 95, 68, 87, 65, 82, 70] then .debug                                -- __DWARF
  else if s.flags &&& 0x2000000 = 0x2000000 then .unknown
  else if t = 1 ∨ t = 0xc then .uninitializedData
  else if t = 2 then .readOnlyString
  else if t = 3 ∨ t = 4 ∨ t = 0xe ∨ t = 5 then .readOnlyData
  else if t = 8 then .text
  else if t = 0x11 then .tls
  else if t = 0x12 then .uninitializedTls
  else if t = 0x13 then .tlsVariables
  else if t = 0 ∨ t = 0xb ∨ t = 6 ∨ t = 7 ∨ t = 9 ∨ t = 0xa ∨ t = 0xd ∨ t = 0x10 ∨ t = 0x14 ∨ t = 0x15 ∨ t = 0x16 then
    if s.flags &&& 0x80000400 ≠ 0 then .text
    else if readonly.getD (decide (segment = [95, 95, 84, 69, 88, 84])) then .readOnlyData   -- __TEXT
    else .data
  else .unknown

/-- `MachOSectionInternal`, src/read/macho/section.rs:229-242. -/
structure SecInt where
  kind : SectionKind
  sect : Sect
  offset : Nat
  deriving DecidableEq, Repr

/-- `MachOSection::data`, src/read/macho/section.rs:162-164, and `Section::data`, 417-429. -/
def SecInt.data (s : SecInt) (data : List UInt8) : Res (List UInt8) :=
  match s.sect.fileSize with
  | some size => ReadRef.readBytesAt data s.offset size
  | none => .ok []

/-- `SectionOffsetIterator`, src/read/macho/segment.rs:186-222, run to its end by `parse_sections`: the file offsets
of the sections.  An error ends the iteration. -/
def sectionOffsets (overflow : Bool) (segEnd : Nat) : Nat → List Sect → Res (List Nat)
  | _, [] => .ok []
  | prev, s :: ss =>
    match overflow, s.fileSize with
    | true, some size =>
      let off := s.offset ||| (prev &&& 0xffffffff00000000)
      let off := if off < prev then (off + 0x100000000) % U64 else off
      let e := (off + size) % U64
      if segEnd < e then .err
      else (sectionOffsets overflow segEnd e ss).bind fun r => .ok (off :: r)
    | _, _ => (sectionOffsets overflow segEnd prev ss).bind fun r => .ok (s.offset :: r)

/-- `Segment::section_offsets`, src/read/macho/segment.rs:288-302. -/
def Seg.sectionOffsets (s : Seg) (ss : List Sect) : Res (List Nat) :=
  let e := (s.fileoff + s.filesize) % U64
  MachoR.sectionOffsets (decide (U32 - 1 < e)) e s.fileoff ss

/-- `readonly` in `parse_sections`, src/read/macho/file.rs:179-187; `VM_PROT_WRITE = 2`, `SG_READ_ONLY = 0x10`. -/
def readonlyOf (h : Mhdr) (s : Seg) : Option Bool :=
  if h.filetype = 1 then none else some (decide (s.initprot &&& 2 ≠ 2) || decide (s.flags &&& 0x10 = 0x10))

/-- `MachOFile::parse_sections`, src/read/macho/file.rs:171-199. -/
def parseSections (c : Cfg) (h : Mhdr) (s : Seg) (sectionData : List UInt8) : Res (List SecInt) :=
  (Elf.readSliceAt sectionData 0 (sectSize c) s.nsects).bind fun imgs =>
    let ss := imgs.map (Sect.decode c)
    (s.sectionOffsets ss).bind fun offs =>
      .ok ((ss.zip offs).map fun p => ⟨sectKind (readonlyOf h s) p.1, p.1, p.2⟩)

/-! ## Symbols -/

/-- `Nlist32`/`Nlist64`, src/macho.rs:3280-3334, and `Nlist` of the writer, src/write/macho/encoder.rs:184-194. -/
structure Nlist where
  strx : Nat
  typ : Nat
  sect : Nat
  desc : Nat
  value : Nat
  deriving DecidableEq, Repr

/-- Size of a symbol, src/write/macho/encoder.rs:557-563. -/
def nlistSize (c : Cfg) : Nat := if c.is64 then 16 else 12

/-- `Encoder::nlist`, src/write/macho/encoder.rs:568-589. -/
def Nlist.encode (c : Cfg) (n : Nlist) : List UInt8 :=
  Obj.encode c.en [(4, n.strx), (1, n.typ), (1, n.sect), (2, n.desc), (c.w, n.value)]

/-- The accessors of a symbol image, src/read/macho/symbol.rs:583-620. -/
def Nlist.decode (c : Cfg) (img : List UInt8) : Nlist :=
  let f := Obj.decode c.en [4, 1, 1, 2, c.w] img
  ⟨f.getD 0 0, f.getD 1 0, f.getD 2 0, f.getD 3 0, f.getD 4 0⟩

/-- `SymbolTable`, src/read/macho/symbol.rs:22-29. -/
structure SymTab where
  symbols : List Nlist
  strings : Elf.StrTable
  deriving DecidableEq, Repr

/-- `Nlist::name`, src/read/macho/symbol.rs:520-528. -/
def SymTab.name (t : SymTab) (data : List UInt8) (n : Nlist) : Res (List UInt8) := t.strings.get data n.strx

/-- `SymtabCommand`, src/macho.rs:2145-2162 (without `cmd` and `cmdsize`). -/
structure SymtabCmd where
  symoff : Nat
  nsyms : Nat
  stroff : Nat
  strsize : Nat
  deriving DecidableEq, Repr

/-- `Encoder::symtab_command`, src/write/macho/encoder.rs:539-554; `LC_SYMTAB = 2`. -/
def SymtabCmd.encode (c : Cfg) (s : SymtabCmd) : List UInt8 :=
  Obj.encode c.en [(4, 2), (4, 24), (4, s.symoff), (4, s.nsyms), (4, s.stroff), (4, s.strsize)]

/-- The fields of the command. -/
def SymtabCmd.decode (c : Cfg) (img : List UInt8) : SymtabCmd :=
  let f := Obj.decode c.en [4, 4, 4, 4, 4, 4] img
  ⟨f.getD 2 0, f.getD 3 0, f.getD 4 0, f.getD 5 0⟩

/-- `SymtabCommand::symbols`, src/read/macho/load_command.rs:456-473. -/
def SymtabCmd.symbols (c : Cfg) (s : SymtabCmd) (data : List UInt8) : Res SymTab :=
  (Elf.readSliceAt data s.symoff (nlistSize c) s.nsyms).bind fun imgs =>
    if U64 ≤ s.stroff + s.strsize then .err
    else .ok ⟨imgs.map (Nlist.decode c), some (s.stroff, s.stroff + s.strsize)⟩

/-! ## Other load commands of object files -/

/-- `DysymtabCommand`, src/macho.rs:2202-2303: the fields for the groups of symbols; the twelve others are listed in
`rest`. -/
structure DysymtabCmd where
  ilocalsym : Nat
  nlocalsym : Nat
  iextdefsym : Nat
  nextdefsym : Nat
  iundefsym : Nat
  nundefsym : Nat
  rest : List Nat
  deriving DecidableEq, Repr

/-- `Encoder::dysymtab_command`, src/write/macho/encoder.rs:614-643; `LC_DYSYMTAB = 0xb`. -/
def DysymtabCmd.encode (c : Cfg) (s : DysymtabCmd) : List UInt8 :=
  Obj.encode c.en ([(4, 0xb), (4, 80), (4, s.ilocalsym), (4, s.nlocalsym), (4, s.iextdefsym), (4, s.nextdefsym),
    (4, s.iundefsym), (4, s.nundefsym)] ++ s.rest.map fun x => (4, x))

/-- The fields of the command. -/
def DysymtabCmd.decode (c : Cfg) (img : List UInt8) : DysymtabCmd :=
  let f := Obj.decode c.en ([4, 4, 4, 4, 4, 4, 4, 4] ++ List.replicate 12 4) img
  ⟨f.getD 2 0, f.getD 3 0, f.getD 4 0, f.getD 5 0, f.getD 6 0, f.getD 7 0, f.drop 8⟩

/-- `LoadCommandData::dysymtab`, src/read/macho/load_command.rs:223-229. -/
def dysymtab (c : Cfg) (cmd : MachO.LoadCommandData) : Res (Option DysymtabCmd) :=
  if cmd.cmd = 0xb then (Bytes.readAt cmd.data 0 80).bind fun img => .ok (some (DysymtabCmd.decode c img)) else .ok none

/-- `BuildVersionCommand`, src/macho.rs:2673-2686, and `BuildVersionCommand` of the writer,
src/write/macho/encoder.rs:238-250. -/
structure BuildVersion where
  platform : Nat
  minos : Nat
  sdk : Nat
  ntools : Nat
  deriving DecidableEq, Repr

/-- `Encoder::build_version_command`, src/write/macho/encoder.rs:703-722; `LC_BUILD_VERSION = 0x32`. -/
def BuildVersion.encode (c : Cfg) (v : BuildVersion) : List UInt8 :=
  Obj.encode c.en [(4, 0x32), (4, 24 + v.ntools * 8), (4, v.platform), (4, v.minos), (4, v.sdk), (4, v.ntools)]

/-- The fields of the command. -/
def BuildVersion.decode (c : Cfg) (img : List UInt8) : BuildVersion :=
  let f := Obj.decode c.en [4, 4, 4, 4, 4, 4] img
  ⟨f.getD 2 0, f.getD 3 0, f.getD 4 0, f.getD 5 0⟩

/-- `LoadCommandData::build_version`, src/read/macho/load_command.rs:344-364, and `tools`, 541-551 (the images of the
tools). -/
def buildVersion (c : Cfg) (cmd : MachO.LoadCommandData) : Res (Option (BuildVersion × List (List UInt8))) :=
  if cmd.cmd ≠ 0x32 then .ok none
  else match Bytes.read cmd.data 24 with
    | (.ok img, rest) =>
      let v := BuildVersion.decode c img
      (Elf.readSliceAt rest 0 8 v.ntools).bind fun tools => .ok (some (v, tools))
    | (.err, _) => .err
    | (.panic, _) => .panic

/-! ## `MachOFile` -/

/-- `MachOFile`, src/read/macho/file.rs:41-60 (the fields that `parse` computes). -/
structure File where
  cfg : Cfg
  header : Mhdr
  segments : List Seg
  sections : List SecInt
  symbols : SymTab
  deriving DecidableEq, Repr

/-- `Segment::from_command`, src/read/macho/segment.rs:313, 357 and `segment_32`/`segment_64`,
src/read/macho/load_command.rs:203-211, 284-292: the segment and the data after it. -/
def segmentOf (c : Cfg) (cmd : MachO.LoadCommandData) : Res (Option (Seg × List UInt8)) :=
  if cmd.cmd = segCmd c then
    match Bytes.read cmd.data (segSize c) with
    | (.ok img, rest) => .ok (some (Seg.decode c img, rest))
    | (.err, _) => .err
    | (.panic, _) => .panic
  else .ok none

/-- `LoadCommandData::symtab`, src/read/macho/load_command.rs:214-220. -/
def symtabOf (c : Cfg) (cmd : MachO.LoadCommandData) : Res (Option SymtabCmd) :=
  if cmd.cmd = 2 then (Bytes.readAt cmd.data 0 24).bind fun img => .ok (some (SymtabCmd.decode c img)) else .ok none

/-- The body of the loop of `MachOFile::parse`, src/read/macho/file.rs:76-90. -/
def parseStep (c : Cfg) (data : List UInt8) (f : File) (cmd : MachO.LoadCommandData) : Res File :=
  (segmentOf c cmd).bind fun r =>
    match r with
    | some (s, rest) =>
      (parseSections c f.header s rest).bind fun ss => .ok { f with segments := f.segments ++ [s], sections := f.sections ++ ss }
    | none =>
      (symtabOf c cmd).bind fun r =>
        match r with
        | some t => (t.symbols c data).bind fun y => .ok { f with symbols := y }
        | none => .ok f

/-- The loop of `MachOFile::parse`, src/read/macho/file.rs:76-91; the first argument is `ncmds`, which every turn of
the loop decreases.  An error of the iterator ends the loop silently. -/
def parseLoop (c : Cfg) (data : List UInt8) : Nat → MachO.LoadCommands → File → Res File
  | 0, _, f => .ok f
  | n + 1, cs, f =>
    match cs.next c.en with
    | (.ok (some cmd), cs') => (parseStep c data f cmd).bind fun f => parseLoop c data n cs' f
    | (.panic, _) => .panic
    | _ => .ok f

/-- `MachOFile::parse`, src/read/macho/file.rs:68-104. -/
def File.parse (is64 : Bool) (data : List UInt8) : Res File :=
  (parseHeader is64 data).bind fun p =>
    let f : File := ⟨p.1, p.2, [], [], ⟨[], none⟩⟩
    match loadCommands p.1 p.2 data with
    | .ok cs => parseLoop p.1 data cs.ncmds cs f
    | .err => .ok f
    | .panic => .panic

end Obj.MachoR

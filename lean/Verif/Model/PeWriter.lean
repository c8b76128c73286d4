import Verif.Model.PeFile
import Verif.Model.PeReloc
import Verif.Model.Reserve

/-!
# Model of `write::pe::Writer`

`src/write/pe.rs`.  The state of the writer, its calls, and a client that makes the calls in the documented order: reserve
everything, then write everything in the same order.  Sizes are `u32` and truncated or checked as in the code; a failing
`debug_assert!`, an arithmetic overflow and an index out of bounds are panics.
-/

namespace Obj.PeW
open Obj Obj.Pe Obj.Reserve

/-- `Writer`, src/write/pe.rs:18-45.  `lay` has the alignments, lengths and addresses; `secs` are the names, characteristics and
ranges of the sections (the list of ranges in `lay` is not used).  `symbol_offset` and `symbol_num` are never changed from 0. -/
structure State where
  is64 : Bool
  lay : PeState
  headersLen : Nat
  ntOffset : Nat
  dirs : List DataDir
  headerNum : Nat
  secs : List (List UInt8 × Nat × SectionRange)
  relocs : RelocWriter
  relocOffset : Nat
  out : List UInt8
  deriving DecidableEq, Repr

/-- `Writer::new`, src/write/pe.rs:55-87. -/
def State.new (is64 : Bool) (sectionAlign fileAlign : Nat) : State :=
  ⟨is64, ⟨sectionAlign, fileAlign, 0, 0, 0, 0, 0, 0, 0, []⟩, 0, 0, [], 0, [], RelocWriter.new, 0, []⟩

/-! ## Reserving -/

/-- `reserve`, src/write/pe.rs:132-140. -/
def State.reserve (w : State) (size align : Nat) : Res (Nat × State) := do
  let (offset, len) ← Reserve.pe w.lay.len size align
  .ok (offset, { w with lay := { w.lay with len := len } })

/-- `reserve_dos_header`, src/write/pe.rs:186-189 (`ImageDosHeader` is 64 bytes, src/pe.rs). -/
def State.reserveDosHeader (w : State) : Res State :=
  if w.lay.len ≠ 0 then .panic else do
    let (_, w) ← w.reserve 64 1
    .ok w

/-- `reserve_dos_header_and_stub`, src/write/pe.rs:242-245. -/
def State.reserveDosHeaderAndStub (w : State) : Res State := do
  let w ← w.reserveDosHeader
  let (_, w) ← w.reserve 64 1
  .ok w

/-- `data_directory_num as u32 * 8`, `u32` multiplication. -/
def mulU32 (a b : Nat) : Res Nat := if a * b < U32 then .ok (a * b) else .panic

/-- `reserve_nt_headers`, src/write/pe.rs:313-321 (with `nt_headers_size`, 290-296: 24 bytes and the optional header). -/
def State.reserveNtHeaders (w : State) (dirNum : Nat) : Res State :=
  if w.ntOffset ≠ 0 then .panic else do
    let (offset, w) ← w.reserve (24 + optSize w.is64) 8
    let size ← mulU32 (dirNum % U32) 8
    let (_, w) ← { w with ntOffset := offset, dirs := List.replicate dirNum ⟨0, 0⟩ }.reserve size 1
    .ok w

/-- `set_data_directory`, src/write/pe.rs:324-329. -/
def State.setDir (w : State) (index : Nat) (d : DataDir) : Res State :=
  if index < w.dirs.length then .ok { w with dirs := w.dirs.set index d } else .panic

/-- `reserve_section_headers`, src/write/pe.rs:439-451 (with `reserve_align`, 155-157, and `reserve_virtual`, 103-108). -/
def State.reserveSectionHeaders (w : State) (num : Nat) : Res State :=
  if w.headerNum ≠ 0 then .panic else do
    let (_, w) ← { w with headerNum := num }.reserve (num * 40) 1
    let len ← align64 w.lay.len w.lay.fileAlign
    let (_, vlen) ← peVirtual w.lay.sectionAlign w.lay.vlen (len % U32)
    .ok { w with headersLen := len % U32, lay := { w.lay with len := len, vlen := vlen } }

/-- The class of the content by the characteristics, src/write/pe.rs:496-511: `IMAGE_SCN_CNT_CODE = 0x20`,
`IMAGE_SCN_CNT_INITIALIZED_DATA = 0x40`, `IMAGE_SCN_CNT_UNINITIALIZED_DATA = 0x80`. -/
def content (characteristics : Nat) : Content :=
  if characteristics &&& 0x20 = 0x20 then .code
  else if characteristics &&& 0x40 = 0x40 then .data
  else if characteristics &&& 0x80 = 0x80 then .bss
  else .other

/-- `reserve_section`, src/write/pe.rs:478-524. -/
def State.reserveSection (w : State) (name : List UInt8) (characteristics virtualSize dataSize : Nat) :
    Res (SectionRange × State) := do
  let (range, lay) ← peSection w.lay (content characteristics) virtualSize dataSize
  .ok (range, { w with lay := lay, secs := w.secs ++ [(name, characteristics, range)] })

/-- Setting the directory of a section, src/write/pe.rs:608-613 and the like: the directory must exist and be unset. -/
def State.claimDir (w : State) (index : Nat) (d : DataDir) : Res State :=
  match w.dirs[index]? with
  | none => .panic
  | some old => if old.virtualAddress ≠ 0 then .panic else .ok { w with dirs := w.dirs.set index d }

/-- A section for which a data directory is set: `reserve_idata_section`, `reserve_edata_section`, `reserve_pdata_section` and
`reserve_rsrc_section`, src/write/pe.rs:593-682. -/
def State.reserveDirSection (w : State) (name : List UInt8) (characteristics size dir : Nat) : Res (SectionRange × State) := do
  let (range, w) ← w.reserveSection name characteristics size size
  let w ← w.claimDir dir ⟨range.virtualAddress, size⟩
  .ok (range, w)

/-- `reserve_text_section`, src/write/pe.rs:541-548. -/
def State.reserveText (w : State) (size : Nat) : Res (SectionRange × State) :=
  w.reserveSection [0x2e, 0x74, 0x65, 0x78, 0x74, 0, 0, 0] (0x20 ||| 0x20000000 ||| 0x40000000) size size

/-- `reserve_data_section`, src/write/pe.rs:555-562. -/
def State.reserveData (w : State) (virtualSize dataSize : Nat) : Res (SectionRange × State) :=
  w.reserveSection [0x2e, 0x64, 0x61, 0x74, 0x61, 0, 0, 0] (0x40 ||| 0x40000000 ||| 0x80000000) virtualSize dataSize

/-- `reserve_rdata_section`, src/write/pe.rs:567-574. -/
def State.reserveRdata (w : State) (size : Nat) : Res (SectionRange × State) :=
  w.reserveSection [0x2e, 0x72, 0x64, 0x61, 0x74, 0x61, 0, 0] (0x40 ||| 0x40000000) size size

/-- `reserve_bss_section`, src/write/pe.rs:579-586. -/
def State.reserveBss (w : State) (size : Nat) : Res (SectionRange × State) :=
  w.reserveSection [0x2e, 0x62, 0x73, 0x73, 0, 0, 0, 0] (0x80 ||| 0x40000000 ||| 0x80000000) size 0

/-- `reserve_idata_section`, src/write/pe.rs:594-608; `IMAGE_DIRECTORY_ENTRY_IMPORT = 1`. -/
def State.reserveIdata (w : State) (size : Nat) : Res (SectionRange × State) :=
  w.reserveDirSection [0x2e, 0x69, 0x64, 0x61, 0x74, 0x61, 0, 0] (0x40 ||| 0x40000000 ||| 0x80000000) size 1

/-- `reserve_edata_section`, src/write/pe.rs:615-629; `IMAGE_DIRECTORY_ENTRY_EXPORT = 0`. -/
def State.reserveEdata (w : State) (size : Nat) : Res (SectionRange × State) :=
  w.reserveDirSection [0x2e, 0x65, 0x64, 0x61, 0x74, 0x61, 0, 0] (0x40 ||| 0x40000000) size 0

/-- `reserve_pdata_section`, src/write/pe.rs:636-650; `IMAGE_DIRECTORY_ENTRY_EXCEPTION = 3`. -/
def State.reservePdata (w : State) (size : Nat) : Res (SectionRange × State) :=
  w.reserveDirSection [0x2e, 0x70, 0x64, 0x61, 0x74, 0x61, 0, 0] (0x40 ||| 0x40000000) size 3

/-- `reserve_xdata_section`, src/write/pe.rs:655-662. -/
def State.reserveXdata (w : State) (size : Nat) : Res (SectionRange × State) :=
  w.reserveSection [0x2e, 0x78, 0x64, 0x61, 0x74, 0x61, 0, 0] (0x40 ||| 0x40000000) size size

/-- `reserve_rsrc_section`, src/write/pe.rs:669-683; `IMAGE_DIRECTORY_ENTRY_RESOURCE = 2`. -/
def State.reserveRsrc (w : State) (size : Nat) : Res (SectionRange × State) :=
  w.reserveDirSection [0x2e, 0x72, 0x73, 0x72, 0x63, 0, 0, 0] (0x40 ||| 0x40000000) size 2

/-- `add_reloc`, src/write/pe.rs:688-709, for a list of base relocations. -/
def State.addRelocs (w : State) (rs : List Reloc) : Res State := do
  let relocs ← w.relocs.addAll rs
  .ok { w with relocs := relocs }

/-- `reserve_reloc_section`, src/write/pe.rs:721-746; `IMAGE_DIRECTORY_ENTRY_BASERELOC = 5`. -/
def State.reserveReloc (w : State) : Res (SectionRange × State) := do
  let (relocs, size) ← w.relocs.reserve
  let (range, w) ← { w with relocs := relocs }.reserveDirSection [0x2e, 0x72, 0x65, 0x6c, 0x6f, 0x63, 0, 0]
    (0x40 ||| 0x40000000 ||| 0x02000000) size 5
  .ok (range, { w with relocOffset := range.fileOffset })

/-- `reserve_certificate_table`, src/write/pe.rs:776-786; `IMAGE_DIRECTORY_ENTRY_SECURITY = 4`. -/
def State.reserveCert (w : State) (size : Nat) : Res State := do
  let size ← align32 size 8
  let (offset, w) ← w.reserve size 8
  w.claimDir 4 ⟨offset, size⟩

/-! ## Writing -/

/-- `write`, src/write/pe.rs:150-152. -/
def State.write (w : State) (b : List UInt8) : Res State := do
  let out ← bufBytes w.out b
  .ok { w with out := out }

/-- `write_align`, src/write/pe.rs:160-162. -/
def State.writeAlign (w : State) (align : Nat) : Res State := do
  let out ← bufAlign w.out align
  .ok { w with out := out }

/-- `pad_until`, src/write/pe.rs:176-179. -/
def State.padUntil (w : State) (offset : Nat) : Res State := do
  let out ← bufUntil w.out offset
  .ok { w with out := out }

/-- `write_custom_dos_header`, src/write/pe.rs:196-206, for a header with the bytes `head` before `e_lfanew`.  Allocating the buffer
does not fail. -/
def State.writeDosHeader (w : State) (head : List UInt8) (lfanew : Nat) : Res State :=
  if w.out ≠ [] then .panic else w.write (head ++ wr .little 4 lfanew)

/-- The header of `write_empty_dos_header`, src/write/pe.rs:215-237, without `e_lfanew`. -/
def emptyDos : List UInt8 := wr .little 2 0x5a4d ++ List.replicate 58 0

/-- The header of `write_dos_header_and_stub`, src/write/pe.rs:252-272, without `e_lfanew`: `e_cblp`, `e_cp`, `e_crlc`, `e_cparhdr`,
`e_minalloc`, `e_maxalloc`, `e_ss`, `e_sp`, `e_csum`, `e_ip`, `e_cs`, `e_lfarlc`, and 17 zero words. -/
def stubDos : List UInt8 :=
  wr .little 2 0x5a4d ++ wr .little 2 0x90 ++ wr .little 2 3 ++ wr .little 2 0 ++ wr .little 2 4 ++ wr .little 2 0 ++
  wr .little 2 0xffff ++ wr .little 2 0 ++ wr .little 2 0xb8 ++ wr .little 2 0 ++ wr .little 2 0 ++ wr .little 2 0 ++
  wr .little 2 0x40 ++ List.replicate 34 0

/-- The stub of `write_dos_header_and_stub`, src/write/pe.rs:275-285. -/
def stub : List UInt8 :=
  [0x0e, 0x1f, 0xba, 0x0e, 0x00, 0xb4, 0x09, 0xcd, 0x21, 0xb8, 0x01, 0x4c, 0xcd, 0x21, 0x54, 0x68,
   0x69, 0x73, 0x20, 0x70, 0x72, 0x6f, 0x67, 0x72, 0x61, 0x6d, 0x20, 0x63, 0x61, 0x6e, 0x6e, 0x6f,
   0x74, 0x20, 0x62, 0x65, 0x20, 0x72, 0x75, 0x6e, 0x20, 0x69, 0x6e, 0x20, 0x44, 0x4f, 0x53, 0x20,
   0x6d, 0x6f, 0x64, 0x65, 0x2e, 0x0d, 0x0d, 0x0a, 0x24, 0x00, 0x00, 0x00, 0x00, 0x00, 0x00, 0x00]

/-- `NtHeaders`, src/write/pe.rs:803-829. -/
structure NtHeaders where
  machine : Nat
  timeDateStamp : Nat
  characteristics : Nat
  majorLinkerVersion : Nat
  minorLinkerVersion : Nat
  addressOfEntryPoint : Nat
  imageBase : Nat
  majorOperatingSystemVersion : Nat
  minorOperatingSystemVersion : Nat
  majorImageVersion : Nat
  minorImageVersion : Nat
  majorSubsystemVersion : Nat
  minorSubsystemVersion : Nat
  subsystem : Nat
  dllCharacteristics : Nat
  sizeOfStackReserve : Nat
  sizeOfStackCommit : Nat
  sizeOfHeapReserve : Nat
  sizeOfHeapCommit : Nat
  deriving DecidableEq, Repr

/-- `optional_header_size`, src/write/pe.rs:298-305, `u32` arithmetic. -/
def State.optionalHeaderSize (w : State) : Res Nat := do
  let n ← mulU32 (w.dirs.length % U32) 8
  addU32 (optSize w.is64) n

/-- `x as u32` in the 32-bit header, src/write/pe.rs:386-414. -/
def word (is64 : Bool) (x : Nat) : Nat := if is64 then x else x % U32

/-- The optional header of `write_nt_headers`, src/write/pe.rs:348-418. -/
def State.optHeader (w : State) (nt : NtHeaders) : OptHeader :=
  { magic := if w.is64 then 0x20b else 0x10b
    majorLinkerVersion := nt.majorLinkerVersion
    minorLinkerVersion := nt.minorLinkerVersion
    sizeOfCode := w.lay.codeLen
    sizeOfInitializedData := w.lay.dataLen
    sizeOfUninitializedData := w.lay.bssLen
    addressOfEntryPoint := nt.addressOfEntryPoint
    baseOfCode := w.lay.codeAddress
    baseOfData := if w.is64 then none else some w.lay.dataAddress
    imageBase := word w.is64 nt.imageBase
    sectionAlignment := w.lay.sectionAlign
    fileAlignment := w.lay.fileAlign
    majorOperatingSystemVersion := nt.majorOperatingSystemVersion
    minorOperatingSystemVersion := nt.minorOperatingSystemVersion
    majorImageVersion := nt.majorImageVersion
    minorImageVersion := nt.minorImageVersion
    majorSubsystemVersion := nt.majorSubsystemVersion
    minorSubsystemVersion := nt.minorSubsystemVersion
    win32VersionValue := 0
    sizeOfImage := w.lay.vlen
    sizeOfHeaders := w.headersLen
    checkSum := 0
    subsystem := nt.subsystem
    dllCharacteristics := nt.dllCharacteristics
    sizeOfStackReserve := word w.is64 nt.sizeOfStackReserve
    sizeOfStackCommit := word w.is64 nt.sizeOfStackCommit
    sizeOfHeapReserve := word w.is64 nt.sizeOfHeapReserve
    sizeOfHeapCommit := word w.is64 nt.sizeOfHeapCommit
    loaderFlags := 0
    numberOfRvaAndSizes := w.dirs.length % U32 }

/-- `ImageDataDirectory`, src/pe.rs: address and size. -/
def dirBytes (d : DataDir) : List UInt8 := encode .little [(4, d.virtualAddress), (4, d.size)]

/-- `write_nt_headers`, src/write/pe.rs:332-432. -/
def State.writeNtHeaders (w : State) (nt : NtHeaders) : Res State := do
  let w ← w.padUntil w.ntOffset
  let w ← w.write (wr .little 4 0x4550)
  let size ← w.optionalHeaderSize
  let w ← w.write (Coff.FileHeader.encode ⟨nt.machine, w.headerNum, nt.timeDateStamp, 0, 0, size % U16, nt.characteristics⟩)
  let w ← w.write (OptHeader.encode w.is64 (w.optHeader nt))
  w.write (w.dirs.flatMap dirBytes)

/-- The section header of a section, src/write/pe.rs:457-471. -/
def sectionHeader (s : List UInt8 × Nat × SectionRange) : Coff.Section :=
  ⟨s.1, s.2.2.virtualSize, s.2.2.virtualAddress, s.2.2.fileSize, s.2.2.fileOffset, 0, 0, 0, 0, s.2.1⟩

/-- `write_section_headers`, src/write/pe.rs:455-472. -/
def State.writeSectionHeaders (w : State) : Res State :=
  if w.headerNum ≠ w.secs.length then .panic else w.write (w.secs.flatMap fun s => Coff.Section.encode (sectionHeader s))

/-- `write_section`, src/write/pe.rs:529-536. -/
def State.writeSection (w : State) (offset : Nat) (data : List UInt8) : Res State := do
  let out ← peWriteSection w.lay.fileAlign w.out offset data
  .ok { w with out := out }

/-- `write_reloc_section`, src/write/pe.rs:751-770. -/
def State.writeReloc (w : State) : Res State :=
  if w.relocOffset = 0 then .ok w
  else do
    let w ← w.padUntil w.relocOffset
    let b ← w.relocs.write
    let w ← w.write b
    w.writeAlign w.lay.fileAlign

/-- `write_certificate_table`, src/write/pe.rs:789-794. -/
def State.writeCert (w : State) (data : List UInt8) : Res State :=
  match w.dirs[4]? with
  | none => .panic
  | some dir => do
    let w ← w.padUntil dir.virtualAddress
    let w ← w.write data
    let stop ← addU32 dir.virtualAddress dir.size
    w.padUntil stop

/-! ## A client -/

/-- The DOS header the client writes. -/
inductive Dos where
  | standard
  | empty
  | custom (head : List UInt8)
  deriving DecidableEq, Repr

/-- A section the client adds, by the method that reserves it, with the data that is written. -/
inductive Sec where
  | custom (name : List UInt8) (characteristics virtualSize dataSize : Nat) (data : List UInt8)
  | text (data : List UInt8)
  | data (virtualSize : Nat) (data : List UInt8)
  | rdata (data : List UInt8)
  | bss (size : Nat)
  | idata (data : List UInt8)
  | edata (data : List UInt8)
  | pdata (data : List UInt8)
  | xdata (data : List UInt8)
  | rsrc (data : List UInt8)
  | reloc
  deriving DecidableEq, Repr

/-- What the client writes.  `extra` is further data between the DOS header (and stub) and the NT headers, with its alignment. -/
structure Prog where
  is64 : Bool
  sectionAlign : Nat
  fileAlign : Nat
  dos : Dos
  extra : List (Nat × List UInt8)
  dirNum : Nat
  dirsBefore : List (Nat × DataDir)
  nt : NtHeaders
  relocs : List Reloc
  sections : List Sec
  dirsAfter : List (Nat × DataDir)
  cert : Option (List UInt8)
  deriving DecidableEq, Repr

/-- `reserve_dos_header` or `reserve_dos_header_and_stub` (client). -/
def State.reserveDos (w : State) : Dos → Res State
  | .standard => w.reserveDosHeaderAndStub
  | .empty => w.reserveDosHeader
  | .custom _ => w.reserveDosHeader

/-- `reserve` for each piece of further data (client). -/
def State.reserveExtra (w : State) : List (Nat × List UInt8) → Res State
  | [] => .ok w
  | (align, b) :: tl => do
    let (_, w) ← w.reserve b.length align
    w.reserveExtra tl

/-- `set_data_directory` for each (client). -/
def State.setDirs (w : State) : List (Nat × DataDir) → Res State
  | [] => .ok w
  | (i, d) :: tl => do
    let w ← w.setDir i d
    w.setDirs tl

/-- The method that reserves a section (client). -/
def State.reserveSec (w : State) : Sec → Res (SectionRange × State)
  | .custom name characteristics virtualSize dataSize _ => w.reserveSection name characteristics virtualSize dataSize
  | .text d => w.reserveText d.length
  | .data v d => w.reserveData v d.length
  | .rdata d => w.reserveRdata d.length
  | .bss n => w.reserveBss n
  | .idata d => w.reserveIdata d.length
  | .edata d => w.reserveEdata d.length
  | .pdata d => w.reservePdata d.length
  | .xdata d => w.reserveXdata d.length
  | .rsrc d => w.reserveRsrc d.length
  | .reloc => w.reserveReloc

/-- All sections (client); the ranges returned. -/
def State.reserveSecs (w : State) : List Sec → Res (List SectionRange × State)
  | [] => .ok ([], w)
  | s :: tl => do
    let (r, w) ← w.reserveSec s
    let (rs, w) ← w.reserveSecs tl
    .ok (r :: rs, w)

/-- `reserve_certificate_table` if there is one (client). -/
def State.reserveCertOpt (w : State) : Option (List UInt8) → Res State
  | none => .ok w
  | some d => w.reserveCert d.length

/-- The first phase (client). -/
def reserveAll (p : Prog) : Res (List SectionRange × State) := do
  let w ← (State.new p.is64 p.sectionAlign p.fileAlign).reserveDos p.dos
  let w ← w.reserveExtra p.extra
  let w ← w.reserveNtHeaders p.dirNum
  let w ← w.setDirs p.dirsBefore
  let w ← w.reserveSectionHeaders p.sections.length
  let w ← w.addRelocs p.relocs
  let (rs, w) ← w.reserveSecs p.sections
  let w ← w.setDirs p.dirsAfter
  let w ← w.reserveCertOpt p.cert
  .ok (rs, w)

/-- The DOS header and stub (client); a custom header has the `nt_headers_offset()` of the writer in `e_lfanew`. -/
def State.writeDos (w : State) : Dos → Res State
  | .standard => do
    let w ← w.writeDosHeader stubDos w.ntOffset
    w.write stub
  | .empty => w.writeDosHeader emptyDos w.ntOffset
  | .custom head => w.writeDosHeader head w.ntOffset

/-- `write_align` and `write` for each piece of further data (client). -/
def State.writeExtra (w : State) : List (Nat × List UInt8) → Res State
  | [] => .ok w
  | (align, b) :: tl => do
    let w ← w.writeAlign align
    let w ← w.write b
    w.writeExtra tl

/-- Writing a section (client). -/
def State.writeSec (w : State) (r : SectionRange) : Sec → Res State
  | .custom _ _ _ _ d => w.writeSection r.fileOffset d
  | .text d | .data _ d | .rdata d | .idata d | .edata d | .pdata d | .xdata d | .rsrc d => w.writeSection r.fileOffset d
  | .bss _ => .ok w
  | .reloc => w.writeReloc

/-- Writing all sections (client). -/
def State.writeSecs (w : State) : List (SectionRange × Sec) → Res State
  | [] => .ok w
  | (r, s) :: tl => do
    let w ← w.writeSec r s
    w.writeSecs tl

/-- `write_certificate_table` if there is one (client). -/
def State.writeCertOpt (w : State) : Option (List UInt8) → Res State
  | none => .ok w
  | some d => w.writeCert d

/-- The second phase (client). -/
def writeAll (p : Prog) (rs : List SectionRange) (w : State) : Res (List UInt8) := do
  let w ← w.writeDos p.dos
  let w ← w.writeExtra p.extra
  let w ← w.writeNtHeaders p.nt
  let w ← w.writeSectionHeaders
  let w ← w.writeSecs (rs.zip p.sections)
  let w ← w.writeCertOpt p.cert
  .ok w.out

/-- Both phases (client): the bytes of the file. -/
def run (p : Prog) : Res (List UInt8) := do
  let (rs, w) ← reserveAll p
  writeAll p rs w

end Obj.PeW

import Verif.Model.DyldCache
import Verif.Model.MachoFile

/-!
# Model of `MachOFile::parse_dyld_cache_image`

`src/read/macho/file.rs:106-169`, `File::parse_dyld_cache_image` of `src/read/any.rs`, and the reading of the data of the sections and
segments of such a file.  The part of the data (`R`) that the code keeps for a segment or a section is the data of one file of the cache;
here it is the index of that file.
-/

namespace Obj.DyldI
open Obj Obj.Dyld Obj.MachoR Obj.MachoF
open Obj.MachO (LoadCommands LoadCommandData)

/-- The data of a file of the cache, `DyldFile::data`, src/read/macho/dyld_cache.rs:221-228.  (Indices that `data_and_offset_for_address`
gives are in the list.) -/
def fileData (c : Dyld.Cache) (i : Nat) : List UInt8 :=
  match c.files[i]? with
  | some f => f.data
  | none => []

/-- `MachOFile`, src/read/macho/file.rs:47-60: `file` is `data`; the segments and sections are those of `MachOSegmentInternal`
(src/read/macho/segment.rs:172-184) and `MachOSectionInternal` (src/read/macho/section.rs:229-250) with their `data`. -/
structure Image where
  cfg : Cfg
  header : Mhdr
  file : Nat
  headerOffset : Nat
  linkedit : Option Nat
  segments : List (Seg × Nat)
  sections : List (SecInt × Nat)
  symbols : SymTab
  deriving DecidableEq, Repr

/-- `MachHeader::parse` at an offset, src/read/macho/file.rs:736-745, with `is_supported` and `endian`, 746-752. -/
def parseHeaderAt (is64 : Bool) (data : List UInt8) (offset : Nat) : Res (Cfg × Mhdr) :=
  (ReadRef.readBytesAt data offset (if is64 then 32 else 28)).bind fun img =>
    if img.take 4 = magic ⟨is64, .little⟩ then .ok (⟨is64, .little⟩, Mhdr.decode ⟨is64, .little⟩ img)
    else if img.take 4 = magic ⟨is64, .big⟩ then .ok (⟨is64, .big⟩, Mhdr.decode ⟨is64, .big⟩ img)
    else .err

/-- `MachHeader::load_commands`, src/read/macho/file.rs:754-770.  (`header_offset + header_size` does not overflow: the header was read
there.  The offset given to the iterator is the size of the header also for an image at another offset.) -/
def loadCommandsAt (c : Cfg) (h : Mhdr) (data : List UInt8) (headerOffset : Nat) : Res LoadCommands :=
  (ReadRef.readBytesAt data (headerOffset + hdrSize c) h.sizeofcmds).bind fun d => .ok ⟨d, h.ncmds, hdrSize c⟩

/-- The variables of the loop, src/read/macho/file.rs:119-122. -/
structure St where
  segments : List (Seg × Nat)
  sections : List (SecInt × Nat)
  linkedit : Option Nat
  symtab : Option SymtabCmd
  deriving DecidableEq, Repr

/-- `SEG_LINKEDIT = "__LINKEDIT"`, src/macho.rs:1798. -/
def segLinkedit : List UInt8 := [95, 95, 76, 73, 78, 75, 69, 68, 73, 84]

/-- The body of the loop, src/read/macho/file.rs:125-149. -/
def imageStep (cache : Dyld.Cache) (c : Cfg) (h : Mhdr) (s : St) (cmd : LoadCommandData) : Res St :=
  (segmentOf c cmd).bind fun r =>
    match r with
    | some (g, rest) =>
      match cache.dataAndOffset g.vmaddr with
      | none => .err
      | some (i, _) =>
        let linkedit := if upToNul g.segname = segLinkedit then some i else s.linkedit
        (parseSections c h g rest).bind fun ss =>
          .ok { s with segments := s.segments ++ [(g, i)], sections := s.sections ++ ss.map (fun x => (x, i)), linkedit := linkedit }
    | none =>
      (symtabOf c cmd).bind fun r =>
        match r with
        | some t => .ok { s with symtab := some t }
        | none => .ok s

/-- The loop, src/read/macho/file.rs:123-150; the number is `ncmds`, as in `MachoR.parseLoop`. -/
def imageLoop (cache : Dyld.Cache) (c : Cfg) (h : Mhdr) : Nat → LoadCommands → St → Res St
  | 0, _, s => .ok s
  | n + 1, cs, s =>
    match cs.next c.en with
    | (.ok (some cmd), cs') => (imageStep cache c h s cmd).bind fun s => imageLoop cache c h n cs' s
    | (.panic, _) => .panic
    | _ => .ok s

/-- The loop with the initial values; there is no error if the load commands are not inside of the data, src/read/macho/file.rs:119-123. -/
def imageCommands (cache : Dyld.Cache) (c : Cfg) (h : Mhdr) (data : List UInt8) (headerOffset : Nat) : Res St :=
  match loadCommandsAt c h data headerOffset with
  | .ok cs => imageLoop cache c h cs.ncmds cs ⟨[], [], none, none⟩
  | .err => .ok ⟨[], [], none, none⟩
  | .panic => .panic

/-- The symbols, src/read/macho/file.rs:152-157. -/
def imageSymbols (cache : Dyld.Cache) (c : Cfg) (s : St) : Res SymTab :=
  match s.symtab, s.linkedit with
  | some t, some i => t.symbols c (fileData cache i)
  | _, _ => .ok ⟨[], none⟩

/-- `MachOFile::parse_dyld_cache_image`, src/read/macho/file.rs:106-169. -/
def parse (is64 : Bool) (cache : Dyld.Cache) (info : ImageInfo) : Res Image :=
  (cache.imageDataAndOffset info).bind fun p =>
    (parseHeaderAt is64 (fileData cache p.1) p.2).bind fun q =>
      (imageCommands cache q.1 q.2 (fileData cache p.1) p.2).bind fun s =>
      (imageSymbols cache q.1 s).bind fun y =>
        .ok ⟨q.1, q.2, p.1, p.2, s.linkedit, s.segments, s.sections, y⟩

/-- `File::parse_dyld_cache_image`, src/read/any.rs:271-283, used by `DyldCacheImage::parse_object`, src/read/macho/dyld_cache.rs:326-329:
the width of the file is that of the architecture of the cache. -/
def parseObject (cache : Dyld.Cache) (info : ImageInfo) : Res Image :=
  match cache.arch.addressSize with
  | some 8 => parse true cache info
  | some 4 => parse false cache info
  | _ => .err

/-- `MachOSegment::data`, src/read/macho/segment.rs:80-87 and 117-119. -/
def segmentData (cache : Dyld.Cache) (s : Seg × Nat) : Res (List UInt8) := segData s.1 (fileData cache s.2)

/-- `MachOSection::data`, src/read/macho/section.rs:99-104 and 162-164. -/
def sectionData (cache : Dyld.Cache) (s : SecInt × Nat) : Res (List UInt8) := s.1.data (fileData cache s.2)

/-- `MachOSection::compressed_data`, src/read/macho/section.rs:183-185: the header of GNU-style compression is read from the data of
the section, the contents from the data of the file (`self.file.data`). -/
def sectionCompressedData (utf8 : List UInt8 → Bool) (cache : Dyld.Cache) (f : Image) (s : SecInt × Nat) : Res (List UInt8) :=
  (compressedFileRange utf8 s.1 (fileData cache s.2)).bind fun r => r.data (fileData cache f.file)

/-- The name of a symbol, `Nlist::name`, src/read/macho/symbol.rs:520-528: the strings are those of the `__LINKEDIT` data
(src/read/macho/load_command.rs:456-473). -/
def symbolName (cache : Dyld.Cache) (f : Image) (y : Nlist) : Res (List UInt8) :=
  match f.linkedit with
  | some i => f.symbols.name (fileData cache i) y
  | none => f.symbols.name [] y

/-! ## What is read from the load commands again -/

/-- `mach_uuid`, src/read/macho/file.rs:508-511, with `MachHeader::uuid`, 773-787. -/
def imageUuid (cache : Dyld.Cache) (f : Image) : Res (Option (List UInt8)) :=
  (loadCommandsAt f.cfg f.header (fileData cache f.file) f.headerOffset).bind fun cs => uuidLoop f.cfg.en cs.ncmds cs

/-- `MachOFile::build_version`, src/read/macho/file.rs:262-280. -/
def imageBuildVersion (cache : Dyld.Cache) (f : Image) : Res (Option (BuildVersion × List (List UInt8))) :=
  (loadCommandsAt f.cfg f.header (fileData cache f.file) f.headerOffset).bind fun cs => buildVersionLoop f.cfg cs.ncmds cs

/-- `entry`, src/read/macho/file.rs:517-560. -/
def imageEntry (cache : Dyld.Cache) (f : Image) : Nat :=
  match loadCommandsAt f.cfg f.header (fileData cache f.file) f.headerOffset with
  | .ok cs => entryLoop f.cfg.en f.header.cputype cs.ncmds cs
  | _ => 0

end Obj.DyldI

import Verif.Model.MachoView
import Verif.Model.Compression
import Verif.Model.SymbolMap
import Verif.Model.CoffWriter

/-!
# Model of what `read::macho::MachOFile`, its segments and its sections report

`src/read/macho/{file,segment,section,symbol,load_command}.rs`; `MachOFile::parse` is `Obj.MachoR.File.parse`.
-/

namespace Obj.MachoF
open Obj Obj.MachoR
open Obj.MachO (LoadCommands LoadCommandData)

/-! ## The header -/

/-- `architecture`, src/read/macho/file.rs:360-372; the constants are src/macho.rs:101-129. -/
def architecture (h : Mhdr) : Arch :=
  if h.cputype = 12 then .arm
  else if h.cputype = 0x100000c then .aarch64
  else if h.cputype = 0x200000c then .aarch64_Ilp32
  else if h.cputype = 7 then .i386
  else if h.cputype = 0x1000007 then .x86_64
  else if h.cputype = 8 then .mips
  else if h.cputype = 18 then .powerPc
  else if h.cputype = 0x1000012 then .powerPc64
  else .unknown

/-- `sub_architecture`, src/read/macho/file.rs:374-380, with `CpuSubtype::id`, src/macho.rs:148-152. -/
def subArchitecture (h : Mhdr) : Option CoffW.SubArch :=
  if h.cputype = 0x100000c ∧ h.cpusubtype &&& 0xffffff = 2 then some .arm64E else none

/-- `ObjectKind`, src/read/mod.rs:358-369. -/
inductive ObjKind where
  | unknown | relocatable | executable | dynamic | core
  deriving DecidableEq, Repr

/-- `kind`, src/read/macho/file.rs:392-400. -/
def kind (h : Mhdr) : ObjKind :=
  if h.filetype = 1 then .relocatable
  else if h.filetype = 2 then .executable
  else if h.filetype = 4 then .core
  else if h.filetype = 6 then .dynamic
  else .unknown

/-! ## Sections by index and name -/

/-- `section_internal`, src/read/macho/file.rs:202-211, and `section_by_index`, 441-447. -/
def sectionByIndex (f : File) (i : Nat) : Res SecInt :=
  if i = 0 then .err
  else match f.sections[i - 1]? with
    | some s => .ok s
    | none => .err

/-- `slice::strip_prefix`. -/
def stripPrefix (p l : List UInt8) : Option (List UInt8) := if l.take p.length = p then some (l.drop p.length) else none

/-- `make_prefix_matcher`, src/read/macho/file.rs:416-423. -/
def prefixMatches (queryPrefix namePrefix query name : List UInt8) : Bool :=
  match stripPrefix queryPrefix query with
  | some suffix => decide (stripPrefix namePrefix name = some (suffix.take (min suffix.length (16 - namePrefix.length))))
  | none => false

/-- The closure of `section_by_name_bytes`, src/read/macho/file.rs:424-438: `.` and `__`, `.debug_` and `__zdebug_`. -/
def nameMatches (query name : List UInt8) : Bool :=
  decide (name = query) || prefixMatches [46] [95, 95] query name ||
    prefixMatches [46, 100, 101, 98, 117, 103, 95] [95, 95, 122, 100, 101, 98, 117, 103, 95] query name

/-- `section_by_name_bytes`, src/read/macho/file.rs:409-439: `find`.  `section_by_name` (src/read/traits.rs:84-86) is the same on the
bytes of a string. -/
def sectionByName (f : File) (query : List UInt8) : Option SecInt :=
  f.sections.find? fun s => nameMatches query (upToNul s.sect.sectname)

/-- `has_debug_symbols`, src/read/macho/file.rs:504-506: a section for `.debug_info`. -/
def hasDebugSymbols (f : File) : Bool :=
  (sectionByName f [46, 100, 101, 98, 117, 103, 95, 105, 110, 102, 111]).isSome

/-! ## Load commands -/

/-- `LoadCommandData::uuid`, src/read/macho/load_command.rs:275-281: the 16 bytes of `UuidCommand` (src/macho.rs:2549-2559). -/
def uuidOf (cmd : LoadCommandData) : Res (Option (List UInt8)) :=
  if cmd.cmd = 0x1b then (Bytes.readAt cmd.data 0 24).bind fun img => .ok (some (slice img 8 16)) else .ok none

/-- The loop of `MachHeader::uuid`, src/read/macho/file.rs:779-786; the first argument is `ncmds`. -/
def uuidLoop (en : Endianness) : Nat → LoadCommands → Res (Option (List UInt8))
  | 0, _ => .ok none
  | n + 1, cs =>
    match cs.next en with
    | (.ok (some cmd), cs') =>
      match uuidOf cmd with
      | .ok (some u) => .ok (some u)
      | .panic => .panic
      | _ => uuidLoop en n cs'
    | (.ok none, _) => .ok none
    | (.err, _) => .err
    | (.panic, _) => .panic

/-- `mach_uuid`, src/read/macho/file.rs:508-511, with `MachHeader::uuid`, 773-787. -/
def machUuid (f : File) (data : List UInt8) : Res (Option (List UInt8)) :=
  (loadCommands f.cfg f.header data).bind fun cs => uuidLoop f.cfg.en cs.ncmds cs

/-- The loop of `build_version`, src/read/macho/file.rs:271-275. -/
def buildVersionLoop (c : Cfg) : Nat → LoadCommands → Res (Option (BuildVersion × List (List UInt8)))
  | 0, _ => .ok none
  | n + 1, cs =>
    match cs.next c.en with
    | (.ok (some cmd), cs') =>
      (MachoR.buildVersion c cmd).bind fun r =>
        match r with
        | some v => .ok (some v)
        | none => buildVersionLoop c n cs'
    | (.ok none, _) => .ok none
    | (.err, _) => .err
    | (.panic, _) => .panic

/-- `MachOFile::build_version`, src/read/macho/file.rs:262-280. -/
def buildVersion (f : File) (data : List UInt8) : Res (Option (BuildVersion × List (List UInt8))) :=
  (loadCommands f.cfg f.header data).bind fun cs => buildVersionLoop f.cfg cs.ncmds cs

/-- `entry_point`, src/read/macho/load_command.rs:322-328: `entryoff` of `EntryPointCommand` (src/macho.rs:3181-3192);
`LC_MAIN = 0x80000028`. -/
def entryPointOf (en : Endianness) (cmd : LoadCommandData) : Res (Option Nat) :=
  if cmd.cmd = 0x80000028 then (Bytes.readAt cmd.data 0 24).bind fun img => .ok (some (field en img 8 8)) else .ok none

/-- `unix_thread`, src/read/macho/load_command.rs:333-341: the data after `ThreadCommand` (src/macho.rs:2078-2088). -/
def unixThreadOf (cmd : LoadCommandData) : Res (Option (List UInt8)) :=
  if cmd.cmd = 5 then
    match Bytes.read cmd.data 8 with
    | (.ok _, rest) => .ok (some rest)
    | (.err, _) => .err
    | (.panic, _) => .panic
  else .ok none

/-- `(pc_offset, pc_size)`, src/read/macho/file.rs:531-541. -/
def pcPlace (cputype : Nat) : Nat × Nat :=
  if cputype = 0x1000007 then (8 + 16 * 8, 8)
  else if cputype = 0x100000c then (8 + 32 * 8, 8)
  else if cputype = 7 then (8 + 10 * 4, 4)
  else if cputype = 12 then (8 + 15 * 4, 4)
  else (0, 0)

/-- The program counter in the thread state, src/read/macho/file.rs:542-554. -/
def pcOf (en : Endianness) (cputype : Nat) (thread : List UInt8) : Option Nat :=
  let p := pcPlace cputype
  if p.2 = 8 then (if p.1 + 8 ≤ thread.length then some (rd en (slice thread p.1 8)) else none)
  else if p.2 = 4 then (if p.1 + 4 ≤ thread.length then some (rd en (slice thread p.1 4)) else none)
  else none

/-- The loop of `entry`, src/read/macho/file.rs:522-556. -/
def entryLoop (en : Endianness) (cputype : Nat) : Nat → LoadCommands → Nat
  | 0, _ => 0
  | n + 1, cs =>
    match cs.next en with
    | (.ok (some cmd), cs') =>
      match entryPointOf en cmd with
      | .ok (some e) => e
      | _ =>
        match unixThreadOf cmd with
        | .ok (some thread) =>
          match pcOf en cputype thread with
          | some pc => pc
          | none => entryLoop en cputype n cs'
        | _ => entryLoop en cputype n cs'
    | _ => 0

/-- `entry`, src/read/macho/file.rs:517-560. -/
def entryAddr (f : File) (data : List UInt8) : Nat :=
  match loadCommands f.cfg f.header data with
  | .ok cs => entryLoop f.cfg.en f.header.cputype cs.ncmds cs
  | _ => 0

/-! ## Segments -/

/-- `Segment::data`, src/read/macho/segment.rs:261-268, with `file_range`, 254-256. -/
def segData (s : Seg) (data : List UInt8) : Res (List UInt8) := ReadRef.readBytesAt data s.fileoff s.filesize

/-- `MachOSegment::data_range`, src/read/macho/segment.rs:126-133. -/
def segDataRange (s : Seg) (data : List UInt8) (address size : Nat) : Res (Option (List UInt8)) :=
  (segData s data).bind fun d => .ok (dataRange d s.vmaddr address size)

/-- `MachOSegment::permissions`, src/read/macho/segment.rs:162-169: read, write, execute. -/
def segPermissions (s : Seg) : Bool × Bool × Bool :=
  (decide (s.maxprot &&& 1 = 1), decide (s.maxprot &&& 2 = 2), decide (s.maxprot &&& 4 = 4))

/-! ## Sections -/

/-- `Section::file_range`, src/read/macho/section.rs:390-393. -/
def fileRange (s : SecInt) : Option (Nat × Nat) :=
  match s.sect.fileSize with
  | some size => some (s.offset, size)
  | none => none

/-- `MachOSection::data_range`, src/read/macho/section.rs:166-173. -/
def secDataRange (s : SecInt) (data : List UInt8) (address size : Nat) : Res (Option (List UInt8)) :=
  (s.data data).bind fun d => .ok (dataRange d s.sect.addr address size)

/-- `maybe_compressed_gnu`, src/read/macho/section.rs:107-116; `utf8` is `str::from_utf8(..).is_ok()`. -/
def maybeCompressedGnu (utf8 : List UInt8 → Bool) (s : SecInt) (data : List UInt8) : Res (Option CompressedFileRange) :=
  let name := upToNul s.sect.sectname
  if ¬ (utf8 name = true ∧ name.take 9 = [95, 95, 122, 100, 101, 98, 117, 103, 95]) then .ok none
  else match fileRange s with
    | none => .err
    | some (off, size) => (gnuCompressedFileRange data off size).bind fun r => .ok (some r)

/-- `compressed_file_range`, src/read/macho/section.rs:175-181. -/
def compressedFileRange (utf8 : List UInt8 → Bool) (s : SecInt) (data : List UInt8) : Res CompressedFileRange :=
  (maybeCompressedGnu utf8 s data).bind fun r =>
    match r with
    | some c => .ok c
    | none => .ok (CompressedFileRange.ofRange (fileRange s))

/-- `symbol_stub_size`, src/read/macho/section.rs:431-437; `S_SYMBOL_STUBS = 8`. -/
def symbolStubSize (s : Sect) : Nat := if s.flags &&& 0xff = 8 then s.reserved2 else 0

/-- `Section::indirect_symbols`, src/read/macho/section.rs:442-469; `S_NON_LAZY_SYMBOL_POINTERS = 6`, `S_LAZY_SYMBOL_POINTERS = 7`,
`S_LAZY_DYLIB_SYMBOL_POINTERS = 0x10`, `S_THREAD_LOCAL_VARIABLE_POINTERS = 0x14`. -/
def indirectSymbols (c : Cfg) (s : Sect) (table : List Nat) : Res (List Nat) :=
  let t := s.flags &&& 0xff
  let take (entrySize : Nat) : Res (List Nat) :=
    let count := s.size / entrySize
    if s.reserved1 ≤ table.length then
      if count ≤ (table.drop s.reserved1).length then .ok ((table.drop s.reserved1).take count) else .err
    else .err
  if t = 6 ∨ t = 7 ∨ t = 0x10 ∨ t = 0x14 then take c.w
  else if t = 8 then (if s.reserved2 = 0 then .err else take s.reserved2)
  else .ok []

/-- `DysymtabCommand::indirect_symbols`, src/read/macho/load_command.rs:483-494; `indirectsymoff` and `nindirectsyms` are the words
6 and 7 of `rest` (src/macho.rs:2202-2303). -/
def indirectTable (c : Cfg) (d : DysymtabCmd) (data : List UInt8) : Res (List Nat) :=
  (Elf.readSliceAt data (d.rest.getD 6 0) 4 (d.rest.getD 7 0)).bind fun imgs => .ok (imgs.map (rd c.en))

/-! ## Object map -/

/-- `ObjectMapFile`, src/read/symbol_map.rs:228-231. -/
structure ObjFile where
  path : List UInt8
  member : Option (List UInt8)
  deriving DecidableEq, Repr

/-- `ObjectMapEntry`, src/read/symbol_map.rs:163-168: the entry and the index of its object. -/
abbrev ObjEntry := SymMap.Entry × Nat

/-- `(path, member)` of an `N_OSO` name, src/read/macho/symbol.rs:144-154. -/
def splitName (name : List UInt8) : ObjFile :=
  if name.getLast? = some 41 then
    let head := name.dropLast
    match head.findIdx? (· == 40) with
    | some i => ⟨head.take i, some ((head.drop i).drop 1)⟩
    | none => ⟨name, none⟩
  else ⟨name, none⟩

/-- The variables of `object_map`, src/read/macho/symbol.rs:121-124. -/
structure MapState where
  symbols : List ObjEntry
  objects : List ObjFile
  object : Option Nat
  function : Option (List UInt8 × Nat)
  deriving DecidableEq, Repr

/-- The body of the loop of `object_map`, src/read/macho/symbol.rs:127-191.  `name` is `Nlist::name` with the string table. -/
def mapStep (name : Nlist → Res (List UInt8)) (st : MapState) (y : Nlist) : MapState :=
  if !MachoV.isStab y then st
  else if y.typ = 0x64 then { st with object := none }
  else if y.typ = 0x66 then
    match name y with
    | .ok n =>
      if n ≠ [] then { st with object := some st.objects.length, objects := st.objects ++ [splitName n] }
      else { st with object := none }
    | _ => { st with object := none }
  else if y.typ = 0x24 then
    match name y with
    | .ok n =>
      if n ≠ [] then { st with function := some (n, y.value) }
      else match st.function with
        | some (fname, address) =>
          match st.object with
          | some o => { st with function := none, symbols := st.symbols ++ [(⟨address, y.value, fname⟩, o)] }
          | none => { st with function := none }
        | none => st
    | _ => st
  else if y.typ = 0x26 then
    match name y with
    | .ok n =>
      match st.object with
      | some o => { st with symbols := st.symbols ++ [(⟨y.value, 0, n⟩, o)] }
      | none => st
    | _ => st
  else st

/-- `ObjectMap`, src/read/symbol_map.rs:126-129. -/
structure ObjMap where
  symbols : List ObjEntry
  objects : List ObjFile
  deriving DecidableEq, Repr

/-- `object_map`, src/read/macho/symbol.rs:120-193, with `ObjectMap::new`, src/read/symbol_map.rs:133-141 (`SymbolMap::new`, 34-37, is a
stable sort). -/
def objectMap (t : SymTab) (data : List UInt8) : ObjMap :=
  let st := t.symbols.foldl (mapStep (t.name data)) ⟨[], [], none, none⟩
  ⟨st.symbols.mergeSort fun a b => a.1.address ≤ b.1.address, st.objects⟩

/-- `ObjectMap::get`, src/read/symbol_map.rs:144-146, with `SymbolMap::containing` and `before`, 46-62. -/
def ObjMap.lookup (search : List Nat → Nat → SymMap.Search) (m : ObjMap) (address : Nat) : Option ObjEntry :=
  (match search (m.symbols.map fun (e : ObjEntry) => e.1.address) address with
    | .found i => m.symbols[i]?
    | .missing i => if i = 0 then none else m.symbols[i - 1]?).filter fun (e : ObjEntry) =>
      e.1.size = 0 || (address + U64 - e.1.address) % U64 < e.1.size

/-- `ObjectMapEntry::object`, src/read/symbol_map.rs:209-211: indexing panics outside of the list. -/
def ObjMap.objectOf (m : ObjMap) (e : ObjEntry) : Res ObjFile :=
  match m.objects[e.2]? with
  | some o => .ok o
  | none => .panic

end Obj.MachoF

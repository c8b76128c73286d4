import Verif.Model.Build
import Verif.Model.ElfVersion
import Verif.Model.ElfAttr
import Verif.Model.FileKind

/-!
# The ELF builder: reading a file (src/build/elf.rs:94-726)

The tables are those of `Obj.Build`; the file is read with the functions of `Obj.Elf` and `Obj.Attr`.  All errors are the same `err`, so
where the code interleaves an iterator with the loop body, the model takes all items first.
-/

namespace Obj.Build

open Obj

/-- `Header`, src/build/elf.rs:2256-2283. -/
structure Header where
  osAbi : UInt8
  abiVersion : UInt8
  eType : Nat
  eMachine : Nat
  eEntry : Nat
  eFlags : Nat
  ePhoff : Nat
  deriving DecidableEq, Repr

/-- `Builder`, src/build/elf.rs:23-66: `tables` are the tables of the model of deletion. -/
structure Full where
  endian : Endianness
  is64 : Bool
  loadAlign : Nat
  header : Header
  versionBase : Option (List UInt8)
  hashBuckets : Nat
  bloomShift : Nat
  bloomCount : Nat
  gnuBuckets : Nat
  tables : Builder
  deriving DecidableEq, Repr

/-! ## Segments -/

/-- The update of `load_align`, src/build/elf.rs:155-162 (`PT_LOAD = 1`). -/
def loadAlignStep (align : Nat) (p : Elf.Phdr) : Nat :=
  if p.type = 1 then
    if align = 0 then p.align
    else if align ≠ p.align then 1
    else align
  else align

/-- `load_align` after the loop over the segments, src/build/elf.rs:154-183. -/
def readLoadAlign (ps : List Elf.Phdr) : Nat :=
  let align := ps.foldl loadAlignStep 0
  if align = 0 then 1 else align

/-- The loop over the segments, src/build/elf.rs:164-179. -/
def readSegments : List Seg → List Elf.Phdr → List Seg
  | t, [] => t
  | t, p :: ps =>
    readSegments (push t { id := nextId t, delete := false, pType := p.type, pFlags := p.flags, pOffset := p.offset, pVaddr := p.vaddr,
                           pPaddr := p.paddr, pFilesz := p.filesz, pMemsz := p.memsz, pAlign := p.align, sections := [] }) ps

/-! ## Section contents -/

/-- `(*rel).into()` and the accessors of `Rela`, src/build/elf.rs:456-471 with `From<Rel32>` and `From<Rel64>` (src/elf.rs:1711-1763): an
entry without addend is converted to one with addend 0 first, so that `is_mips64el` applies to it as well. -/
def relaEntry (c : Elf.Cfg) (mips isRela : Bool) (img : List UInt8) : Elf.Rel :=
  let info := field c.en img c.w c.w
  { offset := field c.en img 0 c.w,
    sym := if c.is64 then Elf.rSym64 mips info else Elf.rSym32 info,
    type := if c.is64 then Elf.rType64 mips info else Elf.rType32 info,
    addend := if isRela then rdI c.en ((img.drop (2 * c.w)).take c.w) else 0 }

/-- `Builder::read_relocations_impl`, src/build/elf.rs:442-475 with `Rela::symbol` (src/read/elf/relocation.rs:654-661). -/
def readRelocationsImpl (symbolsLen : Nat) : List Elf.Rel → Res (List Rel)
  | [] => .ok []
  | r :: rs =>
    (if r.sym = 0 then .ok none
     else if symbolsLen ≤ r.sym then .err
     else .ok (some (r.sym - 1)) : Res (Option Nat)).bind fun symbol =>
    (readRelocationsImpl symbolsLen rs).bind fun rest =>
    .ok ({ offset := r.offset, symbol := symbol, typ := r.type, addend := r.addend } :: rest)

/-- `Builder::read_relocations`, src/build/elf.rs:387-440 (`SHF_ALLOC = 2`). -/
def readRelocations (s : Elf.Shdr) (rels : List Elf.Rel) (symbols dynSymbols : Elf.SymTab) : Res SecData :=
  if s.link = dynSymbols.sec then (readRelocationsImpl dynSymbols.symbols.length rels).bind fun l => .ok (.dynRelocs l)
  else if s.link = 0 ∨ s.flags &&& 2 ≠ 0 then (readRelocationsImpl 0 rels).bind fun l => .ok (.dynRelocs l)
  else if s.link = symbols.sec then (readRelocationsImpl symbols.symbols.length rels).bind fun l => .ok (.relocs l)
  else .err

/-- `SectionHeader::rel` and `rela`, src/read/elf/section.rs:838-875 (`SHT_RELA = 4`, `SHT_REL = 9`). -/
def relImages (c : Elf.Cfg) (isRela : Bool) (s : Elf.Shdr) (data : List UInt8) : Res (Option (List (List UInt8))) :=
  if s.type ≠ (if isRela then 4 else 9) then .ok none
  else (s.dataAsArray data (c.relSize isRela)).bind fun imgs => .ok (some imgs)

/-- The relocations of a section, src/build/elf.rs:187-212. -/
def readSectionRelocations (c : Elf.Cfg) (mips : Bool) (data : List UInt8) (symbols dynSymbols : Elf.SymTab) (s : Elf.Shdr) : Res SecData :=
  (relImages c false s data).bind fun rel =>
  match rel with
  | some imgs => readRelocations s (imgs.map (relaEntry c mips false)) symbols dynSymbols
  | none =>
    (relImages c true s data).bind fun rela =>
    match rela with
    | some imgs => readRelocations s (imgs.map (relaEntry c mips true)) symbols dynSymbols
    | none => .ok (.data [])

/-- `tag_is_string`, src/read/elf/dynamic.rs:282-292: `DT_NEEDED`, `DT_SONAME`, `DT_RPATH`, `DT_RUNPATH`, `DT_AUXILIARY`, `DT_FILTER`. -/
def isString (tag : Int) : Bool :=
  tag = 1 || tag = 14 || tag = 15 || tag = 29 || tag = 0x7ffffffd || tag = 0x7fffffff

/-- The tags that are generated when writing, src/build/elf.rs:498-508: `DT_SYMTAB`, `DT_STRTAB`, `DT_STRSZ`, `DT_HASH`, `DT_GNU_HASH`,
`DT_VERSYM`, `DT_VERDEF`, `DT_VERDEFNUM`, `DT_VERNEED`, `DT_VERNEEDNUM`. -/
def isAuto (tag : Int) : Bool :=
  tag = 6 || tag = 5 || tag = 10 || tag = 4 || tag = 0x6ffffef5 || tag = 0x6ffffff0 || tag = 0x6ffffffc || tag = 0x6ffffffd ||
  tag = 0x6ffffffe || tag = 0x6fffffff

/-- One entry, src/build/elf.rs:486-511. -/
def readDynamicEntry (strings : Elf.StrTable) (data : List UInt8) (d : Elf.Dyn) : Res Dyn :=
  if isString d.tag then (d.string strings data).bind fun val => .ok (.string d.tag val)
  else .ok (if isAuto d.tag then .auto d.tag else .integer d.tag d.val)

/-- The loop of `Builder::read_dynamics`, src/build/elf.rs:485-511, over `DynamicIterator` (the state is the rest of the entries). -/
def readDynamicLoop (strings : Elf.StrTable) (data : List UInt8) : (fuel : Nat) → List Elf.Dyn → Res (List Dyn)
  | 0, _ => .panic
  | fuel + 1, ds =>
    match Elf.dynNext ds with
    | (.ok none, _) => .ok []
    | (.ok (some d), rest) =>
      (readDynamicEntry strings data d).bind fun x => (readDynamicLoop strings data fuel rest).bind fun xs => .ok (x :: xs)
    | (.err, _) => .err
    | (.panic, _) => .panic

/-- `SectionHeader::dynamic_table`, src/read/elf/section.rs:918-928, `DynamicTable::parse` (src/read/elf/dynamic.rs:39-61), and
`Builder::read_dynamics`, src/build/elf.rs:477-513.  The `unwrap` panics if the section type is not `SHT_DYNAMIC = 6`. -/
def readDynamics (c : Elf.Cfg) (t : Elf.SectionTable) (data : List UInt8) (s : Elf.Shdr) : Res SecData :=
  if s.type ≠ 6 then .panic
  else
    (s.dataAsArray data (2 * c.w)).bind fun imgs =>
    (t.stringsAt s.link).bind fun strings =>
    (readDynamicLoop strings data (imgs.length + 1) (imgs.map (Elf.readDyn c))).bind fun l => .ok (.dynamic l)

/-- The loops over the indices, src/build/elf.rs:574-583 and 590-599: `index - 1` panics for 0. -/
def checkIndices (len : Nat) : List Nat → Res (List Nat)
  | [] => .ok []
  | i :: is =>
    if len ≤ i then .err
    else if i = 0 then .panic
    else (checkIndices len is).bind fun rest => .ok ((i - 1) :: rest)

/-- The scope of a sub-subsection, src/build/elf.rs:570-607 (`Tag_File = 1`, `Tag_Section = 2`, `Tag_Symbol = 3`). -/
def readScope (sectionsLen symbolsLen : Nat) (x : Attr.Subsubsection) : Res AttrScope :=
  if x.tag = 1 then .ok .file
  else if x.tag = 2 then
    (Elf.drain Attr.indexNext (x.indices.length + 1) x.indices).bind fun is =>
    (checkIndices sectionsLen is).bind fun l => .ok (.sections l)
  else if x.tag = 3 then
    (Elf.drain Attr.indexNext (x.indices.length + 1) x.indices).bind fun is =>
    (checkIndices symbolsLen is).bind fun l => .ok (.symbols l)
  else .err

/-- The loop over the sub-subsections, src/build/elf.rs:568-612. -/
def readSubSubs (sectionsLen symbolsLen : Nat) : List Attr.Subsubsection → Res (List AttrSubSub)
  | [] => .ok []
  | x :: xs =>
    (readScope sectionsLen symbolsLen x).bind fun scope =>
    (readSubSubs sectionsLen symbolsLen xs).bind fun rest => .ok (⟨scope, x.data⟩ :: rest)

/-- The loop over the subsections, src/build/elf.rs:565-614. -/
def readSubs (en : Endianness) (sectionsLen symbolsLen : Nat) : List Attr.Subsection → Res (List AttrSub)
  | [] => .ok []
  | s :: ss =>
    (Elf.drain (Attr.subsubsectionNext en) (s.data.length + 1) s.data).bind fun xs =>
    (readSubSubs sectionsLen symbolsLen xs).bind fun subs =>
    (readSubs en sectionsLen symbolsLen ss).bind fun rest => .ok (⟨s.vendor, subs⟩ :: rest)

/-- `SectionHeader::attributes`, src/read/elf/section.rs:1161-1168, and `Builder::read_attributes`, src/build/elf.rs:554-616. -/
def readAttributes (en : Endianness) (data : List UInt8) (sectionsLen symbolsLen : Nat) (s : Elf.Shdr) : Res SecData :=
  (s.data data).bind fun d =>
  (Attr.subsections (Attr.sectionNew d).1 (Attr.sectionNew d).2).bind fun d =>
  (Elf.drain (Attr.subsectionNext en) (d.length + 1) d).bind fun ss =>
  (readSubs en sectionsLen symbolsLen ss).bind fun l => .ok (.attributes l)

/-- What is needed from the file to read a section. -/
structure ReadCtx where
  cfg : Elf.Cfg
  machine : Nat
  shstrndx : Nat
  table : Elf.SectionTable
  symbols : Elf.SymTab
  dynSymbols : Elf.SymTab

/-- ".annobin.notes" -/
def annobinName : List UInt8 := [46, 97, 110, 110, 111, 98, 105, 110, 46, 110, 111, 116, 101, 115]

/-- Machines and types of attributes sections, src/build/elf.rs:296-299: `(EM_ARM, SHT_ARM_ATTRIBUTES)`,
`(EM_AARCH64, SHT_AARCH64_ATTRIBUTES)`, `(EM_CSKY, SHT_CSKY_ATTRIBUTES)`, `(EM_RISCV, SHT_RISCV_ATTRIBUTES)`. -/
def attributeTypes : List (Nat × Nat) := [(40, 0x70000003), (183, 0x70000003), (252, 0x70000001), (243, 0x70000003)]

/-- Machines and types of further sections that are copied, src/build/elf.rs:306-310: `(EM_ARM, SHT_ARM_EXIDX)`,
`(EM_IA_64, SHT_IA_64_UNWIND)`, `(EM_MIPS, SHT_MIPS_REGINFO)`, `(EM_MIPS, SHT_MIPS_DWARF)`, `(EM_X86_64, SHT_X86_64_UNWIND)`. -/
def copiedTypes : List (Nat × Nat) :=
  [(40, 0x70000001), (50, 0x70000001), (8, 0x70000006), (8, 0x7000001e), (62, 0x70000001)]

/-- The contents of a section, src/build/elf.rs:222-316.  `relocations` are those of lines 187-212. -/
def readContents (x : ReadCtx) (data : List UInt8) (index : Nat) (s : Elf.Shdr) (name : List UInt8) (relocations : SecData) : Res SecData :=
  let copy : Res SecData := (s.data data).bind fun d => .ok (.data d)
  let attributes : Res SecData := readAttributes x.cfg.en data x.table.sections.length x.symbols.symbols.length s
  if s.type = 8 then .ok (.uninit s.size)                                          -- SHT_NOBITS
  else if s.type = 1 ∨ s.type = 14 ∨ s.type = 15 ∨ s.type = 16 ∨ s.type = 19 ∨ s.type = 0x40000014 ∨ s.type = 0x6fff4c04 then copy
  else if s.type = 9 ∨ s.type = 4 then .ok relocations                             -- SHT_REL, SHT_RELA
  else if s.type = 2 then (if index = x.symbols.sec then .ok .symbol else .err)    -- SHT_SYMTAB
  else if s.type = 18 then (if index = x.symbols.shndxSection then .ok .symbolSectionIndex else .err) -- SHT_SYMTAB_SHNDX
  else if s.type = 11 then (if index = x.dynSymbols.sec then .ok .dynamicSymbol else .err) -- SHT_DYNSYM
  else if s.type = 3 then                                                          -- SHT_STRTAB
    if index = x.symbols.stringSection then .ok .string
    else if index = x.dynSymbols.stringSection then .ok .dynamicString
    else if index = x.shstrndx then .ok .sectionString
    else if name = annobinName then copy
    else .err
  else if s.type = 7 then (s.data data).bind fun d => .ok (.note d)                -- SHT_NOTE
  else if s.type = 6 then readDynamics x.cfg x.table data s                        -- SHT_DYNAMIC
  else if s.type = 0x6ffffff5 then attributes                                      -- SHT_GNU_ATTRIBUTES
  else if s.type = 5 then .ok .hash                                                -- SHT_HASH
  else if s.type = 0x6ffffff6 then .ok .gnuHash                                    -- SHT_GNU_HASH
  else if s.type = 0x6fffffff then .ok .gnuVersym                                  -- SHT_GNU_VERSYM
  else if s.type = 0x6ffffffd then .ok .gnuVerdef                                  -- SHT_GNU_VERDEF
  else if s.type = 0x6ffffffe then .ok .gnuVerneed                                 -- SHT_GNU_VERNEED
  else if (x.machine, s.type) ∈ attributeTypes then attributes
  else if (x.machine, s.type) ∈ copiedTypes then copy
  else .err

/-- `SectionHeader::hash_header`, src/read/elf/section.rs:993-1009 and `gnu_hash_header`, 1034-1050: the header is the first `size` bytes
of the data. -/
def hashHeader (type size : Nat) (s : Elf.Shdr) (data : List UInt8) : Res (Option (List UInt8)) :=
  if s.type ≠ type then .ok none
  else (s.data data).bind fun d => (ReadRef.readBytesAt d 0 size).bind fun img => .ok (some img)

/-- The parameters of the hash tables that a section sets, src/build/elf.rs:213-220. -/
structure HashParams where
  buckets : Nat
  bloomShift : Nat
  bloomCount : Nat
  gnuBuckets : Nat
  deriving DecidableEq, Repr

/-- src/build/elf.rs:213-215. -/
def HashParams.setHash (en : Endianness) (p : HashParams) : Option (List UInt8) → HashParams
  | some img => { p with buckets := field en img 0 4 }
  | none => p

/-- src/build/elf.rs:216-220; `GnuHashHeader` is bucket count, symbol base, bloom count, bloom shift (src/elf.rs:3014-3031). -/
def HashParams.setGnu (en : Endianness) (p : HashParams) : Option (List UInt8) → HashParams
  | some img => { p with bloomShift := field en img 12 4, bloomCount := field en img 8 4, gnuBuckets := field en img 0 4 }
  | none => p

/-- Both, in the order of the code, src/build/elf.rs:213-220. -/
def HashParams.set (en : Endianness) (p : HashParams) (h g : Option (List UInt8)) : HashParams := (p.setHash en h).setGnu en g

/-- The link to another section, src/build/elf.rs:319-329 and 331-341. -/
def readLink (sectionsLen : Nat) (used : Bool) (link : Nat) : Res (Option Nat) :=
  if link = 0 ∨ used = false then .ok none
  else if sectionsLen ≤ link then .err
  else .ok (some (link - 1))

/-- The body of the loop over the sections, src/build/elf.rs:186-366, without the segments (`SHF_INFO_LINK = 0x40`). -/
def readSection (x : ReadCtx) (data : List UInt8) (index : Nat) (s : Elf.Shdr) (p : HashParams) : Res (Sec × HashParams) :=
  (readSectionRelocations x.cfg (Elf.isMips64el x.cfg x.machine) data x.symbols x.dynSymbols s).bind fun relocations =>
  (hashHeader 5 8 s data).bind fun hash =>
  (hashHeader 0x6ffffff6 16 s data).bind fun gnu =>
  (x.table.sectionName data s).bind fun name =>
  (readContents x data index s name relocations).bind fun contents =>
  (readLink x.table.sections.length true s.link).bind fun link =>
  (readLink x.table.sections.length (s.flags &&& 0x40 ≠ 0) s.info).bind fun info =>
  .ok ({ id := index - 1, delete := false, name := name, shType := s.type, shFlags := s.flags, shAddr := s.addr, shOffset := s.offset,
         shSize := s.size, linkSection := link, shInfo := s.info, infoSection := info, addralign := s.addralign, entsize := s.entsize,
         data := contents }, p.set x.cfg.en hash gnu)

/-- Adding the section to the segments that contain its address, src/build/elf.rs:344-350 (`SHF_ALLOC = 2`). -/
def assignSection (segs : List Seg) (sec : Sec) : List Seg :=
  if sec.shFlags &&& 2 ≠ 0 then
    segs.map fun g => if g.delete then g else if g.containsAddress sec.shAddr then { g with sections := g.sections ++ [sec.id] } else g
  else segs

/-- The loop over the sections, src/build/elf.rs:185-367; the state are the segments, the parameters of the hash tables and the sections. -/
def readSections (x : ReadCtx) (data : List UInt8) : List (Elf.Shdr × Nat) → List Seg × HashParams × List Sec →
    Res (List Seg × HashParams × List Sec)
  | [], st => .ok st
  | (s, index) :: rest, (segs, p, secs) =>
    (readSection x data index s p).bind fun r =>
    readSections x data rest (assignSection segs r.1, r.2, push secs r.1)

/-! ## Symbols -/

/-- The section of a symbol, src/build/elf.rs:528-538; `wrapping_sub(1)` in `usize`. -/
def readSymbolSection (t : Elf.SymTab) (sectionsLen index : Nat) (s : Elf.Sym) : Res (Option Nat) :=
  (t.symbolSection s index).bind fun i =>
  match i with
  | some i => let id := (i + (U64 - 1)) % U64
    if sectionsLen ≤ id then .err else .ok (some id)
  | none => .ok none

/-- The loop of `Builder::read_symbols`, src/build/elf.rs:525-550. -/
def readSymbols (data : List UInt8) (t : Elf.SymTab) (sectionsLen : Nat) : List (Elf.Sym × Nat) → Res (List Sym)
  | [] => .ok []
  | (s, index) :: rest =>
    (readSymbolSection t sectionsLen index s).bind fun sec =>
    (t.symbolName data s).bind fun name =>
    (readSymbols data t sectionsLen rest).bind fun xs =>
    .ok ({ id := index - 1, delete := false, name := name, section_ := sec, info := s.info, other := s.other, shndx := s.shndx,
           value := s.value, size := s.size, version := 0, versionHidden := false } :: xs)

/-! ## Versions -/

/-- The state of `Builder::read_gnu_versions`: the map from version index to (raw) `VersionId`, the base version, the versions and the
files. -/
structure VerState where
  ids : List (Nat × Nat)
  base : Option (List UInt8)
  versions : List Ver
  files : List VerFile

/-- Looking up the map `ids`. -/
def lookupId (ids : List (Nat × Nat)) (index : Nat) : Option Nat := (ids.find? fun p => p.1 == index).map Prod.snd

/-- Adding a version: `ids.insert` with the check for duplicates (src/build/elf.rs:656-660 and 687-694) and `versions.push` (667-672,
701-705).  (The names are read in between; that is an error or has no effect on this.) -/
def VerState.add (st : VerState) (index : Nat) (d : VerData) : Res VerState :=
  match lookupId st.ids index with
  | some _ => .err
  | none => .ok { st with ids := (index, (addVer st.versions d).1) :: st.ids, versions := (addVer st.versions d).2 }

/-- The names of a definition, src/build/elf.rs:662-665. -/
def readNames (strings : Elf.StrTable) (data : List UInt8) : List Elf.Verdaux → Res (List (List UInt8))
  | [] => .ok []
  | a :: as => (strings.get data a.name).bind fun n => (readNames strings data as).bind fun ns => .ok (n :: ns)

/-- The body of the loop over the definitions, src/build/elf.rs:636-673 (`VER_FLG_BASE = 1`, `VER_NDX_GLOBAL = 1`). -/
def readVerdef (en : Endianness) (strings : Elf.StrTable) (data : List UInt8) (st : VerState) (v : Elf.Verdef) (it : Elf.AuxIter) :
    Res VerState :=
  if v.flags &&& 1 ≠ 0 then
    if v.flags ≠ 1 ∨ v.ndx ≠ 1 ∨ v.cnt ≠ 1 then .err
    else if st.base.isSome then .err
    else match (Elf.verdauxNext en it).1 with
      | .ok (some a) => (strings.get data a.name).bind fun n => .ok { st with base := some n }
      | .ok none => .err
      | .err => .err
      | .panic => .panic
  else
    (Elf.drain (Elf.verdauxNext en) (it.2 + 1) it).bind fun as =>
    (readNames strings data as).bind fun names => st.add v.ndx (.def_ names v.flags)

/-- The loop over the definitions, src/build/elf.rs:636-673. -/
def readVerdefs (en : Endianness) (strings : Elf.StrTable) (data : List UInt8) : VerState → List (Elf.Verdef × Elf.AuxIter) → Res VerState
  | st, [] => .ok st
  | st, (v, it) :: rest => (readVerdef en strings data st v it).bind fun st => readVerdefs en strings data st rest

/-- The loop over the versions needed from a file, src/build/elf.rs:685-706. -/
def readVernauxs (strings : Elf.StrTable) (data : List UInt8) (file : Nat) : VerState → List Elf.Vernaux → Res VerState
  | st, [] => .ok st
  | st, a :: rest =>
    (strings.get data a.name).bind fun name =>
    (st.add a.other (.need file name a.flags)).bind fun st => readVernauxs strings data file st rest

/-- The loop over the needed files, src/build/elf.rs:678-707. -/
def readVerneeds (en : Endianness) (strings : Elf.StrTable) (data : List UInt8) : VerState → List (Elf.Verneed × Elf.AuxIter) → Res VerState
  | st, [] => .ok st
  | st, (v, it) :: rest =>
    (strings.get data v.file).bind fun name =>
    (Elf.drain (Elf.vernauxNext en) (it.2 + 1) it).bind fun as =>
    (readVernauxs strings data st.files.length
      { st with files := push st.files { id := st.files.length, delete := false, name := name } } as).bind fun st =>
    readVerneeds en strings data st rest

/-- The loop over the versions of the symbols, src/build/elf.rs:714-721. -/
def readVersyms (ids : List (Nat × Nat)) : (id : Nat) → List Sym → List Nat → Res (List Sym)
  | _, t, [] => .ok t
  | id, t, v :: vs =>
    match t[id]? with
    | none => .panic
    | some s =>
      match lookupId ids (Elf.versymIndex v) with
      | none => .err
      | some version => readVersyms ids (id + 1) (t.set id { s with version := version, versionHidden := Elf.versymHidden v }) vs

/-- src/build/elf.rs:633-674; `SHT_GNU_VERDEF = 0x6ffffffd`. -/
def readGnuVerdef (en : Endianness) (data : List UInt8) (t : Elf.SectionTable) (dynSymbols : Elf.SymTab) (st : VerState) : Res VerState :=
  match t.firstOfType 0x6ffffffd with
  | none => .ok st
  | some s =>
    (s.data data).bind fun d =>
    if s.link ≠ dynSymbols.stringSection then .err
    else (Elf.drain (Elf.verdefNext en) (d.length + 1) d).bind fun vs => readVerdefs en dynSymbols.strings data st vs

/-- src/build/elf.rs:676-708; `SHT_GNU_VERNEED = 0x6ffffffe`. -/
def readGnuVerneed (en : Endianness) (data : List UInt8) (t : Elf.SectionTable) (dynSymbols : Elf.SymTab) (st : VerState) : Res VerState :=
  match t.firstOfType 0x6ffffffe with
  | none => .ok st
  | some s =>
    (s.data data).bind fun d =>
    if s.link ≠ dynSymbols.stringSection then .err
    else (Elf.drain (Elf.verneedNext en) (d.length + 1) d).bind fun vs => readVerneeds en dynSymbols.strings data st vs

/-- src/build/elf.rs:710-722; `SHT_GNU_VERSYM = 0x6fffffff`. -/
def readGnuVersym (en : Endianness) (data : List UInt8) (t : Elf.SectionTable) (dynSymbols : Elf.SymTab) (ids : List (Nat × Nat))
    (syms : List Sym) : Res (List Sym) :=
  match t.firstOfType 0x6fffffff with
  | none => .ok syms
  | some s =>
    (s.dataAsArray data 2).bind fun versyms =>
    if versyms.length ≠ dynSymbols.symbols.length ∨ s.link ≠ dynSymbols.sec then .err
    else readVersyms ids 0 syms ((versyms.drop 1).map (rd en))

/-- `Builder::read_gnu_versions`, src/build/elf.rs:618-724: `VersionId::local()` and `global()` are 0 and 1. -/
def readGnuVersions (en : Endianness) (data : List UInt8) (t : Elf.SectionTable) (dynSymbols : Elf.SymTab) (syms : List Sym) :
    Res (VerState × List Sym) :=
  (readGnuVerdef en data t dynSymbols ⟨[(0, 0), (1, 1)], none, [], []⟩).bind fun st =>
  (readGnuVerneed en data t dynSymbols st).bind fun st =>
  (readGnuVersym en data t dynSymbols st.ids syms).bind fun syms => .ok (st, syms)

/-! ## The file -/

/-- `Builder::read_file`, src/build/elf.rs:113-384 (`SHT_SYMTAB = 2`, `SHT_DYNSYM = 11`). -/
def readFile (is64 : Bool) (data : List UInt8) : Res Full :=
  (Elf.parseHeader is64 data).bind fun ch =>
  (Elf.shstrndx ch.1 ch.2 data).bind fun shstrndx =>
  (Elf.programHeaders ch.1 ch.2 data).bind fun ps =>
  (Elf.sections ch.1 ch.2 data).bind fun t =>
  (t.symbols ch.1 data 2).bind fun symbols =>
  (t.symbols ch.1 data 11).bind fun dynSymbols =>
  (readSections ⟨ch.1, ch.2.machine, shstrndx, t, symbols, dynSymbols⟩ data (t.sections.zipIdx.drop 1)
    (readSegments [] ps, ⟨0, 0, 0, 0⟩, [])).bind fun r =>
  (readSymbols data symbols r.2.2.length (symbols.symbols.zipIdx.drop 1)).bind fun syms =>
  (readSymbols data dynSymbols r.2.2.length (dynSymbols.symbols.zipIdx.drop 1)).bind fun dyns =>
  (readGnuVersions ch.1.en data t dynSymbols dyns).bind fun v =>
  .ok { endian := ch.1.en, is64 := is64, loadAlign := readLoadAlign ps,
        header := ⟨ch.2.osAbi, ch.2.abiVersion, ch.2.type, ch.2.machine, ch.2.entry, ch.2.flags, ch.2.phoff⟩,
        versionBase := v.1.base, hashBuckets := r.2.1.buckets, bloomShift := r.2.1.bloomShift, bloomCount := r.2.1.bloomCount,
        gnuBuckets := r.2.1.gnuBuckets,
        tables := { segments := r.1, sections := r.2.2, symbols := syms, dynamicSymbols := v.2, versionFiles := v.1.files,
                    versions := v.1.versions } }

/-- `Builder::read`, src/build/elf.rs:94-101. -/
def read (data : List UInt8) : Res Full :=
  (FileKind.parseAt data 0).bind fun kind =>
  match kind with
  | .elf32 => readFile false data
  | .elf64 => readFile true data
  | _ => .err

end Obj.Build

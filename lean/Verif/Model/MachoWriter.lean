import Verif.Model.MachoRead
import Verif.Model.Reserve
import Verif.Model.ElfWriter
import Verif.Model.CoffWriter

/-!
# Model of `Object::macho_write`

`src/write/macho/object.rs:143-201, 441-925` with the encoder of `src/write/macho/encoder.rs`.  The vectors of the
function are lists; a failed `debug_assert!`, an overflow, an index out of range and an `unwrap` of `None` are
`Res.panic`.  The output buffer is a byte vector (C10 covers the other buffers).
-/

namespace Obj.MachoW
open Obj Obj.Reserve Obj.MachoR
open Obj.ElfW (check tabAdd)

/-- `MachOBuildVersion`, src/write/macho/object.rs:24-35. -/
structure Version where
  platform : Nat
  minos : Nat
  sdk : Nat
  deriving DecidableEq, Repr

/-- The fields of `write::Object` that are not in `W.Object` (src/write/mod.rs:68-97): `sub_architecture`,
`macho_cpu_subtype`, the flags of `FileFlags::MachO` if these are given, and `macho_build_version`. -/
structure Extra where
  sub : Option CoffW.SubArch
  cpuSubtype : Option Nat
  flags : Option Nat
  version : Option Version
  deriving DecidableEq, Repr

/-! ## Flags -/

/-- `u64::trailing_zeros`. -/
def tz : Nat → Nat → Nat
  | 0, _ => 0
  | fuel + 1, n => if n % 2 = 1 then 0 else 1 + tz fuel (n / 2)

/-- `macho_section_flags`, src/write/macho/object.rs:143-169; `none` is `SectionFlags::None`. -/
def defaultSectionFlags (k : SectionKind) : Option (Nat × Nat) :=
  match k with
  | .text => some (0x80000400, 0)
  | .data | .readOnlyData | .readOnlyDataWithRel => some (0, 0)
  | .readOnlyString => some (2, 0)
  | .uninitializedData => some (1, 0)
  | .tls => some (0x11, 0)
  | .uninitializedTls => some (0x12, 0)
  | .tlsVariables => some (0x13, 0)
  | .debug | .debugString => some (0x02000000, 0)
  | .otherString => some (2, 0)
  | .other | .linker | .metadata => some (0, 0)
  | .note | .unknown => none

/-- `section_flags`, src/write/mod.rs:362-368, as the fields of `SectionFlags::MachO`. -/
def sectionFlags (s : W.Section) : Option (Nat × Nat) :=
  match s.flags with
  | .none => defaultSectionFlags s.kind
  | .macho f r => some (f, r)
  | _ => none

/-- The first part of `n_type`, src/write/macho/object.rs:173-180. -/
def typeOf : W.SymSection → Option Nat
  | .undefined | .common => some 1
  | .absolute => some 2
  | .inSec _ => some 0xe
  | .none => none

/-- The second part of `n_type`, src/write/macho/object.rs:180-184: `N_EXT = 1`, `N_PEXT = 0x10`. -/
def scopeBits : SymbolScope → Nat
  | .unknown | .compilation => 0
  | .linkage => 0x11
  | .dynamic => 1

/-- `n_desc` before the alignment, src/write/macho/object.rs:185-193. -/
def weakBits (s : W.Symbol) : Nat :=
  if s.weak then (if s.section_ = .undefined then 0x40 else 0x80) else 0

/-- The alignment exponent of a common symbol, src/write/macho/object.rs:195-199. -/
def commonAlign (value : Nat) : Nat := if 1 < value then min (tz 64 value) 15 else 0

/-- `n_desc`, src/write/macho/object.rs:185-201, with `with_common_alignment`, src/macho.rs:3536-3539. -/
def descOf (s : W.Symbol) : Nat :=
  if s.section_ = .common then (weakBits s &&& 0xf0ff) ||| ((commonAlign s.value &&& 0xf) <<< 8) else weakBits s

/-- `macho_symbol_flags`, src/write/macho/object.rs:171-204. -/
def defaultSymbolFlags (s : W.Symbol) : Option (Nat × Nat) :=
  (typeOf s.section_).map fun t => (t ||| scopeBits s.scope, descOf s)

/-- `symbol_flags`, src/write/mod.rs:494-500, as the fields of `SymbolFlags::MachO`. -/
def symbolFlags (s : W.Symbol) : Option (Nat × Nat) :=
  match s.flags with
  | .none => defaultSymbolFlags s
  | .macho t d => some (t, d)
  | _ => none

/-- `cputype` and `cpusubtype_id`, src/write/macho/object.rs:609-634. -/
def cpuOf (arch : Arch) (sub : Option CoffW.SubArch) : Res (Nat × Nat) :=
  match arch, sub with
  | .arm, none => .ok (12, 0)
  | .aarch64, none => .ok (0x0100000c, 0)
  | .aarch64, some .arm64E => .ok (0x0100000c, 2)
  | .aarch64_Ilp32, none => .ok (0x0200000c, 1)
  | .i386, none => .ok (7, 3)
  | .x86_64, none => .ok (0x01000007, 3)
  | .powerPc, none => .ok (18, 0)
  | .powerPc64, none => .ok (0x01000012, 0)
  | _, _ => .err

/-! ## Layout -/

/-- `Offset::reserve`, src/write/macho/object.rs:442-450: the offset and the new end. -/
def reserve (offset size align : Nat) : Res (Nat × Nat) := do
  let offset ← align64 offset align
  let next ← addU64 offset size
  .ok (offset, next)

/-- The offsets of the load commands, their number and their end. -/
structure Cmds where
  segment : Nat
  version : Nat
  symtab : Nat
  dysymtab : Nat
  ncmds : Nat
  stop : Nat
  deriving DecidableEq, Repr

/-- The optional build version command, src/write/macho/object.rs:475-479: its offset, the number of commands and
the end. -/
def planVersion (v : Option Version) (off : Nat) : Res (Nat × Nat × Nat) :=
  match v with
  | none => .ok (0, 1, off)
  | some _ => do
    let (a, off) ← reserve off 24 1
    .ok (a, 2, off)

/-- The load commands, src/write/macho/object.rs:459-489. -/
def planCmds (c : Cfg) (nsects : Nat) (v : Option Version) : Res Cmds := do
  let (seg, off) ← reserve (hdrSize c) (segSize c + nsects * sectSize c) 1
  let (ver, n, off) ← planVersion v off
  let (st, off) ← reserve off 24 1
  let (dy, off) ← reserve off 80 1
  .ok ⟨seg, ver, st, dy, n + 2, off⟩

/-- The first loop over the sections, src/write/macho/object.rs:496-505: `address` and `offset` of each section, and
the address after them. -/
def placeData (base : Nat) : Nat → List W.Section → Res (List (Nat × Nat) × Nat)
  | address, [] => .ok ([], address)
  | address, s :: ss =>
    if s.kind.isBss then do
      let (r, a) ← placeData base address ss
      .ok ((0, 0) :: r, a)
    else do
      let address ← align64 address s.align
      let offset ← addU64 base address
      let next ← addU64 address s.size
      let (r, a) ← placeData base next ss
      .ok ((address, offset) :: r, a)

/-- The second loop over the sections, src/write/macho/object.rs:508-515. -/
def placeBss : Nat → List (W.Section × (Nat × Nat)) → Res (List (Nat × Nat) × Nat)
  | address, [] => .ok ([], address)
  | address, (s, p) :: ss =>
    if s.kind.isBss then do
      check (s.data = [])
      let address ← align64 address s.align
      let next ← addU64 address s.size
      let (r, a) ← placeBss next ss
      .ok ((address, p.2) :: r, a)
    else do
      let (r, a) ← placeBss address ss
      .ok (p :: r, a)

/-! ## Symbols -/

/-- The symbol is written, src/write/macho/object.rs:530-552. -/
def emitted (arch : Arch) (k : SymbolKind) : Res Bool :=
  match k with
  | .text | .data | .tls | .unknown => .ok true
  | .sectionSym => .ok (decide (arch = .aarch64 ∨ arch = .aarch64_Ilp32))
  | .file => .ok false
  | .label => .err

/-- The name of a symbol, src/write/macho/object.rs:553-555. -/
def addName (t : StrTab) (name : List UInt8) : Res (Option Nat × StrTab) :=
  if name = [] then .ok (none, t)
  else do
    let (id, t) ← tabAdd t name
    .ok (some id, t)

/-- `str_id` of each symbol, and the three vectors of symbols. -/
structure Groups where
  ids : List (Option Nat)
  locals : List Nat
  externals : List Nat
  undefineds : List Nat
  deriving DecidableEq, Repr

/-- The vector that the symbol is pushed to, src/write/macho/object.rs:556-562 (seen from the front: the symbols after
it have been added). -/
def Groups.push (g : Groups) (i : Nat) (id : Option Nat) (s : W.Symbol) : Groups :=
  if s.section_ = .undefined ∨ s.section_ = .common then { g with ids := id :: g.ids, undefineds := i :: g.undefineds }
  else if s.scope = .compilation then { g with ids := id :: g.ids, locals := i :: g.locals }
  else { g with ids := id :: g.ids, externals := i :: g.externals }

/-- The loop over the symbols, src/write/macho/object.rs:525-563, from symbol `i` on. -/
def partition (arch : Arch) : Nat → StrTab → List W.Symbol → Res (Groups × StrTab)
  | _, t, [] => .ok (⟨[], [], [], []⟩, t)
  | i, t, s :: ss =>
    (emitted arch s.kind).bind fun e =>
      if e then do
        let (id, t) ← addName t s.name
        let (g, t) ← partition arch (i + 1) t ss
        .ok (g.push i id s, t)
      else do
        let (g, t) ← partition arch (i + 1) t ss
        .ok ({ g with ids := none :: g.ids }, t)

/-- The order of byte slices. -/
def bytesLt : List UInt8 → List UInt8 → Bool
  | _, [] => false
  | [], _ :: _ => true
  | a :: as, b :: bs => decide (a < b) || (decide (a = b) && bytesLt as bs)

/-- The name of symbol `i`. -/
def nameOf (symbols : List W.Symbol) (i : Nat) : List UInt8 :=
  match symbols[i]? with
  | some s => s.name
  | none => []

/-- Insert before the elements that are not less. -/
def insertSym (symbols : List W.Symbol) (i : Nat) : List Nat → List Nat
  | [] => [i]
  | j :: js => if bytesLt (nameOf symbols j) (nameOf symbols i) then j :: insertSym symbols i js else i :: j :: js

/-- `sort_by_key` by name, src/write/macho/object.rs:565-566 (stable, as insertion sort; the library sorts
differently with the same result). -/
def sortSyms (symbols : List W.Symbol) : List Nat → List Nat
  | [] => []
  | i :: is => insertSym symbols i (sortSyms symbols is)

/-- Number the symbols, src/write/macho/object.rs:569-578: `symbol_offsets[..].index` and `nsyms`. -/
def number : List Nat → Nat → List Nat → Res (List Nat × Nat)
  | idx, n, [] => .ok (idx, n)
  | idx, n, i :: is => (addU32 n 1).bind fun n' => number (idx.set i n) n' is

/-- Number of relocation records, src/write/macho/object.rs:585-591, in `u32`. -/
def countRelocs (rs : List W.Reloc) : Res Nat := if W.machoCount rs < U32 then .ok (W.machoCount rs) else .panic

/-- The ranges of the relocations, src/write/macho/object.rs:584-597: `reloc_offset` and `reloc_count`. -/
def reserveRelocs (c : Cfg) : Nat → List W.Section → Res (List (Nat × Nat) × Nat)
  | off, [] => .ok ([], off)
  | off, s :: ss =>
    (countRelocs s.relocs).bind fun n =>
      if n ≠ 0 then do
        let (a, off) ← reserve off (n * 8) c.w
        let (r, off) ← reserveRelocs c off ss
        .ok ((a, n) :: r, off)
      else do
        let (r, off) ← reserveRelocs c off ss
        .ok ((0, 0) :: r, off)

/-- `Encoder::strtab`, src/write/macho/encoder.rs:596-607: the length, the table with its offsets and the data. -/
def encStrtab (c : Cfg) (t : StrTab) : Res (Nat × StrTab × List UInt8) :=
  match t.write 1 with
  | (.ok n, t, out) => (align64 n c.w).bind fun a =>
      if a < U32 then .ok (a, t, 0 :: out ++ List.replicate (a - n) 0) else .err
  | (.err, _, _) => .err
  | (.panic, _, _) => .panic

/-- What the first half of `macho_write` computes. -/
structure Plan where
  cmds : Cmds
  /-- `address` and `offset` of the sections -/
  places : List (Nat × Nat)
  fileSize : Nat
  vmSize : Nat
  ids : List (Option Nat)
  locals : List Nat
  externals : List Nat
  undefineds : List Nat
  /-- `symbol_offsets[..].index` -/
  index : List Nat
  nsyms : Nat
  /-- `reloc_offset` and `reloc_count` -/
  relocs : List (Nat × Nat)
  symtabOffset : Nat
  strsize : Nat
  strtab : StrTab
  strtabData : List UInt8
  strtabOffset : Nat
  len : Nat
  deriving DecidableEq, Repr

/-- Section addresses, src/write/macho/object.rs:491-518: the places, the size of the segment in the file, its size in
memory, and the end of the segment in the file. -/
def planSections (c : Cfg) (o : W.Object) (base : Nat) : Res (List (Nat × Nat) × Nat × Nat × Nat) := do
  let (r, a) ← placeData base 0 o.sections
  let (_, off) ← reserve base a 1
  let (r, b) ← placeBss a (o.sections.zip r)
  if c.is64 = false ∧ U32 - 1 < b then .err else .ok (r, a, b, off)

/-- Symbols, src/write/macho/object.rs:520-582: the groups (sorted), `index` and `nsyms`, and the string table. -/
def planSymbols (o : W.Object) : Res (Groups × List Nat × Nat × StrTab) := do
  let (g, t) ← partition o.arch 0 StrTab.new o.symbols
  let g := { g with externals := sortSyms o.symbols g.externals, undefineds := sortSyms o.symbols g.undefineds }
  let (idx, n) ← number (List.replicate o.symbols.length 0) 0 (g.locals ++ g.externals ++ g.undefineds)
  if 2 ^ 24 < n then .err else .ok (g, idx, n, t)

/-- The symbol and string tables, src/write/macho/object.rs:599-609: `symtab_offset`, the string table as of
`encStrtab`, `strtab_offset` and the end of the file. -/
def planTables (c : Cfg) (off nsyms : Nat) (t : StrTab) : Res (Nat × (Nat × StrTab × List UInt8) × Nat × Nat) := do
  let (a, off) ← reserve off (nsyms * nlistSize c) c.w
  let st ← encStrtab c t
  let (b, off) ← reserve off st.1 1
  if U32 - 1 < off then .err else .ok (a, st, b, off)

/-- The first half of `macho_write`, src/write/macho/object.rs:451-609. -/
def plan (c : Cfg) (o : W.Object) (x : Extra) : Res Plan :=
  let nsects := o.sections.length % U32
  if 255 < nsects then .err
  else do
    let k ← planCmds c nsects x.version
    let (places, fileSize, vmSize, off) ← planSections c o k.stop
    let (g, idx, nsyms, t) ← planSymbols o
    let (rel, off) ← reserveRelocs c off o.sections
    let (symtab, (strsize, t, data), strtab, len) ← planTables c off nsyms t
    .ok ⟨k, places, fileSize, vmSize, g.ids, g.locals, g.externals, g.undefineds, idx, nsyms, rel, symtab, strsize, t, data,
      strtab, len⟩

/-! ## Writing -/

/-- A name of at most 16 bytes, src/write/macho/object.rs:677-697. -/
def fixedName (name : List UInt8) : Res (List UInt8) :=
  if name.length ≤ 16 then .ok (name ++ List.replicate (16 - name.length) 0) else .err

/-- The header of a section, src/write/macho/object.rs:676-717: from its place and its relocation range. -/
def sectionHeader (s : W.Section) (place rel : Nat × Nat) : Res Sect := do
  let sectname ← fixedName s.name
  let segname ← fixedName s.segment
  match sectionFlags s with
  | none => .err
  | some (flags, reserved2) =>
    .ok ⟨sectname, segname, place.1, s.size, place.2 % U32, tz 64 s.align, rel.1 % U32, rel.2, flags, 0, reserved2, 0⟩

/-- The section headers, src/write/macho/object.rs:675-719. -/
def writeHeaders (c : Cfg) (out : List UInt8) : List (W.Section × (Nat × Nat) × (Nat × Nat)) → Res (List UInt8)
  | [] => .ok out
  | (s, p, r) :: rest => do
    let h ← sectionHeader s p r
    let out ← bufBytes out (h.encode c)
    writeHeaders c out rest

/-- The build version command, src/write/macho/object.rs:722-731. -/
def writeVersion (c : Cfg) (k : Cmds) (v : Option Version) (out : List UInt8) : Res (List UInt8) :=
  match v with
  | none => .ok out
  | some v => do
    check (k.version = out.length)
    bufBytes out (BuildVersion.encode c ⟨v.platform, v.minos, v.sdk, 0⟩)

/-- The contents of the sections, src/write/macho/object.rs:757-762. -/
def writeData (out : List UInt8) : List (W.Section × (Nat × Nat)) → Res (List UInt8)
  | [] => .ok out
  | (s, p) :: rest =>
    if s.kind.isBss then writeData out rest
    else do
      let out ← bufUntil out p.2
      let out ← bufBytes out s.data
      writeData out rest

/-- The index `symbol_offsets[subtractor.0]`, src/write/macho/object.rs:795. -/
def checkSub (o : W.Object) (r : W.Reloc) : Res Unit :=
  match r.subtractor with
  | none => .ok ()
  | some i =>
    if (o.arch = .aarch64 ∨ o.arch = .aarch64_Ilp32 ∨ o.arch = .x86_64) ∧ o.symbols.length ≤ i then .panic else .ok ()

/-- The index `section_offsets[symbol.section.id().unwrap().0]`, src/write/macho/object.rs:830. -/
def checkSec (o : W.Object) (r : W.Reloc) : Res Unit :=
  match o.symbols[r.symbol]? with
  | none => .ok ()
  | some y =>
    if y.kind = .sectionSym then match y.section_ with
      | .inSec i => if o.sections.length ≤ i then .panic else .ok ()
      | _ => .ok ()
    else .ok ()

/-- `symbol_offsets[i].index`. -/
def symIdx (index : List Nat) (i : Nat) : Nat := index.getD i 0

/-- `section_offsets[i].index`, src/write/macho/object.rs:497 (for an index out of range see `checkSec`). -/
def secIdx (o : W.Object) (i : Nat) : Nat := if i < o.sections.length then i + 1 else 0

/-- `write_reloc`, src/write/macho/object.rs:770-846: the records, with the checks of the indices. -/
def records (o : W.Object) (index : List Nat) (r : W.Reloc) : Res (List RelInfo) :=
  match r.flags with
  | .macho _ _ _ => do
    checkSub o r
    let l ← W.machoRecords o.arch (symIdx index) (secIdx o) o.symbols r
    checkSec o r
    .ok l
  | _ => .err

/-- The relocations of a section, in the order of `machoOrder`. -/
def writeRelocsOf (o : W.Object) (index : List Nat) (out : List UInt8) : List W.Reloc → Res (List UInt8)
  | [] => .ok out
  | r :: rs => do
    let l ← records o index r
    let out ← bufBytes out (l.flatMap (RelInfo.bytes o.endian))
    writeRelocsOf o index out rs

/-- The relocations, src/write/macho/object.rs:766-870. -/
def writeRelocs (o : W.Object) (index : List Nat) (out : List UInt8) : List (W.Section × (Nat × Nat)) → Res (List UInt8)
  | [] => .ok out
  | (s, p) :: rest =>
    if s.relocs = [] then writeRelocs o index out rest
    else do
      let out ← bufUntil out p.1
      let out ← writeRelocsOf o index out (W.machoOrder s.relocs)
      writeRelocs o index out rest

/-- `n_value`, src/write/macho/object.rs:892-898. -/
def symbolValue (places : List (Nat × Nat)) (s : W.Symbol) : Res Nat :=
  match s.section_ with
  | .common => .ok s.size
  | .inSec i => match places[i]? with
    | none => .panic
    | some p => addU64 p.1 s.value
  | _ => .ok s.value

/-- `n_strx`, src/write/macho/object.rs:900-903. -/
def strOffset (t : StrTab) (id : Option Nat) : Res Nat :=
  match id with
  | none => .ok 0
  | some id => t.getOffset id

/-- `n_sect`, src/write/macho/object.rs:887-890 with `as u8`, 908. -/
def symbolSection (s : W.Symbol) : Nat :=
  match s.section_ with
  | .inSec i => (i + 1) % 256
  | _ => 0

/-- The record of a symbol, src/write/macho/object.rs:878-913. -/
def nlistOf (p : Plan) (s : W.Symbol) (id : Option Nat) : Res Nlist :=
  match symbolFlags s with
  | none => .err
  | some (t, d) => do
    let v ← symbolValue p.places s
    let x ← strOffset p.strtab id
    .ok ⟨x, t, symbolSection s, d, v⟩

/-- The symbols, src/write/macho/object.rs:874-915. -/
def writeSymbols (c : Cfg) (o : W.Object) (p : Plan) (out : List UInt8) : List Nat → Res (List UInt8)
  | [] => .ok out
  | i :: is =>
    match o.symbols[i]?, p.ids[i]? with
    | some s, some id => do
      let n ← nlistOf p s id
      let out ← bufBytes out (n.encode c)
      writeSymbols c o p out is
    | _, _ => .panic

/-- `flags`, src/write/macho/object.rs:641-647; `MH_SUBSECTIONS_VIA_SYMBOLS = 0x2000`. -/
def fileFlags (o : W.Object) (x : Extra) : Nat :=
  if o.subsectionsViaSymbols then x.flags.getD 0 ||| 0x2000 else x.flags.getD 0

/-- The file header and the load commands, src/write/macho/object.rs:617-752.  `as u32` truncations are those of
`wr`. -/
def writeCmds (c : Cfg) (o : W.Object) (x : Extra) (p : Plan) : Res (List UInt8) := do
  let (cpu, sub) ← cpuOf o.arch x.sub
  let out ← bufBytes [] (Mhdr.encode c ⟨cpu, x.cpuSubtype.getD sub, 1, p.cmds.ncmds, p.cmds.stop - hdrSize c, fileFlags o x⟩)
  check (p.cmds.segment = out.length)
  let out ← bufBytes out (Seg.encode c ⟨List.replicate 16 0, 0, p.vmSize, p.cmds.stop, p.fileSize, 7, 7, o.sections.length % U32, 0⟩)
  let out ← writeHeaders c out (o.sections.zip (p.places.zip p.relocs))
  let out ← writeVersion c p.cmds x.version out
  check (p.cmds.symtab = out.length)
  let out ← bufBytes out (SymtabCmd.encode c ⟨p.symtabOffset, p.nsyms, p.strtabOffset, p.strsize⟩)
  check (p.cmds.dysymtab = out.length)
  let l := p.locals.length
  let e := p.externals.length
  let i ← addU32 (l % U32) (e % U32)
  bufBytes out (DysymtabCmd.encode c ⟨0, l, l, e, i, p.undefineds.length, List.replicate 12 0⟩)

/-- The rest of the file, src/write/macho/object.rs:755-923. -/
def writeRest (c : Cfg) (o : W.Object) (p : Plan) (out : List UInt8) : Res (List UInt8) := do
  check (p.cmds.stop = out.length)
  let out ← writeData out (o.sections.zip p.places)
  let e ← addU64 p.cmds.stop p.fileSize
  check (e = out.length)
  let out ← writeRelocs o p.index out (o.sections.zip p.relocs)
  let out ← bufUntil out p.symtabOffset
  let out ← writeSymbols c o p out (p.locals ++ p.externals ++ p.undefineds)
  check (p.strtabOffset = out.length)
  let out ← bufBytes out p.strtabData
  check (p.len = out.length)
  .ok out

/-- `Object::macho_write`, src/write/macho/object.rs:441-925: the bytes of the file. -/
def machoWrite (o : W.Object) (x : Extra) : Res (List UInt8) :=
  match elfIs64 o.arch with
  | none => .panic
  | some is64 => do
    let c : Cfg := ⟨is64, o.endian⟩
    let p ← plan c o x
    let out ← writeCmds c o x p
    writeRest c o p out

end Obj.MachoW

import Verif.Model.MachoFile
import Verif.Model.MachoImport
import Verif.Model.MachoWriter
import Verif.Model.Build
import Verif.Model.BuildWrite

/-!
# The Mach-O builder (src/build/macho.rs)

Ids (`SectionId` etc.) are modelled by the index they hold.  A failed `debug_assert!`, an overflow, an index out of range and an `unwrap` of
`None` are `Res.panic`.  The output buffer is a byte vector (C10 covers the other buffers), and a sequence of `write_bytes` is modelled by
the bytes written.  Where the code holds the id of an item in a record of its own (`SectionOut::id`, `SymbolOut::id`, `SegmentOut::id`) and
gets the item by that id, the model holds the item: the id of an item is its position in its table.
-/

namespace Obj.MachoB

open Obj Obj.MachoR
open Obj.BuildW (foldR mapR put)
open Obj.Reserve (addU64)
open Obj.MachO (LoadCommands LoadCommandData)

/-! ## The builder -/

/-- `RelocationTarget`, src/build/macho.rs:1514-1520. -/
inductive Target where
  | symbol (id : Nat)
  | section_ (id : Nat)
  deriving DecidableEq, Repr

/-- `Relocation`, src/build/macho.rs:1496-1510. -/
structure Rel where
  target : Target
  address : Nat
  pcrel : Bool
  length : Nat
  typ : Nat
  deriving DecidableEq, Repr

/-- `IndirectSymbol`, src/build/macho.rs:1546-1551. -/
inductive Ind where
  | flags (value : Nat)
  | symbol (id : Nat)
  deriving DecidableEq, Repr

/-- `SectionData`, src/build/macho.rs:1448-1453. -/
inductive Data where
  | data (bytes : List UInt8)
  | uninit (size : Nat)
  deriving DecidableEq, Repr

/-- `SectionData::size`, src/build/macho.rs:1457-1462. -/
def Data.size : Data → Nat
  | .data bytes => bytes.length
  | .uninit size => size

/-- `Section`, src/build/macho.rs:1384-1409. -/
structure Sec where
  id : Nat
  delete : Bool
  sectname : List UInt8
  segname : List UInt8
  addr : Nat
  align : Nat
  relocs : List Rel
  flags : Nat
  indirect : List Ind
  stubSize : Nat
  data : Data
  deriving DecidableEq, Repr

/-- `Segment`, src/build/macho.rs:1302-1327. -/
structure Segm where
  id : Nat
  delete : Bool
  segname : List UInt8
  vmaddr : Nat
  vmsize : Nat
  maxprot : Nat
  initprot : Nat
  flags : Nat
  sections : List Nat
  deriving DecidableEq, Repr

/-- `Symbol`, src/build/macho.rs:1557-1583, without `dylib`, which is `None` after reading and is not used for writing. -/
structure Sym where
  id : Nat
  delete : Bool
  name : List UInt8
  sect : Option Nat
  ntype : Nat
  nsect : Nat
  desc : Nat
  value : Nat
  deriving DecidableEq, Repr

/-- `Dylib`, src/build/macho.rs:1663-1682. -/
structure Dylib where
  delete : Bool
  cmd : Nat
  name : List UInt8
  timestamp : Nat
  current : Nat
  compat : Nat
  deriving DecidableEq, Repr

/-- `LoadCommand`, src/build/macho.rs:1216-1269, and `BuildVersion`, 1274-1300. -/
inductive Cmd where
  | segment (id : Nat)
  | symtab
  | dysymtab
  | dylib (id : Nat)
  | idDylib (d : Dylib)
  | buildVersion (platform minos sdk : Nat) (tools : List (Nat × Nat))
  | linkedit (cmd : Nat) (data : List UInt8)
  | dyldInfo (rebase bind weakBind lazyBind export_ : List UInt8)
  | other (cmd : Nat) (data : List UInt8)
  deriving DecidableEq, Repr

/-- `Builder`, src/build/macho.rs:19-59, and `Header`, 1194-1211. -/
structure Builder where
  endian : Endianness
  is64 : Bool
  pageSize : Nat
  cputype : Nat
  cpusubtype : Nat
  filetype : Nat
  flags : Nat
  commands : List Cmd
  segments : List Segm
  sections : List Sec
  symbols : List Sym
  dylibs : List Dylib
  deriving DecidableEq, Repr

instance : Build.Item Sec := ⟨(·.delete), (·.id)⟩
instance : Build.Item Segm := ⟨(·.delete), (·.id)⟩
instance : Build.Item Sym := ⟨(·.delete), (·.id)⟩

/-- `Table::get`, src/build/table.rs:62-64: `unwrap` panics. -/
def fetch {α : Type} (t : List α) (i : Nat) : Res α :=
  match t[i]? with
  | some x => .ok x
  | none => .panic

/-! ## Reading -/

/-- `LoadCommandVariant`, src/read/macho/load_command.rs:370-451, as far as the builder has a case for it; `raw` are those that it keeps as
bytes. -/
inductive Variant where
  | segment (c : Cfg) (s : Seg) (rest : List UInt8)
  | symtab (s : SymtabCmd)
  | dysymtab (d : DysymtabCmd)
  | linkedit (off size : Nat)
  | dyldInfo (parts : List (Nat × Nat))
  | buildVersion (v : BuildVersion) (rest : List UInt8)
  | dylib (img : List UInt8)
  | idDylib (img : List UInt8)
  | raw
  | other
  deriving DecidableEq, Repr

/-- `LC_CODE_SIGNATURE`, `LC_SEGMENT_SPLIT_INFO`, `LC_FUNCTION_STARTS`, `LC_DATA_IN_CODE`, `LC_DYLIB_CODE_SIGN_DRS`,
`LC_LINKER_OPTIMIZATION_HINT`, `LC_DYLD_EXPORTS_TRIE`, `LC_DYLD_CHAINED_FIXUPS`: src/read/macho/load_command.rs:165-172. -/
def isLinkedit (cmd : Nat) : Bool :=
  cmd == 0x1d || cmd == 0x1e || cmd == 0x26 || cmd == 0x29 || cmd == 0x2b || cmd == 0x2e || cmd == 0x80000033 || cmd == 0x80000034

/-- `LC_LOAD_DYLIB`, `LC_LOAD_WEAK_DYLIB`, `LC_REEXPORT_DYLIB`, `LC_LAZY_LOAD_DYLIB`, `LC_LOAD_UPWARD_DYLIB`:
src/read/macho/load_command.rs:143-147. -/
def isDylib (cmd : Nat) : Bool :=
  cmd == 0xc || cmd == 0x80000018 || cmd == 0x8000001f || cmd == 0x20 || cmd == 0x80000023

/-- The sizes of `DylinkerCommand` (`LC_LOAD_DYLINKER`), `SourceVersionCommand`, `EntryPointCommand` (`LC_MAIN`), `UuidCommand`,
`EncryptionInfoCommand32` and `EncryptionInfoCommand64`. -/
def rawSize (cmd : Nat) : Option Nat :=
  if cmd = 0xe then some 12
  else if cmd = 0x2a then some 16
  else if cmd = 0x80000028 then some 24
  else if cmd = 0x1b then some 24
  else if cmd = 0x21 then some 20
  else if cmd = 0x2c then some 24
  else none

/-- `LoadCommandData::variant`, src/read/macho/load_command.rs:129-199.  The commands that the builder does not support are an error in
`read_file` in any case, so that a failure to read them here is not modelled.  (`LC_DYLD_INFO` is one of these, src/build/macho.rs:226.) -/
def variant (c : Cfg) (d : LoadCommandData) : Res Variant :=
  if d.cmd = 1 ∨ d.cmd = 0x19 then
    match Bytes.read d.data (segSize ⟨decide (d.cmd = 0x19), c.en⟩) with
    | (.ok img, rest) => .ok (.segment ⟨decide (d.cmd = 0x19), c.en⟩ (Seg.decode ⟨decide (d.cmd = 0x19), c.en⟩ img) rest)
    | (.err, _) => .err
    | (.panic, _) => .panic
  else if d.cmd = 2 then (Bytes.readAt d.data 0 24).bind fun img => .ok (.symtab (SymtabCmd.decode c img))
  else if d.cmd = 0xb then (Bytes.readAt d.data 0 80).bind fun img => .ok (.dysymtab (DysymtabCmd.decode c img))
  else if isLinkedit d.cmd then
    (Bytes.readAt d.data 0 16).bind fun img => .ok (.linkedit (field c.en img 8 4) (field c.en img 12 4))
  else if d.cmd = 0x80000022 then
    (Bytes.readAt d.data 0 48).bind fun img => .ok (.dyldInfo [(field c.en img 8 4, field c.en img 12 4), (field c.en img 16 4, field c.en img 20 4),
      (field c.en img 24 4, field c.en img 28 4), (field c.en img 32 4, field c.en img 36 4), (field c.en img 40 4, field c.en img 44 4)])
  else if d.cmd = 0x32 then
    match Bytes.read d.data 24 with
    | (.ok img, rest) => .ok (.buildVersion (BuildVersion.decode c img) rest)
    | (.err, _) => .err
    | (.panic, _) => .panic
  else if isDylib d.cmd then (Bytes.readAt d.data 0 24).bind fun img => .ok (.dylib img)
  else if d.cmd = 0xd then (Bytes.readAt d.data 0 24).bind fun img => .ok (.idDylib img)
  else match rawSize d.cmd with
    | some n => (Bytes.readAt d.data 0 n).bind fun _ => .ok .raw
    | none => .ok .other

/-- `ReadState`, src/build/macho.rs:61-66 (`dylibs_len` is not used), and `page_size_bits`, 138. -/
structure State where
  sections : Nat
  symbols : Nat
  indirect : List Nat
  pageBits : Nat
  deriving DecidableEq, Repr

/-- `trailing_zeros` of a number of `w` bits. -/
def trailingZeros : Nat → Nat → Nat
  | 0, _ => 0
  | w + 1, n => if n % 2 = 1 then 0 else 1 + trailingZeros w (n / 2)

/-- The body of the first loop, src/build/macho.rs:140-165. -/
def scanStep (c : Cfg) (data : List UInt8) (st : State) (d : LoadCommandData) : Res State :=
  (variant c d).bind fun v =>
    match v with
    | .segment c' s _ =>
      .ok { st with sections := st.sections + s.nsects, pageBits := min st.pageBits (trailingZeros (8 * c'.w) s.fileoff) }
    | .symtab s => .ok { st with symbols := s.nsyms }
    | .dysymtab t => (MachoF.indirectTable c t data).bind fun l => .ok { st with indirect := l }
    | _ => .ok st

/-- A relocation, src/build/macho.rs:346-377. -/
def readRel (st : State) (r : RelInfo) : Res Rel :=
  if r.extern_ then
    if st.symbols ≤ r.symbolnum then .err else .ok ⟨.symbol r.symbolnum, r.address, r.pcrel, r.length, r.typ⟩
  else
    if r.symbolnum = 0 ∨ st.sections ≤ r.symbolnum - 1 then .err
    else .ok ⟨.section_ (r.symbolnum - 1), r.address, r.pcrel, r.length, r.typ⟩

/-- An indirect symbol, src/build/macho.rs:381-396, with `IndirectSymbol::index`, src/macho.rs:2371-2377. -/
def readInd (st : State) (v : Nat) : Res Ind :=
  if v &&& 0xc0000000 ≠ 0 then .ok (.flags v) else if st.symbols ≤ v then .err else .ok (.symbol v)

/-- The data of a section, src/build/macho.rs:337-343. -/
def readData (data : List UInt8) (s : Sect) (off : Nat) : Res Data :=
  match s.fileSize with
  | some n => (ReadRef.readBytesAt data off n).bind fun d => .ok (.data d)
  | none => .ok (.uninit (s.size % U32))

/-- `read_section`, src/build/macho.rs:323-414. -/
def readSection (c : Cfg) (data : List UInt8) (st : State) (id : Nat) (s : Sect) (off : Nat) : Res Sec :=
  (readData data s off).bind fun d =>
  (s.relocations c data).bind fun ws =>
  (mapR (readRel st) (ws.map (relInfo c.en))).bind fun rs =>
  (MachoF.indirectSymbols c s st.indirect).bind fun vs =>
  (mapR (readInd st) vs).bind fun is =>
  .ok ⟨id, false, s.sectname, s.segname, s.addr, s.align, rs, s.flags, is, MachoF.symbolStubSize s, d⟩

/-- `read_segment`, src/build/macho.rs:287-321.  (The offsets of the sections are computed before the sections are read.) -/
def readSegment (c : Cfg) (data : List UInt8) (st : State) (b : Builder) (s : Seg) (rest : List UInt8) : Res Builder :=
  (Elf.readSliceAt rest 0 (sectSize c) s.nsects).bind fun imgs =>
  (s.sectionOffsets (imgs.map (Sect.decode c))).bind fun offs =>
  (mapR (fun x : (Sect × Nat) × Nat => readSection c data st (b.sections.length + x.2) x.1.1 x.1.2) (((imgs.map (Sect.decode c)).zip offs).zipIdx)).bind
    fun secs => .ok { b with
      sections := b.sections ++ secs
      segments := b.segments ++ [⟨b.segments.length, false, s.segname, s.vmaddr, s.vmsize, s.maxprot, s.initprot, s.flags, secs.map (·.id)⟩]
      commands := b.commands ++ [.segment b.segments.length] }

/-- A symbol, src/build/macho.rs:426-450; `N_TYPE = 0xe`, `N_SECT = 0xe`. -/
def readSymbol (st : State) (data : List UInt8) (t : SymTab) (id : Nat) (y : Nlist) : Res Sym :=
  (if y.typ &&& 0xe = 0xe then (if y.sect = 0 ∨ st.sections ≤ y.sect - 1 then Res.err else .ok (some (y.sect - 1))) else .ok none).bind fun sect =>
  (t.name data y).bind fun name => .ok ⟨id, false, name, sect, y.typ, y.sect, y.desc, y.value⟩

/-- `read_symbols`, src/build/macho.rs:416-453. -/
def readSymbols (st : State) (data : List UInt8) (b : Builder) (t : SymTab) : Res Builder :=
  (mapR (fun x : Nlist × Nat => readSymbol st data t (b.symbols.length + x.2) x.1) t.symbols.zipIdx).bind fun ys =>
    .ok { b with symbols := b.symbols ++ ys, commands := b.commands ++ [.symtab] }

/-- The library of a command, src/build/macho.rs:253-263, 267-275. -/
def readDylib (c : Cfg) (d : LoadCommandData) (img : List UInt8) : Res Dylib :=
  (MachoI.lcString d (field c.en img 8 4)).bind fun name =>
    .ok ⟨false, field c.en img 0 4, name, field c.en img 12 4, field c.en img 16 4, field c.en img 20 4⟩

/-- Add a load command. -/
def Builder.push (b : Builder) (k : Cmd) : Builder := { b with commands := b.commands ++ [k] }

/-- The five parts of `LC_DYLD_INFO_ONLY`, src/build/macho.rs:226-234. -/
def readParts (data : List UInt8) : List (Nat × Nat) → Res Cmd
  | [a, b, c, d, e] =>
    (ReadRef.readBytesAt data a.1 a.2).bind fun a => (ReadRef.readBytesAt data b.1 b.2).bind fun b =>
    (ReadRef.readBytesAt data c.1 c.2).bind fun c => (ReadRef.readBytesAt data d.1 d.2).bind fun d =>
    (ReadRef.readBytesAt data e.1 e.2).bind fun e => .ok (.dyldInfo a b c d e)
  | _ => .err

/-- The body of the second loop, src/build/macho.rs:169-300.  `rest` of `DysymtabCmd` has `ntoc`, `nmodtab`, `nextrefsyms`, `nextrel` and
`nlocrel` as the words 1, 3, 5, 9 and 11. -/
def readStep (c : Cfg) (data : List UInt8) (st : State) (b : Builder) (d : LoadCommandData) : Res Builder :=
  (variant c d).bind fun v =>
    match v with
    | .segment c' s rest => readSegment c' data st b s rest
    | .symtab s => (s.symbols c data).bind fun t => readSymbols st data b t
    | .dysymtab t =>
      if t.rest.getD 1 0 ≠ 0 ∨ t.rest.getD 3 0 ≠ 0 ∨ t.rest.getD 5 0 ≠ 0 ∨ t.rest.getD 9 0 ≠ 0 ∨ t.rest.getD 11 0 ≠ 0 then .err
      else .ok (b.push .dysymtab)
    | .linkedit off size => (ReadRef.readBytesAt data off size).bind fun l => .ok (b.push (.linkedit d.cmd l))
    | .dyldInfo parts => (readParts data parts).bind fun k => .ok (b.push k)
    | .buildVersion v rest =>
      (Elf.readSliceAt rest 0 8 v.ntools).bind fun imgs =>
        .ok (b.push (.buildVersion v.platform v.minos v.sdk (imgs.map fun i => (field c.en i 0 4, field c.en i 4 4))))
    | .dylib img => (readDylib c d img).bind fun l => .ok { b with dylibs := b.dylibs ++ [l], commands := b.commands ++ [.dylib b.dylibs.length] }
    | .idDylib img => (readDylib c d img).bind fun l => .ok (b.push (.idDylib l))
    | .raw => .ok (b.push (.other d.cmd (d.data.drop 8)))
    | .other => .err

/-- `read_file`, src/build/macho.rs:107-285 (`read32` and `read64` are the two classes).  The first `page_size` is `0x4000`. -/
def readFile (is64 : Bool) (data : List UInt8) : Res Builder :=
  (parseHeader is64 data).bind fun p =>
  (loadCommands p.1 p.2 data).bind fun cs =>
  (MachoI.forCommands p.1.en (scanStep p.1 data) cs ⟨0, 0, [], 14⟩).bind fun st =>
  (MachoI.forCommands p.1.en (readStep p.1 data st) cs
    ⟨p.1.en, is64, 2 ^ st.pageBits, p.2.cputype, p.2.cpusubtype, p.2.filetype, p.2.flags, [], [], [], [], []⟩).bind fun b =>
    if b.sections.length ≠ st.sections ∨ b.symbols.length ≠ st.symbols then .panic else .ok b

/-! ## Deletion -/

/-- `Vec::retain` with a condition that can panic. -/
def retain {α : Type} (p : α → Res Bool) : List α → Res (List α)
  | [] => .ok []
  | x :: xs => (p x).bind fun k => (retain p xs).bind fun r => .ok (if k then x :: r else r)

/-- A loop `for item in &mut table` that modifies items: deleted items are skipped. -/
def update {α : Type} [Build.Item α] (f : α → Res α) : List α → Res (List α) :=
  mapR fun x => if Build.Item.deleted x then .ok x else f x

/-- `delete_orphan_segments`, src/build/macho.rs:1127-1137. -/
def deleteSegments (b : Builder) : Res Builder :=
  (update (fun g : Segm =>
    if g.sections = [] then .ok g
    else (retain (fun i => (fetch b.sections i).bind fun s => .ok !s.delete) g.sections).bind fun l =>
      .ok { g with sections := l, delete := decide (l = []) }) b.segments).bind fun gs => .ok { b with segments := gs }

/-- `delete_orphan_symbols`, src/build/macho.rs:1140-1148. -/
def deleteSymbols (b : Builder) : Res Builder :=
  (update (fun y : Sym =>
    match y.sect with
    | some i => (fetch b.sections i).bind fun s => .ok (if s.delete then { y with delete := true } else y)
    | none => .ok y) b.symbols).bind fun ys => .ok { b with symbols := ys }

/-- `delete_orphan_relocations`, src/build/macho.rs:1151-1167: `sections` holds the flags of the items of `Table::iter`, which skips deleted
items. -/
def deleteRelocs (b : Builder) : Res Builder :=
  (update (fun s : Sec =>
    (retain (fun r : Rel =>
      match r.target with
      | .symbol i => (fetch b.symbols i).bind fun y => .ok !y.delete
      | .section_ i => (fetch ((Build.iter b.sections).map (·.delete)) i).bind fun d => .ok !d) s.relocs).bind fun l =>
    .ok { s with relocs := l }) b.sections).bind fun ss => .ok { b with sections := ss }

/-- `delete_orphan_load_commands`, src/build/macho.rs:1170-1178. -/
def deleteCommands (b : Builder) : Res Builder :=
  (retain (fun k : Cmd =>
    match k with
    | .segment i => (fetch b.segments i).bind fun g => .ok !g.delete
    | .dylib i => (fetch b.dylibs i).bind fun d => .ok !d.delete
    | _ => .ok true) b.commands).bind fun ks => .ok { b with commands := ks }

/-- `delete_orphans`, src/build/macho.rs:1119-1124. -/
def deleteOrphans (b : Builder) : Res Builder :=
  (deleteSegments b).bind fun b => (deleteSymbols b).bind fun b => (deleteRelocs b).bind fun b => deleteCommands b

/-! ## Writing: order -/

/-- The ids of the segments of load commands. -/
def segmentIds (ks : List Cmd) : List Nat := ks.filterMap fun k => match k with | .segment i => some i | _ => none

/-- `out_segments` with the sections of the segments, src/build/macho.rs:508-541. -/
def segmentOuts (b : Builder) : Res (List (Segm × List Sec)) :=
  mapR (fun i => (fetch b.segments i).bind fun g => (mapR (fetch b.sections) g.sections).bind fun ss => .ok (g, ss)) (segmentIds b.commands)

/-- `indirect_symbols_index` of the sections, src/build/macho.rs:514-524. -/
def indStarts : Nat → List Sec → List Nat
  | _, [] => []
  | n, s :: ss => (if s.indirect = [] then 0 else n) :: indStarts (n + s.indirect.length) ss

/-- The last position at which an id is found: what is left in a vector `v` after `v[id] = position` for all positions. -/
def lastIndex (ids : List Nat) (i : Nat) : Option Nat :=
  (ids.zipIdx.reverse.find? fun x => x.1 == i).map (·.2)

/-- `Symbol::is_undefined`, src/build/macho.rs:1604-1606, with `is_stab` and `typ`, src/macho.rs:3351-3369. -/
def Sym.isUndefined (y : Sym) : Bool := decide (y.ntype &&& 0xe0 = 0) && decide (y.ntype &&& 0xe = 0)

/-- `Symbol::is_extdef`, src/build/macho.rs:1611-1613; `N_EXT = 1`, `N_PEXT = 0x10`. -/
def Sym.isExtdef (y : Sym) : Bool := decide (y.ntype &&& 0x11 = 1)

/-- Inserting before the first symbol with a name that is not smaller. -/
def insertSym (y : Sym) : List Sym → List Sym
  | [] => [y]
  | z :: zs => if MachoW.bytesLt z.name y.name then z :: insertSym y zs else y :: z :: zs

/-- `sort_by_key` by name: the stable sort, here by insertion. -/
def sortSyms : List Sym → List Sym
  | [] => []
  | y :: ys => insertSym y (sortSyms ys)

/-- `local_symbols`, src/build/macho.rs:550-559. -/
def localSyms (t : List Sym) : List Sym := (Build.iter t).filter fun y => !y.isUndefined && !y.isExtdef
/-- `external_symbols`, src/build/macho.rs:550-560. -/
def extSyms (t : List Sym) : List Sym := sortSyms ((Build.iter t).filter fun y => !y.isUndefined && y.isExtdef)
/-- `undefined_symbols`, src/build/macho.rs:550-561. -/
def undefSyms (t : List Sym) : List Sym := sortSyms ((Build.iter t).filter Sym.isUndefined)

/-- The names are added to the string table, src/build/macho.rs:564-581. -/
def addNames : StrTab → List Sym → Res (List (Option Nat) × StrTab)
  | t, [] => .ok ([], t)
  | t, y :: ys => (BuildW.addName t y.name).bind fun r => (addNames r.2 ys).bind fun q => .ok (r.1 :: q.1, q.2)

/-- The order of sections and symbols and their names: what is computed in src/build/macho.rs:501-586. -/
structure Order where
  segs : List (Segm × List Sec)
  secs : List Sec
  syms : List Sym
  names : List (Option Nat)
  tab : StrTab

/-- The checks of src/build/macho.rs:589-622. -/
def referenced (b : Builder) (o : Order) : Bool :=
  (Build.iter b.segments).all (fun g => (segmentIds b.commands).contains g.id) &&
  (Build.iter b.sections).all (fun s => (o.secs.map (·.id)).contains s.id) &&
  (o.syms.isEmpty || b.commands.contains .symtab) &&
  b.dylibs.zipIdx.all fun d => d.1.delete || b.commands.contains (.dylib d.2)

/-- src/build/macho.rs:501-622. -/
def order (b : Builder) : Res Order :=
  (segmentOuts b).bind fun segs =>
  if 255 < (segs.flatMap (·.2)).length then .err
  else
    let syms := localSyms b.symbols ++ (extSyms b.symbols ++ undefSyms b.symbols)
    (addNames .new syms).bind fun r =>
    if 2 ^ 24 < syms.length then .err
    else
      let o : Order := ⟨segs, segs.flatMap (·.2), syms, r.1, r.2⟩
      if referenced b o then .ok o else .err

/-! ## Writing: layout -/

/-- `Encoder::dylib_command_size`, src/write/macho/encoder.rs:664-669. -/
def dylibSize (c : Cfg) (name : List UInt8) : Res Nat := align64 (24 + name.length + 1) c.w

/-- The size of a load command, src/build/macho.rs:632-650. -/
def cmdSize (c : Cfg) (b : Builder) (o : Order) : Cmd → Res Nat
  | .segment i => (fetch o.segs i).bind fun g => .ok (segSize c + g.2.length * sectSize c)
  | .symtab => .ok 24
  | .dysymtab => .ok 80
  | .dylib i => (fetch b.dylibs i).bind fun d => dylibSize c d.name
  | .idDylib d => dylibSize c d.name
  | .buildVersion _ _ _ tools => .ok (24 + tools.length * 8)
  | .linkedit _ _ => .ok 16
  | .dyldInfo _ _ _ _ _ => .ok 48
  | .other _ data => .ok (8 + data.length)

/-- `1 << section.align`, which overflows from 64 on. -/
def shl1 (a : Nat) : Res Nat := if a < 64 then .ok (2 ^ a) else .panic

/-- The file offsets of the sections of an object file, src/build/macho.rs:670-681, and the end of the data.  (`out_section.address` is
not used later.) -/
def placeData (base : Nat) : Nat → List Sec → Res (List Nat × Nat)
  | a, [] => .ok ([], a)
  | a, s :: ss =>
    match s.data with
    | .data d =>
      (shl1 s.align).bind fun al => (align64 a al).bind fun a => (addU64 base a).bind fun off => (addU64 a d.length).bind fun e =>
      (placeData base e ss).bind fun r => .ok (off :: r.1, r.2)
    | .uninit _ => (placeData base a ss).bind fun r => .ok (0 :: r.1, r.2)

/-- The addresses of uninitialized sections, src/build/macho.rs:683-691: the size of the segment. -/
def placeBss : Nat → List Sec → Res Nat
  | a, [] => .ok a
  | a, s :: ss =>
    match s.data with
    | .data _ => placeBss a ss
    | .uninit n => (shl1 s.align).bind fun al => (align64 a al).bind fun a => (addU64 a n).bind fun e => placeBss e ss

/-- `Offset::reserve`, src/build/macho.rs:491-498. -/
abbrev reserve := MachoW.reserve

/-- The offsets of the relocations, src/build/macho.rs:694-702. -/
def placeRelocs (c : Cfg) : Nat → List Sec → Res (List Nat × Nat)
  | off, [] => .ok ([], off)
  | off, s :: ss =>
    if s.relocs = [] then (placeRelocs c off ss).bind fun r => .ok (0 :: r.1, r.2)
    else (reserve off (s.relocs.length * 8) c.w).bind fun p => (placeRelocs c p.2 ss).bind fun r => .ok (p.1 :: r.1, r.2)

/-- `SegmentOut`: offset, size and size in memory. -/
structure Range where
  off : Nat
  size : Nat
  vmsize : Nat
  deriving DecidableEq, Repr

/-- The sections of a segment of a linked file, src/build/macho.rs:720-748: the offsets, the end address and `out_segment.size`. -/
def placeSecs (g : Segm) (segOff : Nat) : Nat → Nat → List Sec → Res (List Nat × Nat × Nat)
  | a, size, [] => .ok ([], a, size)
  | a, size, s :: ss =>
    if s.addr < a then .err
    else (addU64 s.addr s.data.size).bind fun e =>
      match s.data with
      | .data d =>
        (addU64 (s.addr - g.vmaddr) segOff).bind fun off => (addU64 (s.addr - g.vmaddr) d.length).bind fun size =>
        if s.relocs ≠ [] then .err
        else (placeSecs g segOff e size ss).bind fun r => .ok (off :: r.1, r.2)
      | .uninit _ =>
        if s.relocs ≠ [] then .err
        else (placeSecs g segOff e size ss).bind fun r => .ok (0 :: r.1, r.2)

/-- The segments of a linked file, src/build/macho.rs:704-768; the arguments are `segment_offset`, `address` and `offset`. -/
def placeSegs (page : Nat) : Nat → Nat → Nat → List (Segm × List Sec) → Res (List Range × List Nat × Nat)
  | _, _, off, [] => .ok ([], [], off)
  | so, a, off, (g, ss) :: gs =>
    if g.vmaddr < a then .err
    else (placeSecs g so g.vmaddr 0 ss).bind fun p =>
      (addU64 g.vmaddr g.vmsize).bind fun e =>
      if e < p.2.1 then .err
      else if 0 < p.2.2 then
        (align64 p.2.2 page).bind fun size => (addU64 so size).bind fun so' =>
        (placeSegs page so' e so' gs).bind fun r => .ok (⟨so, size, g.vmsize⟩ :: r.1, p.1 ++ r.2.1, r.2.2)
      else (placeSegs page so e off gs).bind fun r => .ok (⟨0, 0, g.vmsize⟩ :: r.1, p.1 ++ r.2.1, r.2.2)

/-- The ranges of segments, the offsets of sections and of relocations, and the end: src/build/macho.rs:653-769; `MH_OBJECT = 1`. -/
def placeAll (c : Cfg) (b : Builder) (o : Order) (off : Nat) : Res (List Range × List Nat × List Nat × Nat) :=
  if b.filetype = 1 then
    match o.segs with
    | [g] =>
      if g.1.segname ≠ List.replicate 16 0 ∨ g.1.vmaddr ≠ 0 then .err
      else (placeData off 0 o.secs).bind fun p => (reserve off p.2 1).bind fun q => (placeBss p.2 o.secs).bind fun vm =>
        (placeRelocs c q.2 o.secs).bind fun r => .ok ([⟨q.1, p.2, vm⟩], p.1, r.1, r.2)
    | _ => .err
  else (placeSegs b.pageSize 0 0 off o.segs).bind fun r => .ok (r.1, r.2.1, o.secs.map fun _ => 0, r.2.2)

/-- The blobs of a command that are placed in `__LINKEDIT`, src/build/macho.rs:775-796; `LC_CODE_SIGNATURE = 0x1d`. -/
def blobs : Cmd → List (List UInt8)
  | .linkedit cmd data => if cmd = 0x1d then [] else [data]
  | .dyldInfo a b c d e => [a, b, c, d, e].filter fun x => x ≠ []
  | _ => []

/-- The offsets of blobs. -/
def placeBlobs (c : Cfg) : Nat → List (List UInt8) → Res (List Nat × Nat)
  | off, [] => .ok ([], off)
  | off, x :: xs => (reserve off x.length c.w).bind fun p => (placeBlobs c p.2 xs).bind fun r => .ok (p.1 :: r.1, r.2)

/-- `linkedit_offsets`, src/build/macho.rs:772-796, as the list of the offsets for each command: they are used in the same order. -/
def placeLinkedit (c : Cfg) : Nat → List Cmd → Res (List (List Nat) × Nat)
  | off, [] => .ok ([], off)
  | off, k :: ks => (placeBlobs c off (blobs k)).bind fun p => (placeLinkedit c p.2 ks).bind fun r => .ok (p.1 :: r.1, r.2)

/-- The data of a code signature. -/
def signature : Cmd → Option (List UInt8)
  | .linkedit cmd data => if cmd = 0x1d then some data else none
  | _ => none

/-- `code_signature_offset`, src/build/macho.rs:822-829: that of the last code signature. -/
def placeSig : Nat → Nat → List (List UInt8) → Res (Nat × Nat)
  | sig, off, [] => .ok (sig, off)
  | _, off, x :: xs => (reserve off x.length 16).bind fun p => placeSig p.1 p.2 xs

/-- `segname() == b"__LINKEDIT"`, src/build/macho.rs:838, with 1343-1349. -/
def isLinkeditSeg (g : Segm) : Bool := upToNul g.segname == [95, 95, 76, 73, 78, 75, 69, 68, 73, 84]

/-- The range of `__LINKEDIT`, src/build/macho.rs:834-846. -/
def setLinkedit (b : Builder) (r : Range) : List Range → List Nat → Res (List Range)
  | rs, [] => .ok rs
  | rs, i :: is =>
    (fetch b.segments i).bind fun g =>
      if isLinkeditSeg g then (if i < rs.length then setLinkedit b r (rs.set i r) is else .panic) else setLinkedit b r rs is

/-- The layout of the file. -/
structure Layout where
  sizeofcmds : Nat
  ranges : List Range
  offs : List Nat
  rels : List Nat
  link : List (List Nat)
  symoff : Nat
  indoff : Nat
  strsize : Nat
  tab : StrTab
  strings : List UInt8
  stroff : Nat
  sig : Nat
  len : Nat

/-- The number of indirect symbols. -/
def indCount (ss : List Sec) : Nat := (ss.flatMap (·.indirect)).length

/-- src/build/macho.rs:625-855.  (`linkedit_filesize` does not underflow: the offset only grows.) -/
def layout (c : Cfg) (b : Builder) (o : Order) : Res Layout :=
  (mapR (cmdSize c b o) b.commands).bind fun sizes =>
  (foldR addU64 (hdrSize c) sizes).bind fun start =>
  (placeAll c b o start).bind fun p =>
  (placeLinkedit c p.2.2.2 b.commands).bind fun k =>
  (reserve k.2 (o.syms.length * nlistSize c) c.w).bind fun y =>
  (if indCount o.secs = 0 then .ok (0, y.2) else reserve y.2 (indCount o.secs * 4) 4).bind fun n =>
  (MachoW.encStrtab c o.tab).bind fun t =>
  (reserve n.2 t.1 1).bind fun u =>
  (placeSig 0 u.2 (b.commands.filterMap signature)).bind fun s =>
  (align64 (s.2 - p.2.2.2) b.pageSize).bind fun vm =>
  (setLinkedit b ⟨p.2.2.2, s.2 - p.2.2.2, vm⟩ p.1 (segmentIds b.commands)).bind fun rs =>
  if U32 ≤ s.2 then .err
  else .ok ⟨start - hdrSize c, rs, p.2.1, p.2.2.1, k.1, y.1, n.1, t.1, t.2.1, t.2.2, u.1, s.1, s.2⟩

/-! ## Writing: contents -/

/-- `out_sections_index[id.0].unwrap_or(0)` -/
def secNum (b : Builder) (o : Order) (i : Nat) : Res Nat :=
  if i < b.sections.length then .ok (match lastIndex (o.secs.map (·.id)) i with | some k => k + 1 | none => 0) else .panic

/-- `out_symbols_index[id.0].unwrap_or(0)` -/
def symNum (b : Builder) (o : Order) (i : Nat) : Res Nat :=
  if i < b.symbols.length then .ok ((lastIndex (o.syms.map (·.id)) i).getD 0) else .panic

/-- A section header, src/build/macho.rs:896-915. -/
def sectOf (o : Order) (l : Layout) (s : Sec) : Res Sect :=
  match lastIndex (o.secs.map (·.id)) s.id with
  | some k => .ok ⟨s.sectname, s.segname, s.addr, s.data.size, l.offs.getD k 0, s.align, l.rels.getD k 0, s.relocs.length, s.flags,
      (indStarts 0 o.secs).getD k 0, s.stubSize, 0⟩
  | none => .panic

/-- `Encoder::dylib_command`, src/write/macho/encoder.rs:672-699. -/
def dylibBytes (c : Cfg) (d : Dylib) : Res (List UInt8) :=
  (dylibSize c d.name).bind fun n =>
    .ok (Obj.encode c.en [(4, d.cmd), (4, n), (4, 24), (4, d.timestamp), (4, d.current), (4, d.compat)] ++
      (d.name ++ List.replicate (n - (24 + d.name.length)) 0))

/-- The offsets and sizes of the parts of `LC_DYLD_INFO_ONLY`, src/build/macho.rs:980-995: empty parts have none. -/
def partsOf : List (List UInt8) → List Nat → Res (List (Nat × Nat))
  | [], _ => .ok []
  | x :: xs, os =>
    if x = [] then (partsOf xs os).bind fun r => .ok ((0, 0) :: r)
    else match os with
      | o :: os => (partsOf xs os).bind fun r => .ok ((o, x.length) :: r)
      | [] => .panic

/-- The bytes of a load command, src/build/macho.rs:874-1016; `lk` are the offsets of the blobs of the command. -/
def cmdBytes (c : Cfg) (b : Builder) (o : Order) (l : Layout) (k : Cmd) (lk : List Nat) : Res (List UInt8) :=
  match k with
  | .segment i =>
    (fetch b.segments i).bind fun g => (fetch l.ranges i).bind fun r => (fetch o.segs i).bind fun n =>
    (mapR (fun i => (fetch b.sections i).bind (sectOf o l)) g.sections).bind fun ss =>
      .ok (Seg.encode c ⟨g.segname, g.vmaddr, r.vmsize, r.off, r.size, g.maxprot, g.initprot, n.2.length, g.flags⟩ ++ ss.flatMap (Sect.encode c))
  | .symtab => .ok (SymtabCmd.encode c ⟨l.symoff, o.syms.length, l.stroff, l.strsize⟩)
  | .dysymtab =>
    .ok (DysymtabCmd.encode c ⟨0, (localSyms b.symbols).length, (localSyms b.symbols).length, (extSyms b.symbols).length,
      (localSyms b.symbols).length + (extSyms b.symbols).length, (undefSyms b.symbols).length,
      [0, 0, 0, 0, 0, 0, l.indoff, indCount o.secs, 0, 0, 0, 0]⟩)
  | .dylib i => (fetch b.dylibs i).bind (dylibBytes c)
  | .idDylib d => dylibBytes c d
  | .buildVersion p m s tools =>
    .ok (BuildVersion.encode c ⟨p, m, s, tools.length⟩ ++ tools.flatMap fun t => Obj.encode c.en [(4, t.1), (4, t.2)])
  | .linkedit cmd data =>
    (if cmd = 0x1d then .ok l.sig else fetch lk 0).bind fun off => .ok (Obj.encode c.en [(4, cmd), (4, 16), (4, off), (4, data.length)])
  | .dyldInfo x1 x2 x3 x4 x5 =>
    (partsOf [x1, x2, x3, x4, x5] lk).bind fun ps =>
      .ok (Obj.encode c.en ([(4, 0x80000022), (4, 48)] ++ ps.flatMap fun p => [(4, p.1), (4, p.2)]))
  | .other cmd data => .ok (Obj.encode c.en [(4, cmd), (4, 8 + data.length)] ++ data)

/-- The record of a relocation, src/build/macho.rs:1039-1057. -/
def relOf (b : Builder) (o : Order) (r : Rel) : Res RelInfo :=
  match r.target with
  | .symbol i => (symNum b o i).bind fun n => .ok ⟨r.address, n, r.pcrel, r.length, true, r.typ⟩
  | .section_ i => (secNum b o i).bind fun n => .ok ⟨r.address, n, r.pcrel, r.length, false, r.typ⟩

/-- A symbol, src/build/macho.rs:1086-1103; the number of the section is truncated to 8 bits. -/
def nlistOf (b : Builder) (o : Order) (t : StrTab) (y : Sym) (name : Option Nat) : Res Nlist :=
  (match y.sect with
    | some i => (secNum b o i).bind fun n => .ok (n % 256)
    | none => .ok y.nsect).bind fun sect =>
  (match name with
    | some id => t.getOffset id
    | none => .ok 0).bind fun strx => .ok ⟨strx, y.ntype, sect, y.desc, y.value⟩

/-- An indirect symbol, src/build/macho.rs:1110-1117. -/
def indOf (b : Builder) (o : Order) : Ind → Res Nat
  | .flags v => .ok v
  | .symbol i => symNum b o i

/-- The data of sections, src/build/macho.rs:1021-1027. -/
def putData (out : List UInt8) (x : Sec × Nat) : Res (List UInt8) :=
  match x.1.data with
  | .data d => put out x.2 d
  | .uninit _ => .ok out

/-- The relocations of a section, src/build/macho.rs:1030-1060. -/
def putRelocs (c : Cfg) (b : Builder) (o : Order) (out : List UInt8) (x : Sec × Nat) : Res (List UInt8) :=
  if x.1.relocs = [] then .ok out
  else (mapR (relOf b o) x.1.relocs).bind fun rs => put out x.2 (rs.flatMap (RelInfo.bytes c.en))

/-- The blobs of a command, src/build/macho.rs:1063-1089. -/
def putBlobs (out : List UInt8) (x : Cmd × List Nat) : Res (List UInt8) :=
  if (blobs x.1).length = x.2.length then foldR (fun out p => put out p.2 p.1) out ((blobs x.1).zip x.2) else .panic

/-- Writing, src/build/macho.rs:857-1116. -/
def emit (c : Cfg) (b : Builder) (o : Order) (l : Layout) : Res (List UInt8) :=
  (mapR (fun x : Cmd × List Nat => cmdBytes c b o l x.1 x.2) (b.commands.zip l.link)).bind fun ks =>
  let out := Mhdr.encode c ⟨b.cputype, b.cpusubtype, b.filetype, b.commands.length, l.sizeofcmds, b.flags⟩ ++ ks.flatten
  (foldR putData out (o.secs.zip l.offs)).bind fun out =>
  (foldR (putRelocs c b o) out (o.secs.zip l.rels)).bind fun out =>
  (foldR putBlobs out (b.commands.zip l.link)).bind fun out =>
  (mapR (fun x : Sym × Option Nat => nlistOf b o l.tab x.1 x.2) (o.syms.zip o.names)).bind fun ys =>
  (put out l.symoff (ys.flatMap (Nlist.encode c))).bind fun out =>
  (if l.indoff ≠ 0 then
    (mapR (indOf b o) (o.secs.flatMap (·.indirect))).bind fun vs => put out l.indoff (vs.flatMap fun v => wr c.en 4 v)
  else .ok out).bind fun out =>
  if out.length ≠ l.stroff then .panic
  else
    (foldR (fun out d => put out l.sig d) (out ++ l.strings) (b.commands.filterMap signature)).bind fun out =>
    if out.length ≠ l.len then .panic else .ok out

/-- `write`, src/build/macho.rs:460-1116, after `delete_orphans`. -/
def writeClean (b : Builder) : Res (List UInt8) :=
  (order b).bind fun o => (layout ⟨b.is64, b.endian⟩ b o).bind fun l => emit ⟨b.is64, b.endian⟩ b o l

/-- `write`, src/build/macho.rs:460-1116. -/
def write (b : Builder) : Res (List UInt8) := (deleteOrphans b).bind writeClean

end Obj.MachoB

import Verif.Model.BuildRead
import Verif.Model.ElfHash
import Verif.Model.ElfWriter

/-!
# The ELF builder: writing a file (src/build/elf.rs:731-1836)

The encoders are those of `Obj.Elf` and `Obj.Attr`.  A failed `debug_assert!`, an overflow, an index out of range and an `unwrap` of `None`
are `Res.panic`.  The output buffer is a byte vector (C10 covers the other buffers), and a sequence of `write_bytes` is modelled by the
bytes written.  Where the code holds the id of an item of the same table in a record of its own (`SectionOut::id`, `SymbolOut::id`,
`DynamicSymbolOut::id`, `VersionFileOut::versions`) and gets the item by that id, the model holds the item: the id of an item is its
position in its table (`Props/BuildTable.lean`).
-/

namespace Obj.BuildW

open Obj Obj.Build

/-- A loop over a list with a state. -/
def foldR {σ α : Type} (f : σ → α → Res σ) : σ → List α → Res σ
  | s, [] => .ok s
  | s, x :: xs => (f s x).bind fun s => foldR f s xs

/-- A loop over a list that collects results. -/
def mapR {α β : Type} (f : α → Res β) : List α → Res (List β)
  | [] => .ok []
  | x :: xs => (f x).bind fun y => (mapR f xs).bind fun ys => .ok (y :: ys)

/-- `v[i]`. -/
def look (v : List Nat) (i : Nat) : Res Nat :=
  match v[i]? with
  | some x => .ok x
  | none => .panic

/-- `v[id] = index` for each id, with `index` counting from 1 (src/build/elf.rs:887, 966-968, 1028-1030). -/
def indexVec : List Nat → Nat → List Nat → Res (List Nat)
  | v, _, [] => .ok v
  | v, i, id :: ids => if id < v.length then indexVec (v.set id i) (i + 1) ids else .panic

/-! ## Sections -/

/-- The indices of metadata sections (`shstrtab_index` etc., src/build/elf.rs:784-794) as a function of the kind of section; 0 means that
there is none. -/
abbrev Idx := SecData → Nat

/-- The kinds of metadata sections, src/build/elf.rs:800-873. -/
def isMeta : SecData → Bool
  | .sectionString | .symbol | .symbolSectionIndex | .string | .dynamicSymbol | .dynamicString
  | .hash | .gnuHash | .gnuVersym | .gnuVerdef | .gnuVerneed => true
  | _ => false

/-- One section in the loop, src/build/elf.rs:799-873: a second section of a kind is an error. -/
def addMeta (m : Idx) (index : Nat) (d : SecData) : Res Idx :=
  if isMeta d then (if m d ≠ 0 then .err else .ok fun k => if k = d then index else m k) else .ok m

/-- The name of a section or symbol is added to a string table unless it is empty, src/build/elf.rs:875-879, 1008-1012. -/
def addName (t : StrTab) (name : List UInt8) : Res (Option Nat × StrTab) :=
  if name = [] then .ok (none, t) else (ElfW.tabAdd t name).bind fun r => .ok (some r.1, r.2)

/-- The loop over the sections, src/build/elf.rs:798-888. -/
def sectionLoop : List Sec → Nat → Idx → StrTab → Res (Idx × List (Option Nat) × StrTab)
  | [], _, m, t => .ok (m, [], t)
  | s :: ss, i, m, t =>
    (addMeta m i s.data).bind fun m =>
    (addName t s.name).bind fun n =>
    (sectionLoop ss (i + 1) m n.2).bind fun r => .ok (r.1, n.1 :: r.2.1, r.2.2)

/-- Adding strings to a string table. -/
def addAll : StrTab → List (List UInt8) → Res StrTab := foldR fun t s => (ElfW.tabAdd t s).bind fun r => .ok r.2

/-- The strings of dynamic entries. -/
def dynString : Dyn → Option (List UInt8)
  | .string _ val => some val
  | _ => none

/-- The strings of all dynamic entries, src/build/elf.rs:891-900. -/
def dynStrings (ss : List Sec) : List (List UInt8) :=
  ss.flatMap fun s => match s.data with
    | .dynamic l => l.filterMap dynString
    | _ => []

/-! ## Symbols -/

/-- `st_bind() == STB_LOCAL`, src/build/elf.rs:2845-2847. -/
def isLocal (s : Sym) : Bool := s.info / 16 == 0

/-- Local symbols come before global ones, src/build/elf.rs:911-919 and 998-1006. -/
def ordered (t : List Sym) : List Sym := (iter t).filter isLocal ++ (iter t).filter fun s => !isLocal s

/-- `DynamicSymbolOut`, src/build/elf.rs:751-756. -/
structure DynOut where
  sym : Sym
  name : Option Nat
  hash : Option Nat
  gnu : Option Nat
  deriving DecidableEq, Repr

/-- One dynamic symbol, src/build/elf.rs:920-941. -/
def dynOut (m : Idx) (t : StrTab) (s : Sym) : Res (DynOut × StrTab) :=
  if s.name = [] then .ok (⟨s, none, none, none⟩, t)
  else (ElfW.tabAdd t s.name).bind fun r =>
    .ok (⟨s, some r.1, if m .hash ≠ 0 then some (Elf.sysvHash s.name) else none,
      if m .gnuHash ≠ 0 ∧ (s.section_.isSome = true ∨ s.shndx ≠ 0) then some (Elf.gnuHash s.name) else none⟩, r.2)

/-- The loop over the dynamic symbols, src/build/elf.rs:920-941. -/
def dynOuts (m : Idx) : StrTab → List Sym → Res (List DynOut × StrTab)
  | t, [] => .ok ([], t)
  | t, s :: ss => (dynOut m t s).bind fun r => (dynOuts m r.2 ss).bind fun rs => .ok (r.1 :: rs.1, rs.2)

/-- The sort key, src/build/elf.rs:954-957: `(0, 0)` and `(1, x)` are written as 0 and `1 + x`, which has the same order. -/
def gnuKey (buckets : Nat) (d : DynOut) : Nat :=
  match d.gnu with
  | none => 0
  | some h => 1 + h % buckets

/-- `out_dynsyms[num_local_dynamic..].sort_by_key(..)`, src/build/elf.rs:954-957: a stable sort. -/
def gnuSort (buckets n : Nat) (l : List DynOut) : List DynOut :=
  l.take n ++ (l.drop n).mergeSort fun a b => decide (gnuKey buckets a ≤ gnuKey buckets b)

/-- The order of the dynamic symbols and the number of those in the GNU hash table, src/build/elf.rs:942-963. -/
def gnuOrder (m : Idx) (buckets n : Nat) (l : List DynOut) : Res (List DynOut × Nat) :=
  if m .gnuHash = 0 then .ok (l, 0)
  else if buckets = 0 then .err
  else .ok (gnuSort buckets n l, (((gnuSort buckets n l).drop n).dropWhile fun d => d.gnu.isNone).length)

/-- The names of the symbols, src/build/elf.rs:1007-1022. -/
def addNames : StrTab → List (List UInt8) → Res (List (Option Nat) × StrTab)
  | t, [] => .ok ([], t)
  | t, n :: ns => (addName t n).bind fun r => (addNames r.2 ns).bind fun rs => .ok (r.1 :: rs.1, rs.2)

/-- A symbol needs an extended section index, src/build/elf.rs:1013-1017 (`SHN_LORESERVE = 0xff00`). -/
def needsShndx (secIdx : List Nat) (s : Sym) : Res Bool :=
  match s.section_ with
  | none => .ok false
  | some i => (look secIdx i).bind fun n => .ok (decide (0xff00 ≤ n))

/-! ## Versions -/

/-- `VersionDef::is_shared`, src/build/elf.rs:3132-3134. -/
def isShared (names : List (List UInt8)) (index : Nat) (base : Option (List UInt8)) : Bool :=
  decide (index = 1 ∧ names.length = 1 ∧ names.head? = base)

/-- The variables of the loop over the versions, src/build/elf.rs:1038-1043: counts, and for each file the versions needed from it, which
have index, name and flags. -/
structure VerOut where
  defs : Nat
  auxs : Nat
  shared : Bool
  vernauxs : Nat
  files : List (List (Nat × List UInt8 × Nat))
  tab : StrTab

/-- One version, src/build/elf.rs:1049-1068. -/
def verStep (base : Option (List UInt8)) (o : VerOut) (v : Ver) : Res VerOut :=
  match v.data with
  | .def_ names _ =>
    if isShared names o.defs base then .ok { o with shared := true, defs := o.defs + 1 }
    else (addAll o.tab names).bind fun t => .ok { o with auxs := o.auxs + names.length, tab := t, defs := o.defs + 1 }
  | .need file name flags =>
    (ElfW.tabAdd o.tab name).bind fun t =>
    match o.files[file]? with
    | none => .panic
    | some l => .ok { o with vernauxs := o.vernauxs + 1, tab := t.2, files := o.files.set file (l ++ [(v.id + 2, name, flags)]) }

/-- The base version, src/build/elf.rs:1044-1048. -/
def verBase (files : Nat) (base : Option (List UInt8)) (t : StrTab) : Res VerOut :=
  match base with
  | none => .ok ⟨0, 0, false, 0, List.replicate files [], t⟩
  | some n => (ElfW.tabAdd t n).bind fun r => .ok ⟨1, 1, false, 0, List.replicate files [], r.2⟩

/-- The versions and their strings, src/build/elf.rs:1032-1072 (`VERSYM_VERSION = 0x7fff`, `VERSION_ID_BASE = 2`).  The count of
versions does not overflow because of the limit; that of files (`verneed_count: u16`) may. -/
def versions (b : Full) (t : StrTab) : Res VerOut :=
  if 2 + b.tables.versions.length - 1 > 0x7fff then .err
  else
    (verBase b.tables.versionFiles.length b.versionBase t).bind fun o =>
    (foldR (verStep b.versionBase) o (iter b.tables.versions)).bind fun o =>
    (addAll o.tab ((iter b.tables.versionFiles).map (·.name))).bind fun t =>
    if U16 ≤ (iter b.tables.versionFiles).length then .panic else .ok { o with tab := t }

/-! ## Attributes -/

/-- `AttributeScope::tag`, src/build/elf.rs:3227-3233. -/
def scopeTag : AttrScope → UInt8
  | .file => 1
  | .sections _ => 2
  | .symbols _ => 3

/-- One index of a scope, src/build/elf.rs:1092-1095 and 1101-1104: references to deleted items are dropped. -/
def writeIndex (idx : List Nat) (w : Attr.Writer) (id : Nat) : Res Attr.Writer :=
  (look idx id).bind fun i => if i ≠ 0 then w.index i else .ok w

/-- The indices of a scope, src/build/elf.rs:1088-1108. -/
def writeScope (secIdx symIdx : List Nat) (w : Attr.Writer) : AttrScope → Res Attr.Writer
  | .file => .ok w
  | .sections l => (foldR (writeIndex secIdx) w l).bind fun w => w.index 0
  | .symbols l => (foldR (writeIndex symIdx) w l).bind fun w => w.index 0

/-- One sub-subsection, src/build/elf.rs:1086-1111. -/
def writeSubSub (secIdx symIdx : List Nat) (w : Attr.Writer) (x : AttrSubSub) : Res Attr.Writer :=
  (w.startSubsubsection (scopeTag x.scope)).bind fun w =>
  (writeScope secIdx symIdx w x.scope).bind fun w =>
  (w.attributes x.data).bind fun w => w.endSubsubsection

/-- One subsection, src/build/elf.rs:1084-1113. -/
def writeSub (secIdx symIdx : List Nat) (w : Attr.Writer) (s : AttrSub) : Res Attr.Writer :=
  (w.startSubsection s.vendor).bind fun w =>
  (foldR (writeSubSub secIdx symIdx) w s.subs).bind fun w => w.endSubsection

/-- The data of an attributes section, src/build/elf.rs:1074-1115; other sections have no such data. -/
def attributesOf (en : Endianness) (secIdx symIdx : List Nat) (s : Sec) : Res (List UInt8) :=
  match s.data with
  | .attributes l =>
    if l = [] then .ok []
    else (foldR (writeSub secIdx symIdx) (Attr.Writer.new en) l).bind fun w => w.finish
  | _ => .ok []

/-! ## What is known before the layout -/

/-- A string table after `Encoder::strtab`: its length, the table and the data. -/
structure TabOut where
  len : Nat
  tab : StrTab
  data : List UInt8

/-- `Encoder::strtab` (src/write/elf/encoder.rs:892-899) for src/build/elf.rs:1152-1158. -/
def tabOut (t : StrTab) : Res TabOut := (ElfW.encStrtab t).bind fun r => .ok ⟨r.1, r.2.1, r.2.2⟩

/-- The variables of `Builder::write` before the layout. -/
structure Plan where
  cfg : Elf.Cfg
  mips : Bool
  /-- `section_num` -/
  secNum : Nat
  /-- `out_sections`, with `names` and `attrs` -/
  secs : List Sec
  names : List (Option Nat)
  attrs : List (List UInt8)
  idx : Idx
  secIdx : List Nat
  dynNum : Nat
  dyns : List DynOut
  numLocalDyn : Nat
  gnuCount : Nat
  dynIdx : List Nat
  symNum : Nat
  syms : List Sym
  symNames : List (Option Nat)
  numLocal : Nat
  symIdx : List Nat
  needShndx : Bool
  ver : VerOut
  /-- `verneed_count` -/
  verneeds : Nat
  shstrtab : TabOut
  strtab : TabOut
  dynstr : TabOut

/-- `section_num`, `dynsym_num` and `sym_num`, src/build/elf.rs:778-783, 903-909, 989-994. -/
def countOf (absent : Bool) (count : Nat) : Res Nat := if absent then .ok 0 else if U32 ≤ 1 + count then .err else .ok (1 + count)

/-- The order of the dynamic symbols, src/build/elf.rs:902-968: symbols, number of local ones, number in the GNU hash table, indices, and
string table. -/
def planDyns (b : Full) (m : Idx) (t : StrTab) : Res (Nat × List DynOut × Nat × Nat × List Nat × StrTab) :=
  (countOf (m .dynamicSymbol = 0 ∧ Build.isEmpty b.tables.dynamicSymbols = true) (Build.count b.tables.dynamicSymbols)).bind fun num =>
  (dynOuts m t (ordered b.tables.dynamicSymbols)).bind fun r =>
  let n := (r.1.takeWhile fun d => isLocal d.sym).length
  (gnuOrder m b.gnuBuckets n r.1).bind fun g =>
  (indexVec (List.replicate b.tables.dynamicSymbols.length 0) 1 (g.1.map (·.sym.id))).bind fun v =>
  .ok (num, g.1, n, g.2, v, r.2)

/-- The order of the symbols, src/build/elf.rs:988-1030: symbols, names, `need_symtab_shndx`, number of local ones, indices, and string
table. -/
def planSyms (b : Full) (m : Idx) (secIdx : List Nat) : Res (Nat × List Sym × List (Option Nat) × Bool × Nat × List Nat × StrTab) :=
  (countOf (m .symbol = 0 ∧ Build.isEmpty b.tables.symbols = true) (Build.count b.tables.symbols)).bind fun num =>
  (addNames StrTab.new ((ordered b.tables.symbols).map (·.name))).bind fun r =>
  (mapR (needsShndx secIdx) (ordered b.tables.symbols)).bind fun large =>
  (indexVec (List.replicate b.tables.symbols.length 0) 1 ((ordered b.tables.symbols).map (·.id))).bind fun v =>
  .ok (num, ordered b.tables.symbols, r.1, decide (m .symbolSectionIndex ≠ 0) || large.any id,
    ((ordered b.tables.symbols).takeWhile isLocal).length, v, r.2)

/-- The checks that a section is present if it is needed, src/build/elf.rs:1117-1147. -/
def missing (m : Idx) (secNum symNum dynNum defs needs : Nat) (needShndx : Bool) (strtab dynstr : StrTab) : Bool :=
  decide (m .sectionString = 0 ∧ secNum ≠ 0) || decide (m .symbol = 0 ∧ symNum ≠ 0) ||
  decide (m .symbolSectionIndex = 0 ∧ needShndx = true) || decide (m .string = 0 ∧ strtab.strings ≠ []) ||
  decide (m .dynamicSymbol = 0 ∧ dynNum ≠ 0) || decide (m .dynamicString = 0 ∧ dynstr.strings ≠ []) ||
  decide (m .gnuVerdef = 0 ∧ defs ≠ 0) || decide (m .gnuVerneed = 0 ∧ needs ≠ 0)

/-- Everything before the layout, src/build/elf.rs:777-1158, for a builder after `delete_orphans` and `delete_unused_versions`. -/
def plan (b : Full) : Res Plan :=
  let c : Elf.Cfg := ⟨b.is64, b.endian⟩
  let secs := iter b.tables.sections
  (countOf (Build.isEmpty b.tables.sections) (Build.count b.tables.sections)).bind fun secNum =>
  (sectionLoop secs 1 (fun _ => 0) StrTab.new).bind fun s =>
  (indexVec (List.replicate b.tables.sections.length 0) 1 (secs.map (·.id))).bind fun secIdx =>
  (addAll StrTab.new (dynStrings secs)).bind fun dynstr =>
  (planDyns b s.1 dynstr).bind fun d =>
  (planSyms b s.1 secIdx).bind fun y =>
  (versions b d.2.2.2.2.2).bind fun ver =>
  let verneeds := (iter b.tables.versionFiles).length
  (mapR (attributesOf b.endian secIdx y.2.2.2.2.2.1) secs).bind fun attrs =>
  if missing s.1 secNum y.1 d.1 ver.defs verneeds y.2.2.2.1 y.2.2.2.2.2.2 ver.tab then .err
  else
    (tabOut s.2.2).bind fun shstrtab =>
    (tabOut y.2.2.2.2.2.2).bind fun strtab =>
    (tabOut ver.tab).bind fun dynstr =>
    .ok { cfg := c, mips := Elf.isMips64el c b.header.eMachine, secNum := secNum, secs := secs, names := s.2.1, attrs := attrs, idx := s.1,
          secIdx := secIdx, dynNum := d.1, dyns := d.2.1, numLocalDyn := d.2.2.1, gnuCount := d.2.2.2.1, dynIdx := d.2.2.2.2.1,
          symNum := y.1, syms := y.2.1, symNames := y.2.2.1, needShndx := y.2.2.2.1, numLocal := y.2.2.2.2.1, symIdx := y.2.2.2.2.2.1,
          ver := ver, verneeds := verneeds, shstrtab := shstrtab, strtab := strtab, dynstr := dynstr }

/-! ## Layout -/

/-- `Offset::reserve`, src/build/elf.rs:765-770: the range and the new offset. -/
def reserve (offset size align : Nat) : Res ((Nat × Nat) × Nat) :=
  (align64 offset align).bind fun o => (add64 o size).bind fun e => .ok ((o, size), e)

/-- `Section::is_alloc`, src/build/elf.rs:2652-2654 (`SHF_ALLOC = 2`). -/
def isAlloc (s : Sec) : Bool := decide (s.shFlags &&& 2 ≠ 0)

/-- Size and alignment of an alloc section, src/build/elf.rs:1229-1289.  Sizes do not overflow in memory; an overflow would make `reserve`
panic as well. -/
def allocSize (b : Full) (p : Plan) (s : Sec) : Res (Nat × Nat) :=
  match s.data with
  | .data d => .ok (d.length, s.addralign)
  | .dynRelocs l => .ok (l.length * p.cfg.relSize (s.shType == 4), p.cfg.w)
  | .note d => .ok (d.length, s.addralign)
  | .dynamic l => .ok ((1 + l.length) * (2 * p.cfg.w), p.cfg.w)
  | .dynamicSymbol => .ok (p.dynNum * p.cfg.symSize, p.cfg.w)
  | .dynamicString => .ok (p.dynstr.len, 1)
  | .hash => .ok (8 + b.hashBuckets * 4 + p.dynNum * 4, 4)
  | .gnuHash => .ok (16 + b.bloomCount * p.cfg.w + b.gnuBuckets * 4 + p.gnuCount * 4, p.cfg.w)
  | .gnuVersym => .ok (p.dynNum * 2, 2)
  | .gnuVerdef => .ok (p.ver.defs * 20 + p.ver.auxs * 8, 4)
  | .gnuVerneed => .ok (p.verneeds * 16 + p.ver.vernauxs * 16, 4)
  | _ => .err

/-- The order in which alloc sections are laid out, with their positions in `out_sections`, src/build/elf.rs:1189-1207: a stable sort by
offset and size. -/
def allocOrder (secs : List Sec) : List (Sec × Nat) :=
  (secs.zipIdx.filter fun x => isAlloc x.1).mergeSort fun a b =>
    decide (a.1.shOffset < b.1.shOffset ∨ a.1.shOffset = b.1.shOffset ∧ a.1.shSize ≤ b.1.shSize)

/-- The file ranges of `out_sections`, the offset, and the addresses (`dynsym_addr` etc.) by the kind of section. -/
structure Lay where
  ranges : List (Nat × Nat)
  offset : Nat
  addr : SecData → Option Nat

/-- Setting the range of the section at a position. -/
def Lay.set (l : Lay) (i : Nat) (r : (Nat × Nat) × Nat) : Lay := { l with ranges := l.ranges.set i r.1, offset := r.2 }

/-- The address of a metadata section, src/build/elf.rs:1245-1282. -/
def Lay.setAddr (l : Lay) (s : Sec) : Lay :=
  if isMeta s.data then { l with addr := fun k => if k = s.data then some s.shAddr else l.addr k } else l

/-- One alloc section, src/build/elf.rs:1208-1296. -/
def allocStep (b : Full) (p : Plan) (l : Lay) (x : Sec × Nat) : Res Lay :=
  match x.1.data with
  | .uninit len => .ok { l with ranges := l.ranges.set x.2 (x.1.shOffset, len) }
  | _ =>
    if x.1.shOffset < l.offset then .err
    else
      (allocSize b p x.1).bind fun sa =>
      (reserve x.1.shOffset sa.1 sa.2).bind fun r =>
      if r.1.1 ≠ x.1.shOffset then .err else .ok ((l.setAddr x.1).set x.2 r)

/-- A section is laid out as an alloc section, src/build/elf.rs:1187-1194, 1302 (and 1346, 1654, 1727). -/
def keepsOffset (b : Full) (s : Sec) : Bool := !Build.isEmpty b.tables.segments && isAlloc s

/-- One non-alloc section, src/build/elf.rs:1300-1327, with its attributes. -/
def otherStep (b : Full) (l : Lay) (x : (Sec × List UInt8) × Nat) : Res Lay :=
  if keepsOffset b x.1.1 then .ok l
  else match x.1.1.data with
    | .data d => (reserve l.offset d.length x.1.1.addralign).bind fun r => .ok (l.set x.2 r)
    | .uninit len => .ok { l with ranges := l.ranges.set x.2 (l.offset, len) }
    | .note d => (reserve l.offset d.length x.1.1.addralign).bind fun r => .ok (l.set x.2 r)
    | .attributes _ => (reserve l.offset x.1.2.length x.1.1.addralign).bind fun r => .ok (l.set x.2 r)
    | .relocs _ | .sectionString | .symbol | .symbolSectionIndex | .string => .ok l
    | _ => .err

/-- Reserving a metadata section if it exists, src/build/elf.rs:1329-1341, 1357-1360. -/
def metaStep (p : Plan) (k : SecData) (size align : Nat) (l : Lay) : Res Lay :=
  if p.idx k = 0 then .ok l
  else (reserve l.offset size align).bind fun r => .ok (l.set (p.idx k - 1) r)

/-- Reserving the relocations of one section, src/build/elf.rs:1344-1355. -/
def relocStep (b : Full) (p : Plan) (l : Lay) (x : Sec × Nat) : Res Lay :=
  if keepsOffset b x.1 then .ok l
  else match x.1.data with
    | .relocs rs => (reserve l.offset (rs.length * p.cfg.relSize (x.1.shType == 4)) p.cfg.w).bind fun r => .ok (l.set x.2 r)
    | _ => .ok l

/-- The program headers, src/build/elf.rs:1171-1184: the number of segments, `e_phoff` and the offset after them. -/
def segmentsAt (b : Full) (c : Elf.Cfg) : Res (Nat × Nat × Nat) :=
  let n := Build.count b.tables.segments
  if U32 ≤ n then .err
  else if n = 0 then .ok (0, 0, c.ehdrSize)
  else (reserve c.ehdrSize (n * c.phdrSize) c.w).bind fun r =>
    if b.header.ePhoff ≠ r.1.1 then .err else .ok (n, r.1.1, r.2)

/-- The section headers, src/build/elf.rs:1361-1366: `e_shoff` and the length. -/
def headersAt (p : Plan) (offset : Nat) : Res (Nat × Nat) :=
  if p.secNum = 0 then .ok (0, offset)
  else (reserve offset (p.secNum * p.cfg.shdrSize) p.cfg.w).bind fun r => .ok (r.1.1, r.2)

/-- The layout: number of segments, `e_phoff`, ranges, `e_shoff`, `reserved_len`. -/
structure Layout where
  segNum : Nat
  phoff : Nat
  lay : Lay
  shoff : Nat
  len : Nat

/-- The layout, src/build/elf.rs:1160-1374. -/
def layout (b : Full) (p : Plan) : Res Layout :=
  (segmentsAt b p.cfg).bind fun g =>
  let l : Lay := ⟨List.replicate p.secs.length (0, 0), g.2.2, fun _ => none⟩
  (if Build.isEmpty b.tables.segments then .ok l else foldR (allocStep b p) l (allocOrder p.secs)).bind fun l =>
  (foldR (otherStep b) l (p.secs.zip p.attrs).zipIdx).bind fun l =>
  (metaStep p .symbol (p.symNum * p.cfg.symSize) p.cfg.w l).bind fun l =>
  (metaStep p .symbolSectionIndex (p.symNum * 4) 4 l).bind fun l =>
  (metaStep p .string p.strtab.len 1 l).bind fun l =>
  (foldR (relocStep b p) l p.secs.zipIdx).bind fun l =>
  (metaStep p .sectionString p.shstrtab.len 1 l).bind fun l =>
  (headersAt p l.offset).bind fun h =>
  if p.cfg.is64 = false ∧ U32 ≤ h.2 then .err else .ok ⟨g.1, g.2.1, l, h.1, h.2⟩

/-! ## Contents of sections -/

/-- A relocation with the index of its symbol, src/build/elf.rs:1434-1448 and 1735-1746. -/
def relOut (idx : List Nat) (r : Rel) : Res Elf.Rel :=
  match r.symbol with
  | none => .ok ⟨r.offset, 0, r.typ, r.addend⟩
  | some i => (look idx i).bind fun n => .ok ⟨r.offset, n, r.typ, r.addend⟩

/-- The data of a relocation section. -/
def relBytes (p : Plan) (idx : List Nat) (s : Sec) (l : List Rel) : Res (List UInt8) :=
  (mapR (relOut idx) l).bind fun rs => .ok (rs.flatMap (Elf.writeRel p.cfg p.mips (s.shType == 4)))

/-- `dynstr.get_offset(dynstr.get_id(..))`. -/
def strOffset (t : StrTab) (s : List UInt8) : Res Nat := (t.getId s).bind t.getOffset

/-- `dynsym_addr.ok_or(..)` etc. -/
def need : Option Nat → Res Nat
  | some a => .ok a
  | none => .err

/-- The generated value of a dynamic entry, src/build/elf.rs:1459-1490. -/
def autoVal (p : Plan) (addr : SecData → Option Nat) (tag : Int) : Res Nat :=
  if tag = 6 then need (addr .dynamicSymbol)
  else if tag = 5 then need (addr .dynamicString)
  else if tag = 10 then .ok p.dynstr.len
  else if tag = 4 then need (addr .hash)
  else if tag = 0x6ffffef5 then need (addr .gnuHash)
  else if tag = 0x6ffffff0 then need (addr .gnuVersym)
  else if tag = 0x6ffffffc then need (addr .gnuVerdef)
  else if tag = 0x6ffffffd then .ok p.ver.defs
  else if tag = 0x6ffffffe then need (addr .gnuVerneed)
  else if tag = 0x6fffffff then .ok p.verneeds
  else .err

/-- One dynamic entry, src/build/elf.rs:1455-1501. -/
def dynEntry (p : Plan) (addr : SecData → Option Nat) : Dyn → Res (List UInt8)
  | .auto tag => (autoVal p addr tag).bind fun val => Elf.writeDyn p.cfg ⟨tag, val⟩
  | .integer tag val => Elf.writeDyn p.cfg ⟨tag, val⟩
  | .string tag val => (strOffset p.dynstr.tab val).bind fun o => Elf.writeDyn p.cfg ⟨tag, o⟩

/-- The dynamic entries, ended by `DT_NULL`, src/build/elf.rs:1454-1503. -/
def dynBytes (p : Plan) (addr : SecData → Option Nat) (l : List Dyn) : Res (List UInt8) :=
  (mapR (dynEntry p addr) l).bind fun bs => (Elf.writeDyn p.cfg ⟨0, 0⟩).bind fun z => .ok (bs.flatten ++ z)

/-- A symbol with the index of its section and the offset of its name, src/build/elf.rs:1507-1519 and 1698-1707. -/
def symOut (secIdx : List Nat) (t : StrTab) (s : Sym) (name : Option Nat) : Res Elf.WSym :=
  (match s.section_ with
   | none => .ok none
   | some i => (look secIdx i).bind fun n => .ok (some n) : Res (Option Nat)).bind fun sec =>
  (ElfW.nameOffset t name).bind fun o => .ok ⟨o, s.info, s.other, s.shndx, s.value, s.size, sec⟩

/-- The dynamic symbols, src/build/elf.rs:1504-1522: the extended indices are ignored. -/
def dynsymBytes (p : Plan) : Res (List UInt8) :=
  (mapR (fun d => symOut p.secIdx p.dynstr.tab d.sym d.name) p.dyns).bind fun ss => .ok (Elf.symtabBytes p.cfg ss)

/-- The hash table, src/build/elf.rs:1526-1540: symbol 0 has no hash. -/
def hashBytes (b : Full) (p : Plan) : Res (List UInt8) :=
  if b.hashBuckets = 0 then .err
  else Elf.hashTable p.cfg.en b.hashBuckets p.dynNum fun i => if i = 0 then none else (p.dyns[i - 1]?).bind (·.hash)

/-- `gnu_hash_index_base`, src/build/elf.rs:975-979. -/
def gnuBase (p : Plan) : Nat := if p.gnuCount = 0 then 0 else p.dynNum - 1 - p.gnuCount

/-- `.gnu_hash.unwrap()`, src/build/elf.rs:1546-1548. -/
def gnuHashOf (d : DynOut) : Res Nat :=
  match d.gnu with
  | some h => .ok h
  | none => .panic

/-- The GNU hash table, src/build/elf.rs:1541-1550 with 980-986: the closure is called for all symbols in the table. -/
def gnuHashBytes (b : Full) (p : Plan) : Res (List UInt8) :=
  if b.gnuBuckets = 0 then .err
  else if p.dyns.length < gnuBase p + p.gnuCount then .panic
  else
    (mapR gnuHashOf ((p.dyns.drop (gnuBase p)).take p.gnuCount)).bind fun hs =>
    Elf.gnuHashTable p.cfg ⟨b.gnuBuckets, b.bloomCount, b.bloomShift, gnuBase p + 1, p.gnuCount⟩ fun i => hs.getD i 0

/-- `VersionId::index` and `VersionIndex::versym`, src/build/elf.rs:3076-3078 and src/elf.rs:2508-2514. -/
def versymOf (s : Sym) : Nat := if s.versionHidden then s.version % 65536 ||| 0x8000 else s.version % 65536

/-- The versions of the dynamic symbols, src/build/elf.rs:1551-1558 (`VER_NDX_LOCAL = 0`). -/
def versymBytes (p : Plan) : List UInt8 := wr p.cfg.en 2 0 ++ p.dyns.flatMap fun d => wr p.cfg.en 2 (versymOf d.sym)

/-- One version definition, src/build/elf.rs:1577-1605 (`VER_DEF_CURRENT = 1`). -/
def defOut (t : StrTab) (v : Ver) : Res (Option Elf.WVerdef) :=
  match v.data with
  | .need _ _ _ => .ok none
  | .def_ names flags =>
    if U16 ≤ names.length then .err
    else match names with
      | [] => .err
      | n :: rest =>
        (strOffset t n).bind fun o => (mapR (strOffset t) rest).bind fun os =>
        .ok (some ⟨1, flags, (v.id + 2) % 65536, Elf.sysvHash n, o, os, false⟩)

/-- The definitions, src/build/elf.rs:1577-1606: `count` is the number of definitions after this one, and `aux_count` the number of names
after this one. -/
def defsBytes (en : Endianness) : List Elf.WVerdef → List UInt8
  | [] => []
  | v :: vs => Elf.encVerdef en (vs.length != 0) v ++ Elf.writeVerdauxs en v.rest.length v.rest ++ defsBytes en vs

/-- The base version, src/build/elf.rs:1561-1576 (`VER_FLG_BASE = 1`, `VER_NDX_GLOBAL = 1`); `more` is `count != 0`. -/
def baseBytes (en : Endianness) (t : StrTab) (shared more : Bool) : Option (List UInt8) → Res (List UInt8)
  | none => .ok []
  | some n => (strOffset t n).bind fun o =>
    let v : Elf.WVerdef := ⟨1, 1, 1, Elf.sysvHash n, o, [], false⟩
    .ok (if shared then Elf.encVerdefShared en v else Elf.encVerdef en more v)

/-- The version definitions, src/build/elf.rs:1559-1607. -/
def verdefBytes (b : Full) (p : Plan) : Res (List UInt8) :=
  (baseBytes p.cfg.en p.dynstr.tab p.ver.shared (decide (p.ver.defs - 1 ≠ 0)) b.versionBase).bind fun base =>
  (mapR (defOut p.dynstr.tab) (iter b.tables.versions)).bind fun ds => .ok (base ++ defsBytes p.cfg.en (ds.filterMap id))

/-- One needed version, src/build/elf.rs:1626-1637. -/
def needOut (t : StrTab) (x : Nat × List UInt8 × Nat) : Res Elf.WVernaux :=
  (strOffset t x.2.1).bind fun o => .ok ⟨x.2.2, x.1 % 65536, o, Elf.sysvHash x.2.1⟩

/-- One needed file, src/build/elf.rs:1611-1638 (`VER_NEED_CURRENT = 1`). -/
def fileOut (p : Plan) (f : VerFile) : Res Elf.WVerneed :=
  match p.ver.files[f.id]? with
  | none => .panic
  | some l =>
    if U16 ≤ l.length then .err
    else (strOffset p.dynstr.tab f.name).bind fun o => (mapR (needOut p.dynstr.tab) l).bind fun as => .ok ⟨1, o, as⟩

/-- The needed versions, src/build/elf.rs:1608-1640. -/
def verneedBytes (b : Full) (p : Plan) : Res (List UInt8) :=
  (mapR (fileOut p) (iter b.tables.versionFiles)).bind fun fs => .ok (Elf.verneedBytes p.cfg.en fs)

/-- The data of an alloc section, src/build/elf.rs:1428-1647. -/
def allocBytes (b : Full) (p : Plan) (addr : SecData → Option Nat) (s : Sec) : Res (List UInt8) :=
  match s.data with
  | .data d => .ok d
  | .dynRelocs l => relBytes p p.dynIdx s l
  | .note d => .ok d
  | .dynamic l => dynBytes p addr l
  | .dynamicSymbol => dynsymBytes p
  | .dynamicString => .ok p.dynstr.data
  | .hash => hashBytes b p
  | .gnuHash => gnuHashBytes b p
  | .gnuVersym => .ok (versymBytes p)
  | .gnuVerdef => verdefBytes b p
  | .gnuVerneed => verneedBytes b p
  | _ => .err

/-! ## Writing -/

/-- `CountingBuffer::resize` (src/write/util.rs:144-147) and writing bytes. -/
def put (out : List UInt8) (offset : Nat) (b : List UInt8) : Res (List UInt8) :=
  if offset < out.length then .panic else .ok (out ++ List.replicate (offset - out.length) 0 ++ b)

/-- The program headers, src/build/elf.rs:1398-1415. -/
def putSegments (b : Full) (p : Plan) (l : Layout) (out : List UInt8) : Res (List UInt8) :=
  if Build.isEmpty b.tables.segments then .ok out
  else put out l.phoff ((iter b.tables.segments).flatMap fun g =>
    Elf.Phdr.encode p.cfg ⟨g.pType, g.pFlags, g.pOffset, g.pVaddr, g.pPaddr, g.pFilesz, g.pMemsz, g.pAlign⟩)

/-- The offset of the section at a position. -/
def Lay.at (l : Lay) (i : Nat) : Nat × Nat := l.ranges.getD i (0, 0)

/-- One alloc section, src/build/elf.rs:1419-1648 (`SHT_NOBITS = 8`). -/
def putAlloc (b : Full) (p : Plan) (l : Lay) (out : List UInt8) (x : Sec × Nat) : Res (List UInt8) :=
  if x.1.shType = 8 then .ok out
  else if (l.at x.2).1 < out.length then .panic
  else (allocBytes b p l.addr x.1).bind fun d => put out (l.at x.2).1 d

/-- One non-alloc section, src/build/elf.rs:1652-1686. -/
def putOther (b : Full) (l : Lay) (out : List UInt8) (x : (Sec × List UInt8) × Nat) : Res (List UInt8) :=
  if keepsOffset b x.1.1 then .ok out
  else match x.1.1.data with
    | .data d => put out (l.at x.2).1 d
    | .uninit _ => .ok out
    | .note d => put out (l.at x.2).1 d
    | .attributes _ => put out (l.at x.2).1 x.1.2
    | .relocs _ | .sectionString | .symbol | .symbolSectionIndex | .string => .ok out
    | _ => .err

/-- The symbols, src/build/elf.rs:1688-1712: the buffer, and the extended indices. -/
def putSymbols (p : Plan) (l : Lay) (out : List UInt8) : Res (List UInt8 × List UInt8) :=
  (mapR (fun x : Sym × Option Nat => symOut p.secIdx p.strtab.tab x.1 x.2) (p.syms.zip p.symNames)).bind fun ss =>
  let bytes := ss.flatMap fun s => (Elf.writeSymbol p.cfg s).1
  let more := ss.flatMap fun s => wr p.cfg.en 4 ((Elf.writeSymbol p.cfg s).2.getD 0)
  if p.idx .symbol = 0 then .ok (out ++ bytes, if p.needShndx then more else [])
  else (put out (l.at (p.idx .symbol - 1)).1 (Elf.Sym.encode p.cfg ⟨0, 0, 0, 0, 0, 0⟩ ++ bytes)).bind fun out =>
    .ok (out, if p.needShndx then wr p.cfg.en 4 0 ++ more else [])

/-- Writing a metadata section if it exists, src/build/elf.rs:1713-1722 and 1750-1754. -/
def putMeta (p : Plan) (l : Lay) (k : SecData) (d out : List UInt8) : Res (List UInt8) :=
  if p.idx k = 0 then .ok out else put out (l.at (p.idx k - 1)).1 d

/-- The relocations of one section, src/build/elf.rs:1725-1748. -/
def putReloc (b : Full) (p : Plan) (l : Lay) (out : List UInt8) (x : Sec × Nat) : Res (List UInt8) :=
  if keepsOffset b x.1 then .ok out
  else match x.1.data with
    | .relocs rs =>
      if (l.at x.2).1 < out.length then .panic
      else (relBytes p p.symIdx x.1 rs).bind fun d => put out (l.at x.2).1 d
    | _ => .ok out

/-- A link to a section that must not be deleted, src/build/elf.rs:1770-1795. -/
def linkOut (secIdx : List Nat) (none_ : Nat) : Option Nat → Res Nat
  | none => .ok none_
  | some id => (look secIdx id).bind fun i => if i = 0 then .err else .ok i

/-- The header of a section apart from name, address, offset and size, src/build/elf.rs:1762-1825 with
src/write/elf/encoder.rs:681-837. -/
def headerOf (p : Plan) (s : Sec) : Res Elf.Shdr :=
  match s.data with
  | .data _ | .uninit _ | .relocs _ | .dynRelocs _ | .note _ | .dynamic _ | .attributes _ =>
    (linkOut p.secIdx 0 s.linkSection).bind fun link =>
    (linkOut p.secIdx s.shInfo s.infoSection).bind fun info =>
    .ok ⟨0, s.shType, s.shFlags, 0, 0, 0, link, info, s.addralign, s.entsize⟩
  | .sectionString => .ok ⟨0, 3, 0, 0, 0, 0, 0, 0, 1, 0⟩
  | .symbol => .ok ⟨0, 2, 0, 0, 0, 0, p.idx .string, 1 + p.numLocal, p.cfg.w, p.cfg.symSize⟩
  | .symbolSectionIndex => .ok ⟨0, 18, 0, 0, 0, 0, p.idx .symbol, 0, 4, 4⟩
  | .string => .ok ⟨0, 3, 0, 0, 0, 0, 0, 0, 1, 0⟩
  | .dynamicString => .ok ⟨0, 3, 2, 0, 0, 0, 0, 0, 1, 0⟩
  | .dynamicSymbol => .ok ⟨0, 11, 2, 0, 0, 0, p.idx .dynamicString, 1 + p.numLocalDyn, p.cfg.w, p.cfg.symSize⟩
  | .hash => .ok ⟨0, 5, 2, 0, 0, 0, p.idx .dynamicSymbol, 0, 4, 4⟩
  | .gnuHash => .ok ⟨0, 0x6ffffff6, 2, 0, 0, 0, p.idx .dynamicSymbol, 0, p.cfg.w, if p.cfg.is64 then 0 else 4⟩
  | .gnuVersym => .ok ⟨0, 0x6fffffff, 2, 0, 0, 0, p.idx .dynamicSymbol, 0, 2, 2⟩
  | .gnuVerdef => .ok ⟨0, 0x6ffffffd, 2, 0, 0, 0, p.idx .dynamicString, p.ver.defs, 4, 0⟩
  | .gnuVerneed => .ok ⟨0, 0x6ffffffe, 2, 0, 0, 0, p.idx .dynamicString, p.verneeds, 4, 0⟩

/-- The header of a section, src/build/elf.rs:1760-1833. -/
def sectionHeader (p : Plan) (l : Lay) (x : (Sec × Option Nat) × Nat) : Res Elf.Shdr :=
  (headerOf p x.1.1).bind fun h =>
  (ElfW.nameOffset p.shstrtab.tab x.1.2).bind fun name =>
  .ok { h with name := name, offset := (l.at x.2).1, size := (l.at x.2).2, addr := if h.flags &&& 2 ≠ 0 then x.1.1.shAddr else 0 }

/-- The section headers, src/build/elf.rs:1756-1833. -/
def putHeaders (p : Plan) (l : Layout) (lay : Elf.Layout) (out : List UInt8) : Res (List UInt8) :=
  (if l.shoff ≠ 0 then put out l.shoff (Elf.nullSectionHeader p.cfg lay) else .ok out).bind fun out =>
  (mapR (sectionHeader p l.lay) (p.secs.zip p.names).zipIdx).bind fun hs => .ok (out ++ hs.flatMap (Elf.Shdr.encode p.cfg))

/-- `FileHeaderLayout`, src/build/elf.rs:1389-1395. -/
def fileLayout (p : Plan) (l : Layout) : Elf.Layout := ⟨l.phoff, l.segNum, l.shoff, p.secNum, p.idx .sectionString⟩

/-- Writing the file, src/build/elf.rs:1380-1835. -/
def emit (b : Full) (p : Plan) (l : Layout) : Res (List UInt8) :=
  (Elf.fileHeader p.cfg ⟨b.header.osAbi, b.header.abiVersion, b.header.eType, b.header.eMachine, b.header.eEntry, b.header.eFlags⟩
    (fileLayout p l)).bind fun out =>
  (putSegments b p l out).bind fun out =>
  (if Build.isEmpty b.tables.segments then .ok out else foldR (putAlloc b p l.lay) out (allocOrder p.secs)).bind fun out =>
  (foldR (putOther b l.lay) out (p.secs.zip p.attrs).zipIdx).bind fun out =>
  (putSymbols p l.lay out).bind fun r =>
  (putMeta p l.lay .symbolSectionIndex r.2 r.1).bind fun out =>
  (putMeta p l.lay .string p.strtab.data out).bind fun out =>
  (foldR (putReloc b p l.lay) out p.secs.zipIdx).bind fun out =>
  (putMeta p l.lay .sectionString p.shstrtab.data out).bind fun out =>
  (putHeaders p l (fileLayout p l) out).bind fun out =>
  if out.length = l.len then .ok out else .panic

/-- `delete_orphans` and `delete_unused_versions`, src/build/elf.rs:773-775. -/
def clean (b : Full) : Res Full :=
  b.tables.deleteOrphans.bind fun t => t.deleteUnusedVersions.bind fun t => .ok { b with tables := t }

/-- Writing a builder without orphans, src/build/elf.rs:777-1835. -/
def writeClean (b : Full) : Res (List UInt8) :=
  (plan b).bind fun p => (layout b p).bind fun l => emit b p l

/-- `Builder::write`, src/build/elf.rs:731-1836, to a byte vector. -/
def write (b : Full) : Res (List UInt8) := (clean b).bind writeClean

end Obj.BuildW

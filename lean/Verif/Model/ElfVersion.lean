import Verif.Model.Elf
import Verif.Model.Iter

/-!
# Model of `src/read/elf/version.rs` and the version parts of `src/write/elf/encoder.rs` and `writer.rs`
-/

namespace Obj.Elf

/-! ## Records (src/elf.rs:2458-2665) -/

/-- `elf::Verdef`, src/elf.rs:2461-2476. -/
structure Verdef where
  version : Nat
  flags : Nat
  ndx : Nat
  cnt : Nat
  hash : Nat
  aux : Nat
  next : Nat
  deriving DecidableEq, Repr

/-- The image of a `Verdef` (20 bytes). -/
def Verdef.encode (en : Endianness) (v : Verdef) : List UInt8 :=
  Obj.encode en [(2, v.version), (2, v.flags), (2, v.ndx), (2, v.cnt), (4, v.hash), (4, v.aux), (4, v.next)]

def Verdef.decode (en : Endianness) (img : List UInt8) : Verdef :=
  ⟨field en img 0 2, field en img 2 2, field en img 4 2, field en img 6 2, field en img 8 4, field en img 12 4, field en img 16 4⟩

/-- `elf::Verdaux`, src/elf.rs:2618-2623 (8 bytes). -/
structure Verdaux where
  name : Nat
  next : Nat
  deriving DecidableEq, Repr

def Verdaux.encode (en : Endianness) (v : Verdaux) : List UInt8 := Obj.encode en [(4, v.name), (4, v.next)]

def Verdaux.decode (en : Endianness) (img : List UInt8) : Verdaux := ⟨field en img 0 4, field en img 4 4⟩

/-- `elf::Verneed`, src/elf.rs:2628-2639 (16 bytes). -/
structure Verneed where
  version : Nat
  cnt : Nat
  file : Nat
  aux : Nat
  next : Nat
  deriving DecidableEq, Repr

def Verneed.encode (en : Endianness) (v : Verneed) : List UInt8 :=
  Obj.encode en [(2, v.version), (2, v.cnt), (4, v.file), (4, v.aux), (4, v.next)]

def Verneed.decode (en : Endianness) (img : List UInt8) : Verneed :=
  ⟨field en img 0 2, field en img 2 2, field en img 4 4, field en img 8 4, field en img 12 4⟩

/-- `elf::Vernaux`, src/elf.rs:2650-2665 (16 bytes). -/
structure Vernaux where
  hash : Nat
  flags : Nat
  other : Nat
  name : Nat
  next : Nat
  deriving DecidableEq, Repr

def Vernaux.encode (en : Endianness) (v : Vernaux) : List UInt8 :=
  Obj.encode en [(4, v.hash), (2, v.flags), (2, v.other), (4, v.name), (4, v.next)]

def Vernaux.decode (en : Endianness) (img : List UInt8) : Vernaux :=
  ⟨field en img 0 4, field en img 4 2, field en img 6 2, field en img 8 4, field en img 12 4⟩

/-- `VersymIndex::index`, src/elf.rs:2419-2421; `VERSYM_VERSION = 0x7fff`. -/
def versymIndex (v : Nat) : Nat := v &&& 0x7fff

/-- `VersymIndex::is_hidden`, src/elf.rs:2434-2436; `VERSYM_HIDDEN = 0x8000`. -/
def versymHidden (v : Nat) : Bool := v &&& 0x8000 != 0

/-- `VersionIndex::is_special`, src/elf.rs:2575-2577; `VER_NDX_GLOBAL = 1`. -/
def versionSpecial (index : Nat) : Bool := index ≤ 1

/-! ## Iterators -/

/-- The state of `VerdauxIterator` and `VernauxIterator`: data and count. -/
abbrev AuxIter := List UInt8 × Nat

/-- `VerdauxIterator::parse` (src/read/elf/version.rs:301-311, 8-byte record) and `VernauxIterator::parse`
(449-458, 16-byte record): read a record, then skip by the offset in its last field. -/
def auxParse {α : Type} (size : Nat) (dec : List UInt8 → α) (next : α → Nat) (d : List UInt8) : Res α × List UInt8 :=
  match Bytes.readAt d 0 size with
  | .ok img =>
    match Bytes.skip d (next (dec img)) with
    | (.ok (), d') => (.ok (dec img), d')
    | (.err, d') => (.err, d')
    | (.panic, d') => (.panic, d')
  | .err => (.err, d)
  | .panic => (.panic, d)

/-- `VerdauxIterator::next`, src/read/elf/version.rs:286-299 and `VernauxIterator::next`, 434-447. -/
def auxNext {α : Type} (size : Nat) (dec : List UInt8 → α) (next : α → Nat) (s : AuxIter) : Res (Option α) × AuxIter :=
  if s.2 = 0 then (.ok none, s)
  else match auxParse size dec next s.1 with
    | (.ok x, d) => (.ok (some x), (d, s.2 - 1))
    | (.err, d) => (.err, (d, 0))
    | (.panic, d) => (.panic, (d, s.2))

def verdauxNext (en : Endianness) : AuxIter → Res (Option Verdaux) × AuxIter :=
  auxNext 8 (Verdaux.decode en) Verdaux.next

def vernauxNext (en : Endianness) : AuxIter → Res (Option Vernaux) × AuxIter :=
  auxNext 16 (Vernaux.decode en) Vernaux.next

/-- `VerdefIterator::parse` (src/read/elf/version.rs:229-254, 20-byte record) and `VerneedIterator::parse`
(377-406, 16-byte record): the record, an iterator over its auxiliary records, and the skip to the next record. -/
def verParse {α : Type} (size : Nat) (dec : List UInt8 → α) (aux cnt next : α → Nat) (d : List UInt8) :
    Res (α × AuxIter) × List UInt8 :=
  match Bytes.readAt d 0 size with
  | .ok img =>
    let v := dec img
    match Bytes.skip d (aux v) with
    | (.ok (), auxData) =>
      if next v ≠ 0 then
        match Bytes.skip d (next v) with
        | (.ok (), d') => (.ok (v, (auxData, cnt v)), d')
        | (.err, d') => (.err, d')
        | (.panic, d') => (.panic, d')
      else (.ok (v, (auxData, cnt v)), [])
    | (.err, _) => (.err, d)
    | (.panic, _) => (.panic, d)
  | .err => (.err, d)
  | .panic => (.panic, d)

/-- `VerdefIterator::next`, src/read/elf/version.rs:216-227. -/
def verdefNext (en : Endianness) : List UInt8 → Res (Option (Verdef × AuxIter)) × List UInt8 :=
  fuseNext (verParse 20 (Verdef.decode en) Verdef.aux Verdef.cnt Verdef.next)

/-- `VerneedIterator::next`, src/read/elf/version.rs:358-375. -/
def verneedNext (en : Endianness) : List UInt8 → Res (Option (Verneed × AuxIter)) × List UInt8 :=
  fuseNext (verParse 16 (Verneed.decode en) Verneed.aux Verneed.cnt Verneed.next)

/-- `while let Some(x) = iter.next()? { .. }`: all the items, or the error.  `fuel` bounds the number of calls; the
model never lets it run out (shown by the absence of panics). -/
def drain {σ α : Type} (next : σ → Res (Option α) × σ) : Nat → σ → Res (List α)
  | 0, _ => .panic
  | fuel + 1, s =>
    match next s with
    | (.ok none, _) => .ok []
    | (.ok (some x), s') => (drain next fuel s').bind fun xs => .ok (x :: xs)
    | (.err, _) => .err
    | (.panic, _) => .panic

/-! ## The version table -/

/-- `Version`, src/read/elf/version.rs:11-19. -/
structure Version where
  name : List UInt8
  hash : Nat
  valid : Bool
  file : Option (List UInt8)
  deriving DecidableEq, Repr

/-- `Version::default()`. -/
def Version.dflt : Version := ⟨[], 0, false, none⟩

/-- `VersionTable`, src/read/elf/version.rs:50-53; `symbols` holds the decoded version of each symbol. -/
structure VersionTable where
  symbols : List Nat
  versions : List Version
  deriving DecidableEq, Repr

/-- `versions[index] = version`. -/
def setVersion (versions : List Version) (index : Nat) (v : Version) : Res (List Version) :=
  if index < versions.length then .ok (versions.set index v) else .panic

/-- `VER_FLG_BASE` (1) is set. -/
def Verdef.isBase (v : Verdef) : Bool := v.flags &&& 1 != 0

/-- The body of the first loop over the definitions, src/read/elf/version.rs:76-84. -/
def maxDef (m : Nat) (v : Verdef) : Nat := if v.isBase then m else if m < v.ndx then v.ndx else m

/-- The body of the first loop over the auxiliary records of requirements, src/read/elf/version.rs:88-93. -/
def maxNeed (m : Nat) (v : Vernaux) : Nat := if m < versymIndex v.other then versymIndex v.other else m

/-- The second loop over the definitions, src/read/elf/version.rs:101-121. -/
def fillDefs (en : Endianness) (strings : StrTable) (data : List UInt8) :
    List (Verdef × AuxIter) → List Version → Res (List Version)
  | [], vs => .ok vs
  | (v, it) :: rest, vs =>
    if v.isBase then fillDefs en strings data rest vs
    else if versionSpecial v.ndx then fillDefs en strings data rest vs
    else match (verdauxNext en it).1 with
      | .ok (some a) => do
        let name ← strings.get data a.name
        let vs ← setVersion vs v.ndx ⟨name, v.hash, true, none⟩
        fillDefs en strings data rest vs
      | .ok none => fillDefs en strings data rest vs
      | .err => .err
      | .panic => .panic

/-- The second loop over the auxiliary records of a requirement, src/read/elf/version.rs:124-138. -/
def fillNeed (strings : StrTable) (data : List UInt8) (v : Verneed) : List Vernaux → List Version → Res (List Version)
  | [], vs => .ok vs
  | a :: rest, vs =>
    if versionSpecial (versymIndex a.other) then fillNeed strings data v rest vs
    else do
      let name ← strings.get data a.name
      let file ← strings.get data v.file
      let vs ← setVersion vs (versymIndex a.other) ⟨name, a.hash, true, some file⟩
      fillNeed strings data v rest vs

/-- The second loop over the requirements, src/read/elf/version.rs:122-140. -/
def fillNeeds (strings : StrTable) (data : List UInt8) : List (Verneed × List Vernaux) → List Version → Res (List Version)
  | [], vs => .ok vs
  | (v, as) :: rest, vs => do
    let vs ← fillNeed strings data v as vs
    fillNeeds strings data rest vs

/-- All items of an optional definition iterator. -/
def drainDefs (en : Endianness) : Option (List UInt8) → Res (List (Verdef × AuxIter))
  | some d => drain (verdefNext en) (d.length + 1) d
  | none => .ok []

/-- All auxiliary records of each requirement. -/
def drainAux (en : Endianness) : List (Verneed × AuxIter) → Res (List (Verneed × List Vernaux))
  | [] => .ok []
  | (v, it) :: rest => do
    let as ← drain (vernauxNext en) (it.2 + 1) it
    let rest ← drainAux en rest
    .ok ((v, as) :: rest)

/-- All items of an optional requirement iterator. -/
def drainNeeds (en : Endianness) : Option (List UInt8) → Res (List (Verneed × List Vernaux))
  | some d => (drain (verneedNext en) (d.length + 1) d).bind (drainAux en)
  | none => .ok []

/-- `VersionTable::parse`, src/read/elf/version.rs:66-146.  The two passes run clones of the same iterators, so each is
drained once here; all errors are the same `err`, so their order is not observable. -/
def VersionTable.parse (en : Endianness) (versyms : List Nat) (verdefs verneeds : Option (List UInt8))
    (strings : StrTable) (data : List UInt8) : Res VersionTable := do
  let defs ← drainDefs en verdefs
  let needs ← drainNeeds en verneeds
  let maxIndex := (needs.flatMap Prod.snd).foldl maxNeed ((defs.map Prod.fst).foldl maxDef 0)
  let vs ← fillDefs en strings data defs (List.replicate (maxIndex + 1) Version.dflt)
  let vs ← fillNeeds strings data needs vs
  .ok ⟨versyms, vs⟩

/-- `VersionTable::version_index`, src/read/elf/version.rs:154-161. -/
def VersionTable.versionIndex (t : VersionTable) (index : Nat) : Nat :=
  match t.symbols[index]? with
  | some v => v
  | none => 1

/-- `VersionTable::version`, src/read/elf/version.rs:167-176. -/
def VersionTable.version (t : VersionTable) (index : Nat) : Res (Option Version) :=
  if versionSpecial index then .ok none
  else match t.versions[index]? with
    | some v => if v.valid then .ok (some v) else .err
    | none => .err

/-- `VersionTable::matches`, src/read/elf/version.rs:183-209. -/
def VersionTable.matches (t : VersionTable) (index : Nat) (need : Option Version) : Bool :=
  match t.version (versymIndex (t.versionIndex index)) with
  | .ok (some d) =>
    match need with
    | some n => n.hash == d.hash && n.name == d.name
    | none => !versymHidden (t.versionIndex index)
  | .ok none => need.isNone
  | .err => false
  | .panic => false

/-- The first section of the given type, as in `SectionTable::gnu_versym`, `gnu_verdef` and `gnu_verneed`
(src/read/elf/section.rs:293-342): the loop stops at the first section of that type. -/
def SectionTable.firstOfType (t : SectionTable) (type : Nat) : Option Shdr := t.sections.find? fun s => s.type == type

/-- `SectionTable::versions`, src/read/elf/section.rs:348-362 with `SectionHeader::gnu_versym`, `gnu_verdef`,
`gnu_verneed` (1079-1137); `SHT_GNU_VERSYM = 0x6fffffff`, `SHT_GNU_VERDEF = 0x6ffffffd`,
`SHT_GNU_VERNEED = 0x6ffffffe`. -/
def SectionTable.versions (c : Cfg) (data : List UInt8) (t : SectionTable) : Res (Option VersionTable) :=
  match t.firstOfType 0x6fffffff with
  | none => .ok none
  | some s => do
    let versyms ← s.dataAsArray data 2
    let symtab ← t.symbolTableByIndex c data s.link
    let verdefs ← (match t.firstOfType 0x6ffffffd with
      | some s => (s.data data).bind fun d => .ok (some d)
      | none => .ok none : Res (Option (List UInt8)))
    let verneeds ← (match t.firstOfType 0x6ffffffe with
      | some s => (s.data data).bind fun d => .ok (some d)
      | none => .ok none : Res (Option (List UInt8)))
    let table ← VersionTable.parse c.en (versyms.map (rd c.en)) verdefs verneeds symtab.strings data
    .ok (some table)

/-! ## Writing -/

/-- `write::elf::Verdef`, src/write/elf/encoder.rs:271-283, with the further names of the definition; `shared` means it
is written by `write_gnu_verdef_shared` (no names of its own: `auxCount` names of the next definition are used). -/
structure WVerdef where
  version : Nat
  flags : Nat
  index : Nat
  hash : Nat
  name : Nat
  rest : List Nat
  shared : Bool := false
  deriving DecidableEq, Repr

/-- `aux_count` of the definition. -/
def WVerdef.auxCount (v : WVerdef) : Nat := 1 + v.rest.length

/-- `Encoder::gnu_verdaux`, src/write/elf/encoder.rs:1280-1291. -/
def encVerdaux (en : Endianness) (next : Bool) (name : Nat) : List UInt8 :=
  Verdaux.encode en ⟨name, if next then 8 else 0⟩

/-- `Encoder::gnu_verdef`, src/write/elf/encoder.rs:1231-1255. -/
def encVerdef (en : Endianness) (next : Bool) (v : WVerdef) : List UInt8 :=
  Verdef.encode en ⟨v.version, v.flags, v.index, v.auxCount, v.hash, 20, if next then 20 + v.auxCount * 8 else 0⟩ ++
    encVerdaux en (decide (1 < v.auxCount)) v.name

/-- `Encoder::gnu_verdef_shared`, src/write/elf/encoder.rs:1261-1274. -/
def encVerdefShared (en : Endianness) (v : WVerdef) : List UInt8 :=
  Verdef.encode en ⟨v.version, v.flags, v.index, v.auxCount, v.hash, 40, 20⟩

/-- The calls `write_gnu_verdaux` for the further names, src/write/elf/writer.rs:884-894: `remaining` is
`gnu_verdaux_remaining` (decremented first; not 0 by the `debug_assert`).  It starts at `aux_count` although the first
name is already written, so the last record still has a next offset. -/
def writeVerdauxs (en : Endianness) : (remaining : Nat) → List Nat → List UInt8
  | _, [] => []
  | remaining, name :: names => encVerdaux en (remaining - 1 != 0) name ++ writeVerdauxs en (remaining - 1) names

/-- The calls `write_gnu_verdef` (src/write/elf/writer.rs:849-863) and `write_gnu_verdef_shared` (871-881) for all
definitions: `gnu_verdef_remaining` is the number of definitions still to be written. -/
def verdefBytes (en : Endianness) : List WVerdef → List UInt8
  | [] => []
  | v :: vs =>
    (if v.shared then encVerdefShared en v
    else encVerdef en (vs.length != 0) v ++ writeVerdauxs en v.auxCount v.rest) ++ verdefBytes en vs

/-- `write::elf::Vernaux`, src/write/elf/encoder.rs:327-334. -/
structure WVernaux where
  flags : Nat
  index : Nat
  name : Nat
  hash : Nat
  deriving DecidableEq, Repr

/-- `write::elf::Verneed`, src/write/elf/encoder.rs:305-310, with its auxiliary records. -/
structure WVerneed where
  version : Nat
  file : Nat
  auxs : List WVernaux
  deriving DecidableEq, Repr

/-- `Encoder::gnu_verneed`, src/write/elf/encoder.rs:1301-1326. -/
def encVerneed (en : Endianness) (next : Bool) (v : WVerneed) : List UInt8 :=
  Verneed.encode en ⟨v.version, v.auxs.length, v.file, if v.auxs.length ≠ 0 then 16 else 0,
    if next then 16 + v.auxs.length * 16 else 0⟩

/-- `Encoder::gnu_vernaux`, src/write/elf/encoder.rs:1329-1348. -/
def encVernaux (en : Endianness) (next : Bool) (v : WVernaux) : List UInt8 :=
  Vernaux.encode en ⟨v.hash, v.flags, v.index, v.name, if next then 16 else 0⟩

/-- The calls `write_gnu_vernaux`, src/write/elf/writer.rs:951-956: `gnu_vernaux_remaining` counts down. -/
def writeVernauxs (en : Endianness) : List WVernaux → List UInt8
  | [] => []
  | a :: as => encVernaux en (as.length != 0) a ++ writeVernauxs en as

/-- The calls `write_gnu_verneed` (src/write/elf/writer.rs:934-946) for all requirements. -/
def verneedBytes (en : Endianness) : List WVerneed → List UInt8
  | [] => []
  | v :: vs => encVerneed en (vs.length != 0) v ++ writeVernauxs en v.auxs ++ verneedBytes en vs

end Obj.Elf

import Verif.Model.WriteUtil

/-!
# The ELF builder: tables, segments and deletion (src/build/table.rs, src/build/elf.rs)

Ids (`SectionId` etc.) are modelled by the index they hold; `VersionId` holds the index plus 2.
-/

namespace Obj.Build

open Obj

/-- The `Item` trait, src/build/table.rs:4-10, and the private `id` field that every item type has
(e.g. src/build/elf.rs:2312). -/
class Item (α : Type) where
  deleted : α → Bool
  id : α → Nat

variable {α : Type} [Item α]

/-- `Table::next_id`, src/build/table.rs:37-39. -/
def nextId (t : List α) : Nat := t.length

/-- `Table::push`, src/build/table.rs:41-44. -/
def push (t : List α) (x : α) : List α := t ++ [x]

/-- `Table::get`, src/build/table.rs:62-64: `unwrap` panics. -/
def get (t : List α) (i : Nat) : Res α :=
  match t[i]? with
  | some x => .ok x
  | none => .panic

/-- Modifying an item through `Table::get_mut`, src/build/table.rs:67-69.  (The closure stands for the
assignments to public fields.) -/
def edit (t : List α) (i : Nat) (f : α → α) : Res (List α) :=
  match t[i]? with
  | some x => .ok (t.set i (f x))
  | none => .panic

/-- `TableIter::next`, src/build/table.rs:108-113: `find` the first item that is not deleted. -/
def iterNext : List α → Option (α × List α)
  | [] => none
  | x :: xs => if Item.deleted x then iterNext xs else some (x, xs)

theorem iterNext_lt (l : List α) (x : α) (r : List α) (h : iterNext l = some (x, r)) : r.length < l.length := by
  induction l with
  | nil => cases h
  | cons y ys ih =>
    simp only [iterNext] at h
    split at h
    · exact Nat.lt_succ_of_lt (ih h)
    · cases h; simp

/-- All items of `Table::iter`, src/build/table.rs:72-74. -/
def iter (l : List α) : List α :=
  match h : iterNext l with
  | none => []
  | some (x, r) => x :: iter r
termination_by l.length
decreasing_by exact iterNext_lt _ _ _ h

/-- `Table::is_empty`, src/build/table.rs:52-54. -/
def isEmpty (t : List α) : Bool := (iterNext t).isNone

/-- `Table::count`, src/build/table.rs:57-59. -/
def count (t : List α) : Nat := (iter t).length

/-- A `for item in &mut table` loop (`TableIterMut::next`, src/build/table.rs:122-128) whose body modifies
the item and a state: deleted items are skipped. -/
def forMut {σ : Type} (body : σ → α → Res (σ × α)) (s : σ) : List α → Res (σ × List α)
  | [] => .ok (s, [])
  | x :: xs =>
    if Item.deleted x then
      (forMut body s xs).bind fun r => .ok (r.1, x :: r.2)
    else
      (body s x).bind fun a => (forMut body a.1 xs).bind fun r => .ok (r.1, a.2 :: r.2)

/-! ## Segments and sections -/

/-- `Relocation`, src/build/elf.rs:2893-2905. -/
structure Rel where
  offset : Nat
  symbol : Option Nat
  typ : Nat
  addend : Int
  deriving DecidableEq, Repr

/-- `Dynamic`, src/build/elf.rs:2923-2957. -/
inductive Dyn where
  | auto (tag : Int)
  | integer (tag : Int) (val : Nat)
  | string (tag : Int) (val : List UInt8)
  deriving DecidableEq, Repr

/-- `AttributeScope`, src/build/elf.rs:3208-3221. -/
inductive AttrScope where
  | file
  | sections (l : List Nat)
  | symbols (l : List Nat)
  deriving DecidableEq, Repr

/-- `AttributesSubsubsection`, src/build/elf.rs:3199-3206. -/
structure AttrSubSub where
  scope : AttrScope
  data : List UInt8
  deriving DecidableEq, Repr

/-- `AttributesSubsection`, src/build/elf.rs:3180-3187. -/
structure AttrSub where
  vendor : List UInt8
  subs : List AttrSubSub
  deriving DecidableEq, Repr

/-- `SectionData`, src/build/elf.rs:2667-2707; `AttributesSection` is 3166-3171. -/
inductive SecData where
  | data (b : List UInt8)
  | uninit (len : Nat)
  | relocs (l : List Rel)
  | dynRelocs (l : List Rel)
  | note (b : List UInt8)
  | dynamic (l : List Dyn)
  | attributes (l : List AttrSub)
  | sectionString | symbol | symbolSectionIndex | string | dynamicSymbol | dynamicString
  | hash | gnuHash | gnuVersym | gnuVerdef | gnuVerneed
  deriving DecidableEq, Repr

/-- `Section`, src/build/elf.rs:2587-2634. -/
structure Sec where
  id : Nat
  delete : Bool
  name : List UInt8
  shType : Nat
  shFlags : Nat
  shAddr : Nat
  shOffset : Nat
  shSize : Nat
  linkSection : Option Nat
  shInfo : Nat
  infoSection : Option Nat
  addralign : Nat
  entsize : Nat
  data : SecData
  deriving DecidableEq, Repr

instance : Item Sec := ⟨(·.delete), (·.id)⟩

/-- `Segment`, src/build/elf.rs:2311-2344. -/
structure Seg where
  id : Nat
  delete : Bool
  pType : Nat
  pFlags : Nat
  pOffset : Nat
  pVaddr : Nat
  pPaddr : Nat
  pFilesz : Nat
  pMemsz : Nat
  pAlign : Nat
  sections : List Nat
  deriving DecidableEq, Repr

instance : Item Seg := ⟨(·.delete), (·.id)⟩

/-- `u64` addition with overflow check. -/
def add64 (a b : Nat) : Res Nat := if a + b < U64 then .ok (a + b) else .panic

/-- `Segment::contains_offset`, src/build/elf.rs:2366-2368. -/
def Seg.containsOffset (s : Seg) (offset : Nat) : Bool :=
  decide (s.pOffset ≤ offset ∧ offset - s.pOffset < s.pFilesz)

/-- `Segment::address_from_offset`, src/build/elf.rs:2373-2376: wrapping. -/
def Seg.addressFromOffset (s : Seg) (offset : Nat) : Nat :=
  (s.pVaddr + (offset + (U64 - s.pOffset)) % U64) % U64

/-- `Segment::contains_address`, src/build/elf.rs:2379-2381. -/
def Seg.containsAddress (s : Seg) (address : Nat) : Bool :=
  decide (s.pVaddr ≤ address ∧ address - s.pVaddr < s.pMemsz)

/-- `Segment::remove_sections`, src/build/elf.rs:2384-2388. -/
def Seg.removeSections (s : Seg) : Seg := { s with pFilesz := 0, pMemsz := 0, sections := [] }

/-- The bytes a section has in the file, src/build/elf.rs:2421-2425 (`SHT_NOBITS` is 8). -/
def Sec.filesize (c : Sec) : Nat := if c.shType = 8 then 0 else c.shSize

/-- `Segment::append_section_range`, src/build/elf.rs:2420-2450. -/
def Seg.appendRange (s : Seg) (c : Sec) : Res Seg :=
  if s.pMemsz = 0 then
    .ok { s with pOffset := c.shOffset, pFilesz := c.filesize, pVaddr := c.shAddr, pPaddr := c.shAddr,
                 pMemsz := c.shSize }
  else
    let off := if s.pOffset > c.shOffset then c.shOffset else s.pOffset
    (add64 c.shOffset c.filesize).bind fun fileEnd =>
      let filesz := fileEnd - off
      let newFilesz := if s.pFilesz < filesz then filesz else s.pFilesz
      let vaddr := if s.pVaddr > c.shAddr then c.shAddr else s.pVaddr
      let paddr := if s.pVaddr > c.shAddr then c.shAddr else s.pPaddr
      (add64 c.shAddr c.shSize).bind fun memEnd =>
        let memsz := memEnd - vaddr
        let newMemsz := if s.pMemsz < memsz then memsz else s.pMemsz
        .ok { s with pOffset := off, pFilesz := newFilesz, pVaddr := vaddr, pPaddr := paddr, pMemsz := newMemsz }

/-- `Segment::append_section`, src/build/elf.rs:2398-2410 (`PT_LOAD` is 1): the changed segment and section. -/
def Seg.appendSection (s : Seg) (c : Sec) : Res (Seg × Sec) :=
  if s.pFilesz ≠ s.pMemsz then .panic
  else
    (if s.pType = 1 then
      (add64 s.pOffset s.pFilesz).bind fun a => (align64 a c.addralign).bind fun offset =>
        (add64 s.pPaddr s.pMemsz).bind fun b => (align64 b c.addralign).bind fun addr =>
          .ok { c with shOffset := offset, shAddr := addr }
     else .ok c).bind fun c =>
      (s.appendRange c).bind fun s => .ok ({ s with sections := s.sections ++ [c.id] }, c)

/-- The loop of `Segment::recalculate_ranges`, src/build/elf.rs:2462-2465. -/
def Seg.appendRanges (secs : List Sec) : Seg → List Nat → Res Seg
  | s, [] => .ok s
  | s, i :: is => (get secs i).bind fun c => (s.appendRange c).bind fun s => Seg.appendRanges secs s is

/-- `Segment::recalculate_ranges`, src/build/elf.rs:2455-2467. -/
def Seg.recalculate (s : Seg) (secs : List Sec) : Res Seg :=
  (Seg.appendRanges secs
    { s with pOffset := 0, pFilesz := 0, pVaddr := 0, pPaddr := 0, pMemsz := 0, sections := [] }
    s.sections).bind fun r => .ok { r with sections := s.sections }

/-- `Segments::add`, src/build/elf.rs:2475-2492: the id and the table. -/
def addSeg (t : List Seg) : Nat × List Seg :=
  (nextId t, push t { id := nextId t, delete := false, pType := 0, pFlags := 0, pOffset := 0, pVaddr := 0,
                      pPaddr := 0, pFilesz := 0, pMemsz := 0, pAlign := 0, sections := [] })

/-- `Segments::find_load_segment_from_offset`, src/build/elf.rs:2495-2498. -/
def findLoad (t : List Seg) (offset : Nat) : Option Seg :=
  (iter t).find? fun s => decide (s.pType = 1) && s.containsOffset offset

/-- The loop of `Segments::add_load_segment`, src/build/elf.rs:2510-2521. -/
def maxEnds : Nat → Nat → List Seg → Res (Nat × Nat)
  | mo, ma, [] => .ok (mo, ma)
  | mo, ma, s :: ss =>
    (add64 s.pOffset s.pFilesz).bind fun offset =>
      (add64 s.pVaddr s.pMemsz).bind fun addr =>
        maxEnds (if mo < offset then offset else mo) (if ma < addr then addr else ma) ss

/-- `Segments::add_load_segment`, src/build/elf.rs:2505-2538. -/
def addLoad (t : List Seg) (flags align : Nat) : Res (Nat × List Seg) :=
  (maxEnds 0 0 (iter t)).bind fun m =>
    (align64 m.2 align).bind fun base =>
      (add64 base (m.1 &&& (align - 1))).bind fun addr =>
        let r := addSeg t
        (edit r.2 r.1 fun s => { s with pType := 1, pFlags := flags, pOffset := m.1, pVaddr := addr,
                                         pPaddr := addr, pAlign := align }).bind fun t => .ok (r.1, t)

/-- `Segments::copy`, src/build/elf.rs:2546-2560. -/
def copySeg (t : List Seg) (i : Nat) : Res (Nat × List Seg) :=
  (get t i).bind fun s =>
    if s.pType = 1 then addLoad t s.pFlags s.pAlign
    else
      let r := addSeg t
      (edit r.2 r.1 fun x => { x with pType := s.pType, pFlags := s.pFlags, pAlign := s.pAlign }).bind fun t =>
        .ok (r.1, t)

/-- `Sections::add`, src/build/elf.rs:2714-2731. -/
def addSec (t : List Sec) : Nat × List Sec :=
  (nextId t, push t { id := nextId t, delete := false, name := [], shType := 0, shFlags := 0, shAddr := 0,
                      shOffset := 0, shSize := 0, linkSection := none, shInfo := 0, infoSection := none,
                      addralign := 0, entsize := 0, data := .data [] })

/-- `Sections::copy`, src/build/elf.rs:2737-2771. -/
def copySec (t : List Sec) (i : Nat) : Res (Nat × List Sec) :=
  (get t i).bind fun s =>
    .ok (nextId t, push t { s with id := nextId t, delete := false, shOffset := 0 })

/-! ## Symbols and versions -/

/-- `Symbol`, src/build/elf.rs:2801-2828.  `version` is the raw number of the `VersionId`. -/
structure Sym where
  id : Nat
  delete : Bool
  name : List UInt8
  section_ : Option Nat
  info : Nat
  other : Nat
  shndx : Nat
  value : Nat
  size : Nat
  version : Nat
  versionHidden : Bool
  deriving DecidableEq, Repr

instance : Item Sym := ⟨(·.delete), (·.id)⟩

/-- `Symbols::add`, src/build/elf.rs:2874-2890. -/
def addSym (t : List Sym) : Nat × List Sym :=
  (nextId t, push t { id := nextId t, delete := false, name := [], section_ := none, info := 0, other := 0,
                      shndx := 0, value := 0, size := 0, version := 0, versionHidden := false })

/-- `Symbols::count_defined`, src/build/elf.rs:2867-2871 (`SHN_UNDEF` is 0). -/
def countDefined (t : List Sym) : Nat := ((iter t).filter fun s => decide (s.shndx ≠ 0)).length

/-- `VersionFile`, src/build/elf.rs:2996-3003. -/
structure VerFile where
  id : Nat
  delete : Bool
  name : List UInt8
  deriving DecidableEq, Repr

instance : Item VerFile := ⟨(·.delete), (·.id)⟩

/-- `VersionFiles::add`, src/build/elf.rs:3024-3032. -/
def addFile (t : List VerFile) (name : List UInt8) : Nat × List VerFile :=
  (nextId t, push t { id := nextId t, delete := false, name := name })

/-- `VersionData`, src/build/elf.rs:3107-3145. -/
inductive VerData where
  | def_ (names : List (List UInt8)) (flags : Nat)
  | need (file : Nat) (name : List UInt8) (flags : Nat)
  deriving DecidableEq, Repr

/-- `Version`, src/build/elf.rs:3083-3090.  `id` is the index in the table (the `VersionId` less 2). -/
structure Ver where
  id : Nat
  data : VerData
  delete : Bool
  deriving DecidableEq, Repr

instance : Item Ver := ⟨(·.delete), (·.id)⟩

/-- `Versions::add`, src/build/elf.rs:3154-3164, with `VersionId::new` (3056-3060): the raw `VersionId`. -/
def addVer (t : List Ver) (d : VerData) : Nat × List Ver :=
  (2 + nextId t, push t { id := nextId t, data := d, delete := false })

/-- `Versions::get`, with `VersionId::index` (src/build/elf.rs:3050-3054), whose subtraction panics for the
special versions. -/
def getVer (t : List Ver) (v : Nat) : Res Ver := if v < 2 then .panic else get t (v - 2)

/-! ## The builder -/

/-- The tables of `Builder`, src/build/elf.rs:24-66.  (The header and the hash table parameters play no part
in deletion.) -/
structure Builder where
  segments : List Seg
  sections : List Sec
  symbols : List Sym
  dynamicSymbols : List Sym
  versionFiles : List VerFile
  versions : List Ver
  deriving DecidableEq, Repr

/-- `Vec::retain` with a predicate that may panic. -/
def retain {β : Type} (p : β → Res Bool) : List β → Res (List β)
  | [] => .ok []
  | x :: xs => (p x).bind fun b => (retain p xs).bind fun r => .ok (if b then x :: r else r)

/-- `Builder::delete_orphan_segments`, src/build/elf.rs:1851-1861. -/
def Builder.deleteOrphanSegments (b : Builder) : Res Builder :=
  (forMut (fun (_ : Unit) (s : Seg) =>
    if s.sections = [] then .ok ((), s)
    else (retain (fun i => (get b.sections i).bind fun c => .ok (!c.delete)) s.sections).bind fun l =>
      .ok ((), { s with sections := l, delete := decide (l = []) })) () b.segments).bind fun r =>
    .ok { b with segments := r.2 }

/-- The body of the loops of `Builder::delete_orphan_symbols`, src/build/elf.rs:1865-1871. -/
def orphanSym (secs : List Sec) (_ : Unit) (s : Sym) : Res (Unit × Sym) :=
  match s.section_ with
  | none => .ok ((), s)
  | some i => (get secs i).bind fun c => .ok ((), if c.delete then { s with delete := true } else s)

/-- `Builder::delete_orphan_symbols`, src/build/elf.rs:1864-1879. -/
def Builder.deleteOrphanSymbols (b : Builder) : Res Builder :=
  (forMut (orphanSym b.sections) () b.symbols).bind fun r =>
    (forMut (orphanSym b.sections) () b.dynamicSymbols).bind fun d =>
      .ok { b with symbols := r.2, dynamicSymbols := d.2 }

/-- The predicate of `retain` in `Builder::delete_orphan_relocations`, src/build/elf.rs:1888-1891. -/
def keepRel (syms : List Sym) (r : Rel) : Res Bool :=
  match r.symbol with
  | none => .ok true
  | some i => (get syms i).bind fun s => .ok (!s.delete)

/-- The body of the loop of `Builder::delete_orphan_relocations`, src/build/elf.rs:1883-1901. -/
def relBody (syms dyns : List Sym) (_ : Unit) (c : Sec) : Res (Unit × Sec) :=
  match c.data with
  | .relocs l => (retain (keepRel syms) l).bind fun l => .ok ((), { c with data := .relocs l })
  | .dynRelocs l => (retain (keepRel dyns) l).bind fun l => .ok ((), { c with data := .dynRelocs l })
  | _ => .ok ((), c)

/-- `Builder::delete_orphan_relocations`, src/build/elf.rs:1882-1902. -/
def Builder.deleteOrphanRelocations (b : Builder) : Res Builder :=
  (forMut (relBody b.symbols b.dynamicSymbols) () b.sections).bind fun r => .ok { b with sections := r.2 }

/-- Whether an automatic dynamic entry is kept, src/build/elf.rs:1926-1956, given the kinds of the sections
that are not deleted (1913-1923). -/
def keepDyn (have_ : SecData → Bool) : Dyn → Bool
  | .auto tag =>
    if tag = 6 then have_ .dynamicSymbol                            -- DT_SYMTAB
    else if tag = 5 ∨ tag = 10 then have_ .dynamicString            -- DT_STRTAB, DT_STRSZ
    else if tag = 4 then have_ .hash                                -- DT_HASH
    else if tag = 0x6ffffef5 then have_ .gnuHash                    -- DT_GNU_HASH
    else if tag = 0x6ffffff0 then have_ .gnuVersym                  -- DT_VERSYM
    else if tag = 0x6ffffffe ∨ tag = 0x6fffffff then have_ .gnuVerneed  -- DT_VERNEED, DT_VERNEEDNUM
    else if tag = 0x6ffffffc ∨ tag = 0x6ffffffd then have_ .gnuVerdef   -- DT_VERDEF, DT_VERDEFNUM
    else true
  | _ => true

/-- `Builder::delete_orphan_dynamics`, src/build/elf.rs:1905-1959. -/
def Builder.deleteOrphanDynamics (b : Builder) : Res Builder :=
  let have_ (d : SecData) : Bool := (iter b.sections).any fun c => decide (c.data = d)
  (forMut (fun (_ : Unit) (c : Sec) =>
    match c.data with
    | .dynamic l => .ok ((), { c with data := .dynamic (l.filter (keepDyn have_)) })
    | _ => .ok ((), c)) () b.sections).bind fun r => .ok { b with sections := r.2 }

/-- `Builder::delete_orphans`, src/build/elf.rs:1843-1848. -/
def Builder.deleteOrphans (b : Builder) : Res Builder :=
  b.deleteOrphanSegments.bind fun b => b.deleteOrphanSymbols.bind fun b =>
    b.deleteOrphanRelocations.bind fun b => b.deleteOrphanDynamics

/-- `v[i] = true` for a vector of flags. -/
def mark (v : List Bool) (i : Nat) : Res (List Bool) :=
  if i < v.length then .ok (v.set i true) else .panic

/-- The first loop of `Builder::delete_unused_versions`, src/build/elf.rs:1963-1965. -/
def markAll : List Bool → List Nat → Res (List Bool)
  | v, [] => .ok v
  | v, i :: is => (mark v i).bind fun v => markAll v is

/-- "GLIBC_ABI_DT_RELR" -/
def relrName : List UInt8 := [71, 76, 73, 66, 67, 95, 65, 66, 73, 95, 68, 84, 95, 82, 69, 76, 82]

/-- `v[i]` of a vector of flags. -/
def flag (v : List Bool) (i : Nat) : Res Bool :=
  match v[i]? with
  | some x => .ok x
  | none => .panic

/-- The marker for relative relocations is kept, src/build/elf.rs:1968-1972. -/
def markRelr (used : List Bool) (v : Ver) : Res (List Bool) :=
  match v.data with
  | .need _ name _ => if name = relrName then mark used (v.id + 2) else .ok used
  | .def_ _ _ => .ok used

/-- The file of a kept version is used, src/build/elf.rs:1977-1979. -/
def markFile (files : List Bool) (v : Ver) : Res (List Bool) :=
  match v.data with
  | .need file _ _ => mark files file
  | .def_ _ _ => .ok files

/-- The body of the loop over versions, src/build/elf.rs:1967-1981; the state are `version_used` and
`version_file_used`. -/
def verBody (s : List Bool × List Bool) (v : Ver) : Res ((List Bool × List Bool) × Ver) :=
  (markRelr s.1 v).bind fun used =>
    (flag used (v.id + 2)).bind fun u =>
      if u = false then .ok ((used, s.2), { v with delete := true })
      else (markFile s.2 v).bind fun f => .ok ((used, f), v)

/-- `Builder::delete_unused_versions`, src/build/elf.rs:1961-1988. -/
def Builder.deleteUnusedVersions (b : Builder) : Res Builder :=
  (markAll (List.replicate (b.versions.length + 2) false) ((iter b.dynamicSymbols).map (·.version))).bind fun used =>
    (forMut verBody (used, List.replicate b.versionFiles.length false) b.versions).bind fun r =>
      (forMut (fun (_ : Unit) (f : VerFile) =>
        (flag r.1.2 f.id).bind fun u => .ok ((), if u = false then { f with delete := true } else f))
        () b.versionFiles).bind fun f => .ok { b with versions := r.2, versionFiles := f.2 }

end Obj.Build

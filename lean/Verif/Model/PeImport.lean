import Verif.Model.Pe

/-!
# Model of PE imports, `src/read/pe/import.rs`
-/

namespace Obj.Pe
open Obj

/-- `ImportDescriptorIterator`, `DelayLoadDescriptorIterator` and `ImportThunkList`, src/read/pe/import.rs:153-156, 399-402, 193-196:
the remaining data and a flag for the end. -/
structure RecIter where
  data : List UInt8
  null : Bool
  deriving DecidableEq, Repr

/-- The three functions `ImportDescriptorIterator::next`, src/read/pe/import.rs:164-178, `ImportThunkList::next`,
src/read/pe/import.rs:213-227, and `DelayLoadDescriptorIterator::next`, src/read/pe/import.rs:410-424; they differ in the type of the
record, given by its size, its decoding and its null check. -/
def recNext {α : Type} (size : Nat) (parse : List UInt8 → α) (isNull : α → Bool) (it : RecIter) : Res (Option α) × RecIter :=
  if it.null then (.ok none, it)
  else match Bytes.read it.data size with
    | (.ok img, tl) =>
      if isNull (parse img) then (.ok none, ⟨tl, true⟩) else (.ok (some (parse img)), ⟨tl, false⟩)
    | (.err, tl) => (.err, ⟨tl, true⟩)
    | (.panic, tl) => (.panic, ⟨tl, true⟩)

/-- `ImageImportDescriptor`, src/pe.rs:2324-2338 (20 bytes). -/
structure ImportDesc where
  originalFirstThunk : Nat
  timeDateStamp : Nat
  forwarderChain : Nat
  name : Nat
  firstThunk : Nat
  deriving DecidableEq, Repr

/-- The fields of `ImageImportDescriptor`, src/pe.rs:2324-2338. -/
def ImportDesc.parse (i : List UInt8) : ImportDesc :=
  ⟨field .little i 0 4, field .little i 4 4, field .little i 8 4, field .little i 12 4, field .little i 16 4⟩

/-- `ImageImportDescriptor::is_null`, src/pe.rs:2343-2349. -/
def ImportDesc.isNull (d : ImportDesc) : Bool :=
  d.originalFirstThunk = 0 && d.timeDateStamp = 0 && d.forwarderChain = 0 && d.name = 0 && d.firstThunk = 0

/-- `ImageDelayloadDescriptor`, src/pe.rs:2375-2392 (32 bytes). -/
structure DelayDesc where
  attributes : Nat
  dllNameRva : Nat
  moduleHandleRva : Nat
  importAddressTableRva : Nat
  importNameTableRva : Nat
  boundImportAddressTableRva : Nat
  unloadInformationTableRva : Nat
  timeDateStamp : Nat
  deriving DecidableEq, Repr

/-- The fields of `ImageDelayloadDescriptor`, src/pe.rs:2375-2392. -/
def DelayDesc.parse (i : List UInt8) : DelayDesc :=
  ⟨field .little i 0 4, field .little i 4 4, field .little i 8 4, field .little i 12 4, field .little i 16 4, field .little i 20 4,
    field .little i 24 4, field .little i 28 4⟩

/-- `ImageDelayloadDescriptor::is_null`, src/pe.rs:2397-2406. -/
def DelayDesc.isNull (d : DelayDesc) : Bool :=
  d.attributes = 0 && d.dllNameRva = 0 && d.moduleHandleRva = 0 && d.importAddressTableRva = 0 && d.importNameTableRva = 0 &&
  d.boundImportAddressTableRva = 0 && d.unloadInformationTableRva = 0 && d.timeDateStamp = 0

/-! ## Thunks; `w` is 4 for `ImageThunkData32` and 8 for `ImageThunkData64` -/

/-- `ImageThunkData::is_ordinal`, src/read/pe/import.rs:268-270, 288-290 with `IMAGE_ORDINAL_FLAG64`/`32`, src/pe.rs:2281-2282. -/
def thunkIsOrdinal (w v : Nat) : Bool :=
  if w = 8 then v &&& 0x8000000000000000 ≠ 0 else v &&& 0x80000000 ≠ 0

/-- `ImageThunkData::ordinal`, src/read/pe/import.rs:272-274, 292-294. -/
def thunkOrdinal (v : Nat) : Nat := v % U16

/-- `ImageThunkData::address`, src/read/pe/import.rs:276-278, 296-298. -/
def thunkAddress (v : Nat) : Nat := (v % U32) &&& 0x7fffffff

/-- `ImportThunkList::next`, src/read/pe/import.rs:213-227. -/
def thunkNext (w : Nat) (it : RecIter) : Res (Option Nat) × RecIter :=
  recNext w (rd .little) (fun v => thunkAddress v = 0) it

/-- `ImportThunkList::get`, src/read/pe/import.rs:200-206. -/
def thunkGet (w : Nat) (it : RecIter) (index : Nat) : Res Nat :=
  if U64 ≤ index * w then .err
  else (Bytes.readAt it.data (index * w) w).bind fun i => .ok (rd .little i)

/-- `Import`, src/read/pe/import.rs:232-240. -/
inductive Import where
  | ordinal (o : Nat)
  | name (hint : Nat) (name : List UInt8)
  deriving DecidableEq, Repr

/-! ## The tables -/

/-- `ImportTable`, src/read/pe/import.rs:16-22. -/
structure ImportTable where
  importAddress : Nat
  sectionData : List UInt8
  sectionAddress : Nat
  nameData : List UInt8
  nameAddress : Nat
  deriving DecidableEq, Repr

/-- `ImportTable::new`, src/read/pe/import.rs:34-48. -/
def ImportTable.new (data : List UInt8) (sectionAddress importAddress : Nat) : ImportTable :=
  ⟨importAddress, data, sectionAddress, data, sectionAddress⟩

/-- The skip in `descriptors` and `thunks`, src/read/pe/import.rs:88-94, 111-115, 332-336, 357-361. -/
def recsAt (data : List UInt8) (sectionAddress address : Nat) : Res RecIter :=
  match Bytes.skip data (wsub address sectionAddress) with
  | (.ok (), tl) => .ok ⟨tl, false⟩
  | (.err, _) => .err
  | (.panic, _) => .panic

/-- `ImportTable::descriptors`, src/read/pe/import.rs:87-95. -/
def ImportTable.descriptors (t : ImportTable) : Res RecIter := recsAt t.sectionData t.sectionAddress t.importAddress

/-- `ImportTable::thunks`, src/read/pe/import.rs:110-116. -/
def ImportTable.thunks (t : ImportTable) (address : Nat) : Res RecIter := recsAt t.sectionData t.sectionAddress address

/-- `ImportTable::name`, src/read/pe/import.rs:100-104. -/
def ImportTable.name (t : ImportTable) (address : Nat) : Res (List UInt8) :=
  Bytes.readStringAt t.nameData (wsub address t.nameAddress)

/-- `ImportTable::hint_name` and `DelayLoadImportTable::hint_name`, src/read/pe/import.rs:133-149, 379-395. -/
def hintName (data : List UInt8) (sectionAddress address : Nat) : Res (Nat × List UInt8) :=
  match Bytes.skip data (wsub address sectionAddress) with
  | (.ok (), d) =>
    match Bytes.read d 2 with
    | (.ok h, d) =>
      match (Bytes.readString d).1 with
      | .ok s => if s = [] then .err else .ok (rd .little h, s)
      | .err => .err
      | .panic => .panic
    | (.err, _) => .err
    | (.panic, _) => .panic
  | (.err, _) => .err
  | (.panic, _) => .panic

/-- `ImportTable::import` and `DelayLoadImportTable::import`, src/read/pe/import.rs:119-126, 365-372. -/
def importOf (w : Nat) (data : List UInt8) (sectionAddress v : Nat) : Res Import :=
  if thunkIsOrdinal w v then .ok (.ordinal (thunkOrdinal v))
  else (hintName data sectionAddress (thunkAddress v)).bind fun p => .ok (.name p.1 p.2)

/-- `ImportTable::from_sections`, src/read/pe/import.rs:55-84. -/
def ImportTable.fromSections (data : List UInt8) (ss : List Coff.Section) (importAddress : Nat) : Res ImportTable :=
  match dataContaining ss data importAddress with
  | none => .err
  | some (sectionData, sectionAddress) =>
    let imports := ImportTable.new sectionData sectionAddress importAddress
    match imports.descriptors with
    | .ok ds =>
      match (recNext 20 ImportDesc.parse ImportDesc.isNull ds).1 with
      | .ok (some desc) =>
        match dataContaining ss data desc.name with
        | some (nd, na) => .ok { imports with nameData := nd, nameAddress := na }
        | none => .ok imports
      | .ok none => .ok imports
      | .err => .ok imports
      | .panic => .panic
    | .err => .ok imports
    | .panic => .panic

/-- `DataDirectories::import_table`, src/read/pe/data_directory.rs:98-109; `IMAGE_DIRECTORY_ENTRY_IMPORT = 1`. -/
def importTable (dirs : List DataDir) (data : List UInt8) (ss : List Coff.Section) : Res (Option ImportTable) :=
  match getDir dirs 1 with
  | none => .ok none
  | some d => (ImportTable.fromSections data ss d.virtualAddress).bind fun t => .ok (some t)

/-- `DelayLoadImportTable`, src/read/pe/import.rs:306-310. -/
structure DelayTable where
  sectionData : List UInt8
  sectionAddress : Nat
  importAddress : Nat
  deriving DecidableEq, Repr

/-- `DelayLoadImportTable::descriptors`, src/read/pe/import.rs:331-337. -/
def DelayTable.descriptors (t : DelayTable) : Res RecIter := recsAt t.sectionData t.sectionAddress t.importAddress

/-- `DelayLoadImportTable::thunks`, src/read/pe/import.rs:356-362. -/
def DelayTable.thunks (t : DelayTable) (address : Nat) : Res RecIter := recsAt t.sectionData t.sectionAddress address

/-- `DelayLoadImportTable::name`, src/read/pe/import.rs:342-346. -/
def DelayTable.name (t : DelayTable) (address : Nat) : Res (List UInt8) :=
  Bytes.readStringAt t.sectionData (wsub address t.sectionAddress)

/-- `DataDirectories::delay_load_import_table`, src/read/pe/data_directory.rs:114-132; `IMAGE_DIRECTORY_ENTRY_DELAY_IMPORT = 13`. -/
def delayTable (dirs : List DataDir) (data : List UInt8) (ss : List Coff.Section) : Res (Option DelayTable) :=
  match getDir dirs 13 with
  | none => .ok none
  | some d =>
    match dataContaining ss data d.virtualAddress with
    | none => .err
    | some (sectionData, sectionAddress) => .ok (some ⟨sectionData, sectionAddress, d.virtualAddress⟩)

/-! ## The unified iterators -/

/-- `option.map(|t| t.descriptors()).transpose()`, src/read/pe/import.rs:462-470, 566-574. -/
def optDescs {α : Type} (f : α → Res RecIter) : Option α → Res (Option RecIter)
  | none => .ok none
  | some t => (f t).bind fun d => .ok (some d)

/-- `read::ImportLibrary` for PE: the name and the `delay` flag. -/
structure GLibrary where
  name : List UInt8
  delay : Bool
  deriving DecidableEq, Repr

/-- The first use of a delay-load descriptor, src/read/pe/import.rs:499-503 and 618-621 (`IMAGE_DELAYLOAD_RVA_BASED = 1`,
src/pe.rs:2410): the name of the library. -/
def DelayTable.descName (t : DelayTable) (d : DelayDesc) : Res (List UInt8) :=
  if d.attributes &&& 1 = 0 then .err else t.name d.dllNameRva

/-- `PeImportLibraryIterator`, src/read/pe/import.rs:443-453. -/
structure LibIter where
  table : Option ImportTable
  descs : Option RecIter
  delay : Option DelayTable
  delayDescs : Option RecIter
  deriving DecidableEq, Repr

/-- `PeImportLibraryIterator::new`, src/read/pe/import.rs:460-478; the file is given by its parts. -/
def LibIter.new (dirs : List DataDir) (data : List UInt8) (ss : List Coff.Section) : Res LibIter :=
  (importTable dirs data ss).bind fun table =>
  (optDescs ImportTable.descriptors table).bind fun descs =>
  (delayTable dirs data ss).bind fun delay =>
  (optDescs DelayTable.descriptors delay).bind fun delayDescs =>
  .ok ⟨table, descs, delay, delayDescs⟩

/-- `PeImportLibraryIterator::next`, src/read/pe/import.rs:480-513: the delay-load part. -/
def LibIter.nextDelay (it : LibIter) : Res (Option GLibrary) × LibIter :=
  match it.delay with
  | none => (.ok none, it)
  | some table =>
    match it.delayDescs with
    | none => (.ok none, { it with delay := none })
    | some descs =>
      match recNext 32 DelayDesc.parse DelayDesc.isNull descs with
      | (.ok (some desc), d) => ((table.descName desc).bind fun n => .ok (some ⟨n, true⟩), { it with delayDescs := some d })
      | (.ok none, _) => (.ok none, { it with delayDescs := none, delay := none })
      | (.err, d) => (.err, { it with delayDescs := some d })
      | (.panic, d) => (.panic, { it with delayDescs := some d })

/-- `PeImportLibraryIterator::next`, src/read/pe/import.rs:480-513. -/
def LibIter.next (it : LibIter) : Res (Option GLibrary) × LibIter :=
  match it.table with
  | none => it.nextDelay
  | some table =>
    match it.descs with
    | none => LibIter.nextDelay { it with table := none }
    | some descs =>
      match recNext 20 ImportDesc.parse ImportDesc.isNull descs with
      | (.ok (some desc), d) => ((table.name desc.name).bind fun n => .ok (some ⟨n, false⟩), { it with descs := some d })
      | (.ok none, _) => LibIter.nextDelay { it with descs := none, table := none }
      | (.err, d) => (.err, { it with descs := some d })
      | (.panic, d) => (.panic, { it with descs := some d })

/-- `read::Import` for PE (`weak` is false). -/
structure GImport where
  library : List UInt8
  name : NameOrOrdinal
  delay : Bool
  deriving DecidableEq, Repr

/-- `PeImportIterator::import`, src/read/pe/import.rs:634-645. -/
def mkImport (library : List UInt8) (delay : Bool) : Import → GImport
  | .ordinal o => ⟨library, .ordinal o, delay⟩
  | .name _ n => ⟨library, .name n, delay⟩

/-- The part of the state of `PeImportIterator` used by one of its loops. -/
structure LoopState where
  descs : Option RecIter
  thunks : Option RecIter
  library : List UInt8
  deriving DecidableEq, Repr

/-- What differs between the two loops of `PeImportIterator::next`. -/
structure LoopOps where
  /-- The type of descriptors. -/
  Desc : Type
  /-- `descs.next()`. -/
  next : RecIter → Res (Option Desc) × RecIter
  /-- The name of the library of a descriptor. -/
  name : Desc → Res (List UInt8)
  /-- The thunks of a descriptor. -/
  thunks : Desc → Res RecIter
  /-- `table.import(thunk)`. -/
  imp : Nat → Res Import
  /-- The flag of the imports. -/
  delay : Bool

/-- The two loops of `PeImportIterator::next`, src/read/pe/import.rs:590-610 and 611-630, while the table is `Some`.  `none` means that
the loop ends (the table becomes `None`).  `fuel` is larger than the number of descriptors left (each one takes some data). -/
def impLoop (w : Nat) (ops : LoopOps) : Nat → LoopState → Option (Res GImport) × LoopState
  | 0, s => (some .panic, s)
  | fuel + 1, s =>
    let rest (s : LoopState) : Option (Res GImport) × LoopState :=
      match s.descs with
      | none => (none, s)
      | some descs =>
        match ops.next descs with
        | (.ok (some desc), d) =>
          match ops.name desc with
          | .ok n =>
            match ops.thunks desc with
            | .ok l => impLoop w ops fuel ⟨some d, some l, n⟩
            | .err => (some .err, { s with descs := some d, library := n })
            | .panic => (some .panic, { s with descs := some d, library := n })
          | .err => (some .err, { s with descs := some d })
          | .panic => (some .panic, { s with descs := some d })
        | (.ok none, _) => (none, { s with descs := none })
        | (.err, d) => (some .err, { s with descs := some d })
        | (.panic, d) => (some .panic, { s with descs := some d })
    match s.thunks with
    | none => rest s
    | some l =>
      match thunkNext w l with
      | (.ok (some v), l) => (some ((ops.imp v).bind fun x => .ok (mkImport s.library ops.delay x)), { s with thunks := some l })
      | (.ok none, _) => rest { s with thunks := none }
      | (.err, l) => (some .err, { s with thunks := some l })
      | (.panic, l) => (some .panic, { s with thunks := some l })

/-- Enough fuel for `impLoop`. -/
def LoopState.fuel (s : LoopState) : Nat :=
  match s.descs with
  | none => 1
  | some d => d.data.length + 1

/-- The first loop, src/read/pe/import.rs:590-610; if `original_first_thunk` is 0, `first_thunk` is used. -/
def ImportTable.ops (w : Nat) (t : ImportTable) : LoopOps where
  Desc := ImportDesc
  next := recNext 20 ImportDesc.parse ImportDesc.isNull
  name := fun d => t.name d.name
  thunks := fun d => t.thunks (if d.originalFirstThunk = 0 then d.firstThunk else d.originalFirstThunk)
  imp := importOf w t.nameData t.nameAddress
  delay := false

/-- The second loop, src/read/pe/import.rs:611-630. -/
def DelayTable.ops (w : Nat) (t : DelayTable) : LoopOps where
  Desc := DelayDesc
  next := recNext 32 DelayDesc.parse DelayDesc.isNull
  name := t.descName
  thunks := fun d => t.thunks d.importNameTableRva
  imp := importOf w t.sectionData t.sectionAddress
  delay := true

/-- `PeImportIterator`, src/read/pe/import.rs:545-557; `w` is the size of thunks. -/
structure ImpIter where
  w : Nat
  table : Option ImportTable
  descs : Option RecIter
  delay : Option DelayTable
  delayDescs : Option RecIter
  thunks : Option RecIter
  library : List UInt8
  deriving DecidableEq, Repr

/-- `PeImportIterator::new`, src/read/pe/import.rs:564-584. -/
def ImpIter.new (w : Nat) (dirs : List DataDir) (data : List UInt8) (ss : List Coff.Section) : Res ImpIter :=
  (importTable dirs data ss).bind fun table =>
  (optDescs ImportTable.descriptors table).bind fun descs =>
  (delayTable dirs data ss).bind fun delay =>
  (optDescs DelayTable.descriptors delay).bind fun delayDescs =>
  .ok ⟨w, table, descs, delay, delayDescs, none, []⟩

/-- `PeImportIterator::next`, src/read/pe/import.rs:611-631: the second loop. -/
def ImpIter.nextDelay (it : ImpIter) : Res (Option GImport) × ImpIter :=
  match it.delay with
  | none => (.ok none, it)
  | some t =>
    let s : LoopState := ⟨it.delayDescs, it.thunks, it.library⟩
    match impLoop it.w (t.ops it.w) s.fuel s with
    | (some r, s) => (r.bind fun x => .ok (some x), { it with delayDescs := s.descs, thunks := s.thunks, library := s.library })
    | (none, s) => (.ok none, { it with delay := none, delayDescs := s.descs, thunks := s.thunks, library := s.library })

/-- `PeImportIterator::next`, src/read/pe/import.rs:586-632. -/
def ImpIter.next (it : ImpIter) : Res (Option GImport) × ImpIter :=
  match it.table with
  | none => it.nextDelay
  | some t =>
    let s : LoopState := ⟨it.descs, it.thunks, it.library⟩
    match impLoop it.w (t.ops it.w) s.fuel s with
    | (some r, s) => (r.bind fun x => .ok (some x), { it with descs := s.descs, thunks := s.thunks, library := s.library })
    | (none, s) => ImpIter.nextDelay { it with table := none, descs := s.descs, thunks := s.thunks, library := s.library }

end Obj.Pe

import Verif.Model.Coff

/-!
# Model of the PE reader: address mapping, data directories and exports

`src/read/pe/section.rs`, `src/read/pe/data_directory.rs`, `src/read/pe/export.rs`.  Headers are the decoded section headers of
`Verif.Model.Coff`.
-/

namespace Obj.Pe
open Obj Obj.Coff

/-! ## Sections -/

/-- `ImageSectionHeader::pe_file_range`, src/read/pe/section.rs:388-393. -/
def fileRange (s : Coff.Section) : Nat × Nat := (s.pointerToRawData, min s.virtualSize s.sizeOfRawData)

/-- `ImageSectionHeader::pe_file_range_at`, src/read/pe/section.rs:399-409; `checked_sub` and `checked_add` on `u32`. -/
def fileRangeAt1 (s : Coff.Section) (va : Nat) : Option (Nat × Nat) :=
  if va < s.virtualAddress then none
  else
    let offset := va - s.virtualAddress
    let (sectionOffset, sectionSize) := fileRange s
    if offset < sectionSize then
      if U32 ≤ sectionOffset + offset then none else some (sectionOffset + offset, sectionSize - offset)
    else none

/-- `ImageSectionHeader::pe_data`, src/read/pe/section.rs:419-423. -/
def sectionData (s : Coff.Section) (data : List UInt8) : Res (List UInt8) :=
  ReadRef.readBytesAt data (fileRange s).1 (fileRange s).2

/-- `Result::ok`. -/
def okOpt {α : Type} : Res α → Option α
  | .ok a => some a
  | _ => none

/-- `ImageSectionHeader::pe_data_at`, src/read/pe/section.rs:431-434 (`read_bytes_at` does not panic). -/
def dataAt1 (s : Coff.Section) (data : List UInt8) (va : Nat) : Option (List UInt8) :=
  match fileRangeAt1 s va with
  | none => none
  | some (offset, size) => okOpt (ReadRef.readBytesAt data offset size)

/-- `ImageSectionHeader::contains_rva`, src/read/pe/section.rs:437-446. -/
def containsRva (s : Coff.Section) (va : Nat) : Bool :=
  if va < s.virtualAddress then false else decide (va - s.virtualAddress < s.virtualSize)

/-- `ImageSectionHeader::pe_data_containing`, src/read/pe/section.rs:453-470. -/
def dataContaining1 (s : Coff.Section) (data : List UInt8) (va : Nat) : Option (List UInt8 × Nat) :=
  if va < s.virtualAddress then none
  else
    let offset := va - s.virtualAddress
    let (sectionOffset, sectionSize) := fileRange s
    if offset < sectionSize then
      match okOpt (ReadRef.readBytesAt data sectionOffset sectionSize) with
      | some d => some (d, s.virtualAddress)
      | none => none
    else none

/-- `SectionTable::pe_file_range_at`, src/read/pe/section.rs:345-347. -/
def fileRangeAt (ss : List Coff.Section) (va : Nat) : Option (Nat × Nat) := ss.findSome? fun s => fileRangeAt1 s va

/-- `SectionTable::pe_data_at`, src/read/pe/section.rs:355-357. -/
def dataAt (ss : List Coff.Section) (data : List UInt8) (va : Nat) : Option (List UInt8) := ss.findSome? fun s => dataAt1 s data va

/-- `SectionTable::pe_data_containing`, src/read/pe/section.rs:364-371. -/
def dataContaining (ss : List Coff.Section) (data : List UInt8) (va : Nat) : Option (List UInt8 × Nat) :=
  ss.findSome? fun s => dataContaining1 s data va

/-- `SectionTable::section_containing`, src/read/pe/section.rs:374-376. -/
def sectionContaining (ss : List Coff.Section) (va : Nat) : Option Coff.Section := ss.find? fun s => containsRva s va

/-! ## Data directories -/

/-- `ImageDataDirectory`, src/pe.rs:460-463. -/
structure DataDir where
  virtualAddress : Nat
  size : Nat
  deriving DecidableEq, Repr

/-- `DataDirectories::parse`, src/read/pe/data_directory.rs:27-32. -/
def parseDirs (data : List UInt8) (number : Nat) : Res (List DataDir) :=
  (Elf.readSliceAt data 0 8 number).bind fun imgs => .ok (imgs.map fun i => ⟨field .little i 0 4, field .little i 4 4⟩)

/-- `DataDirectories::get`, src/read/pe/data_directory.rs:56-60. -/
def getDir (dirs : List DataDir) (index : Nat) : Option DataDir :=
  match dirs[index]? with
  | some d => if d.virtualAddress ≠ 0 then some d else none
  | none => none

/-- `ImageDataDirectory::file_range`, src/read/pe/data_directory.rs:177-186. -/
def DataDir.fileRange (d : DataDir) (ss : List Coff.Section) : Res (Nat × Nat) :=
  match fileRangeAt ss d.virtualAddress with
  | none => .err
  | some (offset, sectionSize) => if sectionSize < d.size then .err else .ok (offset, d.size)

/-- `ImageDataDirectory::data`, src/read/pe/data_directory.rs:196-206. -/
def DataDir.data (d : DataDir) (data : List UInt8) (ss : List Coff.Section) : Res (List UInt8) :=
  match dataAt ss data d.virtualAddress with
  | none => .err
  | some bytes => if bytes.length < d.size then .err else .ok (bytes.take d.size)

/-! ## Exports -/

/-- `u32::wrapping_sub`, for `u32` arguments. -/
def wsub (a b : Nat) : Nat := if b ≤ a then a - b else a + U32 - b

/-- `Bytes::read_slice_at`, src/read/util.rs:136-139. -/
def bytesSliceAt (data : List UInt8) (offset size count : Nat) : Res (List (List UInt8)) :=
  match Bytes.skip data offset with
  | (.ok (), tl) => (Bytes.readSlice tl size count).1
  | (.err, _) => .err
  | (.panic, _) => .panic

/-- The fields of `ImageExportDirectory` that are used, src/pe.rs:2222-2237 (40 bytes). -/
structure ExportDir where
  base : Nat
  numberOfFunctions : Nat
  numberOfNames : Nat
  addressOfFunctions : Nat
  addressOfNames : Nat
  addressOfNameOrdinals : Nat
  deriving DecidableEq, Repr

/-- `ExportTable::parse_directory`, src/read/pe/export.rs:200-203. -/
def parseExportDir (data : List UInt8) : Res ExportDir :=
  (ReadRef.readBytesAt data 0 40).bind fun i =>
  .ok ⟨field .little i 16 4, field .little i 20 4, field .little i 24 4, field .little i 28 4, field .little i 32 4, field .little i 36 4⟩

/-- `ExportTable`, src/read/pe/export.rs:127-135; the tables hold the decoded entries. -/
structure ExportTable where
  data : List UInt8
  virtualAddress : Nat
  ordinalBase : Nat
  addresses : List Nat
  names : List Nat
  nameOrdinals : List Nat
  deriving DecidableEq, Repr

/-- `ExportTable::parse`, src/read/pe/export.rs:139-197. -/
def ExportTable.parse (data : List UInt8) (va : Nat) : Res ExportTable :=
  (parseExportDir data).bind fun dir =>
  if U16 ≤ dir.base then .err
  else
    let addresses : Res (List Nat) :=
      if dir.addressOfFunctions ≠ 0 then
        let maxIndex := (U16 - 1) - dir.base
        if maxIndex + 1 < dir.numberOfFunctions then .err
        else (bytesSliceAt data (wsub dir.addressOfFunctions va) 4 dir.numberOfFunctions).bind fun l => .ok (l.map (rd .little))
      else .ok []
    addresses.bind fun addresses =>
    let names : Res (List Nat × List Nat) :=
      if dir.addressOfNames ≠ 0 then
        if dir.addressOfNameOrdinals = 0 then .err
        else
          (bytesSliceAt data (wsub dir.addressOfNames va) 4 dir.numberOfNames).bind fun n =>
          (bytesSliceAt data (wsub dir.addressOfNameOrdinals va) 2 dir.numberOfNames).bind fun o =>
          .ok (n.map (rd .little), o.map (rd .little))
      else .ok ([], [])
    names.bind fun (names, ordinals) =>
    .ok ⟨data, va, dir.base, addresses, names, ordinals⟩

/-- `DataDirectories::export_table`, src/read/pe/data_directory.rs:84-96; `IMAGE_DIRECTORY_ENTRY_EXPORT = 0`. -/
def exportTable (dirs : List DataDir) (data : List UInt8) (ss : List Coff.Section) : Res (Option ExportTable) :=
  match getDir dirs 0 with
  | none => .ok none
  | some d => (d.data data ss).bind fun bytes => (ExportTable.parse bytes d.virtualAddress).bind fun t => .ok (some t)

/-- `ExportTable::ordinal_from_index`, src/read/pe/export.rs:220-225; the `u16` sum can panic. -/
def ExportTable.ordinalFromIndex (t : ExportTable) (index : Nat) : Res Nat :=
  if t.addresses.length ≤ index then .err
  else if U16 ≤ t.ordinalBase + index then .panic
  else .ok (t.ordinalBase + index)

/-- `ExportTable::index_from_ordinal`, src/read/pe/export.rs:230-236; `wrapping_sub` on `u16`. -/
def ExportTable.indexFromOrdinal (t : ExportTable) (ordinal : Nat) : Res Nat :=
  let index := (ordinal + U16 - t.ordinalBase) % U16
  if t.addresses.length ≤ index then .err else .ok index

/-- `ExportTable::address_by_index`, src/read/pe/export.rs:294-300. -/
def ExportTable.addressByIndex (t : ExportTable) (index : Nat) : Res Nat := Res.ofOption t.addresses[index]?

/-- `ExportTable::address_by_ordinal`, src/read/pe/export.rs:306-309. -/
def ExportTable.addressByOrdinal (t : ExportTable) (ordinal : Nat) : Res Nat :=
  (t.indexFromOrdinal ordinal).bind fun index => t.addressByIndex index

/-- `ExportTarget`, src/read/pe/export.rs:50-61. -/
inductive ExportTarget where
  | address (a : Nat)
  | forwardByOrdinal (library : List UInt8) (ordinal : Nat)
  | forwardByName (library name : List UInt8)
  deriving DecidableEq, Repr

/-- `forward_offset` and `forward_string`, src/read/pe/export.rs:347-371. -/
def ExportTable.forwardString (t : ExportTable) (address : Nat) : Res (Option (List UInt8)) :=
  let offset := wsub address t.virtualAddress
  if offset < t.data.length then (Bytes.readStringAt t.data offset).bind fun s => .ok (some s) else .ok none

/-- `slice::iter().rposition(..)`: the index of the last occurrence. -/
def rposition (c : UInt8) (l : List UInt8) : Option Nat :=
  match memchr c l.reverse with
  | some i => some (l.length - 1 - i)
  | none => none

/-- The loop of `parse_ordinal`, src/read/pe/export.rs:412-416. -/
def ordinalLoop : List UInt8 → Nat → Option Nat
  | [], result => some result
  | c :: cs, result =>
    if 48 ≤ c.toNat ∧ c.toNat ≤ 57 then
      if U16 ≤ result * 10 then none
      else if U16 ≤ result * 10 + (c.toNat - 48) then none
      else ordinalLoop cs (result * 10 + (c.toNat - 48))
    else none

/-- `parse_ordinal`, src/read/pe/export.rs:407-418. -/
def parseOrdinal (digits : List UInt8) : Option Nat := if digits = [] then none else ordinalLoop digits 0

/-- `ExportTable::target_from_address`, src/read/pe/export.rs:324-345. -/
def ExportTable.targetFromAddress (t : ExportTable) (address : Nat) : Res ExportTarget :=
  (t.forwardString address).bind fun f =>
  match f with
  | none => .ok (.address address)
  | some forward =>
    match rposition 46 forward with
    | none => .err
    | some i =>
      let library := forward.take i
      match forward.drop (i + 1) with
      | [] => .err
      | c :: digits =>
        if c = 35 then (Res.ofOption (parseOrdinal digits)).bind fun o => .ok (.forwardByOrdinal library o)
        else .ok (.forwardByName library (c :: digits))

/-- `ExportTable::target_by_index`, src/read/pe/export.rs:314-316. -/
def ExportTable.targetByIndex (t : ExportTable) (index : Nat) : Res ExportTarget :=
  (t.addressByIndex index).bind t.targetFromAddress

/-- `ExportTable::target_by_ordinal`, src/read/pe/export.rs:319-321. -/
def ExportTable.targetByOrdinal (t : ExportTable) (ordinal : Nat) : Res ExportTarget :=
  (t.addressByOrdinal ordinal).bind t.targetFromAddress

/-- `ExportTable::name_from_pointer`, src/read/pe/export.rs:374-379. -/
def ExportTable.nameFromPointer (t : ExportTable) (pointer : Nat) : Res (List UInt8) :=
  Bytes.readStringAt t.data (wsub pointer t.virtualAddress)

/-- `Export`, src/read/pe/export.rs:82-91. -/
structure Export where
  ordinal : Nat
  name : Option (List UInt8)
  target : ExportTarget
  deriving DecidableEq, Repr

/-- The first loop of `ExportTable::exports`, src/read/pe/export.rs:385-393, with `address_iter`,
src/read/pe/export.rs:247-258; `ordinal_base + i as u16` can panic. -/
def ExportTable.exportsLoop (t : ExportTable) : Nat → List Nat → Res (List Export)
  | _, [] => .ok []
  | i, a :: as =>
    if U16 ≤ t.ordinalBase + i % U16 then .panic
    else (t.targetFromAddress a).bind fun target =>
      (t.exportsLoop (i + 1) as).bind fun es => .ok (⟨t.ordinalBase + i % U16, none, target⟩ :: es)

/-- The second loop of `ExportTable::exports`, src/read/pe/export.rs:397-403. -/
def ExportTable.namesLoop (t : ExportTable) : List (Nat × Nat) → List Export → Res (List Export)
  | [], es => .ok es
  | (pointer, index) :: rest, es =>
    (t.nameFromPointer pointer).bind fun name =>
    match es[index]? with
    | none => .err
    | some e => t.namesLoop rest (es.set index { e with name := some name })

/-- `ExportTable::exports`, src/read/pe/export.rs:382-405. -/
def ExportTable.exports (t : ExportTable) : Res (List Export) :=
  (t.exportsLoop 0 t.addresses).bind fun es => t.namesLoop (t.names.zip t.nameOrdinals) es

/-- `read::NameOrOrdinal`, src/read/mod.rs. -/
inductive NameOrOrdinal where
  | name (n : List UInt8)
  | ordinal (o : Nat)
  deriving DecidableEq, Repr

/-- `read::ExportTarget` for PE. -/
inductive GTarget where
  | address (a : Nat)
  | reexport (library : List UInt8) (name : NameOrOrdinal)
  deriving DecidableEq, Repr

/-- `read::Export` for PE; `weak` is false, the flags are the ordinal. -/
structure GExport where
  name : NameOrOrdinal
  target : GTarget
  ordinal : Nat
  deriving DecidableEq, Repr

/-- `PeExportIterator`, src/read/pe/export.rs:421-432. -/
structure ExportIter where
  imageBase : Nat
  table : Option ExportTable
  index : Nat
  addresses : Bool
  seen : List Bool
  deriving DecidableEq, Repr

/-- `PeExportIterator::new`, src/read/pe/export.rs:438-452. -/
def ExportIter.new (imageBase : Nat) (table : Option ExportTable) : ExportIter :=
  ⟨imageBase, table, 0, false, match table with | some t => List.replicate t.addresses.length false | none => []⟩

/-- `PeExportIterator::export`, src/read/pe/export.rs:500-526. -/
def exportItem (imageBase : Nat) (t : ExportTable) (address ordinal : Nat) (name : NameOrOrdinal) : Res (Option GExport) :=
  (t.targetFromAddress address).bind fun target =>
  .ok (some ⟨name, match target with
    | .address a => .address ((imageBase + a) % U64)
    | .forwardByName l n => .reexport l (.name n)
    | .forwardByOrdinal l o => .reexport l (.ordinal o), ordinal⟩)

/-- The loop over the addresses in `PeExportIterator::next`, src/read/pe/export.rs:483-498; `self.seen[index]` can panic.  The
addresses from `index` on are passed as a list. -/
def ExportIter.addressLoop (it : ExportIter) (t : ExportTable) : Nat → List Nat → Res (Option GExport) × ExportIter
  | index, [] => (.ok none, { it with index := index })
  | index, address :: rest =>
    match it.seen[index]? with
    | none => (.panic, { it with index := index + 1 })
    | some seen =>
      if seen = true ∨ address = 0 then it.addressLoop t (index + 1) rest
      else
        ((t.ordinalFromIndex (index % U16)).bind fun ordinal => exportItem it.imageBase t address ordinal (.ordinal ordinal),
          { it with index := index + 1 })

/-- `PeExportIterator::next`, src/read/pe/export.rs:454-498. -/
def ExportIter.next (it : ExportIter) : Res (Option GExport) × ExportIter :=
  match it.table with
  | none => (.ok none, it)
  | some t =>
    let byAddress (it : ExportIter) := it.addressLoop t it.index (t.addresses.drop it.index)
    if it.addresses = false then
      match t.names[it.index]?, t.nameOrdinals[it.index]? with
      | some pointer, some addressIndex =>
        let it := { it with index := it.index + 1, seen := if addressIndex < it.seen.length then it.seen.set addressIndex true else it.seen }
        ((t.addressByIndex addressIndex).bind fun address =>
          (t.ordinalFromIndex addressIndex).bind fun ordinal =>
          (t.nameFromPointer pointer).bind fun name =>
          exportItem it.imageBase t address ordinal (.name name), it)
      | _, _ => byAddress { it with index := 0, addresses := true }
    else byAddress it

end Obj.Pe

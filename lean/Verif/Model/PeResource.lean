import Verif.Model.Pe

/-!
# Model of PE resources, `src/read/pe/resource.rs`
-/

namespace Obj.Pe
open Obj

/-- `ImageResourceDirectory`, src/pe.rs:2432-2439 (16 bytes). -/
structure ResHeader where
  characteristics : Nat
  timeDateStamp : Nat
  majorVersion : Nat
  minorVersion : Nat
  numberOfNamedEntries : Nat
  numberOfIdEntries : Nat
  deriving DecidableEq, Repr

/-- The fields of `ImageResourceDirectory`, src/pe.rs:2432-2439. -/
def ResHeader.parse (i : List UInt8) : ResHeader :=
  ⟨field .little i 0 4, field .little i 4 4, field .little i 8 2, field .little i 10 2, field .little i 12 2, field .little i 14 2⟩

/-- `ImageResourceDirectoryEntry`, src/pe.rs:2460-2463 (8 bytes). -/
structure ResEntry where
  nameOrId : Nat
  offsetToDataOrDirectory : Nat
  deriving DecidableEq, Repr

/-- The fields of `ImageResourceDirectoryEntry`, src/pe.rs:2460-2463. -/
def ResEntry.parse (i : List UInt8) : ResEntry := ⟨field .little i 0 4, field .little i 4 4⟩

/-- `ResourceDirectoryTable`, src/read/pe/resource.rs:30-35. -/
structure ResTable where
  header : ResHeader
  entries : List ResEntry
  deriving DecidableEq, Repr

/-- `ResourceDirectoryTable::parse`, src/read/pe/resource.rs:38-49. -/
def ResTable.parse (data : List UInt8) (offset : Nat) : Res ResTable :=
  match ReadRef.read data offset 16 with
  | (.ok img, offset) =>
    let header := ResHeader.parse img
    match ReadRef.readSlice data offset 8 (header.numberOfIdEntries + header.numberOfNamedEntries) with
    | (.ok es, _) => .ok ⟨header, es.map ResEntry.parse⟩
    | (.err, _) => .err
    | (.panic, _) => .panic
  | (.err, _) => .err
  | (.panic, _) => .panic

/-- `ResourceDirectory::root`, src/read/pe/resource.rs:23-25; the directory is its data. -/
def resRoot (data : List UInt8) : Res ResTable := ResTable.parse data 0

/-- `ResourceNameOrId`, src/read/pe/resource.rs:180-185; a `ResourceName` is its offset. -/
inductive ResName where
  | name (offset : Nat)
  | id (i : Nat)
  deriving DecidableEq, Repr

/-- `ImageResourceDirectoryEntry::has_name`, src/read/pe/resource.rs:54-56; `IMAGE_RESOURCE_NAME_IS_STRING`, src/pe.rs:2441. -/
def ResEntry.hasName (e : ResEntry) : Bool := e.nameOrId &&& 0x80000000 ≠ 0

/-- `ImageResourceDirectoryEntry::name_or_id`, src/read/pe/resource.rs:74-80, with `name`, src/read/pe/resource.rs:61-64
(`!0x8000_0000` is `0x7fff_ffff`), and `id`, src/read/pe/resource.rs:69-71. -/
def ResEntry.nameOrIdOf (e : ResEntry) : ResName :=
  if e.hasName then .name (e.nameOrId &&& 0x7fffffff) else .id ((e.nameOrId &&& 0xffff) % U16)

/-- `ImageResourceDirectoryEntry::is_table`, src/read/pe/resource.rs:83-85. -/
def ResEntry.isTable (e : ResEntry) : Bool := e.offsetToDataOrDirectory &&& 0x80000000 ≠ 0

/-- `ImageResourceDirectoryEntry::data_offset`, src/read/pe/resource.rs:88-90. -/
def ResEntry.dataOffset (e : ResEntry) : Nat := e.offsetToDataOrDirectory &&& 0x7fffffff

/-- `ImageResourceDataEntry`, src/pe.rs:2499-2505 (16 bytes). -/
structure ResData where
  offsetToData : Nat
  size : Nat
  codePage : Nat
  reserved : Nat
  deriving DecidableEq, Repr

/-- The fields of `ImageResourceDataEntry`, src/pe.rs:2499-2505. -/
def ResData.parse (i : List UInt8) : ResData := ⟨field .little i 0 4, field .little i 4 4, field .little i 8 4, field .little i 12 4⟩

/-- `ResourceDirectoryEntryData`, src/read/pe/resource.rs:112-117. -/
inductive ResNode where
  | table (t : ResTable)
  | data (d : ResData)
  deriving DecidableEq, Repr

/-- `ImageResourceDirectoryEntry::data`, src/read/pe/resource.rs:93-107. -/
def ResEntry.data (e : ResEntry) (dir : List UInt8) : Res ResNode :=
  if e.isTable then (ResTable.parse dir e.dataOffset).bind fun t => .ok (.table t)
  else (ReadRef.readBytesAt dir e.dataOffset 16).bind fun i => .ok (.data (ResData.parse i))

/-- `ResourceName::data`, src/read/pe/resource.rs:158-168. -/
def resNameData (offset : Nat) (dir : List UInt8) : Res (List Nat) :=
  match ReadRef.read dir offset 2 with
  | (.ok l, offset) =>
    match ReadRef.readSlice dir offset 2 (rd .little l) with
    | (.ok us, _) => .ok (us.map (rd .little))
    | (.err, _) => .err
    | (.panic, _) => .panic
  | (.err, _) => .err
  | (.panic, _) => .panic

/-- `ResourceName::raw_data`, src/read/pe/resource.rs:171-173: the bytes of the slice. -/
def resNameRaw (offset : Nat) (dir : List UInt8) : Res (List UInt8) :=
  match ReadRef.read dir offset 2 with
  | (.ok l, offset) =>
    match ReadRef.readSlice dir offset 2 (rd .little l) with
    | (.ok us, _) => .ok us.flatten
    | (.err, _) => .err
    | (.panic, _) => .panic
  | (.err, _) => .err
  | (.panic, _) => .panic

/-- `char::decode_utf16` of the Rust standard library with errors replaced by U+FFFD, as used in `ResourceName::to_string_lossy`,
src/read/pe/resource.rs:149-155.  A string is the list of its scalar values. -/
def decodeUtf16 : List Nat → List Nat
  | [] => []
  | u :: us =>
    if u &&& 0xf800 ≠ 0xd800 then u :: decodeUtf16 us
    else if 0xdc00 ≤ u then 0xfffd :: decodeUtf16 us
    else match us with
      | [] => [0xfffd]
      | u2 :: rest =>
        if u2 < 0xdc00 ∨ 0xdfff < u2 then 0xfffd :: decodeUtf16 (u2 :: rest)
        else ((((u &&& 0x3ff) <<< 10) ||| (u2 &&& 0x3ff)) + 0x10000) :: decodeUtf16 rest

/-- `ResourceName::to_string_lossy`, src/read/pe/resource.rs:149-155. -/
def resNameString (offset : Nat) (dir : List UInt8) : Res (List Nat) := (resNameData offset dir).bind fun us => .ok (decodeUtf16 us)

/-- `DataDirectories::resource_directory`, src/read/pe/data_directory.rs:153-164; `IMAGE_DIRECTORY_ENTRY_RESOURCE = 2`. -/
def resourceDirectory (dirs : List DataDir) (data : List UInt8) (ss : List Coff.Section) : Res (Option (List UInt8)) :=
  match getDir dirs 2 with
  | none => .ok none
  | some d => (d.data data ss).bind fun b => .ok (some b)

end Obj.Pe

import Verif.Model.Iter
import Verif.Model.Endian
import Verif.Model.WriteUtil

/-!
# Model of ELF attributes sections

* `src/read/elf/attributes.rs`;
* `AttributesWriter`, src/write/elf/encoder.rs:1349-1478.
-/

namespace Obj.Attr
open Obj

/-! ## Writer -/

/-- `AttributesWriter`, src/write/elf/encoder.rs:1355-1360. -/
structure Writer where
  endian : Endianness
  data : List UInt8
  subsection : Nat
  subsubsection : Nat
  deriving DecidableEq, Repr

/-- `AttributesWriter::new`, src/write/elf/encoder.rs:1364-1371. -/
def Writer.new (e : Endianness) : Writer := ⟨e, [0x41], 0, 0⟩

/-- `AttributesWriter::offset`, src/write/elf/encoder.rs:1373-1375: `len() as u32`. -/
def Writer.offset (w : Writer) : Nat := w.data.length % U32

/-- `self.data[offset..][..4].copy_from_slice(..)`, src/write/elf/encoder.rs:1394-1395 and 1465-1466; panics if the range is
not in the data. -/
def patch (data : List UInt8) (off : Nat) (bytes : List UInt8) : Res (List UInt8) :=
  if data.length < off + bytes.length then .panic
  else .ok (data.take off ++ bytes ++ data.drop (off + bytes.length))

/-- `start_subsection`, src/write/elf/encoder.rs:1378-1385. -/
def Writer.startSubsection (w : Writer) (vendor : List UInt8) : Res Writer :=
  if w.subsection ≠ 0 then .panic
  else if w.subsubsection ≠ 0 then .panic
  else .ok { w with subsection := w.offset, data := w.data ++ [0, 0, 0, 0] ++ vendor ++ [0] }

/-- `end_subsection`, src/write/elf/encoder.rs:1390-1397. -/
def Writer.endSubsection (w : Writer) : Res Writer :=
  if w.subsection = 0 then .panic
  else if w.subsubsection ≠ 0 then .panic
  else if w.offset < w.subsection then .panic
  else (patch w.data w.subsection (wr w.endian 4 (w.offset - w.subsection))).bind fun data =>
    .ok { w with data := data, subsection := 0 }

/-- `start_subsubsection`, src/write/elf/encoder.rs:1400-1406. -/
def Writer.startSubsubsection (w : Writer) (tag : UInt8) : Res Writer :=
  if w.subsection = 0 then .panic
  else if w.subsubsection ≠ 0 then .panic
  else .ok { w with subsubsection := w.offset, data := w.data ++ [tag] ++ [0, 0, 0, 0] }

/-- The assertions of the functions that write in a sub-subsection, e.g. src/write/elf/encoder.rs:1412-1413. -/
def Writer.append (w : Writer) (bytes : List UInt8) : Res Writer :=
  if w.subsection = 0 then .panic
  else if w.subsubsection = 0 then .panic
  else .ok { w with data := w.data ++ bytes }

/-- `write_subsubsection_index`, src/write/elf/encoder.rs:1411-1415. -/
def Writer.index (w : Writer) (index : Nat) : Res Writer := w.append (writeUleb [] index).1

/-- `write_subsubsection_indices`, src/write/elf/encoder.rs:1420-1425. -/
def Writer.indices (w : Writer) (indices : List UInt8) : Res Writer := w.append (indices ++ [0])

/-- `write_attribute_tag` and `write_attribute_integer`, src/write/elf/encoder.rs:1428-1439. -/
def Writer.integer (w : Writer) (value : Nat) : Res Writer := w.append (writeUleb [] value).1

/-- `write_attribute_string`, src/write/elf/encoder.rs:1444-1449. -/
def Writer.string (w : Writer) (value : List UInt8) : Res Writer := w.append (value ++ [0])

/-- `write_subsubsection_attributes`, src/write/elf/encoder.rs:1452-1456. -/
def Writer.attributes (w : Writer) (attributes : List UInt8) : Res Writer := w.append attributes

/-- `end_subsubsection`, src/write/elf/encoder.rs:1461-1468. -/
def Writer.endSubsubsection (w : Writer) : Res Writer :=
  if w.subsection = 0 then .panic
  else if w.subsubsection = 0 then .panic
  else if w.offset < w.subsubsection then .panic
  else (patch w.data (w.subsubsection + 1) (wr w.endian 4 (w.offset - w.subsubsection))).bind fun data =>
    .ok { w with data := data, subsubsection := 0 }

/-- `AttributesWriter::data`, src/write/elf/encoder.rs:1471-1476. -/
def Writer.finish (w : Writer) : Res (List UInt8) :=
  if w.subsection ≠ 0 then .panic
  else if w.subsubsection ≠ 0 then .panic
  else if ¬ w.data.length < U32 - 1 then .panic
  else .ok w.data

/-! ## Reader -/

/-- `AttributesSection::new`, src/read/elf/attributes.rs:26-38: the version and the rest. -/
def sectionNew (data : List UInt8) : UInt8 × List UInt8 :=
  match data with
  | [] => (0x41, [])
  | v :: tl => (v, tl)

/-- `AttributesSection::subsections`, src/read/elf/attributes.rs:46-56: the initial state of the iterator. -/
def subsections (version : UInt8) (data : List UInt8) : Res (List UInt8) :=
  if version ≠ 0x41 then .err else .ok data

/-- `AttributesSubsection`, src/read/elf/attributes.rs:124-129. -/
structure Subsection where
  length : Nat
  vendor : List UInt8
  data : List UInt8
  deriving DecidableEq, Repr

/-- `AttributesSubsectionIterator::parse`, src/read/elf/attributes.rs:80-108. -/
def parseSubsection (e : Endianness) (data : List UInt8) : Res Subsection × List UInt8 :=
  match Bytes.read data 4 with
  | (.ok img, _) =>
    match Bytes.readBytes data (rd e img) with
    | (.ok sub, tl) =>
      match Bytes.skip sub 4 with
      | (.ok (), sub) =>
        match Bytes.readString sub with
        | (.ok vendor, sub) => (.ok ⟨rd e img, vendor, sub⟩, tl)
        | (.err, _) => (.err, tl)
        | (.panic, _) => (.panic, tl)
      | (.err, _) => (.err, tl)
      | (.panic, _) => (.panic, tl)
    | (.err, tl) => (.err, tl)
    | (.panic, tl) => (.panic, tl)
  | (.err, _) => (.err, data)
  | (.panic, _) => (.panic, data)

/-- `AttributesSubsectionIterator::next`, src/read/elf/attributes.rs:68-78. -/
def subsectionNext (e : Endianness) : List UInt8 → Res (Option Subsection) × List UInt8 := fuseNext (parseSubsection e)

/-- `AttributesSubsubsection`, src/read/elf/attributes.rs:231-236. -/
structure Subsubsection where
  tag : UInt8
  length : Nat
  indices : List UInt8
  data : List UInt8
  deriving DecidableEq, Repr

/-- `AttributesSubsubsectionIterator::parse`, src/read/elf/attributes.rs:172-215; `Tag_File`, `Tag_Section` and `Tag_Symbol`
are 1, 2 and 3. -/
def parseSubsubsection (e : Endianness) (data : List UInt8) : Res Subsubsection × List UInt8 :=
  match Bytes.read data 1 with
  | (.ok t, d1) =>
    match Bytes.read d1 4 with
    | (.ok img, _) =>
      match Bytes.readBytes data (rd e img) with
      | (.ok sub, tl) =>
        match Bytes.skip sub 5 with
        | (.ok (), sub) =>
          if t = [2] ∨ t = [3] then
            match Bytes.readString sub with
            | (.ok indices, sub) => (.ok ⟨t.headD 0, rd e img, indices, sub⟩, tl)
            | (.err, _) => (.err, tl)
            | (.panic, _) => (.panic, tl)
          else if t = [1] then (.ok ⟨t.headD 0, rd e img, [], sub⟩, tl)
          else (.err, tl)
        | (.err, _) => (.err, tl)
        | (.panic, _) => (.panic, tl)
      | (.err, tl) => (.err, tl)
      | (.panic, tl) => (.panic, tl)
    | (.err, _) => (.err, data)
    | (.panic, _) => (.panic, data)
  | (.err, _) => (.err, data)
  | (.panic, _) => (.panic, data)

/-- `AttributesSubsubsectionIterator::next`, src/read/elf/attributes.rs:160-170. -/
def subsubsectionNext (e : Endianness) : List UInt8 → Res (Option Subsubsection) × List UInt8 := fuseNext (parseSubsubsection e)

/-- `AttributeIndexIterator::parse`, src/read/elf/attributes.rs:294-302. -/
def parseIndex (data : List UInt8) : Res Nat × List UInt8 :=
  match Bytes.readUleb data with
  | (.ok v, tl) => if v < U32 then (.ok v, tl) else (.err, tl)
  | (.err, tl) => (.err, tl)
  | (.panic, tl) => (.panic, tl)

/-- `AttributeIndexIterator::next`, src/read/elf/attributes.rs:282-292. -/
def indexNext : List UInt8 → Res (Option Nat) × List UInt8 := fuseNext parseIndex

/-- `AttributeReader::read_tag`, src/read/elf/attributes.rs:323-329. -/
def readTag (data : List UInt8) : Res (Option Nat) × List UInt8 :=
  if data = [] then (.ok none, data)
  else match Bytes.readUleb data with
    | (.ok v, tl) => (.ok (some v), tl)
    | (.err, tl) => (.err, tl)
    | (.panic, tl) => (.panic, tl)

/-- `AttributeReader::read_integer`, src/read/elf/attributes.rs:332-335. -/
def readInteger (data : List UInt8) : Res Nat × List UInt8 := Bytes.readUleb data

/-- `AttributeReader::read_string`, src/read/elf/attributes.rs:338-341. -/
def readStr (data : List UInt8) : Res (List UInt8) × List UInt8 := Bytes.readString data

end Obj.Attr

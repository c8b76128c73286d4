import Verif.Model.Elf
import Verif.Model.Common

/-!
# Model of COFF short import files, `src/read/coff/import.rs`

All fields are little endian.
-/

namespace Obj.CoffImport
open Obj

/-- `ImportObjectHeader`, src/pe.rs:3624-3645. -/
structure Header where
  sig1 : Nat
  sig2 : Nat
  version : Nat
  machine : Nat
  timeDateStamp : Nat
  sizeOfData : Nat
  ordinalOrHint : Nat
  nameType : Nat
  deriving DecidableEq, Repr

/-- The fields of an image. -/
def Header.decode (img : List UInt8) : Header :=
  let f := Obj.decode .little [2, 2, 2, 2, 4, 4, 2, 2] img
  ⟨f.getD 0 0, f.getD 1 0, f.getD 2 0, f.getD 3 0, f.getD 4 0, f.getD 5 0, f.getD 6 0, f.getD 7 0⟩

/-- `ImportObjectFlags::new`, src/pe.rs:3659-3663. -/
def flags (importType nameType : Nat) : Nat := (importType &&& 3) ||| (nameType &&& 7) <<< 2

/-- `ImportObjectHeader::import_type`, src/read/coff/import.rs:189-191 and src/pe.rs:3666-3668. -/
def Header.importType (h : Header) : Nat := h.nameType &&& 3

/-- `ImportObjectHeader::name_type`, src/read/coff/import.rs:194-196 and src/pe.rs:3671-3673. -/
def Header.importNameType (h : Header) : Nat := (h.nameType >>> 2) &&& 7

/-- `ImportObjectHeader::parse`, src/read/coff/import.rs:138-152, at offset 0. -/
def Header.parse (data : List UInt8) : Res Header :=
  (ReadRef.readBytesAt data 0 20).bind fun img =>
    if (Header.decode img).sig1 ≠ 0 ∨ (Header.decode img).sig2 ≠ 0xffff then .err
    else if (Header.decode img).version ≠ 0 then .err
    else .ok (Header.decode img)

/-- `ImportObjectData`, src/read/coff/import.rs:200-206. -/
structure Strings where
  symbol : List UInt8
  dll : List UInt8
  exportName : Option (List UInt8)
  deriving DecidableEq, Repr

/-- The optional third string, src/read/coff/import.rs:173-180. -/
def exportString (nameType : Nat) (data : List UInt8) : Res (Option (List UInt8)) :=
  if nameType = 4 then (Bytes.readString data).1.bind fun s => .ok (some s) else .ok none

/-- `ImportObjectHeader::parse_data`, src/read/coff/import.rs:155-186, at the end of the header. -/
def Header.parseData (h : Header) (data : List UInt8) : Res Strings :=
  (ReadRef.readBytesAt data 20 h.sizeOfData).bind fun bytes =>
    (Bytes.readString bytes).1.bind fun symbol =>
      (Bytes.readString (Bytes.readString bytes).2).1.bind fun dll =>
        (exportString h.importNameType (Bytes.readString (Bytes.readString bytes).2).2).bind fun e =>
          .ok ⟨symbol, dll, e⟩

/-- `strip_prefix`, src/read/coff/import.rs:35-40: `?`, `@` or `_`. -/
def stripPrefix : List UInt8 → List UInt8
  | [] => []
  | b :: rest => if b = 0x3f ∨ b = 0x40 ∨ b = 0x5f then rest else b :: rest

/-- `.split(|&b| b == b'@').next().unwrap()`. -/
def beforeAt (s : List UInt8) : List UInt8 := s.takeWhile (· != 0x40)

/-- `ImportType`, src/read/coff/import.rs:122-130. -/
inductive Kind where
  | code | data | const
  deriving DecidableEq, Repr

/-- `ImportFile`, src/read/coff/import.rs:20-26. -/
structure File where
  header : Header
  kind : Kind
  dll : List UInt8
  symbol : List UInt8
  importAs : Option (List UInt8)
  deriving DecidableEq, Repr

/-- The `match` on the import type, src/read/coff/import.rs:45-50. -/
def kindOf (t : Nat) : Res Kind := if t = 0 then .ok .code else if t = 1 then .ok .data else if t = 2 then .ok .const else .err

/-- The `match` on the name type, src/read/coff/import.rs:51-64. -/
def nameOf (t : Nat) (s : Strings) : Res (Option (List UInt8)) :=
  if t = 0 then .ok none
  else if t = 1 then .ok (some s.symbol)
  else if t = 2 then .ok (some (stripPrefix s.symbol))
  else if t = 3 then .ok (some (beforeAt (stripPrefix s.symbol)))
  else if t = 4 then .ok s.exportName
  else .err

/-- `ImportFile::parse`, src/read/coff/import.rs:30-66. -/
def File.parse (data : List UInt8) : Res File :=
  (Header.parse data).bind fun h =>
    (h.parseData data).bind fun s =>
      (kindOf h.importType).bind fun k =>
        (nameOf h.importNameType s).bind fun n =>
          .ok ⟨h, k, s.dll, s.symbol, n⟩

/-- `ImportName`, src/read/coff/import.rs:112-118. -/
inductive Name where
  | ordinal (n : Nat)
  | name (s : List UInt8)
  deriving DecidableEq, Repr

/-- `ImportFile::import`, src/read/coff/import.rs:98-103. -/
def File.importName (f : File) : Name :=
  match f.importAs with
  | some n => .name n
  | none => .ordinal f.header.ordinalOrHint

/-- `ImportFile::architecture`, src/read/coff/import.rs:69-77. -/
def File.architecture (f : File) : Arch :=
  if f.header.machine = 0x1c4 then .arm
  else if f.header.machine = 0xaa64 ∨ f.header.machine = 0xa641 then .aarch64
  else if f.header.machine = 0x14c then .i386
  else if f.header.machine = 0x8664 then .x86_64
  else .unknown

/-- `ImportFile::sub_architecture`, src/read/coff/import.rs:80-85: whether it is `Arm64EC`. -/
def File.arm64EC (f : File) : Bool := f.header.machine = 0xa641

end Obj.CoffImport

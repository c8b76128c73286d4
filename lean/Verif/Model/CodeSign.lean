import Verif.Model.Elf

/-!
# Model of Mach-O code signatures

`src/read/macho/codesign.rs` and `CodeSignatureEncoder` of `src/write/macho/encoder.rs`.  All fields are big endian.
-/

namespace Obj.CodeSign
open Obj

/-! ## Structures, src/macho.rs:5334-5437 -/

/-- `CSMAGIC_EMBEDDED_SIGNATURE`. -/
def superMagic : Nat := 0xfade0cc0
/-- `CSMAGIC_CODEDIRECTORY`. -/
def directoryMagic : Nat := 0xfade0c02
/-- `CSMAGIC_REQUIREMENTS`. -/
def requirementsMagic : Nat := 0xfade0c01

/-- `CS_SUPPORTSSCATTER`. -/
def vScatter : Nat := 0x20100
/-- `CS_SUPPORTSTEAMID`. -/
def vTeam : Nat := 0x20200
/-- `CS_SUPPORTSCODELIMIT64`. -/
def vLimit64 : Nat := 0x20300
/-- `CS_SUPPORTSEXECSEG`. -/
def vExecSeg : Nat := 0x20400

/-- `CsBlobIndex`, src/macho.rs:5404-5411. -/
structure Index where
  slot : Nat
  offset : Nat
  deriving DecidableEq, Repr

/-- The fields of an image of `CsBlobIndex`. -/
def Index.decode (img : List UInt8) : Index := ⟨field .big img 0 4, field .big img 4 4⟩

/-- `CsCodeDirectoryV0`, src/macho.rs:5334-5367, without `magic` and `spare2`. -/
structure V0 where
  length : Nat
  version : Nat
  flags : Nat
  hashOffset : Nat
  identOffset : Nat
  nSpecialSlots : Nat
  nCodeSlots : Nat
  codeLimit : Nat
  hashSize : Nat
  hashType : Nat
  platform : Nat
  pageSize : Nat
  deriving DecidableEq, Repr

/-- `size_of::<CsCodeDirectoryV0>()`. -/
def v0Size : Nat := 44

/-- The fields of an image of `CsCodeDirectoryV0`: the magic number and the others. -/
def V0.decode (img : List UInt8) : Nat × V0 :=
  let f := Obj.decode .big [4, 4, 4, 4, 4, 4, 4, 4, 4, 1, 1, 1, 1] img
  (f.getD 0 0, ⟨f.getD 1 0, f.getD 2 0, f.getD 3 0, f.getD 4 0, f.getD 5 0, f.getD 6 0, f.getD 7 0, f.getD 8 0, f.getD 9 0, f.getD 10 0,
    f.getD 11 0, f.getD 12 0⟩)

/-! ## Reader -/

/-- `CodeSignature`, src/read/macho/codesign.rs:25-30: the data, the `length` of the header, and the index. -/
structure Signature where
  data : List UInt8
  length : Nat
  index : List Index
  deriving DecidableEq, Repr

/-- `CodeSignature::parse`, src/read/macho/codesign.rs:36-52. -/
def Signature.parse (data : List UInt8) : Res Signature :=
  match Bytes.read data 12 with
  | (.ok header, bytes) =>
    if field .big header 0 4 ≠ superMagic then .err
    else match Bytes.readSlice bytes 8 (field .big header 8 4) with
      | (.ok imgs, _) => .ok ⟨data, field .big header 4 4, imgs.map Index.decode⟩
      | (.err, _) => .err
      | (.panic, _) => .panic
  | (.err, _) => .err
  | (.panic, _) => .panic

/-- `LinkeditDataCommand::code_signature`, src/read/macho/codesign.rs:7-19. -/
def codeSignature (file : List UInt8) (dataoff datasize : Nat) : Res Signature :=
  (ReadRef.readBytesAt file dataoff datasize).bind Signature.parse

/-- `CodeSignatureBlob`, src/read/macho/codesign.rs:118-124. -/
structure Blob where
  slot : Nat
  offset : Nat
  magic : Nat
  data : List UInt8
  deriving DecidableEq, Repr

/-- `CodeSignatureBlobIterator`, src/read/macho/codesign.rs:76-80: the data and the entries that are left. -/
abbrev BlobIter := List UInt8 × List Index

/-- The body of `next` for one entry, src/read/macho/codesign.rs:88-104. -/
def readBlob (data : List UInt8) (i : Index) : Res Blob :=
  (Bytes.readAt data i.offset 8).bind fun header =>
    (Bytes.readBytesAt data i.offset (field .big header 4 4)).bind fun d =>
      .ok ⟨i.slot, i.offset, field .big header 0 4, d⟩

/-- `CodeSignatureBlobIterator::next`, src/read/macho/codesign.rs:84-105. -/
def BlobIter.next : BlobIter → Res (Option Blob) × BlobIter
  | (data, []) => (.ok none, (data, []))
  | (data, i :: is) => ((readBlob data i).bind fun b => .ok (some b), (data, is))

/-- `CodeSignature::blobs`, src/read/macho/codesign.rs:65-70. -/
def Signature.blobs (s : Signature) : BlobIter := (s.data, s.index)

/-- `CodeSignatureBlob::contents`, src/read/macho/codesign.rs:150-155: `get(8..)`, which is `None` if the data is shorter. -/
def Blob.contents (b : Blob) : List UInt8 := if 8 ≤ b.data.length then b.data.drop 8 else []

/-- `CsCodeDirectoryV4`, src/macho.rs:5393-5402. -/
structure V4 where
  base : Nat
  limit : Nat
  flags : Nat
  deriving DecidableEq, Repr

/-- `CodeDirectory`, src/read/macho/codesign.rs:171-179; of `V1`, `V2` and `V3` the used fields. -/
structure Directory where
  data : List UInt8
  header : V0
  v1 : Option Nat
  v2 : Option Nat
  v3 : Option Nat
  v4 : Option V4
  deriving DecidableEq, Repr

/-- One of the optional parts: `if version >= min { Some(header_data.read()?) } else { None }`. -/
def optPart (version min size : Nat) (data : List UInt8) : Res (Option (List UInt8)) × List UInt8 :=
  if min ≤ version then
    match Bytes.read data size with
    | (.ok img, tl) => (.ok (some img), tl)
    | (.err, tl) => (.err, tl)
    | (.panic, tl) => (.panic, tl)
  else (.ok none, data)

/-- The four optional parts one after the other, src/read/macho/codesign.rs:196-231. -/
def optionals (version : Nat) (data : List UInt8) :
    Res (Option (List UInt8) × Option (List UInt8) × Option (List UInt8) × Option (List UInt8)) :=
  (optPart version vScatter 4 data).1.bind fun v1 =>
    (optPart version vTeam 4 (optPart version vScatter 4 data).2).1.bind fun v2 =>
      (optPart version vLimit64 12 (optPart version vTeam 4 (optPart version vScatter 4 data).2).2).1.bind fun v3 =>
        (optPart version vExecSeg 24 (optPart version vLimit64 12 (optPart version vTeam 4 (optPart version vScatter 4 data).2).2).2).1.bind
          fun v4 => .ok (v1, v2, v3, v4)

/-- `CodeDirectory::parse`, src/read/macho/codesign.rs:185-241. -/
def Directory.parse (data : List UInt8) : Res Directory :=
  match Bytes.read data v0Size with
  | (.ok img, tl) =>
    if (V0.decode img).1 ≠ directoryMagic then .err
    else (optionals (V0.decode img).2.version tl).bind fun v =>
      .ok ⟨data, (V0.decode img).2, v.1.map (field .big · 0 4), v.2.1.map (field .big · 0 4), v.2.2.1.map (field .big · 4 8),
        v.2.2.2.map fun i => ⟨field .big i 0 8, field .big i 8 8, field .big i 16 8⟩⟩
  | (.err, _) => .err
  | (.panic, _) => .panic

/-- `CodeSignatureBlob::code_directory`, src/read/macho/codesign.rs:160-165. -/
def Blob.codeDirectory (b : Blob) : Res (Option Directory) :=
  if b.magic ≠ directoryMagic then .ok none else (Directory.parse b.data).bind fun d => .ok (some d)

/-- `CodeDirectory::code_limit`, src/read/macho/codesign.rs:270-275. -/
def Directory.codeLimit (d : Directory) : Nat :=
  match d.v3 with
  | some l => if l ≠ 0 then l else d.header.codeLimit
  | none => d.header.codeLimit

/-- `CodeDirectory::ident`, src/read/macho/codesign.rs:295-299. -/
def Directory.ident (d : Directory) : Res (List UInt8) := Bytes.readStringAt d.data d.header.identOffset

/-- `CodeDirectory::team_id`, src/read/macho/codesign.rs:302-312. -/
def Directory.teamId (d : Directory) : Res (Option (List UInt8)) :=
  if d.v2.getD 0 = 0 then .ok none
  else (Bytes.readStringAt d.data (d.v2.getD 0)).bind fun s => .ok (some s)

/-- `CodeDirectory::special_hash`, src/read/macho/codesign.rs:320-334. -/
def Directory.specialHash (d : Directory) (slot : Nat) : Res (List UInt8) :=
  if slot < 1 ∨ slot > d.header.nSpecialSlots then .err
  else if U32 ≤ slot * d.header.hashSize then .err
  else if d.header.hashOffset < slot * d.header.hashSize then .err
  else Bytes.readBytesAt d.data (d.header.hashOffset - slot * d.header.hashSize) d.header.hashSize

/-- `CodeDirectory::code_hash`, src/read/macho/codesign.rs:339-354. -/
def Directory.codeHash (d : Directory) (index : Nat) : Res (List UInt8) :=
  if d.v1.getD 0 ≠ 0 then .err
  else if index ≥ d.header.nCodeSlots then .err
  else if U32 ≤ index * d.header.hashSize then .err
  else if U32 ≤ index * d.header.hashSize + d.header.hashOffset then .err
  else Bytes.readBytesAt d.data (index * d.header.hashSize + d.header.hashOffset) d.header.hashSize

/-! ## Writer -/

/-- `write::macho::CodeDirectory`, src/write/macho/encoder.rs:795-815. -/
structure Cd where
  length : Nat
  version : Nat
  flags : Nat
  hashOffset : Nat
  identOffset : Nat
  nSpecialSlots : Nat
  nCodeSlots : Nat
  codeLimit : Nat
  hashSize : Nat
  hashType : Nat
  platform : Nat
  pageSize : Nat
  scatterOffset : Nat
  teamOffset : Nat
  execSegBase : Nat
  execSegLimit : Nat
  execSegFlags : Nat
  deriving DecidableEq, Repr

/-- `CodeDirectory::from_raw`, src/write/macho/encoder.rs:822-848. -/
def Cd.fromRaw (d : Directory) : Cd where
  length := d.header.length
  version := d.header.version
  flags := d.header.flags
  hashOffset := d.header.hashOffset
  identOffset := d.header.identOffset
  nSpecialSlots := d.header.nSpecialSlots
  nCodeSlots := d.header.nCodeSlots
  codeLimit := d.codeLimit
  hashSize := d.header.hashSize
  hashType := d.header.hashType
  platform := d.header.platform
  pageSize := d.header.pageSize
  scatterOffset := d.v1.getD 0
  teamOffset := d.v2.getD 0
  execSegBase := (d.v4.map V4.base).getD 0
  execSegLimit := (d.v4.map V4.limit).getD 0
  execSegFlags := (d.v4.map V4.flags).getD 0

/-- `CodeSignatureEncoder::signature_super_blob`, src/write/macho/encoder.rs:862-874. -/
def superBlob (length count : Nat) : List UInt8 := Obj.encode .big [(4, superMagic), (4, length), (4, count)]

/-- `CodeSignatureEncoder::requirements_super_blob`, src/write/macho/encoder.rs:877-889. -/
def requirementsBlob (length count : Nat) : List UInt8 := Obj.encode .big [(4, requirementsMagic), (4, length), (4, count)]

/-- `CodeSignatureEncoder::blob_index`, src/write/macho/encoder.rs:897-908. -/
def blobIndex (slot offset : Nat) : List UInt8 := Obj.encode .big [(4, slot), (4, offset)]

/-- `CodeSignatureEncoder::generic_blob`, src/write/macho/encoder.rs:916-922. -/
def genericBlob (magic length : Nat) : List UInt8 := Obj.encode .big [(4, magic), (4, length)]

/-- `CodeSignatureEncoder::code_directory_size`, src/write/macho/encoder.rs:930-946. -/
def directorySize (version : Nat) : Res Nat :=
  if vExecSeg < version then .panic
  else .ok (v0Size + (if vScatter ≤ version then 4 else 0) + (if vTeam ≤ version then 4 else 0) + (if vLimit64 ≤ version then 12 else 0) +
    if vExecSeg ≤ version then 24 else 0)

/-- `(code_limit, code_limit64)`, src/write/macho/encoder.rs:954-959. -/
def limits (c : Cd) : Res (Nat × Nat) :=
  if c.codeLimit > U32 - 1 then
    if vLimit64 ≤ c.version then .ok (U32 - 1, c.codeLimit) else .panic
  else .ok (c.codeLimit, 0)

/-- `CodeSignatureEncoder::code_directory`, src/write/macho/encoder.rs:952-1002. -/
def directory (c : Cd) : Res (List UInt8) :=
  if vExecSeg < c.version then .panic
  else (limits c).bind fun l =>
    .ok (Obj.encode .big [(4, directoryMagic), (4, c.length), (4, c.version), (4, c.flags), (4, c.hashOffset), (4, c.identOffset),
        (4, c.nSpecialSlots), (4, c.nCodeSlots), (4, l.1), (1, c.hashSize), (1, c.hashType), (1, c.platform), (1, c.pageSize), (4, 0)] ++
      (if vScatter ≤ c.version then Obj.encode .big [(4, c.scatterOffset)] else []) ++
      (if vTeam ≤ c.version then Obj.encode .big [(4, c.teamOffset)] else []) ++
      (if vLimit64 ≤ c.version then Obj.encode .big [(4, 0), (8, l.2)] else []) ++
      (if vExecSeg ≤ c.version then Obj.encode .big [(8, c.execSegBase), (8, c.execSegLimit), (8, c.execSegFlags)] else []))

end Obj.CodeSign

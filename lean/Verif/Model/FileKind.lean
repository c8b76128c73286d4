import Verif.Model.Bytes
import Verif.Model.Endian

/-!
# Model of `FileKind::parse_at` (src/read/mod.rs:270-350)

All format features are enabled.
-/

namespace Obj

/-- `FileKind`, src/read/mod.rs:175-266. -/
inductive FileKind where
  | archive | coff | coffBig | coffImport | dyldCache | elf32 | elf64 | machO32 | machO64
  | machOFat32 | machOFat64 | pe32 | pe64 | wasm | xcoff32 | xcoff64
  deriving DecidableEq, Repr

/-- `pe::optional_header_magic`, src/read/pe/file.rs:574-587 with `ImageDosHeader::parse` (552-561).
`ImageDosHeader` is 64 bytes with `e_magic` at 0 and `e_lfanew` at 60 (src/pe.rs:91-130);
`ImageNtHeaders32` is 120 bytes: the signature, the 20-byte file header and the 96-byte optional header
whose `magic` comes first (src/pe.rs:325-333,473-507,577-581). -/
def optionalHeaderMagic (data : List UInt8) : Res Nat :=
  match ReadRef.readBytesAt data 0 64 with
  | .ok dos =>
    if field .little dos 0 2 ≠ 0x5a4d then .err
    else match ReadRef.readBytesAt data (field .little dos 60 4) 120 with
      | .ok nt => if field .little nt 0 4 ≠ 0x4550 then .err else .ok (field .little nt 24 2)
      | .err => .err
      | .panic => .panic
  | .err => .err
  | .panic => .panic

/-- `coff::anon_object_class_id`, src/read/coff/file.rs:304-309; `AnonObjectHeader` is 32 bytes with the
16-byte `class_id` at 12 (src/pe.rs:720-733). -/
def anonObjectClassId (data : List UInt8) : Res (List UInt8) :=
  match ReadRef.readBytesAt data 0 32 with
  | .ok h => .ok ((h.drop 12).take 16)
  | .err => .err
  | .panic => .panic

/-- `pe::ANON_OBJECT_HEADER_BIGOBJ_CLASS_ID`, src/pe.rs:759-761. -/
def bigobjClassId : List UInt8 :=
  [0xC7, 0xA1, 0xBA, 0xD1, 0xEE, 0xBA, 0xA9, 0x4B, 0xAF, 0x20, 0xFA, 0xF6, 0x6A, 0xA4, 0xDC, 0xB8]

/-- `FileKind::parse_at`, src/read/mod.rs:274-350: the arms of the `match` on the first 8 bytes, in
order. -/
def FileKind.parseAt (data : List UInt8) (offset : Nat) : Res FileKind :=
  match ReadRef.readBytesAt data offset 16 with
  | .err => .err
  | .panic => .panic
  | .ok magic =>
    if magic.length < 16 then .err
    else
      let m := magic.take 8
      let starts (p : List UInt8) : Bool := p.isPrefixOf m
      -- b"!<arch>\n", b"!<thin>\n"
      if starts [0x21, 0x3c, 0x61, 0x72, 0x63, 0x68, 0x3e, 0x0a] || starts [0x21, 0x3c, 0x74, 0x68, 0x69, 0x6e, 0x3e, 0x0a] then .ok .archive
      -- b"dyld_v1 "
      else if starts [0x64, 0x79, 0x6c, 0x64, 0x5f, 0x76, 0x31, 0x20] then .ok .dyldCache
      else if starts [0x7f, 0x45, 0x4c, 0x46, 1] then .ok .elf32
      else if starts [0x7f, 0x45, 0x4c, 0x46, 2] then .ok .elf64
      else if starts [0xfe, 0xed, 0xfa, 0xce] || starts [0xce, 0xfa, 0xed, 0xfe] then .ok .machO32
      else if starts [0xfe, 0xed, 0xfa, 0xcf] || starts [0xcf, 0xfa, 0xed, 0xfe] then .ok .machO64
      else if starts [0xca, 0xfe, 0xba, 0xbe] then .ok .machOFat32
      else if starts [0xca, 0xfe, 0xba, 0xbf] then .ok .machOFat64
      -- [0x00, b'a', b's', b'm', _, _, 0x00, 0x00]
      else if starts [0x00, 0x61, 0x73, 0x6d] && (m.drop 6 == [0, 0]) then .ok .wasm
      -- b"MZ"
      else if starts [0x4d, 0x5a] && offset == 0 then
        match optionalHeaderMagic data with
        | .ok v => if v = 0x10b then .ok .pe32 else if v = 0x20b then .ok .pe64 else .err
        | .err => .err
        | .panic => .panic
      else if starts [0xc4, 0x01] || starts [0x64, 0xaa] || starts [0x41, 0xa6] || starts [0xf0, 0x01] ||
        starts [0xf1, 0x01] || starts [0xf2, 0x01] || starts [0x4c, 0x01] || starts [0x64, 0x86] then .ok .coff
      else if starts [0x00, 0x00, 0xff, 0xff, 0x00, 0x00] then .ok .coffImport
      else if starts [0x00, 0x00, 0xff, 0xff, 0x02, 0x00] && offset == 0 then
        match anonObjectClassId data with
        | .ok id => if id = bigobjClassId then .ok .coffBig else .err
        | .err => .err
        | .panic => .panic
      else if starts [0x01, 0xdf] then .ok .xcoff32
      else if starts [0x01, 0xf7] then .ok .xcoff64
      else .err

end Obj

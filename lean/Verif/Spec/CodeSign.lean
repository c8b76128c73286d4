import Verif.Model.CodeSign
import Verif.Spec.Pe

/-! # The layout of Mach-O code signatures, all fields big endian -/

namespace Obj.Spec.CodeSignS
open Obj Obj.CodeSign

/-- `s` is the signature in `data`: the magic number `0xfade0cc0`, the length, the number of entries, and the entries. -/
structure SignatureIn (data : List UInt8) (s : Signature) : Prop where
  whole : s.data = data
  inside : 12 + 8 * s.index.length ≤ data.length
  magic : field .big data 0 4 = 0xfade0cc0
  length : s.length = field .big data 4 4
  count : field .big data 8 4 = s.index.length
  index : ∀ (i : Nat) (e : Index), s.index[i]? = some e → e.slot = field .big data (12 + 8 * i) 4 ∧ e.offset = field .big data (12 + 8 * i + 4) 4

/-- `b` is the blob of the entry `e`: it starts with its magic number and its length. -/
structure BlobIn (data : List UInt8) (e : Index) (b : Blob) : Prop where
  header : e.offset + 8 ≤ data.length
  inside : e.offset + field .big data (e.offset + 4) 4 ≤ data.length
  slot : b.slot = e.slot
  offset : b.offset = e.offset
  magic : b.magic = field .big data e.offset 4
  bytes : b.data = slice data e.offset (field .big data (e.offset + 4) 4)

/-- Bytes in the header of a code directory. -/
def headerSize (version : Nat) : Nat :=
  if version < 0x20100 then 44 else if version < 0x20200 then 48 else if version < 0x20300 then 52 else if version < 0x20400 then 64 else 88

/-- A field that exists only from a version on. -/
def since (version min value : Nat) : Option Nat := if min ≤ version then some value else none

/-- `d` is the code directory in `data`. -/
structure DirectoryIn (data : List UInt8) (d : Directory) : Prop where
  whole : d.data = data
  magic : field .big data 0 4 = 0xfade0c02
  length : d.header.length = field .big data 4 4
  version : d.header.version = field .big data 8 4
  flags : d.header.flags = field .big data 12 4
  hashOffset : d.header.hashOffset = field .big data 16 4
  identOffset : d.header.identOffset = field .big data 20 4
  nSpecialSlots : d.header.nSpecialSlots = field .big data 24 4
  nCodeSlots : d.header.nCodeSlots = field .big data 28 4
  codeLimit : d.header.codeLimit = field .big data 32 4
  hashSize : d.header.hashSize = field .big data 36 1
  hashType : d.header.hashType = field .big data 37 1
  platform : d.header.platform = field .big data 38 1
  pageSize : d.header.pageSize = field .big data 39 1
  inside : headerSize (field .big data 8 4) ≤ data.length
  scatter : d.v1 = since (field .big data 8 4) 0x20100 (field .big data 44 4)
  team : d.v2 = since (field .big data 8 4) 0x20200 (field .big data 48 4)
  limit64 : d.v3 = since (field .big data 8 4) 0x20300 (field .big data 56 8)
  execBase : d.v4.map V4.base = since (field .big data 8 4) 0x20400 (field .big data 64 8)
  execLimit : d.v4.map V4.limit = since (field .big data 8 4) 0x20400 (field .big data 72 8)
  execFlags : d.v4.map V4.flags = since (field .big data 8 4) 0x20400 (field .big data 80 8)

/-- The values of a code directory to be written fit their fields, and those that its version does not have are 0. -/
structure Fits (c : Cd) : Prop where
  length : c.length < 2 ^ 32
  version : c.version ≤ 0x20400
  flags : c.flags < 2 ^ 32
  hashOffset : c.hashOffset < 2 ^ 32
  identOffset : c.identOffset < 2 ^ 32
  nSpecialSlots : c.nSpecialSlots < 2 ^ 32
  nCodeSlots : c.nCodeSlots < 2 ^ 32
  codeLimit : c.codeLimit < if c.version < 0x20300 then 2 ^ 32 else 2 ^ 64
  hashSize : c.hashSize < 2 ^ 8
  hashType : c.hashType < 2 ^ 8
  platform : c.platform < 2 ^ 8
  pageSize : c.pageSize < 2 ^ 8
  scatter : c.scatterOffset < if c.version < 0x20100 then 1 else 2 ^ 32
  team : c.teamOffset < if c.version < 0x20200 then 1 else 2 ^ 32
  execBase : c.execSegBase < if c.version < 0x20400 then 1 else 2 ^ 64
  execLimit : c.execSegLimit < if c.version < 0x20400 then 1 else 2 ^ 64
  execFlags : c.execSegFlags < if c.version < 0x20400 then 1 else 2 ^ 64

/-- A blob to be written: its slot, magic number and contents. -/
structure Item where
  slot : Nat
  magic : Nat
  contents : List UInt8

/-- The blobs one after the other from offset `o` on, as they are to be read. -/
def place : Nat → List Item → List Blob
  | _, [] => []
  | o, x :: xs => ⟨x.slot, o, x.magic, wr .big 4 x.magic ++ wr .big 4 (8 + x.contents.length) ++ x.contents⟩ :: place (o + 8 + x.contents.length) xs

end Obj.Spec.CodeSignS

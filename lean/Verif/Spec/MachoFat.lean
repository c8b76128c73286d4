import Verif.Model.MachoFat
import Verif.Spec.FileKind

/-! # The layout of Mach-O universal binaries, all fields big endian -/

namespace Obj.Spec.FatS
open Obj Obj.Fat

/-- Bytes of an entry of the table. -/
def entry (is64 : Bool) : Nat := if is64 then 32 else 20

/-- `a` is the entry at offset `o`. -/
structure ArchAt (is64 : Bool) (data : List UInt8) (o : Nat) (a : Fat.Arch) : Prop where
  inside : o + entry is64 ≤ data.length
  cputype : a.cputype = field .big data o 4
  cpusubtype : a.cpusubtype = field .big data (o + 4) 4
  offset : a.offset = if is64 then field .big data (o + 8) 8 else field .big data (o + 8) 4
  size : a.size = if is64 then field .big data (o + 16) 8 else field .big data (o + 12) 4
  align : a.align = if is64 then field .big data (o + 24) 4 else field .big data (o + 16) 4

/-- `l` is the table of `data`: a magic number, the number of entries, and the entries. -/
structure TableAt (is64 : Bool) (data : List UInt8) (l : List Fat.Arch) : Prop where
  inside : 8 ≤ data.length
  magic : field .big data 0 4 = if is64 then 0xcafebabf else 0xcafebabe
  count : field .big data 4 4 = l.length
  entries : ∀ (i : Nat) (a : Fat.Arch), l[i]? = some a → ArchAt is64 data (8 + entry is64 * i) a

/-- The values fit the fields. -/
structure Fits (is64 : Bool) (a : Fat.Arch) : Prop where
  cputype : a.cputype < 2 ^ 32
  cpusubtype : a.cpusubtype < 2 ^ 32
  offset : a.offset < if is64 then 2 ^ 64 else 2 ^ 32
  size : a.size < if is64 then 2 ^ 64 else 2 ^ 32
  align : a.align < 2 ^ 32

/-- The bytes of an entry. -/
def image (is64 : Bool) (a : Fat.Arch) : List UInt8 :=
  wr .big 4 a.cputype ++ wr .big 4 a.cpusubtype ++ wr .big (if is64 then 8 else 4) a.offset ++
    wr .big (if is64 then 8 else 4) a.size ++ wr .big 4 a.align ++ if is64 then [0, 0, 0, 0] else []

/-- The bytes of the header and the table. -/
def table (is64 : Bool) (l : List Fat.Arch) : List UInt8 :=
  wr .big 4 (if is64 then 0xcafebabf else 0xcafebabe) ++ wr .big 4 l.length ++ l.flatMap (image is64)

end Obj.Spec.FatS

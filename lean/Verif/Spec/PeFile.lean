import Verif.Model.PeFile

/-!
# The layout of a PE image file

Offsets and sizes are those of the PE format specification.  From the model only the types of headers and results are used, and
`rd`, which reads a little-endian number.
-/

namespace Obj.Spec.PeFile
open Obj Obj.Coff Obj.Pe

/-- The little-endian number in the `w` bytes at offset `o`. -/
def le (data : List UInt8) (o w : Nat) : Nat := rd .little (slice data o w)

/-- The fields of the optional header: the value, its offset and size in PE32, and its offset and size in PE32+. -/
def optTable (h : OptHeader) : List (Nat × (Nat × Nat) × (Nat × Nat)) :=
  [(h.magic, (0, 2), (0, 2)), (h.majorLinkerVersion, (2, 1), (2, 1)), (h.minorLinkerVersion, (3, 1), (3, 1)),
   (h.sizeOfCode, (4, 4), (4, 4)), (h.sizeOfInitializedData, (8, 4), (8, 4)), (h.sizeOfUninitializedData, (12, 4), (12, 4)),
   (h.addressOfEntryPoint, (16, 4), (16, 4)), (h.baseOfCode, (20, 4), (20, 4)),
   (h.imageBase, (28, 4), (24, 8)), (h.sectionAlignment, (32, 4), (32, 4)), (h.fileAlignment, (36, 4), (36, 4)),
   (h.majorOperatingSystemVersion, (40, 2), (40, 2)), (h.minorOperatingSystemVersion, (42, 2), (42, 2)),
   (h.majorImageVersion, (44, 2), (44, 2)), (h.minorImageVersion, (46, 2), (46, 2)),
   (h.majorSubsystemVersion, (48, 2), (48, 2)), (h.minorSubsystemVersion, (50, 2), (50, 2)),
   (h.win32VersionValue, (52, 4), (52, 4)), (h.sizeOfImage, (56, 4), (56, 4)), (h.sizeOfHeaders, (60, 4), (60, 4)),
   (h.checkSum, (64, 4), (64, 4)), (h.subsystem, (68, 2), (68, 2)), (h.dllCharacteristics, (70, 2), (70, 2)),
   (h.sizeOfStackReserve, (72, 4), (72, 8)), (h.sizeOfStackCommit, (76, 4), (80, 8)),
   (h.sizeOfHeapReserve, (80, 4), (88, 8)), (h.sizeOfHeapCommit, (84, 4), (96, 8)),
   (h.loaderFlags, (88, 4), (104, 4)), (h.numberOfRvaAndSizes, (92, 4), (108, 4))]

/-- The optional header at offset `o`; `BaseOfData` (offset 24) exists only in PE32. -/
def OptAt (is64 : Bool) (data : List UInt8) (o : Nat) (h : OptHeader) : Prop :=
  (∀ row ∈ optTable h, let p := if is64 then row.2.2 else row.2.1; row.1 = le data (o + p.1) p.2) ∧
  h.baseOfData = if is64 then none else some (le data (o + 24) 4)

/-- The COFF file header at offset `o` (20 bytes). -/
def headerAt (data : List UInt8) (o : Nat) : FileHeader :=
  ⟨le data o 2, le data (o + 2) 2, le data (o + 4) 4, le data (o + 8) 4, le data (o + 12) 4, le data (o + 16) 2, le data (o + 18) 2⟩

/-- The section header at offset `o` (40 bytes). -/
def sectionHeaderAt (data : List UInt8) (o : Nat) : Coff.Section :=
  ⟨slice data o 8, le data (o + 8) 4, le data (o + 12) 4, le data (o + 16) 4, le data (o + 20) 4, le data (o + 24) 4,
   le data (o + 28) 4, le data (o + 32) 2, le data (o + 34) 2, le data (o + 36) 4⟩

/-- The COFF symbol table: `n` records of 18 bytes at offset `p`, followed by the string table, which starts with its length.  If
there is none, or if it does not fit in the file, it is empty. -/
def SymbolsAt (data : List UInt8) (p n : Nat) (t : Coff.SymTab) : Prop :=
  t.big = false ∧
  if p ≠ 0 ∧ p + 18 * n + 4 ≤ data.length then
    t.symbols = (List.range n).map (fun i => slice data (p + 18 * i) 18) ∧
    t.strings = some (p + 18 * n, p + 18 * n + le data (p + 18 * n) 4)
  else t.symbols = [] ∧ t.strings = none

/-- Size of the optional header without the data directories. -/
def fixedSize (is64 : Bool) : Nat := if is64 then 112 else 96

/-- `data` is a PE image with the headers of `f`. -/
structure Image (is64 : Bool) (data : List UInt8) (f : PeFile) : Prop where
  width : f.is64 = is64
  bytes : f.data = data
  dosSize : 64 ≤ data.length
  dosMagic : le data 0 2 = 0x5a4d
  ntOffset : f.ntOffset = le data 60 4
  signature : le data f.ntOffset 4 = 0x4550
  header : f.header = headerAt data (f.ntOffset + 4)
  opt : OptAt is64 data (f.ntOffset + 24) f.opt
  optMagic : f.opt.magic = if is64 then 0x20b else 0x10b
  /-- The optional header, with the data directories, is inside of the file, … -/
  optInside : f.ntOffset + 24 + f.header.sizeOfOptionalHeader ≤ data.length
  /-- … and it has room for the fixed part and for the data directories. -/
  optFits : fixedSize is64 + 8 * f.opt.numberOfRvaAndSizes ≤ f.header.sizeOfOptionalHeader
  dirs : f.dirs = (List.range f.opt.numberOfRvaAndSizes).map fun i =>
    let o := f.ntOffset + 24 + fixedSize is64 + 8 * i
    ⟨le data o 4, le data (o + 4) 4⟩
  /-- The section headers follow the optional header. -/
  sectionsInside : f.ntOffset + 24 + f.header.sizeOfOptionalHeader + 40 * f.header.numberOfSections ≤ data.length
  sections : f.sections = (List.range f.header.numberOfSections).map fun i =>
    sectionHeaderAt data (f.ntOffset + 24 + f.header.sizeOfOptionalHeader + 40 * i)
  symbols : SymbolsAt data f.header.pointerToSymbolTable f.header.numberOfSymbols f.symbols

/-- A debug directory entry (28 bytes): type, size and file offset of the debug data. -/
structure DebugEntry where
  typ : Nat
  size : Nat
  pointer : Nat
  deriving DecidableEq, Repr

/-- The entries of the debug directory. -/
def debugEntries (bytes : List UInt8) : List DebugEntry :=
  (List.range (bytes.length / 28)).map fun i => ⟨le bytes (28 * i + 12) 4, le bytes (28 * i + 16) 4, le bytes (28 * i + 24) 4⟩

/-- The entry is a CodeView entry of which the data starts with `RSDS`, a GUID, the age and the path. -/
def IsPdb (data : List UInt8) (e : DebugEntry) (cv : CodeView) : Prop :=
  e.typ = 2 ∧ e.pointer + e.size ≤ data.length ∧ ∃ rest,
    slice data e.pointer e.size = "RSDS".toUTF8.toList ++ cv.guid ++ wr .little 4 cv.age ++ cv.path ++ 0 :: rest ∧
    cv.guid.length = 16 ∧ cv.age < 2 ^ 32 ∧ (0 : UInt8) ∉ cv.path

/-- The entry is skipped: it is not a CodeView entry, or its data starts with another signature. -/
def Skipped (data : List UInt8) (e : DebugEntry) : Prop :=
  e.typ ≠ 2 ∨ (e.pointer + e.size ≤ data.length ∧ 4 ≤ e.size ∧ slice data e.pointer 4 ≠ "RSDS".toUTF8.toList)

end Obj.Spec.PeFile

import Verif.Model.CoffFile
import Verif.Spec.Coff
import Verif.Spec.MachoFile

/-!
# The layout of a COFF object file, and what is to be reported for it

Offsets, sizes and constants are those of the "PE Format" document of Microsoft.  From the model only the types of headers and results are
used.  All numbers are little endian.
-/

namespace Obj.Spec.CoffF
open Obj Obj.Coff Obj.CoffF
open Obj.ElfF (Relocation)
open Obj.Spec.MachoF (HasName FirstOf)
open Obj.Spec.CoffS (digitsValue alphabet)

/-- The number in the `w` bytes at offset `o`. -/
abbrev num (data : List UInt8) (o w : Nat) : Nat := MachoF.num .little data o w

/-- Size of the file header. -/
def headerSize (big : Bool) : Nat := if big then 56 else 20
/-- Size of a symbol. -/
def recordSize (big : Bool) : Nat := if big then 20 else 18

/-- The file header: `IMAGE_FILE_HEADER` or `ANON_OBJECT_HEADER_BIGOBJ`. -/
def headerIn (big : Bool) (data : List UInt8) : Header :=
  if big then ⟨true, num data 6 2, num data 44 4, num data 48 4, num data 52 4⟩
  else ⟨false, num data 0 2, num data 2 2, num data 8 4, num data 12 4⟩

/-- Where the section headers are: after the optional header, which bigobj does not have. -/
def sectionsOffset (big : Bool) (data : List UInt8) : Nat := if big then 56 else 20 + num data 16 2

/-- The section header at offset `o`. -/
def sectionIn (data : List UInt8) (o : Nat) : Section :=
  ⟨slice data o 8, num data (o + 8) 4, num data (o + 12) 4, num data (o + 16) 4, num data (o + 20) 4, num data (o + 24) 4,
   num data (o + 28) 4, num data (o + 32) 2, num data (o + 34) 2, num data (o + 36) 4⟩

/-- A number of 16 bits above 0xfeff is negative, since there can be up to 0xfeff sections. -/
def sectionNumber (n : Nat) : Int := if 0xff00 ≤ n then (n : Int) - 0x10000 else n

/-- The symbol at offset `o`. -/
def symbolIn (big : Bool) (data : List UInt8) (o : Nat) : Symbol :=
  if big then ⟨slice data o 8, num data (o + 8) 4, if num data (o + 12) 4 < 2 ^ 31 then num data (o + 12) 4 else num data (o + 12) 4 - 2 ^ 32,
    num data (o + 16) 2, num data (o + 18) 1, num data (o + 19) 1⟩
  else ⟨slice data o 8, num data (o + 8) 4, sectionNumber (num data (o + 12) 2), num data (o + 14) 2, num data (o + 16) 1, num data (o + 17) 1⟩

/-- The relocation at offset `o`. -/
def relocIn (data : List UInt8) (o : Nat) : Reloc := ⟨num data o 4, num data (o + 4) 4, num data (o + 8) 2⟩

/-- The symbol table and the string table: there are none if the header says so, and the string table, which begins with its length, follows
the symbols. -/
def TablesOf (h : Header) (data : List UInt8) (t : SymTab) : Prop :=
  t.big = h.big ∧
  if h.pointerToSymbolTable = 0 then t.symbols = [] ∧ t.strings = none
  else
    let stop := h.pointerToSymbolTable + h.numberOfSymbols * recordSize h.big
    stop + 4 ≤ data.length ∧ t.strings = some (stop, stop + num data stop 4) ∧
    t.symbols = (List.range h.numberOfSymbols).map fun i => slice data (h.pointerToSymbolTable + i * recordSize h.big) (recordSize h.big)

/-- `data` is the object file `f`. -/
structure Image (big : Bool) (data : List UInt8) (f : File) : Prop where
  size : headerSize big ≤ data.length
  /-- bigobj has a signature, a version and a class identifier -/
  signature : big = true → slice data 0 4 = [0, 0, 0xff, 0xff] ∧ 2 ≤ num data 4 2 ∧
    slice data 12 16 = [0xC7, 0xA1, 0xBA, 0xD1, 0xEE, 0xBA, 0xA9, 0x4B, 0xAF, 0x20, 0xFA, 0xF6, 0x6A, 0xA4, 0xDC, 0xB8]
  header : f.header = headerIn big data
  inside : f.header.numberOfSections = 0 ∨ sectionsOffset big data + 40 * f.header.numberOfSections ≤ data.length
  sections : f.sections = (List.range f.header.numberOfSections).map fun i => sectionIn data (sectionsOffset big data + 40 * i)
  tables : TablesOf f.header data f.symbols

/-- The architecture for a machine type. -/
def machines : List (Nat × Arch) :=
  [(0x1c4, .arm), (0xaa64, .aarch64), (0xa641, .aarch64), (0x14c, .i386), (0x8664, .x86_64), (0x1f0, .powerPc), (0x1f1, .powerPc), (0x1f2, .powerPc)]

/-- `name` is a string of the string table, at an offset. -/
def StringAt (f : File) (data : List UInt8) (offset : Nat) (name : List UInt8) : Prop :=
  ∃ start stop, f.symbols.strings = some (start, stop) ∧ stop ≤ data.length ∧ start + offset + name.length < stop ∧
    Spec.At data (start + offset) (name ++ [0]) ∧ (0 : UInt8) ∉ name

/-- The 8 bytes `raw` stand for an offset: a slash and decimal digits up to a NUL or the end, or two slashes and base 64 digits. -/
def OffsetIn (raw : List UInt8) (offset : Nat) : Prop :=
  (∃ ds rest, (∀ d ∈ ds, d < 10) ∧ offset = digitsValue 10 ds ∧ raw = 47 :: (ds.map fun d => UInt8.ofNat (48 + d)) ++ rest ∧
    (rest = [] ∨ ∃ tl, rest = 0 :: tl)) ∨
  (∃ ds, (∀ d ∈ ds, d < 64) ∧ offset = digitsValue 64 ds ∧ offset < 2 ^ 32 ∧ raw = 47 :: 47 :: ds.map fun d => alphabet.getD d 0)

/-- The section has the name: in its header, or in the string table. -/
def Named (f : File) (data : List UInt8) (s : Section) (name : List UInt8) : Prop :=
  (s.name.head? ≠ some 47 ∧ HasName s.name name) ∨ ∃ offset, OffsetIn s.name offset ∧ StringAt f data offset name

/-- The name of a symbol: a file name is in the auxiliary records; otherwise it is in the record, or, if this starts with four zero bytes, of
which only the first is looked at, in the string table. -/
def SymbolNamed (f : File) (data : List UInt8) (index : Nat) (s : Symbol) (name : List UInt8) : Prop :=
  if 0 < s.auxCount ∧ s.storageClass = 0x67 then
    index + 1 + s.auxCount ≤ f.symbols.symbols.length ∧ HasName ((f.symbols.symbols.drop (index + 1)).take s.auxCount).flatten name
  else if s.name.head? = some 0 then StringAt f data (num s.name 4 4) name
  else HasName s.name name

/-- The data of a section: nothing for uninitialized data. -/
def DataOf (data : List UInt8) (s : Section) (d : List UInt8) : Prop :=
  if s.characteristics.testBit 7 then d = []
  else (s.sizeOfRawData = 0 ∨ s.pointerToRawData + s.sizeOfRawData ≤ data.length) ∧ d = slice data s.pointerToRawData s.sizeOfRawData

/-- The relocations of a section are `n` records from offset `o` on. -/
def RelocsAt (data : List UInt8) (o n : Nat) (rs : List Reloc) : Prop :=
  (n = 0 ∨ o + 10 * n ≤ data.length) ∧ rs = (List.range n).map fun i => relocIn data (o + 10 * i)

/-- The number of relocations did not fit in the header (`IMAGE_SCN_LNK_NRELOC_OVFL`). -/
def Overflows (s : Section) : Prop := s.numberOfRelocations = 0xffff ∧ s.characteristics.testBit 24

/-- The relocations of a section.  If their number is in the first record, then it counts that record too. -/
def RelocsOf (data : List UInt8) (s : Section) (rs : List Reloc) : Prop :=
  (¬ Overflows s ∧ RelocsAt data s.pointerToRelocations s.numberOfRelocations rs) ∨
  (Overflows s ∧ s.pointerToRelocations + 10 ≤ data.length ∧
    ∃ n, num data s.pointerToRelocations 4 = n + 1 ∧ RelocsAt data (s.pointerToRelocations + 10) n rs)

/-- The relocation types of each machine with kind, encoding, size in bits and addend to be reported. -/
def relocTypes : List (List Nat × List (Nat × RelocKind × RelocEnc × Nat × Int)) :=
  [([0x1c4], [(1, .absolute, .generic, 32, 0), (2, .imageOffset, .generic, 32, 0), (0xa, .relative, .generic, 32, -4),
      (0xe, .sectionIndex, .generic, 16, 0), (0xf, .sectionOffset, .generic, 32, 0)]),
   ([0xaa64, 0xa641], [(1, .absolute, .generic, 32, 0), (2, .imageOffset, .generic, 32, 0), (8, .sectionOffset, .generic, 32, 0),
      (0xd, .sectionIndex, .generic, 16, 0), (0xe, .absolute, .generic, 64, 0), (0x11, .relative, .generic, 32, -4),
      (3, .relative, .aarch64Call, 26, 0)]),
   ([0x14c], [(1, .absolute, .generic, 16, 0), (2, .relative, .generic, 16, 0), (6, .absolute, .generic, 32, 0),
      (7, .imageOffset, .generic, 32, 0), (0xa, .sectionIndex, .generic, 16, 0), (0xb, .sectionOffset, .generic, 32, 0),
      (0xd, .sectionOffset, .generic, 7, 0), (0x14, .relative, .generic, 32, -4)]),
   ([0x8664], [(1, .absolute, .generic, 64, 0), (2, .absolute, .generic, 32, 0), (3, .imageOffset, .generic, 32, 0),
      (4, .relative, .generic, 32, -4), (5, .relative, .generic, 32, -5), (6, .relative, .generic, 32, -6), (7, .relative, .generic, 32, -7),
      (8, .relative, .generic, 32, -8), (9, .relative, .generic, 32, -9), (0xa, .sectionIndex, .generic, 16, 0),
      (0xb, .sectionOffset, .generic, 32, 0), (0xc, .sectionOffset, .generic, 7, 0)])]

/-- What the type of a relocation means for a machine. -/
def Means (machine type : Nat) (k : RelocKind × RelocEnc × Nat × Int) : Prop :=
  ∃ m ∈ relocTypes, machine ∈ m.1 ∧ (type, k) ∈ m.2

/-- The report `x` is for the relocation `r`: it is relative to a symbol, and to what is stored in the place. -/
def Reports (machine : Nat) (r : Reloc) (x : Nat × Relocation) : Prop :=
  x.1 = r.virtualAddress ∧ x.2.target = some r.symbol ∧ x.2.implicitAddend = true ∧ x.2.rtype = r.type ∧
  ((∃ k, Means machine r.type k ∧ (x.2.kind, x.2.encoding, x.2.size, x.2.addend) = k) ∨
   ((∀ k, ¬ Means machine r.type k) ∧ (x.2.kind, x.2.encoding, x.2.size, x.2.addend) = (.unknown, .unknown, 0, 0)))

/-- The symbols from index `i` on: those records that are not auxiliary records of the symbol before. -/
inductive SymbolsFrom (big : Bool) (data : List UInt8) (start n : Nat) : Nat → List (Nat × Symbol) → Prop where
  | done {i : Nat} : n ≤ i → SymbolsFrom big data start n i []
  | cons {i : Nat} {rest : List (Nat × Symbol)} : i < n →
      SymbolsFrom big data start n (i + 1 + (symbolIn big data (start + i * recordSize big)).auxCount) rest →
      SymbolsFrom big data start n i ((i, symbolIn big data (start + i * recordSize big)) :: rest)

end Obj.Spec.CoffF

import Verif.Spec.MachoBuild
import Verif.Spec.MachoBuildWrite
import Verif.Spec.Buffer

/-!
# The layout of a file that a Mach-O builder has written

Everything is said about the bytes of the file: nothing of the builder is used.
-/

namespace Obj.Spec.MachoB
open Obj Obj.MachoR
open Obj.Spec (roundUp)
open Obj.Spec.MachoF (num ascii HasName headerSize width segmentIn sectionsIn Zerofill)

/-- Parts of a file (or of memory), given by offset and size, are one after the other between `lo` and `hi`, without overlap. -/
def InOrder : Nat → List (Nat × Nat) → Nat → Prop
  | lo, [], hi => lo ≤ hi
  | lo, p :: ps, hi => lo ≤ p.1 ∧ InOrder (p.1 + p.2) ps hi

/-- The segment of a command is `__LINKEDIT`. -/
def IsLinkedit (k : List UInt8) : Prop := HasName (slice k 8 16) (ascii "__LINKEDIT")

/-- The section headers of all segments, in the order of the file. -/
def allSections (c : Cfg) (cmds : List (List UInt8)) : List Sect := (cmds.filter (isSegment c.en)).flatMap (sectionsIn c)

instance (h : Sect) : Decidable (Zerofill h) := inferInstanceAs (Decidable (_ ∈ _))

/-- The parts of the file for the data of sections. -/
def dataParts (c : Cfg) (cmds : List (List UInt8)) : List (Nat × Nat) :=
  ((allSections c cmds).filter fun h => ¬ Zerofill h).map fun h => (h.offset, h.size)

/-- The parts for relocations: sections without relocations have none. -/
def relocParts (c : Cfg) (cmds : List (List UInt8)) : List (Nat × Nat) :=
  ((allSections c cmds).filter fun h => h.nreloc ≠ 0).map fun h => (h.reloff, 8 * h.nreloc)

/-- The part that a load command gives by two words at `o`. -/
def partAt (en : Endianness) (k : List UInt8) (o : Nat) : Nat × Nat := (num en k o 4, num en k (o + 4) 4)

/-- The parts of commands for data in `__LINKEDIT`: signatures come later; of `LC_DYLD_INFO_ONLY` there are five, and those that are
empty are not in the file. -/
def linkeditParts (en : Endianness) (k : List UInt8) : List (Nat × Nat) :=
  if number en k = 0x1d then []
  else if number en k ∈ linkeditNumbers then [partAt en k 8]
  else if number en k = 0x80000022 then ([8, 16, 24, 32, 40].map (partAt en k)).filter fun p => p.2 ≠ 0
  else []

/-- The symbols. -/
def symbolParts (c : Cfg) (cmds : List (List UInt8)) : List (Nat × Nat) :=
  (cmds.filter (isSymtab c.en)).map fun k => (num c.en k 8 4, (8 + width c.is64) * num c.en k 12 4)

/-- The indirect symbols.  (If there are two commands, both have the same table.) -/
def indirectParts (en : Endianness) (cmds : List (List UInt8)) : List (Nat × Nat) :=
  (((cmds.filter (isDysymtab en)).map fun k => (num en k 56 4, 4 * num en k 60 4)).take 1).filter fun p => p.2 ≠ 0

/-- The strings. -/
def stringParts (en : Endianness) (cmds : List (List UInt8)) : List (Nat × Nat) := (cmds.filter (isSymtab en)).map fun k => partAt en k 16

/-- Code signatures. -/
def signatureParts (en : Endianness) (cmds : List (List UInt8)) : List (Nat × Nat) :=
  (cmds.filter fun k => number en k = 0x1d).map fun k => partAt en k 8

/-- What comes after sections and relocations. -/
def tableParts (c : Cfg) (cmds : List (List UInt8)) : List (Nat × Nat) :=
  cmds.flatMap (linkeditParts c.en) ++ (symbolParts c cmds ++ (indirectParts c.en cmds ++ (stringParts c.en cmds ++ signatureParts c.en cmds)))

/-- The parts of a file are one after the other, after the load commands: data, relocations, and then, from `start` on, tables.  Tables, except for strings,
are aligned. -/
structure FileLaid (c : Cfg) (out : List UInt8) (cmds : List (List UInt8)) (start : Nat) : Prop where
  parts : InOrder (headerSize c.is64 + cmds.flatten.length) (dataParts c cmds ++ (relocParts c cmds ++ tableParts c cmds)) out.length
  tables : ∀ p ∈ tableParts c cmds, start ≤ p.1
  relocs : ∀ p ∈ relocParts c cmds, p.1 % width c.is64 = 0
  linkedit : ∀ k ∈ cmds, ∀ p ∈ linkeditParts c.en k, p.1 % width c.is64 = 0
  symbols : ∀ p ∈ symbolParts c cmds, p.1 % width c.is64 = 0
  indirect : ∀ p ∈ indirectParts c.en cmds, p.1 % 4 = 0
  signatures : ∀ p ∈ signatureParts c.en cmds, p.1 % 16 = 0

/-- A segment of a linked file, other than `__LINKEDIT`. -/
structure SegmentLaid (c : Cfg) (page : Nat) (k : List UInt8) : Prop where
  /-- Segments are made of pages of the file. -/
  fileoff : (segmentIn c k).fileoff % page = 0
  filesize : (segmentIn c k).filesize % page = 0
  /-- In memory, sections are in order inside of the segment. -/
  sections : InOrder (segmentIn c k).vmaddr ((sectionsIn c k).map fun h => (h.addr, h.size)) ((segmentIn c k).vmaddr + (segmentIn c k).vmsize)
  /-- Data has the place in the file that is mapped to the address of the section. -/
  data : ∀ h ∈ sectionsIn c k, ¬ Zerofill h → 0 < h.size →
    h.offset = (segmentIn c k).fileoff + (h.addr - (segmentIn c k).vmaddr) ∧ h.offset + h.size ≤ (segmentIn c k).fileoff + (segmentIn c k).filesize
  zerofill : ∀ h ∈ sectionsIn c k, Zerofill h → h.offset = 0
  /-- There is not a page more than is needed. -/
  tight : 0 < (segmentIn c k).filesize →
    ∃ h ∈ sectionsIn c k, ¬ Zerofill h ∧ (segmentIn c k).filesize < h.addr - (segmentIn c k).vmaddr + h.size + page
  relocs : ∀ h ∈ sectionsIn c k, h.nreloc = 0

/-- The layout of a linked file; `start` is the start of `__LINKEDIT`. -/
structure LinkedLaid (c : Cfg) (page : Nat) (out : List UInt8) (cmds : List (List UInt8)) (start : Nat) : Prop where
  file : FileLaid c out cmds start
  segments : ∀ k ∈ cmds, isSegment c.en k → ¬ IsLinkedit k → SegmentLaid c page k
  /-- Segments are in order in memory, and so are in the file those that have data. -/
  addresses : (cmds.filter (isSegment c.en)).Pairwise fun k l => ¬ IsLinkedit k →
    (segmentIn c k).vmaddr + (segmentIn c k).vmsize ≤ (segmentIn c l).vmaddr
  ranges : (cmds.filter (isSegment c.en)).Pairwise fun k l => ¬ IsLinkedit k → ¬ IsLinkedit l → 0 < (segmentIn c k).filesize → 0 < (segmentIn c l).filesize →
    (segmentIn c k).fileoff + (segmentIn c k).filesize ≤ (segmentIn c l).fileoff
  ends : ∀ k ∈ cmds, isSegment c.en k → ¬ IsLinkedit k → (segmentIn c k).fileoff + (segmentIn c k).filesize ≤ start
  /-- `__LINKEDIT` is the rest of the file. -/
  linkedit : ∀ k ∈ cmds, isSegment c.en k → IsLinkedit k → (segmentIn c k).fileoff = start ∧ start + (segmentIn c k).filesize = out.length ∧
    (segmentIn c k).vmsize = roundUp (segmentIn c k).filesize page % 256 ^ width c.is64

/-- The layout of an object file: there is one segment, for all sections. -/
structure ObjectLaid (c : Cfg) (out : List UInt8) (cmds : List (List UInt8)) (start : Nat) : Prop where
  file : FileLaid c out cmds start
  segment : ∃ k, cmds.filter (isSegment c.en) = [k] ∧ (segmentIn c k).vmaddr = 0 ∧ slice k 8 16 = List.replicate 16 0 ∧
    (segmentIn c k).fileoff = headerSize c.is64 + cmds.flatten.length ∧
    (∀ h ∈ sectionsIn c k, ¬ Zerofill h → h.align < 64 ∧ (h.offset - (segmentIn c k).fileoff) % 2 ^ h.align = 0) ∧
    InOrder (segmentIn c k).fileoff (dataParts c cmds) ((segmentIn c k).fileoff + (segmentIn c k).filesize) ∧
    (∀ h ∈ sectionsIn c k, Zerofill h → h.offset = 0) ∧
    (∀ h ∈ sectionsIn c k, h.nreloc ≠ 0 → (segmentIn c k).fileoff + (segmentIn c k).filesize ≤ h.reloff) ∧
    (segmentIn c k).fileoff + (segmentIn c k).filesize ≤ start

/-- An `LC_DYSYMTAB` command gives the groups of the symbols: local symbols come first, then those that are defined and external, then undefined symbols.
Each group is given by the number of its first symbol and the number of symbols. -/
structure GroupsAre (en : Endianness) (k : List UInt8) (syms : List Obj.MachoB.Sym) : Prop where
  first : num en k 8 4 = 0
  second : num en k 16 4 = num en k 8 4 + num en k 12 4
  third : num en k 24 4 = num en k 16 4 + num en k 20 4
  total : num en k 24 4 + num en k 28 4 = syms.length
  groups : ∀ i y, syms[i]? = some y → symGroup y = if i < num en k 16 4 then 0 else if i < num en k 24 4 then 1 else 2

end Obj.Spec.MachoB

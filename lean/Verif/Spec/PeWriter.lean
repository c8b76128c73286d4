import Verif.Model.PeWriter
import Verif.Spec.PeFile
import Verif.Spec.Reserve
import Verif.Spec.FileKind

/-!
# What is in an image written with `write::pe::Writer`

From the model only types are used, the numbers `rd`/`wr` in bytes, the fixed DOS headers and stub (`stubDos`, `emptyDos`, `stub`),
and the readers of base relocations of C28.
-/

namespace Obj.Spec.PeW
open Obj Obj.Pe Obj.PeW Obj.Reserve Obj.Spec Obj.Spec.PeFile

/-- A short name: eight bytes, filled up with zeros. -/
def name8 (s : String) : List UInt8 := s.toUTF8.toList ++ List.replicate (8 - s.toUTF8.toList.length) 0

/-- A section as it should be in the file; `dir` is the data directory that describes it. -/
structure Entry where
  name : List UInt8
  characteristics : Nat
  virtualSize : Nat
  dataSize : Nat
  data : List UInt8
  dir : Option Nat
  deriving DecidableEq, Repr

/-- Code 0x20, initialized data 0x40, uninitialized data 0x80, discardable 0x02000000, execute 0x20000000, read 0x40000000, write
0x80000000. -/
def entry (relocs : List UInt8) : Sec → Entry
  | .custom n c v s d => ⟨n, c, v, s, d, none⟩
  | .text d => ⟨name8 ".text", 0x60000020, d.length, d.length, d, none⟩
  | .data v d => ⟨name8 ".data", 0xc0000040, v, d.length, d, none⟩
  | .rdata d => ⟨name8 ".rdata", 0x40000040, d.length, d.length, d, none⟩
  | .bss n => ⟨name8 ".bss", 0xc0000080, n, 0, [], none⟩
  | .idata d => ⟨name8 ".idata", 0xc0000040, d.length, d.length, d, some 1⟩
  | .edata d => ⟨name8 ".edata", 0x40000040, d.length, d.length, d, some 0⟩
  | .pdata d => ⟨name8 ".pdata", 0x40000040, d.length, d.length, d, some 3⟩
  | .xdata d => ⟨name8 ".xdata", 0x40000040, d.length, d.length, d, none⟩
  | .rsrc d => ⟨name8 ".rsrc", 0x40000040, d.length, d.length, d, some 2⟩
  | .reloc => ⟨name8 ".reloc", 0x42000040, relocs.length, relocs.length, relocs, some 5⟩

/-- The sections are placed one after the other: in memory from `v` with alignment `sa`, in the file from `l` with alignment `fa`; a
section without data has no place in the file. -/
def place (sa fa : Nat) : (v l : Nat) → List Entry → List SectionRange
  | _, _, [] => []
  | v, l, e :: es =>
    ⟨v, e.virtualSize, if e.dataSize = 0 then 0 else roundUp l fa, roundUp e.dataSize fa⟩ ::
    place sa fa (roundUp (v + e.virtualSize) sa) (if e.dataSize = 0 then l else roundUp l fa + roundUp e.dataSize fa) es

/-- The end of the sections in memory. -/
def endVirtual (sa : Nat) : Nat → List Entry → Nat
  | v, [] => v
  | v, e :: es => endVirtual sa (roundUp (v + e.virtualSize) sa) es

/-- The end of the sections in the file. -/
def endFile (fa : Nat) : Nat → List Entry → Nat
  | l, [] => l
  | l, e :: es => endFile fa (if e.dataSize = 0 then l else roundUp l fa + roundUp e.dataSize fa) es

/-- Kind of the content. -/
def isCode (e : Entry) : Bool := e.characteristics.testBit 5
def isData (e : Entry) : Bool := !e.characteristics.testBit 5 && e.characteristics.testBit 6
def isBss (e : Entry) : Bool := !e.characteristics.testBit 5 && !e.characteristics.testBit 6 && e.characteristics.testBit 7

/-- Total size in memory of the sections of a kind, each rounded up to the file alignment. -/
def total (fa : Nat) (kind : Entry → Bool) (es : List Entry) : Nat := ((es.filter kind).map fun e => roundUp e.virtualSize fa).sum

/-- Address of the first section of a kind; 0 if there is none. -/
def firstAddress (kind : Entry → Bool) : List (SectionRange × Entry) → Nat
  | [] => 0
  | (r, e) :: tl => if kind e then r.virtualAddress else firstAddress kind tl

/-- The bytes of the DOS header before the offset of the NT headers, and the stub. -/
def dosParts : Dos → List UInt8 × List UInt8
  | .standard => (stubDos, stub)
  | .empty => (emptyDos, [])
  | .custom head => (head, [])

/-- Position after data that is aligned and put one after the other. -/
def after : Nat → List (Nat × List UInt8) → Nat
  | n, [] => n
  | n, (a, b) :: tl => after (roundUp n a + b.length) tl

/-- Offset of the NT headers: after the DOS header, the stub and the further data, aligned to 8. -/
def ntOffset (p : Prog) : Nat := roundUp (after (64 + (dosParts p.dos).2.length) p.extra) 8

/-- Size of the optional header with the data directories. -/
def optLen (p : Prog) : Nat := fixedSize p.is64 + 8 * p.dirNum

/-- Size of all headers. -/
def headers (p : Prog) : Nat := roundUp (ntOffset p + 24 + optLen p + 40 * p.sections.length) p.fileAlign

/-- The data directories set by the client, by the sections, and by the client again. -/
def setAll (ds : List DataDir) (sets : List (Nat × DataDir)) : List DataDir := sets.foldl (fun ds x => ds.set x.1 x.2) ds

/-- The directories of the sections. -/
def sectionDirs (l : List (SectionRange × Entry)) : List (Nat × DataDir) :=
  l.filterMap fun x => x.2.dir.map fun i => (i, ⟨x.1.virtualAddress, x.2.virtualSize⟩)

/-- The header of a section. -/
def sectionOf (x : SectionRange × Entry) : Coff.Section :=
  ⟨x.2.name, x.2.virtualSize, x.1.virtualAddress, x.1.fileSize, x.1.fileOffset, 0, 0, 0, 0, x.2.characteristics⟩

/-- The bytes that a section has in the file, with the padding. -/
def content (fa : Nat) (e : Entry) : List UInt8 := e.data ++ List.replicate (roundUp e.dataSize fa - e.data.length) 0

/-- A number in a 32-bit header is cut to 32 bits. -/
def cut (is64 : Bool) (x : Nat) : Nat := if is64 then x else x % 2 ^ 32

/-- The end of the file without certificates. -/
def fileEnd (p : Prog) (es : List Entry) : Nat := endFile p.fileAlign (headers p) es

/-- The certificate table: aligned to 8, padded to a multiple of 8. -/
def certDir (p : Prog) (es : List Entry) : List (Nat × DataDir) :=
  match p.cert with
  | none => []
  | some [] => [(4, ⟨fileEnd p es, 0⟩)]
  | some (b :: c) => [(4, ⟨roundUp (fileEnd p es) 8, roundUp (b :: c).length 8⟩)]

/-- A power of two below 2^32. -/
def Pow2 (a : Nat) : Prop := ∃ k, k < 32 ∧ a = 2 ^ k

/-- The header values are in the ranges of their types. -/
structure NtOk (nt : NtHeaders) : Prop where
  machine : nt.machine < 2 ^ 16
  timeDateStamp : nt.timeDateStamp < 2 ^ 32
  characteristics : nt.characteristics < 2 ^ 16
  majorLinkerVersion : nt.majorLinkerVersion < 2 ^ 8
  minorLinkerVersion : nt.minorLinkerVersion < 2 ^ 8
  addressOfEntryPoint : nt.addressOfEntryPoint < 2 ^ 32
  imageBase : nt.imageBase < 2 ^ 64
  majorOperatingSystemVersion : nt.majorOperatingSystemVersion < 2 ^ 16
  minorOperatingSystemVersion : nt.minorOperatingSystemVersion < 2 ^ 16
  majorImageVersion : nt.majorImageVersion < 2 ^ 16
  minorImageVersion : nt.minorImageVersion < 2 ^ 16
  majorSubsystemVersion : nt.majorSubsystemVersion < 2 ^ 16
  minorSubsystemVersion : nt.minorSubsystemVersion < 2 ^ 16
  subsystem : nt.subsystem < 2 ^ 16
  dllCharacteristics : nt.dllCharacteristics < 2 ^ 16
  sizeOfStackReserve : nt.sizeOfStackReserve < 2 ^ 64
  sizeOfStackCommit : nt.sizeOfStackCommit < 2 ^ 64
  sizeOfHeapReserve : nt.sizeOfHeapReserve < 2 ^ 64
  sizeOfHeapCommit : nt.sizeOfHeapCommit < 2 ^ 64

/-- What a client must respect: alignments are powers of two, names have eight bytes, numbers are in range, a custom DOS header has
the DOS signature, the optional header and the number of sections fit in 16 bits, the data written is what was reserved (up to the
padding), and base relocations have valid types and are added with increasing pages. -/
structure Valid (p : Prog) : Prop where
  sectionAlign : Pow2 p.sectionAlign
  fileAlign : Pow2 p.fileAlign
  dos : ∀ head, p.dos = .custom head → head.length = 60 ∧ le head 0 2 = 0x5a4d
  extra : ∀ x ∈ p.extra, Pow2 x.1 ∧ x.2 ≠ []
  dirNum : optLen p < 2 ^ 16
  nt : NtOk p.nt
  sections : p.sections.length < 2 ^ 16
  custom : ∀ n c v s d, Sec.custom n c v s d ∈ p.sections →
    n.length = 8 ∧ c < 2 ^ 32 ∧ d.length ≤ s ∧ s ≤ roundUp d.length p.fileAlign
  dirsBefore : ∀ x ∈ p.dirsBefore, x.2.virtualAddress < 2 ^ 32 ∧ x.2.size < 2 ^ 32
  dirsAfter : ∀ x ∈ p.dirsAfter, x.2.virtualAddress < 2 ^ 32 ∧ x.2.size < 2 ^ 32
  oneReloc : (p.sections.filter (· = .reloc)).length ≤ 1
  relocs : Sec.reloc ∈ p.sections → (∀ r ∈ p.relocs, r.virtualAddress < 2 ^ 32 ∧ r.typ < 16 ∧ (r.typ = 0 → r.virtualAddress % 4096 ≠ 0)) ∧
    p.relocs.Pairwise (fun a b => a.virtualAddress / 4096 ≤ b.virtualAddress / 4096) ∧ 12 * p.relocs.length + 2 < 2 ^ 32

/-- An upper bound for the space that a section takes, in the file and in memory. -/
def space (p : Prog) : Sec → Nat
  | .custom _ _ v s _ => v + s + p.sectionAlign + 2 * p.fileAlign
  | .data v d => v + d.length + p.sectionAlign + 2 * p.fileAlign
  | .bss n => n + p.sectionAlign + 2 * p.fileAlign
  | .reloc => 12 * p.relocs.length + 2 + p.sectionAlign + 2 * p.fileAlign
  | .text d | .rdata d | .idata d | .edata d | .pdata d | .xdata d | .rsrc d => d.length + p.sectionAlign + 2 * p.fileAlign

/-- What is needed for reserving the image: all fits in 4 GiB with room for the padding, the data directories that are set exist, no
directory is set before or for two sections, and base relocations are only added if there is a section for them. -/
structure Room (p : Prog) : Prop where
  size : headers p + p.sectionAlign + p.fileAlign + (p.sections.map (space p)).sum +
    (match p.cert with | none => 0 | some d => d.length + 24) < 2 ^ 32
  before : ∀ x ∈ p.dirsBefore, x.1 < p.dirNum
  after : ∀ x ∈ p.dirsAfter, x.1 < p.dirNum
  exist : ∀ s ∈ p.sections, ∀ i, (entry [] s).dir = some i → i < p.dirNum ∧ ∀ x ∈ p.dirsBefore, x.1 ≠ i
  once : p.sections.Pairwise fun a b => ∀ i, (entry [] a).dir = some i → (entry [] b).dir ≠ some i
  cert : p.cert ≠ none → 4 < p.dirNum ∧ (∀ x ∈ p.dirsBefore, x.1 ≠ 4) ∧ ∀ x ∈ p.dirsAfter, x.1 ≠ 4
  relocs : Sec.reloc ∈ p.sections ∨ p.relocs = []

/-- The bytes are blocks of base relocations; the relocations of all blocks are `rs`. -/
def RelocBytes (bytes : List UInt8) (rs : List Reloc) : Prop :=
  ∃ (bs : List RelocBlockData) (rss : List (List Reloc)), Runs nextBlock bytes bs .done ∧ rss.length = bs.length ∧
    (∀ (i : Nat) b l, bs[i]? = some b → rss[i]? = some l → Runs RelocBlockData.next b l .done) ∧ rss.flatten = rs

/-- The image that the client asked for; `es` are its sections. -/
structure Written (p : Prog) (es : List Entry) (out : List UInt8) (f : PeFile) : Prop where
  nt : f.ntOffset = ntOffset p
  header : f.header = ⟨p.nt.machine, p.sections.length, p.nt.timeDateStamp, 0, 0, optLen p, p.nt.characteristics⟩
  opt : f.opt =
    { magic := if p.is64 then 0x20b else 0x10b
      majorLinkerVersion := p.nt.majorLinkerVersion
      minorLinkerVersion := p.nt.minorLinkerVersion
      sizeOfCode := total p.fileAlign isCode es
      sizeOfInitializedData := total p.fileAlign isData es
      sizeOfUninitializedData := total p.fileAlign isBss es
      addressOfEntryPoint := p.nt.addressOfEntryPoint
      baseOfCode := firstAddress isCode ((place p.sectionAlign p.fileAlign (roundUp (headers p) p.sectionAlign) (headers p) es).zip es)
      baseOfData := if p.is64 then none else
        some (firstAddress (fun e => isData e || isBss e)
          ((place p.sectionAlign p.fileAlign (roundUp (headers p) p.sectionAlign) (headers p) es).zip es))
      imageBase := cut p.is64 p.nt.imageBase
      sectionAlignment := p.sectionAlign
      fileAlignment := p.fileAlign
      majorOperatingSystemVersion := p.nt.majorOperatingSystemVersion
      minorOperatingSystemVersion := p.nt.minorOperatingSystemVersion
      majorImageVersion := p.nt.majorImageVersion
      minorImageVersion := p.nt.minorImageVersion
      majorSubsystemVersion := p.nt.majorSubsystemVersion
      minorSubsystemVersion := p.nt.minorSubsystemVersion
      win32VersionValue := 0
      sizeOfImage := endVirtual p.sectionAlign (roundUp (headers p) p.sectionAlign) es
      sizeOfHeaders := headers p
      checkSum := 0
      subsystem := p.nt.subsystem
      dllCharacteristics := p.nt.dllCharacteristics
      sizeOfStackReserve := cut p.is64 p.nt.sizeOfStackReserve
      sizeOfStackCommit := cut p.is64 p.nt.sizeOfStackCommit
      sizeOfHeapReserve := cut p.is64 p.nt.sizeOfHeapReserve
      sizeOfHeapCommit := cut p.is64 p.nt.sizeOfHeapCommit
      loaderFlags := 0
      numberOfRvaAndSizes := p.dirNum }
  dirs : f.dirs = setAll (List.replicate p.dirNum ⟨0, 0⟩) (p.dirsBefore ++
    sectionDirs ((place p.sectionAlign p.fileAlign (roundUp (headers p) p.sectionAlign) (headers p) es).zip es) ++ p.dirsAfter ++ certDir p es)
  sections : f.sections =
    ((place p.sectionAlign p.fileAlign (roundUp (headers p) p.sectionAlign) (headers p) es).zip es).map sectionOf
  symbols : f.symbols = ⟨false, [], none⟩
  /-- The contents of each section are its data, padded with zeros, as much as there is in memory. -/
  data : ∀ (i : Nat) s e, f.sections[i]? = some s → es[i]? = some e → sectionData s out = .ok ((content p.fileAlign e).take e.virtualSize)
  /-- The DOS header, the stub and the further data. -/
  dos : At out 0 ((dosParts p.dos).1 ++ wr .little 4 (ntOffset p) ++ (dosParts p.dos).2)
  extra : ∀ pre a b post, p.extra = pre ++ (a, b) :: post → At out (roundUp (after (64 + (dosParts p.dos).2.length) pre) a) b
  /-- The certificate table, padded with zeros. -/
  cert : ∀ c, p.cert = some c → c ≠ [] →
    At out (roundUp (fileEnd p es) 8) (c ++ List.replicate (roundUp c.length 8 - c.length) 0)

end Obj.Spec.PeW

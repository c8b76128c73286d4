import Verif.Model.MachoFile

/-!
# The layout of a Mach-O file, and what is to be reported for it

Offsets, sizes and constants are those of `<mach-o/loader.h>`, `<mach-o/nlist.h>` and `<mach-o/stab.h>`.  From the model only the types
of headers and results are used, and `rd`, which reads a number in a byte order.
-/

namespace Obj.Spec.MachoF
open Obj Obj.MachoR Obj.MachoF

/-- The number in the `w` bytes at offset `o`. -/
def num (en : Endianness) (data : List UInt8) (o w : Nat) : Nat := rd en (slice data o w)

/-- The bytes of an ASCII string. -/
def ascii (s : String) : List UInt8 := s.toList.map fun c => UInt8.ofNat c.toNat

/-- A fixed-size field holds `name`, which ends at the first NUL if there is one. -/
def HasName (raw name : List UInt8) : Prop := (0 : UInt8) ∉ name ∧ (raw = name ∨ ∃ tl, raw = name ++ 0 :: tl)

/-- `x` is the first element of a list that satisfies `P`. -/
def FirstOf {α : Type} (P : α → Prop) (l : List α) (x : α) : Prop := ∃ pre post, l = pre ++ x :: post ∧ P x ∧ ∀ y ∈ pre, ¬ P y
/-- `x` is the last element of a list that satisfies `P`. -/
def LastOf {α : Type} (P : α → Prop) (l : List α) (x : α) : Prop := ∃ pre post, l = pre ++ x :: post ∧ P x ∧ ∀ y ∈ post, ¬ P y

/-- The elements of two lists are related one by one. -/
inductive Each {α β : Type} (P : α → β → Prop) : List α → List β → Prop where
  | nil : Each P [] []
  | cons {y : α} {x : β} {ys : List α} {xs : List β} : P y x → Each P ys xs → Each P (y :: ys) (x :: xs)

/-! ## The file header and the load commands -/

/-- Size of the file header; the header of 64-bit files has a reserved word at the end. -/
def headerSize (is64 : Bool) : Nat := if is64 then 32 else 28

/-- The file header, after the magic number. -/
def headerIn (en : Endianness) (data : List UInt8) : Mhdr :=
  ⟨num en data 4 4, num en data 8 4, num en data 12 4, num en data 16 4, num en data 20 4, num en data 24 4⟩

/-- `b` is a load command: the second word is its length. -/
def IsCommand (en : Endianness) (b : List UInt8) : Prop := 8 ≤ b.length ∧ num en b 4 4 = b.length

/-- `cmds` are the load commands in `region`, of which the file header announces `n`: the list ends early only where there is no load
command. -/
def CommandsIn (en : Endianness) (region : List UInt8) (n : Nat) (cmds : List (List UInt8)) : Prop :=
  ∃ rest, region = cmds.flatten ++ rest ∧ (∀ b ∈ cmds, IsCommand en b) ∧ cmds.length ≤ n ∧
    (cmds.length < n → ¬ ∃ b tl, rest = b ++ tl ∧ IsCommand en b)

/-- The load commands of a file; there are none if the part for them is not inside of the file. -/
def CommandsOf (c : Cfg) (h : Mhdr) (data : List UInt8) (cmds : List (List UInt8)) : Prop :=
  if h.sizeofcmds = 0 ∨ headerSize c.is64 + h.sizeofcmds ≤ data.length then
    CommandsIn c.en (slice data (headerSize c.is64) h.sizeofcmds) h.ncmds cmds
  else cmds = []

/-! ## Segments and sections -/

/-- Size of an address. -/
def width (is64 : Bool) : Nat := if is64 then 8 else 4
/-- Size of a segment command without sections. -/
def segmentSize (is64 : Bool) : Nat := if is64 then 72 else 56
/-- Size of a section header. -/
def sectionSize (is64 : Bool) : Nat := if is64 then 80 else 68

/-- `LC_SEGMENT_64` in 64-bit files, `LC_SEGMENT` in 32-bit files. -/
def IsSegment (c : Cfg) (b : List UInt8) : Prop := num c.en b 0 4 = if c.is64 then 0x19 else 1
instance (c : Cfg) (b : List UInt8) : Decidable (IsSegment c b) := inferInstanceAs (Decidable (_ = _))

/-- The segment of a segment command. -/
def segmentIn (c : Cfg) (b : List UInt8) : Seg :=
  let w := width c.is64
  ⟨slice b 8 16, num c.en b 24 w, num c.en b (24 + w) w, num c.en b (24 + 2 * w) w, num c.en b (24 + 3 * w) w,
    num c.en b (24 + 4 * w) 4, num c.en b (28 + 4 * w) 4, num c.en b (32 + 4 * w) 4, num c.en b (36 + 4 * w) 4⟩

/-- The section header at offset `o`. -/
def sectionAt (c : Cfg) (b : List UInt8) (o : Nat) : Sect :=
  let w := width c.is64
  ⟨slice b o 16, slice b (o + 16) 16, num c.en b (o + 32) w, num c.en b (o + 32 + w) w, num c.en b (o + 32 + 2 * w) 4,
    num c.en b (o + 36 + 2 * w) 4, num c.en b (o + 40 + 2 * w) 4, num c.en b (o + 44 + 2 * w) 4, num c.en b (o + 48 + 2 * w) 4,
    num c.en b (o + 52 + 2 * w) 4, num c.en b (o + 56 + 2 * w) 4, if c.is64 then num c.en b (o + 60 + 2 * w) 4 else 0⟩

/-- The section headers of a segment command. -/
def sectionsIn (c : Cfg) (b : List UInt8) : List Sect :=
  (List.range (segmentIn c b).nsects).map fun i => sectionAt c b (segmentSize c.is64 + sectionSize c.is64 * i)

/-- The section has no data in the file: `S_ZEROFILL`, `S_GB_ZEROFILL`, `S_THREAD_LOCAL_ZEROFILL`. -/
def Zerofill (s : Sect) : Prop := s.flags % 256 ∈ [1, 0xc, 0x12]

/-- The file offsets of the sections of a segment that ends after 4 GB, where `e` is the end of the segment: section headers only have
the low 32 bits.  A section is at the first place after the end of the previous one that agrees with these, and it ends
before the end of the segment (in 64-bit arithmetic). -/
inductive LargeOffsets (e : Nat) : Nat → List Sect → List Nat → Prop where
  | nil {prev : Nat} : LargeOffsets e prev [] []
  | zerofill {prev : Nat} {s : Sect} {ss : List Sect} {os : List Nat} : Zerofill s → LargeOffsets e prev ss os →
      LargeOffsets e prev (s :: ss) (s.offset :: os)
  | data {prev x : Nat} {s : Sect} {ss : List Sect} {os : List Nat} : ¬ Zerofill s → x % 2 ^ 32 = s.offset → prev ≤ x → x < prev + 2 ^ 32 →
      (x + s.size) % 2 ^ 64 ≤ e → LargeOffsets e ((x + s.size) % 2 ^ 64) ss os → LargeOffsets e prev (s :: ss) (x % 2 ^ 64 :: os)

/-- The sections of a segment that ends at `e` are at the offsets `os` of the file, one after the other with less than 4 GB between them;
the headers have the low 32 bits. -/
inductive Placed (e : Nat) : Nat → List Sect → List Nat → Prop where
  | nil {prev : Nat} : Placed e prev [] []
  | zerofill {prev : Nat} {s : Sect} {ss : List Sect} {os : List Nat} : Zerofill s → Placed e prev ss os →
      Placed e prev (s :: ss) (s.offset :: os)
  | data {prev x : Nat} {s : Sect} {ss : List Sect} {os : List Nat} : ¬ Zerofill s → s.offset = x % 2 ^ 32 → prev ≤ x → x < prev + 2 ^ 32 →
      x + s.size ≤ e → Placed e (x + s.size) ss os → Placed e prev (s :: ss) (x :: os)

/-- The file offsets of the sections of a segment. -/
def OffsetsOf (g : Seg) (ss : List Sect) (os : List Nat) : Prop :=
  let e := (g.fileoff + g.filesize) % 2 ^ 64
  if e < 2 ^ 32 then os = ss.map (·.offset) else LargeOffsets e g.fileoff ss os

/-- The section types that determine the kind. -/
def typeKinds : List (Nat × SectionKind) :=
  [(1, .uninitializedData), (0xc, .uninitializedData), (2, .readOnlyString), (3, .readOnlyData), (4, .readOnlyData), (5, .readOnlyData),
   (0xe, .readOnlyData), (8, .text), (0x11, .tls), (0x12, .uninitializedTls), (0x13, .tlsVariables)]

/-- The other known section types: the kind depends on the attributes and on the segment. -/
def plainTypes : List Nat := [0, 6, 7, 9, 0xa, 0xb, 0xd, 0x10, 0x14, 0x15, 0x16]

/-- The section is in read-only memory: by the name of the segment in object files (`MH_OBJECT`), where all sections are in one
segment, and otherwise by the protection (`VM_PROT_WRITE`) and the flags (`SG_READ_ONLY`) of the segment. -/
def ReadOnly (filetype : Nat) (g : Seg) (s : Sect) : Prop :=
  if filetype = 1 then HasName s.segname (ascii "__TEXT") else ¬ g.initprot.testBit 1 ∨ g.flags.testBit 4

/-- The kind of a section: bit 25 of the flags is `S_ATTR_DEBUG`, bits 31 and 10 are set if there are instructions. -/
inductive KindOf (filetype : Nat) (g : Seg) (s : Sect) : SectionKind → Prop where
  | dwarf : HasName s.segname (ascii "__DWARF") → KindOf filetype g s .debug
  | debug : ¬ HasName s.segname (ascii "__DWARF") → s.flags.testBit 25 → KindOf filetype g s .unknown
  | typed {k : SectionKind} : ¬ HasName s.segname (ascii "__DWARF") → ¬ s.flags.testBit 25 → (s.flags % 256, k) ∈ typeKinds →
      KindOf filetype g s k
  | code : ¬ HasName s.segname (ascii "__DWARF") → ¬ s.flags.testBit 25 → s.flags % 256 ∈ plainTypes →
      s.flags.testBit 31 ∨ s.flags.testBit 10 → KindOf filetype g s .text
  | readOnly : ¬ HasName s.segname (ascii "__DWARF") → ¬ s.flags.testBit 25 → s.flags % 256 ∈ plainTypes →
      ¬ (s.flags.testBit 31 ∨ s.flags.testBit 10) → ReadOnly filetype g s → KindOf filetype g s .readOnlyData
  | data : ¬ HasName s.segname (ascii "__DWARF") → ¬ s.flags.testBit 25 → s.flags % 256 ∈ plainTypes →
      ¬ (s.flags.testBit 31 ∨ s.flags.testBit 10) → ¬ ReadOnly filetype g s → KindOf filetype g s .data
  | other : ¬ HasName s.segname (ascii "__DWARF") → ¬ s.flags.testBit 25 → (∀ k, (s.flags % 256, k) ∉ typeKinds) →
      s.flags % 256 ∉ plainTypes → KindOf filetype g s .unknown

/-- The sections of a segment command: it is complete, and the offsets of the sections are determined. -/
def SectionsOf (c : Cfg) (filetype : Nat) (b : List UInt8) (xs : List SecInt) : Prop :=
  segmentSize c.is64 ≤ b.length ∧
  segmentSize c.is64 + sectionSize c.is64 * (segmentIn c b).nsects ≤ b.length ∧
  xs.map (·.sect) = sectionsIn c b ∧
  OffsetsOf (segmentIn c b) (sectionsIn c b) (xs.map (·.offset)) ∧
  ∀ x ∈ xs, KindOf filetype (segmentIn c b) x.sect x.kind

/-! ## Symbols -/

/-- `LC_SYMTAB`. -/
def IsSymtab (en : Endianness) (b : List UInt8) : Prop := num en b 0 4 = 2
instance (en : Endianness) (b : List UInt8) : Decidable (IsSymtab en b) := inferInstanceAs (Decidable (_ = _))

/-- The symbol at offset `o`. -/
def symbolAt (c : Cfg) (data : List UInt8) (o : Nat) : Nlist :=
  ⟨num c.en data o 4, num c.en data (o + 4) 1, num c.en data (o + 5) 1, num c.en data (o + 6) 2, num c.en data (o + 8) (width c.is64)⟩

/-- The symbol table of a command: it is complete, and the symbols are inside of the file.  The part of the file with the strings is not
checked. -/
def SymbolsOf (c : Cfg) (data b : List UInt8) (t : SymTab) : Prop :=
  24 ≤ b.length ∧
  (num c.en b 12 4 = 0 ∨ num c.en b 8 4 + (8 + width c.is64) * num c.en b 12 4 ≤ data.length) ∧
  t.symbols = (List.range (num c.en b 12 4)).map (fun i => symbolAt c data (num c.en b 8 4 + (8 + width c.is64) * i)) ∧
  t.strings = some (num c.en b 16 4, num c.en b 16 4 + num c.en b 20 4)

/-! ## The file -/

/-- `data` is a Mach-O file with the contents `f`. -/
structure Image (is64 : Bool) (data : List UInt8) (f : File) : Prop where
  width : f.cfg.is64 = is64
  size : headerSize is64 ≤ data.length
  /-- `MH_MAGIC` or `MH_MAGIC_64`, in the byte order of the file. -/
  magic : num f.cfg.en data 0 4 = if is64 then 0xfeedfacf else 0xfeedface
  header : f.header = headerIn f.cfg.en data
  body : ∃ cmds, CommandsOf f.cfg f.header data cmds ∧
    f.segments = (cmds.filter fun b => IsSegment f.cfg b).map (segmentIn f.cfg) ∧
    (∃ xss, Each (SectionsOf f.cfg f.header.filetype) (cmds.filter fun b => IsSegment f.cfg b) xss ∧ f.sections = xss.flatten) ∧
    (∀ b ∈ cmds, IsSymtab f.cfg.en b → ∃ t, SymbolsOf f.cfg data b t) ∧
    ((∃ b, LastOf (IsSymtab f.cfg.en) cmds b ∧ SymbolsOf f.cfg data b f.symbols) ∨
      ((∀ b ∈ cmds, ¬ IsSymtab f.cfg.en b) ∧ f.symbols = ⟨[], none⟩))

/-! ## What is found in the load commands -/

/-- The identifier in `LC_UUID`. -/
def UuidIn (en : Endianness) (b : List UInt8) : Prop := num en b 0 4 = 0x1b ∧ 24 ≤ b.length

/-- `LC_BUILD_VERSION`. -/
def IsBuildVersion (en : Endianness) (b : List UInt8) : Prop := num en b 0 4 = 0x32

/-- The contents of `LC_BUILD_VERSION`: the tools follow the fixed part. -/
def BuildVersionIn (en : Endianness) (b : List UInt8) (v : BuildVersion × List (List UInt8)) : Prop :=
  24 + 8 * num en b 20 4 ≤ b.length ∧ v.1 = ⟨num en b 8 4, num en b 12 4, num en b 16 4, num en b 20 4⟩ ∧
  v.2 = (List.range (num en b 20 4)).map fun i => slice b (24 + 8 * i) 8

/-- Where the program counter is in the state of a thread, after the flavor and the number of words: the number of registers before it
and the size of a register. -/
def pcTable : List (Nat × Nat × Nat) :=
  [(0x1000007, 16, 8),   -- x86-64: 16 general registers
   (0x100000c, 32, 8),   -- ARM64: x0–x28, fp, lr, sp
   (7, 10, 4),           -- x86: eax–esp, ss, eflags
   (12, 15, 4)]          -- ARM: r0–r12, sp, lr

/-- The command gives the entry point `e`: `LC_MAIN`, or `LC_UNIXTHREAD` with a program counter. -/
inductive EntryIn (en : Endianness) (cputype : Nat) (b : List UInt8) : Nat → Prop where
  | main : num en b 0 4 = 0x80000028 → 24 ≤ b.length → EntryIn en cputype b (num en b 8 8)
  | thread {n w : Nat} : num en b 0 4 = 5 → (cputype, n, w) ∈ pcTable → 8 + 8 + n * w + w ≤ b.length →
      EntryIn en cputype b (num en b (8 + 8 + n * w) w)

/-! ## Header fields -/

/-- `cputype` for the architectures. -/
def cpuTable : List (Nat × Arch) :=
  [(12, .arm), (0x0100000c, .aarch64), (0x0200000c, .aarch64_Ilp32), (7, .i386), (0x01000007, .x86_64), (8, .mips), (18, .powerPc),
   (0x01000012, .powerPc64)]

/-- `filetype` for the kinds of files. -/
def fileKinds : List (Nat × ObjKind) := [(1, .relocatable), (2, .executable), (4, .core), (6, .dynamic)]

/-! ## Sections by name -/

/-- The section name that stands for `query`: the name itself; for a leading dot, two underscores; and `__zdebug_` for a
compressed debug section.  Names have at most 16 bytes. -/
inductive StandsFor (query : List UInt8) : List UInt8 → Prop where
  | same : StandsFor query query
  | dot {s : List UInt8} : query = ascii "." ++ s → StandsFor query ((ascii "__" ++ s).take 16)
  | zdebug {s : List UInt8} : query = ascii ".debug_" ++ s → StandsFor query ((ascii "__zdebug_" ++ s).take 16)

/-- The section has a name that stands for `query`. -/
def SectionFor (query : List UInt8) (s : SecInt) : Prop := ∃ name, HasName s.sect.sectname name ∧ StandsFor query name

/-! ## Indirect symbols -/

/-- The size of an entry of a section with indirect symbols: pointers (`S_NON_LAZY_SYMBOL_POINTERS`, `S_LAZY_SYMBOL_POINTERS`,
`S_LAZY_DYLIB_SYMBOL_POINTERS`, `S_THREAD_LOCAL_VARIABLE_POINTERS`) or stubs (`S_SYMBOL_STUBS`) of a size that is not zero. -/
inductive EntrySize (is64 : Bool) (s : Sect) : Nat → Prop where
  | pointers : s.flags % 256 ∈ [6, 7, 0x10, 0x14] → EntrySize is64 s (width is64)
  | stubs : s.flags % 256 = 8 → s.reserved2 ≠ 0 → EntrySize is64 s s.reserved2

/-- The indirect symbols of a section: a part of the table, one for each entry. -/
inductive IndirectOf (is64 : Bool) (s : Sect) (table : List Nat) : List Nat → Prop where
  | part {k : Nat} {pre part post : List Nat} : EntrySize is64 s k → table = pre ++ part ++ post → pre.length = s.reserved1 →
      part.length = s.size / k → IndirectOf is64 s table part
  | other : s.flags % 256 ∉ [6, 7, 0x10, 0x14, 8] → IndirectOf is64 s table []

/-! ## Object map -/

/-- The entry `y` is a debugging symbol of type `t`. -/
def Stab (y : Nlist) (t : Nat) : Prop := y.typ = t

/-- The entry does not matter for the map: it is neither `N_SO`, `N_OSO`, `N_FUN` nor `N_STSYM`. -/
def Ignored (y : Nlist) : Prop := y.typ ∉ [0x64, 0x66, 0x24, 0x26]

/-- The object file in a name: a path, or the path of an archive and the name of the member in parentheses. -/
inductive ObjectName : List UInt8 → ObjFile → Prop where
  | member {path member : List UInt8} : (40 : UInt8) ∉ path → ObjectName (path ++ ascii "(" ++ member ++ ascii ")") ⟨path, some member⟩
  | plain {path : List UInt8} : (path.getLast? ≠ some 41 ∨ (40 : UInt8) ∉ path) → ObjectName path ⟨path, none⟩

/-- The symbols of a module between `N_OSO` and the final `N_SO`, for the `i`-th object: functions are a pair of entries with the name and
the address, and with an empty name and the size; static symbols have no size. -/
inductive Module (name : Nlist → Res (List UInt8)) (i : Nat) : List Nlist → List ObjEntry → Prop where
  | nil : Module name i [] []
  | ignored {y : Nlist} {ys : List Nlist} {es : List ObjEntry} : Ignored y → Module name i ys es → Module name i (y :: ys) es
  | function {y z : Nlist} {n : List UInt8} {mid ys : List Nlist} {es : List ObjEntry} : Stab y 0x24 → name y = .ok n → n ≠ [] →
      (∀ m ∈ mid, Ignored m) → Stab z 0x24 → name z = .ok [] → Module name i ys es →
      Module name i (y :: (mid ++ z :: ys)) ((⟨y.value, z.value, n⟩, i) :: es)
  | static {y : Nlist} {n : List UInt8} {ys : List Nlist} {es : List ObjEntry} : Stab y 0x26 → name y = .ok n → Module name i ys es →
      Module name i (y :: ys) ((⟨y.value, 0, n⟩, i) :: es)

/-- A symbol table made of modules: `N_SO` with the source, `N_OSO` with the object file, the symbols, and `N_SO`.  `i` objects come
before. -/
inductive Modules (name : Nlist → Res (List UInt8)) : Nat → List Nlist → List ObjFile → List ObjEntry → Prop where
  | nil {i : Nat} : Modules name i [] [] []
  | ignored {i : Nat} {y : Nlist} {ys : List Nlist} {os : List ObjFile} {es : List ObjEntry} : Ignored y ∨ Stab y 0x64 →
      Modules name i ys os es → Modules name i (y :: ys) os es
  | module {i : Nat} {y z : Nlist} {n : List UInt8} {o : ObjFile} {body ys : List Nlist} {es es' : List ObjEntry} {os : List ObjFile} :
      Stab y 0x66 → name y = .ok n → n ≠ [] → ObjectName n o → Module name i body es → Stab z 0x64 → Modules name (i + 1) ys os es' →
      Modules name i (y :: (body ++ z :: ys)) (o :: os) (es ++ es')

/-- The symbol covers the address: all addresses from its own, if the size is 0. -/
def Covers (e : ObjEntry) (address : Nat) : Prop := e.1.address ≤ address ∧ (e.1.size = 0 ∨ address < e.1.address + e.1.size)

/-- No symbol starts closer before the address. -/
def Closest (l : List ObjEntry) (address : Nat) (e : ObjEntry) : Prop :=
  e ∈ l ∧ e.1.address ≤ address ∧ ∀ d ∈ l, d.1.address ≤ address → d.1.address ≤ e.1.address

end Obj.Spec.MachoF

import Verif.Model.BuildRead
import Verif.Spec.ElfFile
import Verif.Spec.Build

/-!
# What an ELF builder that was read from a file holds

From the model only the types of headers, of the builder and of its tables are used.  The layout of the tables of an ELF file is that of
`Spec/ElfFile.lean`; constants are those of the gABI and of `<elf.h>`.
-/

namespace Obj.Spec.BuildR
open Obj Obj.Build Obj.Spec
open Obj.Elf (StrTable Shdr Phdr Ehdr SymTab SectionTable Verdef Verdaux Verneed Vernaux)
open Obj.Elf (Crel)
open Obj.Spec.MachoF (num ascii Each)
open Obj.Spec.ElfF (word headerSize headerIn SegmentsOf SectionsOf NamesIndex NamesOf SymbolsOf RecordsOf StringsOf DataOf relaAt)

/-- `str` is the NUL-terminated string at an offset in a string table. -/
def StrAt (data : List UInt8) (strings : StrTable) (offset : Nat) (str : List UInt8) : Prop :=
  ∃ start stop, strings = some (start, stop) ∧ stop ≤ data.length ∧ start + offset + str.length < stop ∧
    At data (start + offset) (str ++ [0]) ∧ (0 : UInt8) ∉ str

/-! ## Relocations -/

/-- The relocation at offset `o`.  Relocations without addends have the same layout, and the builder reads them as if they had the
addend 0. -/
def relocAt (c : Elf.Cfg) (machine : Nat) (rela : Bool) (data : List UInt8) (o : Nat) : Crel :=
  { relaAt c machine data o with addend := if rela then (relaAt c machine data o).addend else 0 }

/-- The relocation refers to symbol `sym` of a table with `count` entries; 0 is no symbol, and ids do not count the null symbol. -/
def RelocOf (count : Nat) (r : Crel) (x : Build.Rel) : Prop :=
  x.offset = r.offset ∧ x.typ = r.type ∧ x.addend = r.addend ∧
  (r.sym = 0 ∧ x.symbol = none ∨ 0 < r.sym ∧ r.sym < count ∧ x.symbol = some (r.sym - 1))

/-! ## Dynamic entries -/

/-- The dynamic entry at offset `o`: a signed tag and a value. -/
def dynAt (c : Elf.Cfg) (data : List UInt8) (o : Nat) : Int × Nat :=
  (toSigned (word c.is64) (num c.en data o (word c.is64)), num c.en data (o + word c.is64) (word c.is64))

/-- `DT_NEEDED`, `DT_SONAME`, `DT_RPATH`, `DT_RUNPATH`, `DT_AUXILIARY`, `DT_FILTER`. -/
def stringTags : List Int := [1, 14, 15, 29, 0x7ffffffd, 0x7fffffff]

/-- The tags of entries that are generated when writing: those that need a kind of section. -/
def autoTags : List Int := Build.Spec.autoNeeds.map Prod.fst

/-- The builder's form of a dynamic entry. -/
def DynOf (data : List UInt8) (strings : StrTable) (d : Int × Nat) (x : Build.Dyn) : Prop :=
  (d.1 ∈ stringTags ∧ d.2 < 2 ^ 32 ∧ ∃ str, StrAt data strings d.2 str ∧ x = .string d.1 str) ∨
  (d.1 ∈ autoTags ∧ x = .auto d.1) ∨
  (d.1 ∉ stringTags ∧ d.1 ∉ autoTags ∧ x = .integer d.1 d.2)

/-! ## Attributes -/

/-- The shortest LEB128 form of a number. -/
def ulebBytes (v : Nat) : List UInt8 := if v < 128 then [UInt8.ofNat v] else UInt8.ofNat (v % 128 + 128) :: ulebBytes (v / 128)
termination_by v

/-- `Tag_File`, `Tag_Section`, `Tag_Symbol`. -/
def scopeTag : AttrScope → UInt8
  | .file => 1
  | .sections _ => 2
  | .symbols _ => 3

/-- The list of indices of a scope, ended by 0.  Ids do not count the null section and the null symbol. -/
def scopeBytes : AttrScope → List UInt8
  | .file => []
  | .sections l => l.flatMap (fun i => ulebBytes (i + 1)) ++ [0]
  | .symbols l => l.flatMap (fun i => ulebBytes (i + 1)) ++ [0]

/-- A sub-subsection: tag, size, scope, attributes. -/
def subSubBytes (en : Endianness) (x : AttrSubSub) : List UInt8 :=
  scopeTag x.scope :: wr en 4 (5 + (scopeBytes x.scope ++ x.data).length) ++ (scopeBytes x.scope ++ x.data)

/-- A subsection: size, vendor, sub-subsections. -/
def subBytes (en : Endianness) (s : AttrSub) : List UInt8 :=
  wr en 4 (4 + (s.vendor ++ [0] ++ s.subs.flatMap (subSubBytes en)).length) ++ (s.vendor ++ [0] ++ s.subs.flatMap (subSubBytes en))

/-- The ids of a scope exist. -/
def ScopeOk (sections symbols : Nat) : AttrScope → Prop
  | .file => True
  | .sections l => ∀ i ∈ l, i + 1 < sections ∧ i + 1 < 2 ^ 32
  | .symbols l => ∀ i ∈ l, i + 1 < symbols ∧ i + 1 < 2 ^ 32

/-- The bytes are the encoding of the attributes, in version 'A'; no bytes are no attributes.  `sections` and `symbols` are the numbers of
entries of the tables. -/
def AttributesOf (en : Endianness) (sections symbols : Nat) (d : List UInt8) (l : List AttrSub) : Prop :=
  (∀ s ∈ l, (0 : UInt8) ∉ s.vendor ∧ (subBytes en s).length < 2 ^ 32 ∧ ∀ x ∈ s.subs, ScopeOk sections symbols x.scope) ∧
  (d = 0x41 :: l.flatMap (subBytes en) ∨ d = [] ∧ l = [])

/-! ## Sections -/

/-- The tables of the file that the contents of a section can depend on: `names` is the index of the section with the section names. -/
structure Tables where
  cfg : Elf.Cfg
  machine : Nat
  names : Nat
  sections : List Shdr
  strings : StrTable
  symbols : SymTab
  dynSymbols : SymTab

/-- `SHT_PROGBITS`, `SHT_INIT_ARRAY`, `SHT_FINI_ARRAY`, `SHT_PREINIT_ARRAY`, `SHT_RELR`, `SHT_CREL`, `SHT_LLVM_DEPENDENT_LIBRARIES`. -/
def plainTypes : List Nat := [1, 14, 15, 16, 19, 0x40000014, 0x6fff4c04]

/-- Machine and type: `SHT_ARM_EXIDX`, `SHT_IA_64_UNWIND`, `SHT_MIPS_REGINFO`, `SHT_MIPS_DWARF`, `SHT_X86_64_UNWIND`. -/
def machineTypes : List (Nat × Nat) := [(40, 0x70000001), (50, 0x70000001), (8, 0x70000006), (8, 0x7000001e), (62, 0x70000001)]

/-- Machine and type: `SHT_ARM_ATTRIBUTES`, `SHT_AARCH64_ATTRIBUTES`, `SHT_CSKY_ATTRIBUTES`, `SHT_RISCV_ATTRIBUTES`. -/
def attributesTypes : List (Nat × Nat) := [(40, 0x70000003), (183, 0x70000003), (252, 0x70000001), (243, 0x70000003)]

/-- The relocations of the section are read as dynamic relocations, for a table with `count` symbols: they refer to the dynamic symbol
table, or to none because the section has no symbol table or is loaded. -/
def DynamicRelocs (t : Tables) (s : Shdr) (count : Nat) : Prop :=
  (s.link = t.dynSymbols.sec ∧ count = t.dynSymbols.symbols.length) ∨
  (s.link ≠ t.dynSymbols.sec ∧ (s.link = 0 ∨ s.flags.testBit 1 = true) ∧ count = 0)

/-- The relocations of the section refer to the symbol table. -/
def StaticRelocs (t : Tables) (s : Shdr) : Prop :=
  s.link ≠ t.dynSymbols.sec ∧ s.link ≠ 0 ∧ s.flags.testBit 1 = false ∧ s.link = t.symbols.sec

/-- The entries of a relocation section: `SHT_RELA = 4`, `SHT_REL = 9`. -/
def RelocsOf (t : Tables) (data : List UInt8) (s : Shdr) (count : Nat) (l : List Build.Rel) : Prop :=
  ∃ rela rs, s.type = (if rela then 4 else 9) ∧
    RecordsOf (if rela then 3 * word t.cfg.is64 else 2 * word t.cfg.is64) (relocAt t.cfg t.machine rela data) data s rs ∧
    Each (RelocOf count) rs l

/-- The contents of section `i`, which has the header `s` and the name `name`. -/
inductive Contents (t : Tables) (data : List UInt8) (i : Nat) (s : Shdr) (name : List UInt8) : SecData → Prop where
  | uninit : s.type = 8 → Contents t data i s name (.uninit s.size)
  | plain {d : List UInt8} : s.type ∈ plainTypes ∨ (t.machine, s.type) ∈ machineTypes → DataOf data s d →
      Contents t data i s name (.data d)
  | dynRelocs {count : Nat} {l : List Build.Rel} : DynamicRelocs t s count → RelocsOf t data s count l →
      Contents t data i s name (.dynRelocs l)
  | relocs {l : List Build.Rel} : StaticRelocs t s → RelocsOf t data s t.symbols.symbols.length l → Contents t data i s name (.relocs l)
  | symbol : s.type = 2 → i = t.symbols.sec → Contents t data i s name .symbol
  | symbolSectionIndex : s.type = 18 → i = t.symbols.shndxSection → Contents t data i s name .symbolSectionIndex
  | dynamicSymbol : s.type = 11 → i = t.dynSymbols.sec → Contents t data i s name .dynamicSymbol
  | string : s.type = 3 → i = t.symbols.stringSection → Contents t data i s name .string
  | dynamicString : s.type = 3 → i ≠ t.symbols.stringSection → i = t.dynSymbols.stringSection → Contents t data i s name .dynamicString
  | sectionString : s.type = 3 → i ≠ t.symbols.stringSection → i ≠ t.dynSymbols.stringSection → i = t.names →
      Contents t data i s name .sectionString
  | annobin {d : List UInt8} : s.type = 3 → i ≠ t.symbols.stringSection → i ≠ t.dynSymbols.stringSection → i ≠ t.names →
      name = ascii ".annobin.notes" → DataOf data s d → Contents t data i s name (.data d)
  | note {d : List UInt8} : s.type = 7 → DataOf data s d → Contents t data i s name (.note d)
  | dynamic {strings : StrTable} {ds : List (Int × Nat)} {l : List Build.Dyn} : s.type = 6 →
      RecordsOf (2 * word t.cfg.is64) (dynAt t.cfg data) data s ds → StringsOf t.sections s.link strings →
      Each (DynOf data strings) (ds.takeWhile fun d => d.1 ≠ 0) l → Contents t data i s name (.dynamic l)
  | attributes {d : List UInt8} {l : List AttrSub} : s.type = 0x6ffffff5 ∨ (t.machine, s.type) ∈ attributesTypes → DataOf data s d →
      AttributesOf t.cfg.en t.sections.length t.symbols.symbols.length d l → Contents t data i s name (.attributes l)
  | hash {d : List UInt8} : s.type = 5 → DataOf data s d → 8 ≤ d.length → Contents t data i s name .hash
  | gnuHash {d : List UInt8} : s.type = 0x6ffffff6 → DataOf data s d → 16 ≤ d.length → Contents t data i s name .gnuHash
  | gnuVersym : s.type = 0x6fffffff → Contents t data i s name .gnuVersym
  | gnuVerdef : s.type = 0x6ffffffd → Contents t data i s name .gnuVerdef
  | gnuVerneed : s.type = 0x6ffffffe → Contents t data i s name .gnuVerneed

/-- A link to another section of a table with `count` entries; 0 is no section. -/
def LinkOf (count link : Nat) (x : Option Nat) : Prop := link = 0 ∧ x = none ∨ 0 < link ∧ link < count ∧ x = some (link - 1)

/-- Section `p.2`, with the header `p.1`, in the builder; `sh_info` is a link to a section only with `SHF_INFO_LINK` (bit 6). -/
def SectionOf (t : Tables) (data : List UInt8) (p : Shdr × Nat) (x : Sec) : Prop :=
  x.id = p.2 - 1 ∧ x.delete = false ∧ StrAt data t.strings p.1.name x.name ∧ x.shType = p.1.type ∧ x.shFlags = p.1.flags ∧
  x.shAddr = p.1.addr ∧ x.shOffset = p.1.offset ∧ x.shSize = p.1.size ∧ LinkOf t.sections.length p.1.link x.linkSection ∧
  x.shInfo = p.1.info ∧ LinkOf t.sections.length (if p.1.flags.testBit 6 then p.1.info else 0) x.infoSection ∧
  x.addralign = p.1.addralign ∧ x.entsize = p.1.entsize ∧ Contents t data p.2 p.1 x.name x.data

/-- The last section of a type, apart from the null section. -/
def lastOfType (ss : List Shdr) (type : Nat) : Option Shdr := ((ss.drop 1).filter fun s => s.type = type).getLast?

/-- The 32-bit number at an offset in the last section of a type, 0 without such a section. -/
def paramOf (en : Endianness) (data : List UInt8) (ss : List Shdr) (type offset : Nat) : Nat :=
  match lastOfType ss type with
  | some s => num en data (s.offset + offset) 4
  | none => 0

/-! ## Segments -/

/-- Segment `p.2`, with the header `p.1`: its sections are the loaded sections (`SHF_ALLOC`, bit 1) whose address is in it. -/
def segmentOf (secs : List Sec) (p : Phdr × Nat) : Seg :=
  { id := p.2, delete := false, pType := p.1.type, pFlags := p.1.flags, pOffset := p.1.offset, pVaddr := p.1.vaddr, pPaddr := p.1.paddr,
    pFilesz := p.1.filesz, pMemsz := p.1.memsz, pAlign := p.1.align,
    sections := (secs.filter fun x => x.shFlags.testBit 1 && decide (p.1.vaddr ≤ x.shAddr ∧ x.shAddr < p.1.vaddr + p.1.memsz)).map (·.id) }

/-- The common alignment of the `PT_LOAD` segments (type 1), and 1 if they differ or have none.  (Alignment 0 is ignored in segments
before the first one with an alignment.) -/
def loadAlignOf (ps : List Phdr) : Nat :=
  match ((ps.filter fun p => p.type = 1).map (·.align)).dropWhile (· = 0) with
  | [] => 1
  | a :: l => if l.all (· = a) then a else 1

/-! ## Symbols -/

/-- The section of symbol `i`: `SHN_XINDEX = 0xffff` means the index is in the table of extended indices; other indices from
`SHN_LORESERVE = 0xff00` on are not sections. -/
def SymSection (t : SymTab) (i : Nat) (s : Elf.Sym) (k : Nat) : Prop :=
  if s.shndx = 0xffff then t.shndx[i]? = some k else k = if s.shndx < 0xff00 then s.shndx else 0

/-- Symbol `p.2`, with the entry `p.1`, in the builder, apart from its version; `count` is the number of section headers. -/
def SymbolOf (data : List UInt8) (t : SymTab) (count : Nat) (p : Elf.Sym × Nat) (x : Build.Sym) : Prop :=
  x.id = p.2 - 1 ∧ x.delete = false ∧ StrAt data t.strings p.1.name x.name ∧
  (∃ k, SymSection t p.2 p.1 k ∧ LinkOf count k x.section_) ∧
  x.info = p.1.info ∧ x.other = p.1.other ∧ x.shndx = p.1.shndx ∧ x.value = p.1.value ∧ x.size = p.1.size

/-! ## Versions -/

/-- Auxiliary records in the data of a section: `count` records from offset `o` on, each with the distance to the next one. -/
inductive Auxs {α : Type} (size : Nat) (record : Nat → α) (next : α → Nat) (length : Nat) : Nat → Nat → List α → Prop where
  | nil {o : Nat} : Auxs size record next length o 0 []
  | cons {o n : Nat} {l : List α} : o + size ≤ length → o + next (record o) ≤ length →
      Auxs size record next length (o + next (record o)) n l → Auxs size record next length o (n + 1) (record o :: l)

/-- Records with auxiliary records: from offset `o` on, each with the distance to the next one, which is 0 for the last one. -/
inductive Chain {α β : Type} (size auxSize : Nat) (record : Nat → α) (auxRecord : Nat → β) (aux cnt next : α → Nat) (auxNext : β → Nat)
    (length : Nat) : Nat → List (α × List β) → Prop where
  | nil {o : Nat} : length ≤ o → Chain size auxSize record auxRecord aux cnt next auxNext length o []
  | last {o : Nat} {as : List β} : o + size ≤ length → next (record o) = 0 → o + aux (record o) ≤ length →
      Auxs auxSize auxRecord auxNext length (o + aux (record o)) (cnt (record o)) as →
      Chain size auxSize record auxRecord aux cnt next auxNext length o [(record o, as)]
  | cons {o : Nat} {as : List β} {l : List (α × List β)} : o + size ≤ length → next (record o) ≠ 0 → o + aux (record o) ≤ length →
      o + next (record o) ≤ length →
      Auxs auxSize auxRecord auxNext length (o + aux (record o)) (cnt (record o)) as →
      Chain size auxSize record auxRecord aux cnt next auxNext length (o + next (record o)) l →
      Chain size auxSize record auxRecord aux cnt next auxNext length o ((record o, as) :: l)

def verdefAt (en : Endianness) (d : List UInt8) (o : Nat) : Verdef :=
  ⟨num en d o 2, num en d (o + 2) 2, num en d (o + 4) 2, num en d (o + 6) 2, num en d (o + 8) 4, num en d (o + 12) 4, num en d (o + 16) 4⟩
def verdauxAt (en : Endianness) (d : List UInt8) (o : Nat) : Verdaux := ⟨num en d o 4, num en d (o + 4) 4⟩
def verneedAt (en : Endianness) (d : List UInt8) (o : Nat) : Verneed :=
  ⟨num en d o 2, num en d (o + 2) 2, num en d (o + 4) 4, num en d (o + 8) 4, num en d (o + 12) 4⟩
def vernauxAt (en : Endianness) (d : List UInt8) (o : Nat) : Vernaux :=
  ⟨num en d o 4, num en d (o + 4) 2, num en d (o + 6) 2, num en d (o + 8) 4, num en d (o + 12) 4⟩

/-- The definitions in the data of an `SHT_GNU_VERDEF` section. -/
def Defs (en : Endianness) (d : List UInt8) : List (Verdef × List Verdaux) → Prop :=
  Chain 20 8 (verdefAt en d) (verdauxAt en d) Verdef.aux Verdef.cnt Verdef.next Verdaux.next d.length 0
/-- The requirements in the data of an `SHT_GNU_VERNEED` section. -/
def Needs (en : Endianness) (d : List UInt8) : List (Verneed × List Vernaux) → Prop :=
  Chain 16 16 (verneedAt en d) (vernauxAt en d) Verneed.aux Verneed.cnt Verneed.next Vernaux.next d.length 0

/-- What is in the first section of a type, which refers to the string table of the dynamic symbols; nothing without such a section. -/
def InFirst {α : Type} (ss : List Shdr) (type stringSection : Nat) (data : List UInt8) (P : List UInt8 → List α → Prop) (l : List α) : Prop :=
  ((∀ s ∈ ss, s.type ≠ type) ∧ l = []) ∨
  ∃ (i : Nat) (s : Shdr) (d : List UInt8), ss[i]? = some s ∧ s.type = type ∧ (∀ (j : Nat) s', j < i → ss[j]? = some s' → s'.type ≠ type) ∧
    DataOf data s d ∧ s.link = stringSection ∧ P d l

/-- The definition is that of the file itself (`VER_FLG_BASE`). -/
def isBase (v : Verdef × List Verdaux) : Bool := v.1.flags.testBit 0

/-- The base version: at most one definition with that flag, which has no other flag, index 1 (`VER_NDX_GLOBAL`), and one name. -/
def BaseOf (data : List UInt8) (strings : StrTable) (defs : List (Verdef × List Verdaux)) (base : Option (List UInt8)) : Prop :=
  (defs.filter isBase = [] ∧ base = none) ∨
  ∃ v a str, defs.filter isBase = [(v, [a])] ∧ v.flags = 1 ∧ v.ndx = 1 ∧ StrAt data strings a.name str ∧ base = some str

/-- The version indices, in the order of the versions of the builder: definitions, then requirements. -/
def indices (defs : List (Verdef × List Verdaux)) (needs : List (Verneed × List Vernaux)) : List Nat :=
  (defs.filter fun v => !isBase v).map (·.1.ndx) ++ needs.flatMap fun n => n.2.map (·.other)

/-- A version that is defined. -/
def DefOf (data : List UInt8) (strings : StrTable) (v : Verdef × List Verdaux) (x : VerData) : Prop :=
  ∃ names, Each (fun (a : Verdaux) str => StrAt data strings a.name str) v.2 names ∧ x = .def_ names v.1.flags

/-- A version that is required, and the index of the file it is required from. -/
def NeedOf (data : List UInt8) (strings : StrTable) (a : Nat × Vernaux) (x : VerData) : Prop :=
  ∃ name, StrAt data strings a.2.name name ∧ x = .need a.1 name a.2.flags

/-- The versions and their files. -/
structure VersionsOf (data : List UInt8) (strings : StrTable) (defs : List (Verdef × List Verdaux)) (needs : List (Verneed × List Vernaux))
    (base : Option (List UInt8)) (versions : List Ver) (files : List VerFile) : Prop where
  base : BaseOf data strings defs base
  /-- No index is used twice, and 0 and 1 (`VER_NDX_LOCAL`, `VER_NDX_GLOBAL`) are not used. -/
  distinct : (indices defs needs).Nodup ∧ 0 ∉ indices defs needs ∧ 1 ∉ indices defs needs
  versions : ∃ ds ns, Each (DefOf data strings) (defs.filter fun v => !isBase v) ds ∧
    Each (NeedOf data strings) (needs.zipIdx.flatMap fun n => n.1.2.map fun a => (n.2, a)) ns ∧
    versions = (ds ++ ns).zipIdx.map fun x => { id := x.2, data := x.1, delete := false }
  files : ∃ names, Each (fun (n : Verneed × List Vernaux) str => StrAt data strings n.1.file str) needs names ∧
    files = names.zipIdx.map fun x => { id := x.2, delete := false, name := x.1 }

/-- The version of a symbol with the version number `v`: bit 15 is the hidden flag, the rest is an index. The ids of local and global are
0 and 1, and those of the versions of the builder start at 2. -/
def VersionOf (indices : List Nat) (v : Nat) (x : Build.Sym) : Prop :=
  x.versionHidden = v.testBit 15 ∧
  (v % 2 ^ 15 = 0 ∧ x.version = 0 ∨ v % 2 ^ 15 = 1 ∧ x.version = 1 ∨ ∃ k, indices[k]? = some (v % 2 ^ 15) ∧ x.version = k + 2)

/-- The versions of the dynamic symbols are in the first `SHT_GNU_VERSYM` section, which has one number for each symbol; without it all are
local. -/
def SymVersions (t : Tables) (data : List UInt8) (indices : List Nat) (syms : List Build.Sym) : Prop :=
  ((∀ s ∈ t.sections, s.type ≠ 0x6fffffff) ∧ ∀ x ∈ syms, x.version = 0 ∧ x.versionHidden = false) ∨
  ∃ (i : Nat) (s : Shdr) (vs : List Nat), t.sections[i]? = some s ∧ s.type = 0x6fffffff ∧
    (∀ (j : Nat) s', j < i → t.sections[j]? = some s' → s'.type ≠ 0x6fffffff) ∧
    RecordsOf 2 (fun o => num t.cfg.en data o 2) data s vs ∧ vs.length = t.dynSymbols.symbols.length ∧ s.link = t.dynSymbols.sec ∧
    Each (VersionOf indices) (vs.drop 1) syms

/-! ## The builder -/

/-- `b` is what the file `data` with the tables `t`, the file header `h` and the program headers `ps` holds. -/
structure ImageOf (is64 : Bool) (data : List UInt8) (t : Tables) (h : Ehdr) (ps : List Phdr) (b : Full) : Prop where
  -- The file.
  width : t.cfg.is64 = is64
  size : headerSize is64 ≤ data.length
  ident : slice data 0 7 = [0x7f, 0x45, 0x4c, 0x46, if is64 then 2 else 1, if t.cfg.en = .big then 2 else 1, 1]
  header : h = headerIn t.cfg data
  machine : t.machine = h.machine
  names : NamesIndex t.cfg h data t.names
  segments : SegmentsOf t.cfg h data ps
  sections : SectionsOf t.cfg h data t.sections
  strings : NamesOf t.cfg h data t.sections t.strings
  symbols : SymbolsOf t.cfg data t.sections 2 t.symbols
  dynSymbols : SymbolsOf t.cfg data t.sections 11 t.dynSymbols
  -- The builder.
  bEndian : b.endian = t.cfg.en
  bIs64 : b.is64 = is64
  bLoadAlign : b.loadAlign = loadAlignOf ps
  bHeader : b.header = ⟨h.osAbi, h.abiVersion, h.type, h.machine, h.entry, h.flags, h.phoff⟩
  bSegments : b.tables.segments = ps.zipIdx.map (segmentOf b.tables.sections)
  bSections : Each (SectionOf t data) (t.sections.zipIdx.drop 1) b.tables.sections
  bHash : b.hashBuckets = paramOf t.cfg.en data t.sections 5 0
  bGnuHash : b.gnuBuckets = paramOf t.cfg.en data t.sections 0x6ffffff6 0 ∧ b.bloomCount = paramOf t.cfg.en data t.sections 0x6ffffff6 8 ∧
    b.bloomShift = paramOf t.cfg.en data t.sections 0x6ffffff6 12
  bSymbols : Each (SymbolOf data t.symbols t.sections.length) (t.symbols.symbols.zipIdx.drop 1) b.tables.symbols
  bSymbolVersions : ∀ x ∈ b.tables.symbols, x.version = 0 ∧ x.versionHidden = false
  bDynSymbols : Each (SymbolOf data t.dynSymbols t.sections.length) (t.dynSymbols.symbols.zipIdx.drop 1) b.tables.dynamicSymbols
  bVersions : ∃ defs needs,
    InFirst t.sections 0x6ffffffd t.dynSymbols.stringSection data (Defs t.cfg.en) defs ∧
    InFirst t.sections 0x6ffffffe t.dynSymbols.stringSection data (Needs t.cfg.en) needs ∧
    VersionsOf data t.dynSymbols.strings defs needs b.versionBase b.tables.versions b.tables.versionFiles ∧
    SymVersions t data (indices defs needs) b.tables.dynamicSymbols

/-- `b` is what the file `data` of the given class holds. -/
def Image (is64 : Bool) (data : List UInt8) (b : Full) : Prop := ∃ t h ps, ImageOf is64 data t h ps b

end Obj.Spec.BuildR

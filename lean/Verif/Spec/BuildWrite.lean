import Verif.Model.BuildRead
import Verif.Spec.Build
import Verif.Spec.BuildRead
import Verif.Spec.ElfHash

/-!
# What reading a file that an ELF builder has written gives

From the model only the types of the builder and of its tables are used.  Reading numbers the items again: the id of an item that was read is
its position among the items of the file.
-/

namespace Obj.Spec.BuildW
open Obj Obj.Build
open Obj.Spec.MachoF (Each ascii)
open Obj.Spec.BuildR (stringTags autoTags plainTypes machineTypes attributesTypes segmentOf loadAlignOf)
open Obj.Build.Spec (Live NoOrphans InRange VerInRange)

/-- The items that are not deleted. -/
def live {α : Type} [Item α] (t : List α) : List α := t.filter fun x => !Item.deleted x

/-- The item with id `i` has position `j`. -/
def Place {α : Type} [Item α] (l : List α) (i j : Nat) : Prop := ∃ x, l[j]? = some x ∧ Item.id x = i

/-- The same for references that can be missing. -/
def Ref {α : Type} [Item α] (l : List α) (x y : Option Nat) : Prop :=
  x = none ∧ y = none ∨ ∃ i j, x = some i ∧ y = some j ∧ Place l i j

/-- A symbol is local (`STB_LOCAL = 0`). -/
def localSym (s : Build.Sym) : Bool := s.info / 16 == 0

/-- The symbols in the order of the file: local symbols come first. -/
def symbolOrder (t : List Build.Sym) : List Build.Sym := (live t).filter localSym ++ (live t).filter fun s => !localSym s

/-- Some order of the dynamic symbols in which local symbols come first. -/
def DynOrder (t dyns : List Build.Sym) : Prop :=
  dyns.Perm (live t) ∧ dyns.Pairwise fun a b => localSym b = true → localSym a = true

/-- The versions in the order of the file: definitions, then for each file the versions required from it. -/
def isDef (v : Ver) : Bool := match v.data with | .def_ _ _ => true | _ => false
def needsFrom (f : VerFile) (v : Ver) : Bool := match v.data with | .need file _ _ => file == f.id | _ => false
def versionOrder (t : Builder) : List Ver :=
  (live t.versions).filter isDef ++ (live t.versionFiles).flatMap fun f => (live t.versions).filter (needsFrom f)

/-! ## The data of a section -/

/-- The same relocation. -/
def RelSame (syms : List Build.Sym) (r r' : Build.Rel) : Prop :=
  r'.offset = r.offset ∧ r'.typ = r.typ ∧ r'.addend = r.addend ∧ Ref syms r.symbol r'.symbol

/-- The same scope: references to deleted items are dropped. -/
inductive ScopeSame (secs : List Sec) (syms : List Build.Sym) : AttrScope → AttrScope → Prop where
  | file : ScopeSame secs syms .file .file
  | sections {l l' : List Nat} : Each (Place secs) (l.filter fun i => decide (i ∈ secs.map (·.id))) l' → ScopeSame secs syms (.sections l) (.sections l')
  | symbols {l l' : List Nat} : Each (Place syms) (l.filter fun i => decide (i ∈ syms.map (·.id))) l' → ScopeSame secs syms (.symbols l) (.symbols l')

def SubSubSame (secs : List Sec) (syms : List Build.Sym) (x x' : AttrSubSub) : Prop := ScopeSame secs syms x.scope x'.scope ∧ x'.data = x.data
def SubSame (secs : List Sec) (syms : List Build.Sym) (x x' : AttrSub) : Prop := x'.vendor = x.vendor ∧ Each (SubSubSame secs syms) x.subs x'.subs

/-- The same data. -/
inductive DataSame (secs : List Sec) (syms dyns : List Build.Sym) : SecData → SecData → Prop where
  | relocs {l l' : List Build.Rel} : Each (RelSame syms) l l' → DataSame secs syms dyns (.relocs l) (.relocs l')
  | dynRelocs {l l' : List Build.Rel} : Each (RelSame dyns) l l' → DataSame secs syms dyns (.dynRelocs l) (.dynRelocs l')
  | attributes {l l' : List AttrSub} : Each (SubSame secs syms) l l' → DataSame secs syms dyns (.attributes l) (.attributes l')
  | other {d : SecData} : (∀ l, d ≠ .relocs l) → (∀ l, d ≠ .dynRelocs l) → (∀ l, d ≠ .attributes l) → DataSame secs syms dyns d d

/-- The number of bytes of data that is held as such. -/
def dataSize : SecData → Option Nat
  | .data d => some d.length
  | .note d => some d.length
  | .uninit n => some n
  | _ => none

/-! ## Headers of sections -/

/-- The headers of tables are generated: type, flags, alignment, entry size, kind of the linked section. -/
def tableHeader (is64 : Bool) : SecData → Option (Nat × Nat × Nat × Nat × Option SecData)
  | .sectionString => some (3, 0, 1, 0, none)
  | .string => some (3, 0, 1, 0, none)
  | .dynamicString => some (3, 2, 1, 0, none)
  | .symbol => some (2, 0, if is64 then 8 else 4, if is64 then 24 else 16, some .string)
  | .symbolSectionIndex => some (18, 0, 4, 4, some .symbol)
  | .dynamicSymbol => some (11, 2, if is64 then 8 else 4, if is64 then 24 else 16, some .dynamicString)
  | .hash => some (5, 2, 4, 4, some .dynamicSymbol)
  | .gnuHash => some (0x6ffffff6, 2, if is64 then 8 else 4, if is64 then 0 else 4, some .dynamicSymbol)
  | .gnuVersym => some (0x6fffffff, 2, 2, 2, some .dynamicSymbol)
  | .gnuVerdef => some (0x6ffffffd, 2, 4, 0, some .dynamicString)
  | .gnuVerneed => some (0x6ffffffe, 2, 4, 0, some .dynamicString)
  | _ => none

/-- `sh_info` of a table: the number of local symbols with the null symbol, of definitions with the base version, or of files. -/
def tableInfo (b : Full) : SecData → Nat
  | .symbol => 1 + ((live b.tables.symbols).filter localSym).length
  | .dynamicSymbol => 1 + ((live b.tables.dynamicSymbols).filter localSym).length
  | .gnuVerdef => b.versionBase.toList.length + ((live b.tables.versions).filter isDef).length
  | .gnuVerneed => (live b.tables.versionFiles).length
  | _ => 0

/-- The link of a table: the section of that kind, if there is one. -/
def KindLink (secs : List Sec) (k : Option SecData) (y : Option Nat) : Prop :=
  (∃ j s, y = some j ∧ secs[j]? = some s ∧ k = some s.data) ∨ y = none ∧ ∀ s ∈ secs, k ≠ some s.data

/-- The section `s` of the builder and the section `x` that is read. -/
structure SecSame (b : Full) (secs : List Sec) (syms dyns : List Build.Sym) (s x : Sec) : Prop where
  name : x.name = s.name
  data : DataSame secs syms dyns s.data x.data
  size : ∀ n, dataSize s.data = some n → x.shSize = n
  /-- Only loaded sections (`SHF_ALLOC`, bit 1) keep their address, and their offset if there are segments. -/
  addr : x.shAddr = if x.shFlags.testBit 1 then s.shAddr else 0
  offset : live b.tables.segments ≠ [] → s.shFlags.testBit 1 = true → x.shOffset = s.shOffset
  header : match tableHeader b.is64 s.data with
    | none => x.shType = s.shType ∧ x.shFlags = s.shFlags ∧ x.addralign = s.addralign ∧ x.entsize = s.entsize ∧
        Ref secs s.linkSection x.linkSection ∧ Ref secs s.infoSection x.infoSection ∧
        (s.infoSection = none → x.shInfo = s.shInfo) ∧ ∀ i, s.infoSection = some i → ∃ j, Place secs i j ∧ x.shInfo = j + 1
    | some h => x.shType = h.1 ∧ x.shFlags = h.2.1 ∧ x.addralign = h.2.2.1 ∧ x.entsize = h.2.2.2.1 ∧ KindLink secs h.2.2.2.2 x.linkSection ∧
        x.shInfo = tableInfo b s.data ∧ x.infoSection = none

/-! ## Symbols and versions -/

/-- The symbol `s` of the builder and the symbol `x` that is read.  The section index (`st_shndx`) is that of the section, or
`SHN_XINDEX = 0xffff` from `SHN_LORESERVE = 0xff00` on. -/
structure SymSame (secs : List Sec) (s x : Build.Sym) : Prop where
  name : x.name = s.name
  sect : Ref secs s.section_ x.section_
  shndx : (s.section_ = none → x.shndx = s.shndx) ∧
    ∀ i, s.section_ = some i → ∃ j, Place secs i j ∧ x.shndx = if j + 1 < 0xff00 then j + 1 else 0xffff
  info : x.info = s.info
  other : x.other = s.other
  value : x.value = s.value
  size : x.size = s.size

/-- The version of a dynamic symbol: 0 and 1 are local and global, the ids of other versions are counted from 2.  Without a table of versions
the versions are lost. -/
def VersionSame (table : Bool) (vers : List Ver) (s x : Build.Sym) : Prop :=
  if table then x.versionHidden = s.versionHidden ∧
    (s.version < 2 ∧ x.version = s.version ∨ 2 ≤ s.version ∧ ∃ j, Place vers (s.version - 2) j ∧ x.version = j + 2)
  else x.version = 0 ∧ x.versionHidden = false

/-- The same version. -/
inductive VerSame (files : List VerFile) : VerData → VerData → Prop where
  | def_ {names : List (List UInt8)} {flags : Nat} : VerSame files (.def_ names flags) (.def_ names flags)
  | need {i j : Nat} {name : List UInt8} {flags : Nat} : Place files i j → VerSame files (.need i name flags) (.need j name flags)

/-! ## The builder -/

/-- The kinds of the sections that are not deleted. -/
def has (b : Full) (k : SecData) : Prop := ∃ s ∈ live b.tables.sections, s.data = k

/-- The program header of a segment. -/
def phdrOf (g : Seg) : Elf.Phdr := ⟨g.pType, g.pFlags, g.pOffset, g.pVaddr, g.pPaddr, g.pFilesz, g.pMemsz, g.pAlign⟩

/-- The ids in a table are the positions, and nothing is deleted. -/
def Fresh {α : Type} [Item α] (t : List α) : Prop := ∀ (i : Nat) x, t[i]? = some x → Item.id x = i ∧ Item.deleted x = false

/-- `x` is what is read from the file that `b` has been written to. -/
structure Same (b x : Full) : Prop where
  endian : x.endian = b.endian
  is64 : x.is64 = b.is64
  loadAlign : x.loadAlign = loadAlignOf ((live b.tables.segments).map phdrOf)
  header : x.header = { b.header with ePhoff := if live b.tables.segments = [] then 0 else b.header.ePhoff }
  versionBase : x.versionBase = b.versionBase
  hash : has b .hash → x.hashBuckets = b.hashBuckets
  gnuHash : has b .gnuHash → x.gnuBuckets = b.gnuBuckets ∧ x.bloomCount = b.bloomCount ∧ x.bloomShift = b.bloomShift
  noHash : ¬ has b .hash → x.hashBuckets = 0
  noGnuHash : ¬ has b .gnuHash → x.gnuBuckets = 0 ∧ x.bloomCount = 0 ∧ x.bloomShift = 0
  fresh : Fresh x.tables.segments ∧ Fresh x.tables.sections ∧ Fresh x.tables.symbols ∧ Fresh x.tables.dynamicSymbols ∧
    Fresh x.tables.versions ∧ Fresh x.tables.versionFiles
  segments : x.tables.segments = ((live b.tables.segments).map phdrOf).zipIdx.map (segmentOf x.tables.sections)
  tables : ∃ dyns, DynOrder b.tables.dynamicSymbols dyns ∧
    Each (SecSame b (live b.tables.sections) (symbolOrder b.tables.symbols) dyns) (live b.tables.sections) x.tables.sections ∧
    Each (fun s y => SymSame (live b.tables.sections) s y ∧ y.version = 0 ∧ y.versionHidden = false) (symbolOrder b.tables.symbols) x.tables.symbols ∧
    ∃ table, (table = true ↔ has b .gnuVersym) ∧
    Each (fun s y => SymSame (live b.tables.sections) s y ∧ VersionSame table (versionOrder b.tables) s y) dyns x.tables.dynamicSymbols
  versions : Each (fun (v : Ver) y => VerSame (live b.tables.versionFiles) v.data y.data) (versionOrder b.tables) x.tables.versions
  files : Each (fun (f : VerFile) y => y.name = f.name) (live b.tables.versionFiles) x.tables.versionFiles

/-! ## Dynamic entries that are generated -/

/-- The tags of generated entries whose value is the address of a table: `DT_SYMTAB`, `DT_STRTAB`, `DT_HASH`, `DT_GNU_HASH`, `DT_VERSYM`, `DT_VERDEF`, `DT_VERNEED`. -/
def addressTags : List (Int × SecData) :=
  [(6, .dynamicSymbol), (5, .dynamicString), (4, .hash), (0x6ffffef5, .gnuHash), (0x6ffffff0, .gnuVersym), (0x6ffffffc, .gnuVerdef), (0x6ffffffe, .gnuVerneed)]

/-- `h` is the header of a section with data `k`; `ss` are the section headers of the file, of which the first is the null header. -/
def HeaderFor (secs : List Sec) (ss : List Elf.Shdr) (k : SecData) (h : Elf.Shdr) : Prop := ∃ j s, secs[j]? = some s ∧ s.data = k ∧ ss[j + 1]? = some h

/-- The value of a generated dynamic entry, in terms of the section headers: an address, the size of the strings (`DT_STRSZ = 10`), the number of version definitions
(`DT_VERDEFNUM = 0x6ffffffd`) or of files with versions (`DT_VERNEEDNUM = 0x6fffffff`). -/
inductive AutoIs (secs : List Sec) (ss : List Elf.Shdr) : Int → Nat → Prop where
  | address {tag : Int} {k : SecData} {h : Elf.Shdr} : (tag, k) ∈ addressTags → HeaderFor secs ss k h → AutoIs secs ss tag h.addr
  | size {h : Elf.Shdr} : HeaderFor secs ss .dynamicString h → AutoIs secs ss 10 h.size
  | defs {h : Elf.Shdr} : HeaderFor secs ss .gnuVerdef h → AutoIs secs ss 0x6ffffffd h.info
  | needs {h : Elf.Shdr} : HeaderFor secs ss .gnuVerneed h → AutoIs secs ss 0x6fffffff h.info

/-! ## Lookups in hash tables -/

/-- What a lookup in the GNU hash table is meant to find: a dynamic symbol of that name and version that is neither local nor undefined (`SHN_UNDEF = 0`). -/
def GnuHit (symbols : Elf.SymTab) (versions : Elf.VersionTable) (data name : List UInt8) (version : Option Elf.Version) (j : Nat) (s : Elf.Sym) : Prop :=
  Obj.Spec.ElfHashS.Hit symbols versions data name version j s ∧ s.info / 16 ≠ 0 ∧ s.shndx ≠ 0

/-! ## Builders whose files can be read again -/

/-- The id of an item is its position. -/
def IdsOk {α : Type} [Item α] (t : List α) : Prop := ∀ (i : Nat) x, t[i]? = some x → Item.id x = i

/-- Ids are positions, and references are to items that exist, deleted or not. -/
structure Valid (b : Builder) : Prop where
  ids : IdsOk b.sections ∧ IdsOk b.symbols ∧ IdsOk b.dynamicSymbols
  refs : InRange b
  vers : VerInRange b

/-- Versions of symbols and files of versions are not deleted. -/
def VersionsLive (b : Builder) : Prop :=
  (∀ s ∈ live b.dynamicSymbols, 2 ≤ s.version → Live b.versions (s.version - 2)) ∧
  ∀ v ∈ live b.versions, ∀ file name flags, v.data = .need file name flags → Live b.versionFiles file

/-- Values of the class. -/
def wordLimit (is64 : Bool) : Nat := if is64 then 2 ^ 64 else 2 ^ 32

/-- A relocation fits in the file. -/
structure RelOk (b : Full) (rela : Bool) (syms : List Build.Sym) (r : Build.Rel) : Prop where
  offset : r.offset < wordLimit b.is64
  typ : r.typ < if b.is64 then 2 ^ 32 else 2 ^ 8
  sym : b.is64 = false → ∀ i j, r.symbol = some i → Place syms i j → j + 1 < 2 ^ 24
  addend : if rela then -(wordLimit b.is64 / 2 : Nat) ≤ r.addend ∧ r.addend < (wordLimit b.is64 / 2 : Nat) else r.addend = 0

/-- A dynamic entry fits, and is of the kind that its tag says. -/
def DynOk (b : Full) : Build.Dyn → Prop
  | .auto _ => True
  | .integer tag val => tag ≠ 0 ∧ tag ∉ stringTags ∧ tag ∉ autoTags ∧
      -(wordLimit b.is64 / 2 : Nat) ≤ tag ∧ tag < (wordLimit b.is64 / 2 : Nat) ∧ val < wordLimit b.is64
  | .string tag _ => tag ∈ stringTags

/-- The section links to the section of a kind. -/
def LinksTo (secs : List Sec) (s : Sec) (k : SecData) : Prop := ∃ x ∈ secs, x.data = k ∧ s.linkSection = some x.id

/-- The type of a section is that of its data, and the section has the links that are needed to read it. -/
def KindOk (b : Full) (secs : List Sec) (s : Sec) : Prop :=
  match s.data with
  | .data _ => s.shType ∈ plainTypes ∨ (b.header.eMachine, s.shType) ∈ machineTypes ∨ s.shType = 3 ∧ s.name = ascii ".annobin.notes"
  | .uninit len => s.shType = 8 ∧ len < wordLimit b.is64
  | .note _ => s.shType = 7
  | .attributes l => (s.shType = 0x6ffffff5 ∨ (b.header.eMachine, s.shType) ∈ attributesTypes) ∧ ∀ a ∈ l, (0 : UInt8) ∉ a.vendor
  | .relocs l => (s.shType = 4 ∨ s.shType = 9) ∧ s.shFlags.testBit 1 = false ∧ LinksTo secs s .symbol ∧
      (∀ r ∈ l, RelOk b (s.shType = 4) (symbolOrder b.tables.symbols) r) ∧ ¬ (b.is64 = true ∧ b.endian = .little ∧ b.header.eMachine = 8 ∧ s.shType = 9)
  | .dynRelocs l => (s.shType = 4 ∨ s.shType = 9) ∧ (LinksTo secs s .dynamicSymbol ∨ ∀ r ∈ l, r.symbol = none) ∧
      (∀ r ∈ l, ∀ dyns, DynOrder b.tables.dynamicSymbols dyns → RelOk b (s.shType = 4) dyns r) ∧
      ¬ (b.is64 = true ∧ b.endian = .little ∧ b.header.eMachine = 8 ∧ s.shType = 9)
  | .dynamic l => s.shType = 6 ∧ (∀ d ∈ l, DynOk b d) ∧ (LinksTo secs s .dynamicString ∨ s.linkSection = none ∧ ∀ tag val, Build.Dyn.string tag val ∉ l)
  | _ => s.shType ≠ 8

/-- The numbers in a section fit. -/
structure SecOk (b : Full) (s : Sec) : Prop where
  type : s.shType < 2 ^ 32
  flags : s.shFlags < wordLimit b.is64
  addr : s.shAddr < wordLimit b.is64
  offset : s.shOffset < wordLimit b.is64
  info : s.shInfo < 2 ^ 32
  align : s.addralign < wordLimit b.is64
  entsize : s.entsize < wordLimit b.is64
  /-- `sh_info` is a link exactly with `SHF_INFO_LINK` (bit 6). -/
  infoLink : tableHeader b.is64 s.data = none → if s.shFlags.testBit 6 then s.infoSection ≠ none ∨ s.shInfo = 0 else s.infoSection = none

/-- The numbers in a symbol fit; `SHN_XINDEX` is not used directly, nor is a section index. -/
structure SymOk (b : Full) (s : Build.Sym) : Prop where
  info : s.info < 2 ^ 8
  other : s.other < 2 ^ 8
  value : s.value < wordLimit b.is64
  size : s.size < wordLimit b.is64
  shndx : s.section_ = none → s.shndx = 0 ∨ 0xff00 ≤ s.shndx ∧ s.shndx < 0xffff

/-- The numbers in a segment fit. -/
structure SegOk (b : Full) (g : Seg) : Prop where
  type : g.pType < 2 ^ 32
  flags : g.pFlags < 2 ^ 32
  offset : g.pOffset < wordLimit b.is64
  vaddr : g.pVaddr < wordLimit b.is64
  paddr : g.pPaddr < wordLimit b.is64
  filesz : g.pFilesz < wordLimit b.is64
  memsz : g.pMemsz < wordLimit b.is64
  align : g.pAlign < wordLimit b.is64

/-- The numbers in a version fit; the definition of the file itself is `versionBase`. -/
def VerOk : VerData → Prop
  | .def_ _ flags => flags < 2 ^ 16 ∧ flags.testBit 0 = false
  | .need _ _ flags => flags < 2 ^ 16

/-- The conditions under which a file that was written can be read again without loss. -/
structure Sound (b : Full) : Prop where
  ids : IdsOk b.tables.sections ∧ IdsOk b.tables.symbols ∧ IdsOk b.tables.dynamicSymbols ∧ IdsOk b.tables.versions ∧ IdsOk b.tables.versionFiles
  noOrphans : NoOrphans b.tables
  versions : VersionsLive b.tables
  sections : live b.tables.sections ≠ []
  header : b.header.eType < 2 ^ 16 ∧ b.header.eMachine < 2 ^ 16 ∧ b.header.eEntry < wordLimit b.is64 ∧ b.header.eFlags < 2 ^ 32
  segments : ∀ g ∈ live b.tables.segments, SegOk b g
  secs : ∀ s ∈ live b.tables.sections, SecOk b s ∧ KindOk b (live b.tables.sections) s
  syms : ∀ s ∈ live b.tables.symbols, SymOk b s
  dynSyms : ∀ s ∈ live b.tables.dynamicSymbols, SymOk b s ∧ ∀ i j, s.section_ = some i → Place (live b.tables.sections) i j → j + 1 < 0xff00
  files : (live b.tables.versionFiles).length < 2 ^ 32 ∧
    ∀ f ∈ live b.tables.versionFiles, ∃ v ∈ live b.tables.versions, ∃ name flags, v.data = .need f.id name flags
  verOk : ∀ v ∈ live b.tables.versions, VerOk v.data
  params : b.hashBuckets < 2 ^ 32 ∧ b.gnuBuckets < 2 ^ 32 ∧ b.bloomCount < 2 ^ 32 ∧ b.bloomShift < 2 ^ 32
  /-- Tables come with the tables they need. -/
  tables : (has b .symbol ↔ has b .string) ∧ (has b .dynamicSymbol ↔ has b .dynamicString) ∧ (has b .symbolSectionIndex → has b .symbol) ∧
    (has b .gnuVersym → has b .dynamicSymbol) ∧ (has b .gnuVerdef → has b .dynamicSymbol) ∧ (has b .gnuVerneed → has b .dynamicSymbol)

end Obj.Spec.BuildW

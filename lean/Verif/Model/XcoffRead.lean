import Verif.Model.Elf
import Verif.Model.ElfView
import Verif.Model.RelocMap2

/-!
# Model of the XCOFF structures and of `read::xcoff`

`src/xcoff.rs` and `src/read/xcoff/{file,section,symbol,relocation}.rs`.  A structure is a record of `Nat` fields; its
image is the concatenation of its fields in declaration order, big endian.  `is64` selects the types for 32 or 64 bits.
-/

namespace Obj.Xcoff
open Obj

/-- Bytes in a `Word`. -/
def word (is64 : Bool) : Nat := if is64 then 8 else 4

/-! ## File header -/

/-- `FileHeader32`/`FileHeader64`, src/xcoff.rs:18-54 (without `f_magic`). -/
structure Hdr where
  nscns : Nat
  timdat : Nat
  symptr : Nat
  nsyms : Nat
  opthdr : Nat
  flags : Nat
  deriving DecidableEq, Repr

/-- Size of the file header. -/
def hdrSize (is64 : Bool) : Nat := if is64 then 24 else 20

/-- `MAGIC_64 = 0x01f7`, `MAGIC_32 = 0x01df`. -/
def magic (is64 : Bool) : Nat := if is64 then 0x01f7 else 0x01df

/-- The image of a file header. -/
def Hdr.encode (is64 : Bool) (h : Hdr) : List UInt8 :=
  if is64 then Obj.encode .big [(2, magic is64), (2, h.nscns), (4, h.timdat), (8, h.symptr), (2, h.opthdr), (2, h.flags), (4, h.nsyms)]
  else Obj.encode .big [(2, magic is64), (2, h.nscns), (4, h.timdat), (4, h.symptr), (4, h.nsyms), (2, h.opthdr), (2, h.flags)]

/-- The accessors of a file header image, src/read/xcoff/file.rs:417-500: `f_magic` and the other fields. -/
def Hdr.decode (is64 : Bool) (img : List UInt8) : Nat × Hdr :=
  if is64 then
    let f := Obj.decode .big [2, 2, 4, 8, 2, 2, 4] img
    (f.getD 0 0, ⟨f.getD 1 0, f.getD 2 0, f.getD 3 0, f.getD 6 0, f.getD 4 0, f.getD 5 0⟩)
  else
    let f := Obj.decode .big [2, 2, 4, 4, 4, 2, 2] img
    (f.getD 0 0, ⟨f.getD 1 0, f.getD 2 0, f.getD 3 0, f.getD 4 0, f.getD 5 0, f.getD 6 0⟩)

/-- `FileHeader::parse`, src/read/xcoff/file.rs:357-372, at offset 0. -/
def parseHeader (is64 : Bool) (data : List UInt8) : Res Hdr :=
  (ReadRef.readBytesAt data 0 (hdrSize is64)).bind fun img =>
    let (m, h) := Hdr.decode is64 img
    if m = magic is64 then .ok h else .err

/-- Size of `AuxHeader32`/`AuxHeader64`, src/xcoff.rs:100-237. -/
def auxHeaderSize (is64 : Bool) : Nat := if is64 then 120 else 72

/-- The alignments in an auxiliary header: `o_algntext` and `o_algndata`. -/
abbrev Align := Nat × Nat

/-- `o_algntext` and `o_algndata` in the image of an auxiliary header, src/xcoff.rs:134-137, 193-196 (at the same place
in both). -/
def auxAlign (img : List UInt8) : Align :=
  (field .big img 44 2, field .big img 46 2)

/-- `FileHeader::aux_header`, src/read/xcoff/file.rs:375-400: the alignments if there is a header, and the offset
after it; `F_EXEC = 2`. -/
def auxHeader (is64 : Bool) (h : Hdr) (data : List UInt8) : Res (Option Align × Nat) :=
  let off := hdrSize is64
  if h.flags &&& 2 ≠ 2 then .ok (none, off + h.opthdr)
  else if h.opthdr ≠ auxHeaderSize is64 then .ok (none, off + h.opthdr)
  else (ReadRef.readBytesAt data off (auxHeaderSize is64)).bind fun img => .ok (some (auxAlign img), off + auxHeaderSize is64)

/-! ## Sections -/

/-- `SectionHeader32`/`SectionHeader64`, src/xcoff.rs:241-291. -/
structure Sect where
  name : List UInt8
  paddr : Nat
  vaddr : Nat
  size : Nat
  scnptr : Nat
  relptr : Nat
  lnnoptr : Nat
  nreloc : Nat
  nlnno : Nat
  flags : Nat
  deriving DecidableEq, Repr

/-- Size of a section header. -/
def sectSize (is64 : Bool) : Nat := if is64 then 72 else 40

/-- The fields after the name; `s_reserve` is 0. -/
def Sect.fields (is64 : Bool) (s : Sect) : List (Nat × Nat) :=
  let w := word is64
  let h := if is64 then 4 else 2
  [(w, s.paddr), (w, s.vaddr), (w, s.size), (w, s.scnptr), (w, s.relptr), (w, s.lnnoptr), (h, s.nreloc), (h, s.nlnno), (4, s.flags)] ++
    if is64 then [(4, 0)] else []

/-- The image of a section header. -/
def Sect.encode (is64 : Bool) (s : Sect) : List UInt8 := s.name ++ Obj.encode .big (s.fields is64)

/-- The accessors of a section header image, src/read/xcoff/section.rs:324-454. -/
def Sect.decode (is64 : Bool) (img : List UInt8) : Sect :=
  let w := word is64
  let h := if is64 then 4 else 2
  let f := Obj.decode .big [w, w, w, w, w, w, h, h, 4] (img.drop 8)
  ⟨img.take 8, f.getD 0 0, f.getD 1 0, f.getD 2 0, f.getD 3 0, f.getD 4 0, f.getD 5 0, f.getD 6 0, f.getD 7 0, f.getD 8 0⟩

/-- `SectionTable::parse`, src/read/xcoff/section.rs:235-244. -/
def parseSections (is64 : Bool) (h : Hdr) (data : List UInt8) (offset : Nat) : Res (List Sect) :=
  if h.nscns = 0 then .ok []
  else (Elf.readSliceAt data offset (sectSize is64) h.nscns).bind fun imgs => .ok (imgs.map (Sect.decode is64))

/-- `SectionTable::section`, src/read/xcoff/section.rs:267-271 (1-based). -/
def section? (ss : List Sect) (i : Nat) : Res Sect :=
  if i = 0 then .err else match ss[i - 1]? with
    | some s => .ok s
    | none => .err

/-- The bytes up to the first NUL. -/
def upToNul (l : List UInt8) : List UInt8 := l.takeWhile (· ≠ 0)

/-- `SectionHeader::name`, src/read/xcoff/section.rs:294-300. -/
def Sect.nameOf (s : Sect) : List UInt8 := upToNul s.name

/-- `SectionHeader::data` with `file_range`, src/read/xcoff/section.rs:303-317. -/
def Sect.data (s : Sect) (data : List UInt8) : Res (List UInt8) := ReadRef.readBytesAt data s.scnptr s.size

/-- `Rel32`/`Rel64`, src/xcoff.rs:1042-1062. -/
structure Rel where
  vaddr : Nat
  symndx : Nat
  rsize : Nat
  rtype : Nat
  deriving DecidableEq, Repr

/-- Size of a relocation. -/
def relSize (is64 : Bool) : Nat := if is64 then 14 else 10

/-- The image of a relocation. -/
def Rel.encode (is64 : Bool) (r : Rel) : List UInt8 :=
  Obj.encode .big [(word is64, r.vaddr), (4, r.symndx), (1, r.rsize), (1, r.rtype)]

/-- The accessors of a relocation image, src/read/xcoff/relocation.rs:102-143. -/
def Rel.decode (is64 : Bool) (img : List UInt8) : Rel :=
  let f := Obj.decode .big [word is64, 4, 1, 1] img
  ⟨f.getD 0 0, f.getD 1 0, f.getD 2 0, f.getD 3 0⟩

/-- `SectionHeader::relocations`, src/read/xcoff/section.rs:372-385, 448-454. -/
def Sect.relocations (is64 : Bool) (s : Sect) (data : List UInt8) : Res (List Rel) :=
  if is64 = false ∧ s.nreloc = 65535 then .err
  else (Elf.readSliceAt data s.relptr (relSize is64) s.nreloc).bind fun imgs => .ok (imgs.map (Rel.decode is64))

/-- What `XcoffRelocationIterator` reports, src/read/xcoff/relocation.rs:37-78: offset, symbol, kind, size and addend. -/
structure ViewReloc where
  offset : Nat
  symbol : Nat
  kind : RelocKind
  size : Nat
  addend : Int
  deriving DecidableEq, Repr

/-- `XcoffSection::relocations`, src/read/xcoff/section.rs:190-196, and `XcoffRelocationIterator::next`,
src/read/xcoff/relocation.rs:37-78. -/
def Sect.viewRelocations (is64 : Bool) (s : Sect) (data : List UInt8) : List ViewReloc :=
  match s.relocations is64 data with
  | .ok rs => rs.map fun r => let k := xcoffKind r.rtype r.rsize; ⟨r.vaddr, r.symndx, k.1, k.2.1, k.2.2⟩
  | _ => []

/-! ## Symbols -/

/-- `Symbol32`/`Symbol64`, src/xcoff.rs:438-471: the name is the field `n_name` or the offset `n_offset`. -/
structure Sym where
  name : List UInt8
  value : Nat
  scnum : Nat
  typ : Nat
  sclass : Nat
  numaux : Nat
  deriving DecidableEq, Repr

/-- The image of a symbol; `name` has 8 bytes in a 32-bit file and 4 bytes (`n_offset`) in a 64-bit file. -/
def Sym.encode (is64 : Bool) (s : Sym) : List UInt8 :=
  (if is64 then wr .big 8 s.value ++ s.name else s.name ++ wr .big 4 s.value) ++
    Obj.encode .big [(2, s.scnum), (2, s.typ), (1, s.sclass), (1, s.numaux)]

/-- The accessors of a symbol image, src/read/xcoff/symbol.rs:588-680. -/
def Sym.decode (is64 : Bool) (img : List UInt8) : Sym :=
  let f := Obj.decode .big [2, 2, 1, 1] (img.drop 12)
  if is64 then ⟨(img.drop 8).take 4, rd .big (img.take 8), f.getD 0 0, f.getD 1 0, f.getD 2 0, f.getD 3 0⟩
  else ⟨img.take 8, rd .big ((img.drop 8).take 4), f.getD 0 0, f.getD 1 0, f.getD 2 0, f.getD 3 0⟩

/-- The signed value of `n_scnum`. -/
def Sym.scnumI (s : Sym) : Int := if s.scnum < 32768 then s.scnum else (s.scnum : Int) - 65536

/-- `SymbolTable`, src/read/xcoff/symbol.rs:23-31: the records of 18 bytes and the range of the strings. -/
structure SymTab where
  is64 : Bool
  records : List (List UInt8)
  strings : Elf.StrTable
  deriving DecidableEq, Repr

/-- `SymbolTable::parse`, src/read/xcoff/symbol.rs:52-82. -/
def parseSymbols (is64 : Bool) (h : Hdr) (data : List UInt8) : Res SymTab :=
  if h.symptr = 0 then .ok ⟨is64, [], none⟩
  else
    let r := ReadRef.readSlice data h.symptr 18 h.nsyms
    match r.1 with
    | .ok imgs =>
      (ReadRef.readBytesAt data r.2 4).bind fun l =>
        let e := r.2 + rd .big l
        if U64 ≤ e then .err else .ok ⟨is64, imgs, some (r.2, e)⟩
    | .err => .err
    | .panic => .panic

/-- `SymbolTable::get`, src/read/xcoff/symbol.rs:108-116 (the type has at most 18 bytes). -/
def SymTab.get (t : SymTab) (i off : Nat) : Res (List UInt8) :=
  if U64 ≤ i + off then .err
  else match t.records[i + off]? with
    | some b => .ok b
    | none => .err

/-- `SymbolTable::symbol_unchecked`, src/read/xcoff/symbol.rs:121-123. -/
def SymTab.symbolUnchecked (t : SymTab) (i : Nat) : Res Sym := (t.get i 0).bind fun b => .ok (Sym.decode t.is64 b)

/-- `SymbolTable::symbol`, src/read/xcoff/symbol.rs:129-135; `C_NULL = 0`. -/
def SymTab.symbol (t : SymTab) (i : Nat) : Res Sym :=
  (t.symbolUnchecked i).bind fun s => if s.sclass = 0 then .err else .ok s

/-- `has_aux_file`, src/read/xcoff/symbol.rs:570-572; `C_FILE = 103`. -/
def Sym.hasAuxFile (s : Sym) : Bool := decide (0 < s.numaux) && decide (s.sclass = 103)

/-- `has_aux_csect`, src/read/xcoff/symbol.rs:578-582; `C_EXT = 2`, `C_WEAKEXT = 111`, `C_HIDEXT = 107`. -/
def Sym.hasAuxCsect (s : Sym) : Bool := decide (0 < s.numaux) && decide (s.sclass = 2 ∨ s.sclass = 111 ∨ s.sclass = 107)

/-- `FileAux32`/`FileAux64`, src/xcoff.rs:690-723, with `x_auxtype` of the 64-bit record. -/
structure FileAux where
  fname : List UInt8
  ftype : Nat
  deriving DecidableEq, Repr

/-- The image of a file auxiliary entry; `AUX_FILE = 252`. -/
def FileAux.encode (is64 : Bool) (a : FileAux) : List UInt8 :=
  a.fname ++ (List.replicate 6 0 ++ (wr .big 1 a.ftype ++ if is64 then [0, 0, 252] else [0, 0, 0]))

/-- `SymbolTable::aux_file`, src/read/xcoff/symbol.rs:138-147; the assertion fails for a symbol without such an
entry. -/
def SymTab.auxFile (t : SymTab) (i off : Nat) : Res FileAux :=
  (t.symbol i).bind fun s =>
    if s.hasAuxFile then
      (t.get i off).bind fun b =>
        if t.is64 = true ∧ field .big b 17 1 ≠ 252 then .err else .ok ⟨b.take 8, field .big b 14 1⟩
    else .panic

/-- `CsectAux32`/`CsectAux64`, src/xcoff.rs:741-782: the fields that are not written as 0. -/
structure CsectAux where
  scnlen : Nat
  smtyp : Nat
  smclas : Nat
  deriving DecidableEq, Repr

/-- The image of a csect auxiliary entry; `AUX_CSECT = 251`. -/
def CsectAux.encode (is64 : Bool) (a : CsectAux) : List UInt8 :=
  if is64 then Obj.encode .big [(4, a.scnlen), (4, 0), (2, 0), (1, a.smtyp), (1, a.smclas), (4, a.scnlen >>> 32), (1, 0), (1, 251)]
  else Obj.encode .big [(4, a.scnlen), (4, 0), (2, 0), (1, a.smtyp), (1, a.smclas), (4, 0), (2, 0)]

/-- `x_scnlen`, src/read/xcoff/symbol.rs:777-779, 816-818. -/
def scnlen (is64 : Bool) (b : List UInt8) : Nat :=
  if is64 then field .big b 0 4 ||| (field .big b 12 4 <<< 32) else field .big b 0 4

/-- `SymbolTable::aux_csect`, src/read/xcoff/symbol.rs:150-159. -/
def SymTab.auxCsect (t : SymTab) (i off : Nat) : Res CsectAux :=
  (t.symbol i).bind fun s =>
    if s.hasAuxCsect then
      (t.get i off).bind fun b =>
        if t.is64 = true ∧ field .big b 17 1 ≠ 251 then .err else .ok ⟨scnlen t.is64 b, field .big b 10 1, field .big b 11 1⟩
    else .panic

/-- A name in an 8-byte field, src/read/xcoff/symbol.rs:655-690, 697-722. -/
def fieldName (strings : Elf.StrTable) (data name : List UInt8) : Res (List UInt8) :=
  if name.head? = some 0 then strings.get data (rd .big ((name.drop 4).take 4)) else .ok (upToNul name)

/-- `Symbol::name`, src/read/xcoff/symbol.rs:617-626, 670-690. -/
def SymTab.name (t : SymTab) (data : List UInt8) (s : Sym) : Res (List UInt8) :=
  if t.is64 then t.strings.get data (rd .big s.name) else fieldName t.strings data s.name

/-- `SymbolIterator::next`, src/read/xcoff/symbol.rs:188-200, from index `i` on; the first argument bounds the number of
turns of the loop (every turn advances the index, see `next`). -/
def SymTab.nextFuel (t : SymTab) : Nat → Nat → Option (Nat × Sym) × Nat
  | 0, i => (none, i)
  | n + 1, i =>
    match t.symbolUnchecked i with
    | .ok s => if s.sclass = 0 then t.nextFuel n (i + 1 + s.numaux) else (some (i, s), i + 1 + s.numaux)
    | _ => (none, i)

/-- `SymbolIterator::next`, src/read/xcoff/symbol.rs:188-200: the state is the index.  Every turn of the loop that does
not end it has an index below the number of records, so that their number bounds the turns. -/
def SymTab.next (t : SymTab) (i : Nat) : Res (Option (Nat × Sym)) × Nat :=
  let r := t.nextFuel (t.records.length - i + 1) i
  (.ok r.1, r.2)

/-! ## `XcoffFile` -/

/-- `XcoffFile`, src/read/xcoff/file.rs:40-51. -/
structure File where
  is64 : Bool
  header : Hdr
  aux : Option Align
  sections : List Sect
  symbols : SymTab
  deriving DecidableEq, Repr

/-- `XcoffFile::parse`, src/read/xcoff/file.rs:61-75. -/
def File.parse (is64 : Bool) (data : List UInt8) : Res File := do
  let h ← parseHeader is64 data
  let (aux, off) ← auxHeader is64 h data
  let ss ← parseSections is64 h data off
  let y ← parseSymbols is64 h data
  .ok ⟨is64, h, aux, ss, y⟩

/-! ## The unified view -/

open Obj.ElfV (ViewSection)

/-- `XcoffSection::kind`, src/read/xcoff/section.rs:163-188, with `SectionFlags::typ`, src/xcoff.rs:323-325. -/
def sectionKind (flags : Nat) : SectionKind :=
  let t := flags % 65536
  if t &&& 0x20 ≠ 0 then .text
  else if t &&& 0x40 ≠ 0 then .data
  else if t &&& 0x400 ≠ 0 then .tls
  else if t &&& 0x80 ≠ 0 then .uninitializedData
  else if t &&& 0x800 ≠ 0 then .uninitializedTls
  else if t &&& 0x2010 ≠ 0 then .debug
  else if t &&& 0x9000 ≠ 0 then .metadata
  else if t &&& 0x4308 ≠ 0 then .other
  else .unknown

/-- `XcoffSection::align`, src/read/xcoff/section.rs:112-123. -/
def File.alignOf (f : File) (s : Sect) : Nat :=
  match f.aux with
  | none => 4
  | some (text, data) =>
    match sectionKind s.flags with
    | .text => text
    | .data => data
    | _ => 4

/-- `name_bytes`, src/read/xcoff/symbol.rs:333-342. -/
def symName (t : SymTab) (data : List UInt8) (i : Nat) (s : Sym) : Res (List UInt8) :=
  if s.hasAuxFile then (t.auxFile i 1).bind fun a => fieldName t.strings data a.fname else t.name data s

/-- `address`, src/read/xcoff/symbol.rs:352-364; `C_FCN = 101`, `C_BLOCK = 100`, `C_STAT = 3`, `C_INFO = 110`. -/
def symAddress (s : Sym) : Nat :=
  if s.sclass = 2 ∨ s.sclass = 111 ∨ s.sclass = 107 ∨ s.sclass = 101 ∨ s.sclass = 100 ∨ s.sclass = 3 ∨ s.sclass = 110 then s.value else 0

/-- The csect entry that `size`, `kind`, `is_definition` and `flags` look at, src/read/xcoff/symbol.rs:368-376. -/
def csectOf (t : SymTab) (i : Nat) (s : Sym) : Res (Option CsectAux) :=
  if s.hasAuxCsect then
    match t.auxCsect i s.numaux with
    | .ok a => .ok (some a)
    | .err => .ok none
    | .panic => .panic
  else .ok none

/-- `CsectAuxSmtyp::typ`, src/xcoff.rs:812-814. -/
def CsectAux.symType (a : CsectAux) : Nat := a.smtyp &&& 7

/-- `size`, src/read/xcoff/symbol.rs:366-384; `XTY_SD = 1`, `XTY_CM = 3`. -/
def symSize (t : SymTab) (i : Nat) (s : Sym) : Res Nat :=
  (csectOf t i s).bind fun a =>
    match a with
    | some a => .ok (if a.symType = 1 ∨ a.symType = 3 then a.scnlen else 0)
    | none => .ok 0

/-- The kind for a storage mapping class, src/read/xcoff/symbol.rs:395-409: `XMC_PR = 0`, `XMC_GL = 6`, `XMC_RO = 1`,
`XMC_RW = 5`, `XMC_TD = 16`, `XMC_BS = 9`, `XMC_TL = 20`, `XMC_UL = 21`, `XMC_DS = 10`, `XMC_TC0 = 15`, `XMC_TC = 3`. -/
def classKind (c : Nat) : SymbolKind :=
  if c = 0 ∨ c = 6 then .text
  else if c = 1 ∨ c = 5 ∨ c = 16 ∨ c = 9 then .data
  else if c = 20 ∨ c = 21 then .tls
  else if c = 10 ∨ c = 15 ∨ c = 3 then .data
  else .unknown

/-- The kind without a csect entry, src/read/xcoff/symbol.rs:427-430. -/
def plainKind (s : Sym) : SymbolKind := if s.sclass = 103 then .file else .unknown

/-- `kind`, src/read/xcoff/symbol.rs:386-431; `XTY_LD = 2`, `XTY_ER = 0`. -/
def symKind (t : SymTab) (i : Nat) (s : Sym) : Res SymbolKind :=
  (csectOf t i s).bind fun a =>
    match a with
    | some a =>
      .ok (if a.symType = 1 ∨ a.symType = 3 then classKind a.smclas
        else if a.symType = 2 then .text
        else if a.symType = 0 then .unknown
        else plainKind s)
    | none => .ok (plainKind s)

/-- `section`, src/read/xcoff/symbol.rs:433-446: `N_ABS = -1`, `N_UNDEF = 0`, `N_DEBUG = -2`. -/
def symSection (s : Sym) : ViewSection :=
  if s.scnumI = -1 then .absolute
  else if s.scnumI = 0 then .undefined
  else if s.scnumI = -2 then .none
  else if 0 < s.scnumI then .sec s.scnum
  else .unknown

/-- `Symbol::is_undefined`, src/read/xcoff/symbol.rs:562-567. -/
def isUndefined (s : Sym) : Bool := decide (s.sclass = 2 ∨ s.sclass = 111) && decide (s.scnumI = 0)

/-- `is_definition`, src/read/xcoff/symbol.rs:454-472. -/
def isDefinition (t : SymTab) (i : Nat) (s : Sym) : Res Bool :=
  if s.scnumI ≤ 0 then .ok false
  else (csectOf t i s).bind fun a =>
    match a with
    | some a => .ok (decide (a.symType = 1 ∨ a.symType = 2 ∨ a.symType = 3))
    | none => .ok false

/-- `is_common`, src/read/xcoff/symbol.rs:474-477. -/
def isCommon (s : Sym) : Bool := decide (s.sclass = 2) && decide (s.scnumI = 0)

/-- `is_weak`, src/read/xcoff/symbol.rs:479-482. -/
def isWeak (s : Sym) : Bool := s.sclass = 111

/-- `scope`, src/read/xcoff/symbol.rs:484-499; `visibility`, src/xcoff.rs:527-530, `SYM_V_HIDDEN = 0x2000`. -/
def symScope (s : Sym) : SymbolScope :=
  if s.scnumI = 0 then .unknown
  else if s.sclass = 2 ∨ s.sclass = 111 then (if s.typ &&& 0xf000 = 0x2000 then .linkage else .dynamic)
  else .compilation

/-- `is_global`, src/read/xcoff/symbol.rs:501-507. -/
def isGlobal (s : Sym) : Bool := decide (s.sclass = 2 ∨ s.sclass = 111)

/-- `is_local`, src/read/xcoff/symbol.rs:509-512. -/
def isLocal (s : Sym) : Bool := !isGlobal s

end Obj.Xcoff

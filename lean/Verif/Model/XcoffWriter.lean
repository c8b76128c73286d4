import Verif.Model.XcoffRead
import Verif.Model.ElfWriter
import Verif.Model.Reserve

/-!
# Model of `Object::xcoff_write`

`src/write/xcoff.rs:73-162` and 216-614.  Writing goes to a byte vector (`bufBytes`, `bufAlign`); `debug_assert`s are
`check`.  The sizes of integers are those of a 64-bit target.
-/

namespace Obj.XcoffW
open Obj Obj.Reserve Obj.Xcoff
open Obj.ElfW (check tabAdd)

/-! ## Flags -/

/-- `xcoff_section_flags`, src/write/xcoff.rs:73-97; `none` is `SectionFlags::None`. -/
def defaultSectionFlags (k : SectionKind) : Option Nat :=
  match k with
  | .text | .readOnlyData | .readOnlyString | .readOnlyDataWithRel => some 0x20
  | .data => some 0x40
  | .uninitializedData => some 0x80
  | .tls => some 0x400
  | .uninitializedTls => some 0x800
  | .otherString => some 0x200
  | .debug | .debugString => some 0x2000
  | .other | .metadata => some 0
  | .note | .linker | .unknown | .tlsVariables => none

/-- `section_flags`, src/write/mod.rs:362-368, as the field of `SectionFlags::Xcoff`. -/
def sectionFlags (s : W.Section) : Option Nat :=
  match s.flags with
  | .none => defaultSectionFlags s.kind
  | .xcoff f => some f
  | _ => none

/-- The fields of `SymbolFlags::Xcoff`. -/
structure Flags where
  typ : Nat
  sclass : Nat
  smtyp : Nat
  smclas : Nat
  csect : Option Nat
  deriving DecidableEq, Repr

/-- `n_sclass`, src/write/xcoff.rs:100-114: `C_FILE = 103`, `C_STAT = 3`, `C_WEAKEXT = 111`, `C_EXT = 2`. -/
def storageClass (s : W.Symbol) : Option Nat :=
  match s.kind with
  | .file => some 103
  | .text | .data | .tls => some (if s.scope = .compilation then 3 else if s.weak then 111 else 2)
  | .sectionSym | .label | .unknown => none

/-- The class is `C_EXT`, `C_WEAKEXT` or `C_HIDEXT`. -/
def external (c : Nat) : Bool := decide (c = 2 ∨ c = 111 ∨ c = 107)

/-- `n_type`, src/write/xcoff.rs:115-123; `SYM_V_HIDDEN = 0x2000`. -/
def typeOf (scope : SymbolScope) (c : Nat) : Nat := if scope = .linkage ∧ external c = true then 0x2000 else 0

/-- `x_smtyp` and `x_smclas` of a symbol that is not local, src/write/xcoff.rs:133-156: `XTY_SD = 1`, `XTY_CM = 3`,
`XMC_PR = 0`, `XMC_BS = 9`, `XMC_RO = 1`, `XMC_RW = 5`, `XMC_UL = 21`, `XMC_TL = 20`. -/
def csectFlags (k : SymbolKind) (sk : SectionKind) : Option (Nat × Nat) :=
  match k with
  | .text => some (1, 0)
  | .data => some (if sk = .uninitializedData then (3, 9) else if sk = .readOnlyData then (1, 1) else (1, 5))
  | .tls => some (if sk = .uninitializedTls then (3, 21) else (1, 20))
  | _ => none

/-- `section_kind`, src/write/xcoff.rs:128-132. -/
def kindOfSection (o : W.Object) (s : W.Symbol) : Res SectionKind :=
  match s.section_ with
  | .inSec i => match o.sections[i]? with
    | some x => .ok x.kind
    | none => .panic
  | _ => .ok .unknown

/-- `xcoff_symbol_flags`, src/write/xcoff.rs:99-162. -/
def defaultSymbolFlags (o : W.Object) (s : W.Symbol) : Res (Option Flags) :=
  match storageClass s with
  | none => .ok none
  | some c =>
    if external c = true then
      (kindOfSection o s).bind fun k =>
        match csectFlags s.kind k with
        | some (t, m) => .ok (some ⟨typeOf s.scope c, c, t, m, none⟩)
        | none => .ok none
    else .ok (some ⟨typeOf s.scope c, c, 0, 0, none⟩)

/-- `symbol_flags`, src/write/mod.rs:494-500, as the fields of `SymbolFlags::Xcoff`. -/
def symbolFlags (o : W.Object) (s : W.Symbol) : Res (Option Flags) :=
  match s.flags with
  | .none => defaultSymbolFlags o s
  | .xcoff t c y m x => .ok (some ⟨t, c, y, m, x⟩)
  | _ => .ok none

/-! ## Layout -/

/-- `SectionOffsets`, src/write/xcoff.rs:9-14. -/
structure SecOff where
  address : Nat
  data : Nat
  reloc : Nat
  deriving DecidableEq, Repr

/-- The address of a section and the next address, src/write/xcoff.rs:254-264. -/
def placeAddress (s : W.Section) (address : Nat) : Res (Nat × Nat) :=
  if s.kind = .data ∨ s.kind = .text ∨ s.kind = .uninitializedData then do
    let n ← addU64 address s.data.length
    let n ← align64 n 4
    .ok (address, n)
  else .ok (0, address)

/-- The file offset of a section and the next offset, src/write/xcoff.rs:265-272. -/
def placeData (s : W.Section) (offset : Nat) : Res (Nat × Nat) :=
  if s.data.length ≠ 0 then do
    let off ← align64 offset 4
    let n ← addU64 off s.data.length
    .ok (off, n)
  else .ok (0, offset)

/-- The first loop over the sections, src/write/xcoff.rs:250-273: address and data offset of each, and the end. -/
def placeAll : Nat → Nat → List W.Section → Res (List (Nat × Nat) × Nat)
  | _, offset, [] => .ok ([], offset)
  | address, offset, s :: ss => do
    let (a, address) ← placeAddress s address
    let (d, offset) ← placeData s offset
    let (r, e) ← placeAll address offset ss
    .ok ((a, d) :: r, e)

/-- The second loop over the sections, src/write/xcoff.rs:276-284. -/
def placeRelocs (is64 : Bool) : Nat → List W.Section → Res (List Nat × Nat)
  | offset, [] => .ok ([], offset)
  | offset, s :: ss =>
    if s.relocs.length ≠ 0 then do
      let n ← mulU64 s.relocs.length (relSize is64)
      let n ← addU64 offset n
      let (r, e) ← placeRelocs is64 n ss
      .ok (offset :: r, e)
    else do
      let (r, e) ← placeRelocs is64 offset ss
      .ok (0 :: r, e)

/-- `SymbolOffsets`, src/write/xcoff.rs:16-26. -/
structure SymOff where
  index : Nat
  strId : Option Nat
  aux : Nat
  flags : Flags
  deriving DecidableEq, Repr

/-- The state of the loop over the symbols: the string table, `file_str_id` and `symtab_count`. -/
structure SymSt where
  tab : StrTab
  file : Option Nat
  count : Nat
  deriving DecidableEq, Repr

/-- `.file` -/
def nFile : List UInt8 := [46, 102, 105, 108, 101]

/-- `file_str_id`, src/write/xcoff.rs:315-317. -/
def addFile (is64 : Bool) (t : StrTab) (file : Option Nat) : Res (Option Nat × StrTab) :=
  if is64 = true ∧ file = none then do
    let (id, t) ← tabAdd t nFile
    .ok (some id, t)
  else .ok (file, t)

/-- The string of a symbol, src/write/xcoff.rs:314-323: `str_id`, and the table and `file_str_id` after it. -/
def addStrings (is64 : Bool) (c : Nat) (name : List UInt8) (t : StrTab) (file : Option Nat) :
    Res (Option Nat × Option Nat × StrTab) :=
  if c = 103 then do
    let (file, t) ← addFile is64 t file
    if 8 < name.length then do
      let (id, t) ← tabAdd t name
      .ok (some id, file, t)
    else .ok (none, file, t)
  else if is64 = true ∨ 8 < name.length then do
    let (id, t) ← tabAdd t name
    .ok (some id, file, t)
  else .ok (none, file, t)

/-- `aux_count`, src/write/xcoff.rs:325-337. -/
def auxCount (c : Nat) : Nat := if c = 103 ∨ external c = true then 1 else 0

/-- The body of the loop over the symbols, src/write/xcoff.rs:287-338. -/
def planSymbol (is64 : Bool) (o : W.Object) (s : W.Symbol) (st : SymSt) : Res (SymOff × SymSt) :=
  (symbolFlags o s).bind fun f =>
    match f with
    | none => .err
    | some f => do
      let (id, file, t) ← addStrings is64 f.sclass s.name st.tab st.file
      let n ← addU64 st.count 1
      let n ← addU64 n (auxCount f.sclass)
      .ok (⟨st.count, id, auxCount f.sclass, f⟩, ⟨t, file, n⟩)

/-- The loop over the symbols, src/write/xcoff.rs:287-338. -/
def planSymbols (is64 : Bool) (o : W.Object) : List W.Symbol → SymSt → Res (List SymOff × SymSt)
  | [], st => .ok ([], st)
  | s :: ss, st => do
    let (y, st) ← planSymbol is64 o s st
    let (ys, st) ← planSymbols is64 o ss st
    .ok (y :: ys, st)

/-- `StringTable::write` with base 4, src/write/xcoff.rs:345-347. -/
def encStrtab (t : StrTab) : Res (Nat × StrTab × List UInt8) :=
  match t.write 4 with
  | (.ok n, t, out) => .ok (n, t, out)
  | (.err, _, _) => .err
  | (.panic, _, _) => .panic

/-- What the first half of `xcoff_write` computes. -/
structure Plan where
  sections : List SecOff
  symbols : List SymOff
  file : Option Nat
  count : Nat
  symtab : Nat
  strtab : Nat
  strLen : Nat
  tab : StrTab
  strData : List UInt8
  len : Nat
  deriving DecidableEq, Repr

/-- The first half of `xcoff_write`, src/write/xcoff.rs:222-348. -/
def plan (is64 : Bool) (o : W.Object) : Res Plan := do
  let n ← mulU64 o.sections.length (sectSize is64)
  let off ← addU64 (hdrSize is64) n
  let (ps, off) ← placeAll 0 off o.sections
  let (rs, off) ← placeRelocs is64 off o.sections
  let (ys, st) ← planSymbols is64 o o.symbols ⟨StrTab.new, none, 0⟩
  let n ← mulU64 st.count 18
  let strtab ← addU64 off n
  let (len, t, data) ← encStrtab st.tab
  let stop ← addU64 strtab len
  .ok ⟨(ps.zip rs).map fun p => ⟨p.1.1, p.1.2, p.2⟩, ys, st.file, st.count, off, strtab, len, t, data, stop⟩

/-! ## Writing -/

/-- A name of at most 8 bytes, src/write/xcoff.rs:387-396. -/
def fixedName (name : List UInt8) : Res (List UInt8) :=
  if name.length ≤ 8 then .ok (name ++ List.replicate (8 - name.length) 0) else .err

/-- The header of a section, src/write/xcoff.rs:387-438; `as` truncations are those of `wr`. -/
def sectionHeader (s : W.Section) (p : SecOff) : Res Sect :=
  (fixedName s.name).bind fun name =>
    match sectionFlags s with
    | none => .err
    | some f => .ok ⟨name, p.address, p.address, s.data.length, p.data, p.reloc, 0, s.relocs.length, 0, f⟩

/-- The section headers, src/write/xcoff.rs:386-439. -/
def writeHeaders (is64 : Bool) (out : List UInt8) : List (W.Section × SecOff) → Res (List UInt8)
  | [] => .ok out
  | (s, p) :: rest => do
    let h ← sectionHeader s p
    let out ← bufBytes out (h.encode is64)
    writeHeaders is64 out rest

/-- The contents of the sections, src/write/xcoff.rs:442-449. -/
def writeData (out : List UInt8) : List (W.Section × SecOff) → Res (List UInt8)
  | [] => .ok out
  | (s, p) :: rest =>
    if s.data.length ≠ 0 then do
      let out ← bufAlign out 4
      check (p.data = out.length)
      let out ← bufBytes out s.data
      writeData out rest
    else writeData out rest

/-- A relocation, src/write/xcoff.rs:456-478. -/
def relocOf (ys : List SymOff) (r : W.Reloc) : Res Rel :=
  match r.flags with
  | .xcoff t n =>
    match ys[r.symbol]? with
    | some y => .ok ⟨r.offset, y.index, n, t⟩
    | none => .panic
  | _ => .err

/-- The relocations of a section, src/write/xcoff.rs:455-479. -/
def writeRelocsOf (is64 : Bool) (ys : List SymOff) (out : List UInt8) : List W.Reloc → Res (List UInt8)
  | [] => .ok out
  | r :: rs => do
    let x ← relocOf ys r
    let out ← bufBytes out (x.encode is64)
    writeRelocsOf is64 ys out rs

/-- The relocations, src/write/xcoff.rs:452-481. -/
def writeRelocs (is64 : Bool) (ys : List SymOff) (out : List UInt8) : List (W.Section × SecOff) → Res (List UInt8)
  | [] => .ok out
  | (s, p) :: rest =>
    if s.relocs ≠ [] then do
      check (p.reloc = out.length)
      let out ← writeRelocsOf is64 ys out s.relocs
      writeRelocs is64 ys out rest
    else writeRelocs is64 ys out rest

/-- `n_value`, src/write/xcoff.rs:486-490. -/
def symbolValue (ps : List SecOff) (s : W.Symbol) : Res Nat :=
  match s.section_ with
  | .inSec i => match ps[i]? with
    | some p => addU64 p.address s.value
    | none => .panic
  | _ => .ok s.value

/-- `n_scnum`, src/write/xcoff.rs:491-499, as an unsigned number.  (`as i16` wraps, the addition panics.) -/
def sectionNumber (s : W.Symbol) : Res Nat :=
  match s.section_ with
  | .none => (check (s.kind = .file)).bind fun _ => .ok 65534
  | .undefined | .common => .ok 0
  | .absolute => .ok 65535
  | .inSec i => if i % 65536 = 32767 then .panic else .ok ((i + 1) % 65536)

/-- `strtab.get_offset(id.unwrap())`. -/
def strOffset (t : StrTab) (id : Option Nat) : Res Nat :=
  match id with
  | none => .panic
  | some id => t.getOffset id

/-- A name of at most 8 bytes, or the offset of the string, src/write/xcoff.rs:522-527, 541-547. -/
def nameField (t : StrTab) (name : List UInt8) (id : Option Nat) : Res (List UInt8) :=
  if name.length ≤ 8 then .ok (name ++ List.replicate (8 - name.length) 0)
  else (strOffset t id).bind fun n => .ok ([0, 0, 0, 0] ++ wr .big 4 n)

/-- The name of the record of a symbol, src/write/xcoff.rs:504-508, 519-527. -/
def symbolName (is64 : Bool) (p : Plan) (s : W.Symbol) (y : SymOff) : Res (List UInt8) :=
  if is64 then
    (strOffset p.tab (if y.flags.sclass = 103 then p.file else y.strId)).bind fun n => .ok (wr .big 4 n)
  else if y.flags.sclass = 103 then .ok (nFile ++ [0, 0, 0])
  else nameField p.tab s.name y.strId

/-- The record of a symbol, src/write/xcoff.rs:486-537. -/
def symbolOf (is64 : Bool) (p : Plan) (s : W.Symbol) (y : SymOff) : Res Sym := do
  let v ← symbolValue p.sections s
  let n ← sectionNumber s
  let name ← symbolName is64 p s y
  .ok ⟨name, v, n, y.flags.typ, y.flags.sclass, y.aux⟩

/-- `scnlen`, src/write/xcoff.rs:573-578. -/
def csectLen (ys : List SymOff) (s : W.Symbol) (y : SymOff) : Res Nat :=
  match y.flags.csect with
  | some i => match ys[i]? with
    | some z => .ok z.index
    | none => .panic
  | none => .ok s.size

/-- The auxiliary entry of a symbol, src/write/xcoff.rs:539-603. -/
def auxOf (is64 : Bool) (p : Plan) (s : W.Symbol) (y : SymOff) : Res (List UInt8) :=
  if y.flags.sclass = 103 then do
    check (y.aux = 1)
    let n ← nameField p.tab s.name y.strId
    .ok (FileAux.encode is64 ⟨n, 0⟩)
  else if external y.flags.sclass = true then do
    check (y.aux = 1)
    let n ← csectLen p.symbols s y
    .ok (CsectAux.encode is64 ⟨n, y.flags.smtyp, y.flags.smclas⟩)
  else .ok []

/-- The symbols, src/write/xcoff.rs:485-604. -/
def writeSymbols (is64 : Bool) (p : Plan) (out : List UInt8) : List (W.Symbol × SymOff) → Res (List UInt8)
  | [] => .ok out
  | (s, y) :: rest => do
    let r ← symbolOf is64 p s y
    let out ← bufBytes out (r.encode is64)
    let a ← auxOf is64 p s y
    let out ← bufBytes out a
    writeSymbols is64 p out rest

/-- The second half of `xcoff_write`, src/write/xcoff.rs:350-613; `flags` is that of `FileFlags::Xcoff`. -/
def emit (is64 : Bool) (o : W.Object) (flags : Option Nat) (p : Plan) : Res (List UInt8) := do
  let out ← bufBytes [] (Hdr.encode is64 ⟨o.sections.length, 0, p.symtab, p.count, 0, flags.getD 0⟩)
  let out ← writeHeaders is64 out (o.sections.zip p.sections)
  let out ← writeData out (o.sections.zip p.sections)
  let out ← writeRelocs is64 p.symbols out (o.sections.zip p.sections)
  check (p.symtab = out.length)
  let out ← writeSymbols is64 p out (o.symbols.zip p.symbols)
  check (p.strtab = out.length)
  let out ← bufBytes out (wr .big 4 p.strLen)
  let out ← bufBytes out p.strData
  check (p.len = out.length)
  .ok out

/-- `Object::xcoff_write`, src/write/xcoff.rs:216-613: the bytes of the file. -/
def xcoffWrite (o : W.Object) (flags : Option Nat) : Res (List UInt8) :=
  match o.arch.addressSize with
  | none => .panic
  | some n => do
    let is64 := decide (n = 8)
    let p ← plan is64 o
    emit is64 o flags p

end Obj.XcoffW

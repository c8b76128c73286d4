import Verif.Model.Coff
import Verif.Model.Reserve
import Verif.Model.ElfWriter
import Verif.Model.RelocMap2

/-!
# Model of `write::coff::Writer` and of `Object::coff_write`

`src/write/coff/writer.rs` and `src/write/coff/object.rs:89-170, 429-811`.  The state of the writer is a record;
each method returns the new state.  A failed `debug_assert!`, an overflow, an index out of range and an `unwrap` of
`None` are `Res.panic`.  The output buffer is a byte vector (C10 covers the other buffers).
-/

namespace Obj.CoffW
open Obj Obj.Reserve
open Obj.ElfW (check tabAdd)

/-- `coff::Writer`, src/write/coff/writer.rs:29-43. -/
structure Wtr where
  len : Nat
  /-- `buffer` -/
  out : List UInt8
  sectionNum : Nat
  symtabOffset : Nat
  symtabNum : Nat
  tab : StrTab
  strtabLen : Nat
  strtabOffset : Nat
  strtabData : List UInt8
  deriving DecidableEq, Repr

/-- `Writer::new`, src/write/coff/writer.rs:50-66. -/
def Wtr.new : Wtr := ⟨0, [], 0, 0, 0, StrTab.new, 0, 0, []⟩

/-! ## Reserving -/

/-- `Writer::reserve`, src/write/coff/writer.rs:81-88. -/
def Wtr.reserve (w : Wtr) (size align : Nat) : Res (Nat × Wtr) := do
  let (offset, len) ← Reserve.coff w.len size align
  .ok (offset, { w with len := len })

/-- `Writer::reserve_file_header`, src/write/coff/writer.rs:117-120. -/
def Wtr.reserveFileHeader (w : Wtr) : Res Wtr := do
  check (w.len = 0)
  let (_, w) ← w.reserve 20 1
  .ok w

/-- `Writer::reserve_section_headers`, src/write/coff/writer.rs:153-160, for a `u16`. -/
def Wtr.reserveSectionHeaders (w : Wtr) (n : Nat) : Res Wtr := do
  check (w.sectionNum = 0)
  let (_, w) ← { w with sectionNum := n }.reserve (n * 40) 1
  .ok w

/-- `Writer::reserve_section`, src/write/coff/writer.rs:227-233. -/
def Wtr.reserveSection (w : Wtr) (size : Nat) : Res (Nat × Wtr) := do
  let (offset, len) ← coffSection w.len size
  .ok (offset, { w with len := len })

/-- `Writer::reserve_relocations`, src/write/coff/writer.rs:273-284. -/
def Wtr.reserveRelocations (w : Wtr) (count : Nat) : Res (Nat × Wtr) := do
  let (offset, len) ← coffRelocations w.len count
  .ok (offset, { w with len := len })

/-- `Writer::reserve_symbol_index`, src/write/coff/writer.rs:313-318. -/
def Wtr.reserveSymbolIndex (w : Wtr) : Res (Nat × Wtr) := do
  check (w.symtabOffset = 0)
  let n ← addU32 w.symtabNum 1
  .ok (w.symtabNum, { w with symtabNum := n })

/-- `Writer::reserve_aux_file_name`, src/write/coff/writer.rs:351-356: `aux_count as u32`, `aux_count as u8`. -/
def Wtr.reserveAuxFileName (w : Wtr) (name : List UInt8) : Res (Nat × Wtr) := do
  check (w.symtabOffset = 0)
  let n ← addU32 w.symtabNum (((name.length + 17) / 18) % U32)
  .ok (Coff.auxFileNameCount name, { w with symtabNum := n })

/-- `Writer::reserve_aux_section`, src/write/coff/writer.rs:372-376, and `reserve_aux_weak_external`, 402-406. -/
def Wtr.reserveAuxOne (w : Wtr) : Res (Nat × Wtr) := do
  check (w.symtabOffset = 0)
  let n ← addU32 w.symtabNum 1
  .ok (1, { w with symtabNum := n })

/-- `Writer::add_string`, src/write/coff/writer.rs:428-431. -/
def Wtr.addString (w : Wtr) (name : List UInt8) : Res (Nat × Wtr) := do
  check (w.strtabOffset = 0)
  let (id, t) ← tabAdd w.tab name
  .ok (id, { w with tab := t })

/-- `Writer::add_name`, src/write/coff/writer.rs:436-444. -/
def Wtr.addName (w : Wtr) (name : List UInt8) : Res (Coff.Name × Wtr) :=
  if 8 < name.length then do
    let (id, w) ← w.addString name
    .ok (.long id, w)
  else .ok (.short (name ++ List.replicate (8 - name.length) 0), w)

/-- `StringTable::write` with base 4, the error dropping the state, src/write/coff/writer.rs:460. -/
def encStrtab (t : StrTab) : Res (Nat × StrTab × List UInt8) :=
  match t.write 4 with
  | (.ok n, t, out) => .ok (n, t, out)
  | (.err, _, _) => .err
  | (.panic, _, _) => .panic

/-- `Writer::reserve_symtab_strtab`, src/write/coff/writer.rs:452-463. -/
def Wtr.reserveSymtabStrtab (w : Wtr) : Res Wtr := do
  check (w.symtabOffset = 0)
  let (offset, w) ← w.reserve (w.symtabNum * 18) 1
  let w := { w with symtabOffset := offset }
  check (w.strtabOffset = 0)
  let (n, t, data) ← encStrtab w.tab
  let w := { w with strtabLen := n, tab := t, strtabData := data }
  let (offset, w) ← w.reserve n 1
  .ok { w with strtabOffset := offset }

/-! ## Writing -/

/-- `buffer.write_bytes` and `write_pod`. -/
def Wtr.write (w : Wtr) (data : List UInt8) : Res Wtr := do
  let out ← bufBytes w.out data
  .ok { w with out := out }

/-- `Writer::write_file_header`, src/write/coff/writer.rs:129-150 (the buffer is a vector: reserving never fails). -/
def Wtr.writeFileHeader (w : Wtr) (machine timeDateStamp characteristics : Nat) : Res Wtr := do
  check (w.out.length = 0)
  w.write (Coff.FileHeader.encode
    ⟨machine, w.sectionNum, timeDateStamp, w.symtabOffset, w.symtabNum, 0, characteristics⟩)

/-- `Writer::write_section_header`, src/write/coff/writer.rs:163-221. -/
def Wtr.writeSectionHeader (w : Wtr) (s : Coff.WSection) : Res Wtr := do
  let b ← Coff.writeSection w.tab s
  w.write b

/-- `Writer::write_section`, src/write/coff/writer.rs:248-254, with `write_section_align`, 239-241. -/
def Wtr.writeSection (w : Wtr) (data : List UInt8) : Res Wtr :=
  if data = [] then .ok w
  else do
    let out ← bufAlign w.out 4
    { w with out := out }.write data

/-- `Writer::write_relocations_count`, src/write/coff/writer.rs:289-298. -/
def Wtr.writeRelocationsCount (w : Wtr) (count : Nat) : Res Wtr := do
  let b ← Coff.relocationsCount count
  w.write b

/-- `Writer::write_symbol`, src/write/coff/writer.rs:327-344. -/
def Wtr.writeSymbol (w : Wtr) (s : Coff.WSymbol) : Res Wtr := do
  let b ← Coff.writeSymbol w.tab s
  w.write b

/-- `Writer::write_aux_file_name`, src/write/coff/writer.rs:359-365. -/
def Wtr.writeAuxFileName (w : Wtr) (name : List UInt8) (auxCount : Nat) : Res Wtr := do
  let b ← Coff.auxFileName name auxCount
  w.write b

/-- `Writer::write_strtab`, src/write/coff/writer.rs:466-470. -/
def Wtr.writeStrtab (w : Wtr) : Res Wtr := do
  check (w.strtabOffset = w.out.length)
  w.write (Coff.strtabBytes w.strtabLen w.strtabData)

/-! ## `Object::coff_write` -/

/-- `coff_section_flags`, src/write/coff/object.rs:89-129; `none` is `SectionFlags::None`. -/
def defaultSectionFlags (k : SectionKind) : Option Nat :=
  match k with
  | .text => some 0x60000020
  | .data => some 0xC0000040
  | .uninitializedData => some 0xC0000080
  | .readOnlyData | .readOnlyDataWithRel | .readOnlyString => some 0x40000040
  | .debug | .debugString | .other | .otherString => some 0x42000040
  | .linker => some 0xA00
  | _ => none

/-- `section_flags`, src/write/mod.rs:362-368, as the characteristics of `SectionFlags::Coff`. -/
def sectionFlags (s : W.Section) : Option Nat :=
  match s.flags with
  | .none => defaultSectionFlags s.kind
  | .coff c => some c
  | _ => none

/-- The storage class of `coff_symbol_flags` for text, data and TLS symbols, src/write/coff/object.rs:149-160. -/
def definedClass (s : W.Symbol) : Option Nat :=
  match s.section_ with
  | .none => none
  | .undefined | .common => some 2
  | .absolute | .inSec _ =>
    match s.scope with
    | .unknown => none
    | .compilation => some 3
    | .linkage | .dynamic => some 2

/-- The storage class of `coff_symbol_flags`, src/write/coff/object.rs:137-168. -/
def storageClass (s : W.Symbol) : Option Nat :=
  if s.weak then some 0x69
  else match s.kind with
    | .file => some 0x67
    | .sectionSym => some (if s.section_.id?.isSome then 3 else 0x68)
    | .label => some 6
    | .text | .data | .tls => definedClass s
    | .unknown => if s.section_ = .undefined then some 2 else none

/-- `coff_symbol_flags`, src/write/coff/object.rs:131-170: type (`IMAGE_SYM_DTYPE_FUNCTION` is 2 << 4) and class. -/
def defaultSymbolFlags (s : W.Symbol) : Option (Nat × Nat) :=
  (storageClass s).map fun c => (if s.kind = .text then 0x20 else 0, c)

/-- `symbol_flags`, src/write/mod.rs:494-500, as the fields of `SymbolFlags::Coff`. -/
def symbolFlags (s : W.Symbol) : Option (Nat × Nat) :=
  match s.flags with
  | .none => defaultSymbolFlags s
  | .coff t c => some (t, c)
  | _ => none

/-- The fields `selection` and `associative_section` of `SectionOffsets`, src/write/coff/object.rs:12-19. -/
structure Sel where
  selection : Nat
  associative : Nat
  deriving DecidableEq, Repr

/-- The selection for a COMDAT kind (by discriminant, src/common.rs:258-285), src/write/coff/object.rs:453-467. -/
def selectionOf (kind : Nat) : Option Nat :=
  if kind = 1 then some 2       -- Any
  else if kind = 2 then some 1  -- NoDuplicates
  else if kind = 3 then some 3  -- SameSize
  else if kind = 4 then some 4  -- ExactMatch
  else if kind = 5 then some 6  -- Largest
  else if kind = 6 then some 7  -- Newest
  else none

/-- The loop over the sections of a COMDAT, src/write/coff/object.rs:468-480; `comdat_section as u32 + 1`. -/
def comdatMembers (o : W.Object) (leader : Nat) (sel : List Sel) : List Nat → Res (List Sel)
  | [] => .ok sel
  | i :: is =>
    match o.sections[i]? with
    | none => .panic
    | some s =>
      if s.symbol = none then .err
      else if i ≠ leader then
        if U32 ≤ leader % U32 + 1 then .panic
        else comdatMembers o leader (sel.set i ⟨5, leader % U32 + 1⟩) is
      else comdatMembers o leader sel is

/-- `section_offsets[i].selection = s`, src/write/coff/object.rs:453: the other field is kept. -/
def setSelection (sel : List Sel) (i s : Nat) : Res (List Sel) :=
  match sel[i]? with
  | none => .panic
  | some x => .ok (sel.set i { x with selection := s })

/-- One COMDAT, src/write/coff/object.rs:440-481. -/
def comdatOne (o : W.Object) (sel : List Sel) (d : W.Comdat) : Res (List Sel) :=
  match o.symbols[d.symbol]? with
  | none => .panic
  | some s =>
    match s.section_.id? with
    | none => .err
    | some leader =>
      match selectionOf d.kind with
      | none => .err
      | some k => (setSelection sel leader k).bind fun sel => comdatMembers o leader sel d.sections

/-- The COMDAT flags, src/write/coff/object.rs:440-481. -/
def comdatSels (o : W.Object) (sel : List Sel) : List W.Comdat → Res (List Sel)
  | [] => .ok sel
  | d :: ds => (comdatOne o sel d).bind fun sel => comdatSels o sel ds

/-- `defined_external_symbol`, src/write/coff/object.rs:492-498. -/
def definedExternal (s : W.Symbol) : Bool :=
  !s.weak && (s.scope == .linkage || s.scope == .dynamic) && (s.section_.id?.isSome || s.section_ == .absolute)

/-- The condition of the first search, src/write/coff/object.rs:505-519. -/
def outsideComdat (o : W.Object) (s : W.Symbol) : Bool :=
  match s.section_.id? with
  | none => true
  | some i => !(o.comdats.any fun d => d.sections.contains i)

/-- `weak_default_unique_name`, src/write/coff/object.rs:500-530; empty if there is none. -/
def uniqueName (o : W.Object) : List UInt8 :=
  let ext := o.symbols.filter definedExternal
  let first := match ext.find? (outsideComdat o) with
    | some s => s.name
    | none => []
  if first = [] then
    match ext.find? fun s => s.section_.id?.isSome with
    | some s => s.name
    | none => []
  else first

/-- ".weak." -/
def nWeak : List UInt8 := [46, 119, 101, 97, 107, 46]
/-- ".file" -/
def nFile : List UInt8 := [46, 102, 105, 108, 101]

/-- The name of a weak default symbol, src/write/coff/object.rs:539-543. -/
def weakName (unique : List UInt8) (s : W.Symbol) : List UInt8 :=
  if unique = [] then nWeak ++ s.name else nWeak ++ s.name ++ 46 :: unique

/-- `SymbolOffsets` of a symbol, src/write/coff/object.rs:22-26, and those of its weak default symbol if it has one. -/
structure SymOff where
  name : Coff.Name
  index : Nat
  auxCount : Nat
  default : Option (Coff.Name × Nat)
  deriving DecidableEq, Repr

/-- The names of the sections, src/write/coff/object.rs:434-437. -/
def addSectionNames (w : Wtr) : List W.Section → Res (List Coff.Name × Wtr)
  | [] => .ok ([], w)
  | s :: ss => do
    let (n, w) ← w.addName s.name
    let (ns, w) ← addSectionNames w ss
    .ok (n :: ns, w)

/-- The weak default symbol, src/write/coff/object.rs:552-566. -/
def reserveDefault (unique : List UInt8) (s : W.Symbol) (w : Wtr) : Res (Option (Coff.Name × Nat) × Wtr) :=
  if s.weak then do
    let (n, w) ← w.addName (weakName unique s)
    let (i, w) ← w.reserveSymbolIndex
    .ok (some (n, i), w)
  else .ok (none, w)

/-- The auxiliary symbols, src/write/coff/object.rs:570-583. -/
def reserveAux (s : W.Symbol) (w : Wtr) : Res (Nat × Wtr) :=
  if s.weak then w.reserveAuxOne
  else if s.kind = .file then w.reserveAuxFileName s.name
  else if s.kind = .sectionSym ∧ s.section_.id?.isSome then w.reserveAuxOne
  else .ok (0, w)

/-- The name that is stored, src/write/coff/object.rs:569, 577. -/
def storedName (s : W.Symbol) : List UInt8 := if !s.weak && s.kind == .file then nFile else s.name

/-- One symbol, src/write/coff/object.rs:551-585. -/
def reserveSymbol (unique : List UInt8) (s : W.Symbol) (w : Wtr) : Res (SymOff × Wtr) := do
  let (d, w) ← reserveDefault unique s w
  let (i, w) ← w.reserveSymbolIndex
  let (aux, w) ← reserveAux s w
  let (n, w) ← w.addName (storedName s)
  .ok (⟨n, i, aux, d⟩, w)

/-- Symbol indices and names, src/write/coff/object.rs:549-585. -/
def reserveSymbols (unique : List UInt8) (w : Wtr) : List W.Symbol → Res (List SymOff × Wtr)
  | [] => .ok ([], w)
  | s :: ss => do
    let (x, w) ← reserveSymbol unique s w
    let (xs, w) ← reserveSymbols unique w ss
    .ok (x :: xs, w)

/-- `offset` and `reloc_offset` of the sections, src/write/coff/object.rs:590-594. -/
def reserveSections (w : Wtr) : List W.Section → Res (List (Nat × Nat) × Wtr)
  | [] => .ok ([], w)
  | s :: ss => do
    let (a, w) ← w.reserveSection s.data.length
    let (b, w) ← w.reserveRelocations s.relocs.length
    let (rest, w) ← reserveSections w ss
    .ok ((a, b) :: rest, w)

/-- `SectionOffsets`, src/write/coff/object.rs:12-19. -/
structure SecOff where
  name : Coff.Name
  sel : Sel
  offset : Nat
  relocOffset : Nat
  deriving DecidableEq, Repr

/-- The vectors computed by the first half of `coff_write`. -/
structure Plan where
  secs : List SecOff
  syms : List SymOff
  deriving DecidableEq, Repr

/-- `section_offsets` from its columns. -/
def secOffs : List Coff.Name → List Sel → List (Nat × Nat) → List SecOff
  | n :: ns, s :: ss, p :: ps => ⟨n, s, p.1, p.2⟩ :: secOffs ns ss ps
  | _, _, _ => []

/-- The file ranges, src/write/coff/object.rs:587-595; `self.sections.len() as u16`. -/
def planRanges (o : W.Object) (w : Wtr) : Res (List (Nat × Nat) × Wtr) := do
  let w ← w.reserveFileHeader
  let w ← w.reserveSectionHeaders (o.sections.length % U16)
  let (ranges, w) ← reserveSections w o.sections
  let w ← w.reserveSymtabStrtab
  .ok (ranges, w)

/-- The first phase of `coff_write`, src/write/coff/object.rs:430-595. -/
def plan (o : W.Object) (w : Wtr) : Res (Plan × Wtr) := do
  let (names, w) ← addSectionNames w o.sections
  let sels ← comdatSels o (List.replicate o.sections.length ⟨0, 0⟩) o.comdats
  let (syms, w) ← reserveSymbols (uniqueName o) w o.symbols
  let (ranges, w) ← planRanges o w
  .ok (⟨secOffs names sels ranges, syms⟩, w)

/-- `SubArchitecture`, src/common.rs:55-58. -/
inductive SubArch where
  | arm64E | arm64EC
  deriving DecidableEq, Repr

/-- `machine`, src/write/coff/object.rs:599-623. -/
def machineOf (arch : Arch) (sub : Option SubArch) (endian : Endianness) : Res Nat :=
  match sub with
  | none => coffMachine arch endian
  | some .arm64EC => if arch = .aarch64 then .ok 0xa641 else .err
  | some .arm64E => .err

/-- The characteristics with the flags that are added, src/write/coff/object.rs:646-651. -/
def addedFlags (s : W.Section) (sel : Sel) (c : Nat) : Nat :=
  Coff.relocFlags s.relocs.length (if sel.selection ≠ 0 then c ||| 0x1000 else c)

/-- The header of a section, src/write/coff/object.rs:633-684; the relocation count is `as u32`. -/
def sectionHeader (s : W.Section) (so : SecOff) : Res Coff.WSection :=
  match sectionFlags s with
  | none => .err
  | some c => match Coff.alignFlags s.align with
    | none => .err
    | some a => .ok ⟨so.name, s.size % U32, so.offset, so.relocOffset, 0, s.relocs.length % U32, 0,
        Coff.withAlign (addedFlags s so.sel c) a⟩

/-- The section headers, src/write/coff/object.rs:632-685. -/
def writeHeaders (w : Wtr) : List (W.Section × SecOff) → Res Wtr
  | [] => .ok w
  | (s, so) :: rest => do
    let h ← sectionHeader s so
    let w ← w.writeSectionHeader h
    writeHeaders w rest

/-- One relocation, src/write/coff/object.rs:693-704. -/
def writeReloc (syms : List SymOff) (r : W.Reloc) (w : Wtr) : Res Wtr :=
  match r.flags with
  | .coff t => match syms[r.symbol]? with
    | some so => w.write (Coff.Reloc.encode ⟨r.offset % U32, so.index, t⟩)
    | none => .panic
  | _ => .err

/-- The relocations of a section. -/
def writeRelocsOf (syms : List SymOff) (w : Wtr) : List W.Reloc → Res Wtr
  | [] => .ok w
  | r :: rs => do
    let w ← writeReloc syms r w
    writeRelocsOf syms w rs

/-- The relocations of a section, src/write/coff/object.rs:691-706. -/
def writeRelocs (syms : List SymOff) (s : W.Section) (w : Wtr) : Res Wtr :=
  if s.relocs = [] then .ok w
  else do
    let w ← w.writeRelocationsCount s.relocs.length
    writeRelocsOf syms w s.relocs

/-- Section data and relocations, src/write/coff/object.rs:688-707. -/
def writeSections (syms : List SymOff) (w : Wtr) : List W.Section → Res Wtr
  | [] => .ok w
  | s :: ss => do
    let w ← w.writeSection s.data
    let w ← writeRelocs syms s w
    writeSections syms w ss

/-- `section_number`, src/write/coff/object.rs:718-729, with its debug assertion (`id.0 as i32 + 1` is taken not to
overflow: there are not that many sections). -/
def sectionNumber (s : W.Symbol) : Res Int :=
  if s.weak then .ok 0
  else match s.section_ with
    | .none => if s.kind = .file then .ok (-2) else .panic
    | .undefined => .ok 0
    | .absolute => .ok (-1)
    | .common => .ok 0
    | .inSec i => .ok (i + 1)

/-- `value`, src/write/coff/object.rs:731-738. -/
def symbolValue (s : W.Symbol) : Nat :=
  if s.weak then 0 else if s.section_ = .common then s.size % U32 else s.value % U32

/-- `section_number` of the weak default symbol, src/write/coff/object.rs:749-758. -/
def defaultSection (s : W.Symbol) : Res Int :=
  match s.section_ with
  | .inSec i => .ok (i + 1)
  | .undefined => .ok (-1)
  | _ => .err

/-- The weak default symbol, src/write/coff/object.rs:741-763. -/
def writeDefault (s : W.Symbol) (so : SymOff) (w : Wtr) : Res Wtr :=
  if s.weak then match so.default with
    | none => .panic
    | some (n, _) => do
      let sec ← defaultSection s
      w.writeSymbol ⟨n, s.value % U32, sec, 0, 2, 0⟩
  else .ok w

/-- The auxiliary section symbol, src/write/coff/object.rs:788-801; `crc` is the checksum (813-817). -/
def auxOf (crc : List UInt8 → Nat) (s : W.Section) (sel : Sel) : Coff.AuxSection :=
  ⟨s.size % U32, s.relocs.length % U32, 0, if s.kind.isBss then 0 else crc s.data, sel.associative, sel.selection⟩

/-- The auxiliary symbol of a section symbol, src/write/coff/object.rs:785-801. -/
def writeAuxSection (crc : List UInt8 → Nat) (o : W.Object) (secs : List SecOff) (so : SymOff) (i : Nat) (w : Wtr) : Res Wtr := do
  check (so.auxCount = 1)
  match o.sections[i]?, secs[i]? with
  | some sec, some x => w.write (Coff.auxSection (auxOf crc sec x.sel))
  | _, _ => .panic

/-- The auxiliary symbols, src/write/coff/object.rs:774-805; `IMAGE_WEAK_EXTERN_SEARCH_ALIAS = 3`. -/
def writeAux (crc : List UInt8 → Nat) (o : W.Object) (secs : List SecOff) (s : W.Symbol) (so : SymOff) (w : Wtr) : Res Wtr :=
  if s.weak then match so.default with
    | none => .panic
    | some (_, i) => w.write (Coff.auxWeak i 3)
  else if s.kind = .file then w.writeAuxFileName s.name so.auxCount
  else if s.kind = .sectionSym then match s.section_.id? with
    | some i => writeAuxSection crc o secs so i w
    | none => (check (so.auxCount = 0)).bind fun _ => .ok w
  else (check (so.auxCount = 0)).bind fun _ => .ok w

/-- One symbol, src/write/coff/object.rs:711-805. -/
def writeOneSymbol (crc : List UInt8 → Nat) (o : W.Object) (secs : List SecOff) (s : W.Symbol) (so : SymOff) (w : Wtr) : Res Wtr :=
  match symbolFlags s with
  | none => .err
  | some (typ, cls) => do
    let sec ← sectionNumber s
    let w ← writeDefault s so w
    let w ← w.writeSymbol ⟨so.name, symbolValue s, sec, typ, cls, so.auxCount⟩
    writeAux crc o secs s so w

/-- The symbols, src/write/coff/object.rs:710-806. -/
def writeSymbols (crc : List UInt8 → Nat) (o : W.Object) (secs : List SecOff) (w : Wtr) : List (W.Symbol × SymOff) → Res Wtr
  | [] => .ok w
  | (s, so) :: rest => do
    let w ← writeOneSymbol crc o secs s so w
    writeSymbols crc o secs w rest

/-- The second phase of `coff_write`, src/write/coff/object.rs:598-811; `flags` are the characteristics of
`FileFlags::Coff` if given. -/
def emitAll (crc : List UInt8 → Nat) (o : W.Object) (sub : Option SubArch) (flags : Option Nat) (p : Plan) (w : Wtr) : Res Wtr := do
  let machine ← machineOf o.arch sub o.endian
  let w ← w.writeFileHeader machine 0 (flags.getD 0)
  let w ← writeHeaders w (o.sections.zip p.secs)
  let w ← writeSections p.syms w o.sections
  let w ← writeSymbols crc o p.secs w (o.symbols.zip p.syms)
  let w ← w.writeStrtab
  check (w.len = w.out.length)
  .ok w

/-- `Object::coff_write`, src/write/coff/object.rs:429-811: the bytes of the file.  The checksum of section contents
(`crc32fast`, 813-817) is a parameter. -/
def coffWrite (crc : List UInt8 → Nat) (o : W.Object) (sub : Option SubArch) (flags : Option Nat) : Res (List UInt8) := do
  let (p, w) ← plan o Wtr.new
  let w ← emitAll crc o sub flags p w
  .ok w.out

end Obj.CoffW

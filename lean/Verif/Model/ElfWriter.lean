import Verif.Model.Elf
import Verif.Model.Reserve
import Verif.Model.WriteString
import Verif.Model.WriteObject
import Verif.Model.MachoReloc

/-!
# Model of `write::elf::Writer` in two-phase mode and of `Object::elf_write`

`src/write/elf/writer.rs` (the methods that `elf_write` calls) and `src/write/elf/object.rs:143-217, 611-937`.
The state of the writer is a record; each method returns the new state.  A failed `debug_assert!`, an
overflow, an index out of range and an `unwrap` of `None` are `Res.panic`.  The output buffer is a byte
vector (C10 covers the other buffers).
-/

namespace Obj.ElfW
open Obj Obj.Elf Obj.Reserve

/-- A `debug_assert!`. -/
def check (p : Prop) [Decidable p] : Res Unit := if p then .ok () else .panic

/-- The fields of one string table of the writer, src/write/elf/writer.rs:73-83: the table, the id of its
section name, its section index (for `.shstrtab` this is in `layout`), its offset and size, and the data in
the mode (1397-1398). -/
structure Tab where
  tab : StrTab
  id : Option Nat
  index : Nat
  offset : Nat
  size : Nat
  data : List UInt8
  deriving DecidableEq, Repr

/-- The fields for the symbol table, src/write/elf/writer.rs:85-89. -/
structure SymSt where
  id : Option Nat
  index : Nat
  offset : Nat
  num : Nat
  written : Nat
  deriving DecidableEq, Repr

/-- The fields for the extended section indices, src/write/elf/writer.rs:91-94. -/
structure ShndxSt where
  need : Bool
  id : Option Nat
  offset : Nat
  data : List UInt8
  deriving DecidableEq, Repr

/-- `Writer<TwoPhase>`, src/write/elf/writer.rs:63-152, without the fields for dynamic tables. -/
structure Wtr where
  /-- `encoder` -/
  c : Cfg
  mips : Bool
  /-- `mode.len` -/
  len : Nat
  /-- `buffer` -/
  out : List UInt8
  layout : Layout
  written : Nat
  sh : Tab
  needStr : Bool
  st : Tab
  sy : SymSt
  sx : ShndxSt
  deriving DecidableEq, Repr

/-- `Writer::new`, src/write/elf/writer.rs:1455-1463, with `new_with_mode` (157-240). -/
def Wtr.new (c : Cfg) : Wtr :=
  { c := c, mips := false, len := 0, out := [], layout := ⟨0, 0, 0, 0, 0⟩, written := 0,
    sh := ⟨StrTab.new, none, 0, 0, 0, []⟩, needStr := false, st := ⟨StrTab.new, none, 0, 0, 0, []⟩,
    sy := ⟨none, 0, 0, 0, 0⟩, sx := ⟨false, none, 0, []⟩ }

/-- ".group" -/
def nGroup : List UInt8 := [46, 103, 114, 111, 117, 112]
/-- ".symtab" -/
def nSymtab : List UInt8 := [46, 115, 121, 109, 116, 97, 98]
/-- ".symtab_shndx" -/
def nShndx : List UInt8 := [46, 115, 121, 109, 116, 97, 98, 95, 115, 104, 110, 100, 120]
/-- ".strtab" -/
def nStrtab : List UInt8 := [46, 115, 116, 114, 116, 97, 98]
/-- ".shstrtab" -/
def nShstrtab : List UInt8 := [46, 115, 104, 115, 116, 114, 116, 97, 98]
/-- ".rela" -/
def nRela : List UInt8 := [46, 114, 101, 108, 97]
/-- ".rel" -/
def nRel : List UInt8 := [46, 114, 101, 108]

/-! ## Reserving -/

/-- `Writer::reserve`, src/write/elf/writer.rs:1480-1487. -/
def Wtr.reserve (w : Wtr) (size align : Nat) : Res (Nat × Wtr) := do
  let (offset, len) ← Reserve.elf w.len size align
  .ok (offset, { w with len := len })

/-- `Writer::reserve_file_header`, src/write/elf/writer.rs:1498-1501. -/
def Wtr.reserveFileHeader (w : Wtr) : Res Wtr := do
  check (w.len = 0)
  let (_, w) ← w.reserve w.c.ehdrSize 1
  .ok w

/-- `Writer::reserve_section_index`, src/write/elf/writer.rs:1542-1550. -/
def Wtr.reserveSectionIndex (w : Wtr) : Res (Nat × Wtr) := do
  check (w.layout.shoff = 0)
  let index := if w.layout.sectionNum = 0 then 1 else w.layout.sectionNum
  let n ← addU32 index 1
  .ok (index, { w with layout := { w.layout with sectionNum := n } })

/-- `StringTable::add` with its debug assertions, src/write/string.rs:58-67. -/
def tabAdd (t : StrTab) (s : List UInt8) : Res (Nat × StrTab) := do
  check (t.addAssert s = true)
  .ok (t.add s)

/-- `Writer::add_section_name`, src/write/elf/writer.rs:363-366. -/
def Wtr.addSectionName (w : Wtr) (name : List UInt8) : Res (Nat × Wtr) := do
  check (w.sh.offset = 0)
  let (id, t) ← tabAdd w.sh.tab name
  .ok (id, { w with sh := { w.sh with tab := t } })

/-- `Writer::add_string`, src/write/elf/writer.rs:402-405. -/
def Wtr.addString (w : Wtr) (name : List UInt8) : Res (Nat × Wtr) := do
  check (w.st.offset = 0)
  let (id, t) ← tabAdd w.st.tab name
  .ok (id, { w with st := { w.st with tab := t } })

/-- `Writer::reserve_comdat`, src/write/elf/writer.rs:2140-2142. -/
def Wtr.reserveComdat (w : Wtr) (count : Nat) : Res (Nat × Wtr) := do
  let n ← addU64 count 1
  let n ← mulU64 n 4
  w.reserve n 4

/-- `Writer::reserve_null_symbol_index`, src/write/elf/writer.rs:1657-1664. -/
def Wtr.reserveNullSymbol (w : Wtr) : Res Wtr := do
  check (w.sy.offset = 0)
  check (w.sy.num = 0)
  .ok { w with sy := { w.sy with num := 1 }, needStr := true }

/-- `section_index.0 >= elf::SHN_LORESERVE`, src/write/elf/writer.rs:1695-1699. -/
def largeIndex : Option Nat → Bool
  | some n => 0xff00 ≤ n
  | none => false

/-- `Writer::reserve_symbol_index`, src/write/elf/writer.rs:1683-1701. -/
def Wtr.reserveSymbolIndex (w : Wtr) (sec : Option Nat) : Res (Nat × Wtr) := do
  check (w.sy.offset = 0)
  check (w.sx.offset = 0)
  let index := if w.sy.num = 0 then 1 else w.sy.num
  let n ← addU32 index 1
  .ok (index, { w with
    sy := { w.sy with num := n },
    needStr := w.needStr || w.sy.num == 0,
    sx := { w.sx with need := w.sx.need || largeIndex sec } })

/-- `Writer::reserve_symtab_section_index`, src/write/elf/writer.rs:1728-1733. -/
def Wtr.reserveSymtabIndex (w : Wtr) : Res Wtr := do
  check (w.sy.index = 0)
  let (id, w) ← w.addSectionName nSymtab
  let (index, w) ← w.reserveSectionIndex
  .ok { w with sy := { w.sy with id := some id, index := index } }

/-- The part of `Writer::reserve_symtab` if there are symbols, src/write/elf/writer.rs:1719-1722. -/
def Wtr.reserveSymtabSome (w : Wtr) : Res Wtr := do
  let n ← mulU64 w.sy.num w.c.symSize
  let (offset, w) ← w.reserve n w.c.w
  .ok { w with sy := { w.sy with offset := offset } }

/-- `Writer::reserve_symtab`, src/write/elf/writer.rs:1714-1723. -/
def Wtr.reserveSymtab (w : Wtr) : Res Wtr := do
  check (w.sy.offset = 0)
  if w.sy.num = 0 then .ok w else w.reserveSymtabSome

/-- `Writer::reserve_symtab_shndx_section_index`, src/write/elf/writer.rs:1774-1778. -/
def Wtr.reserveShndxIndex (w : Wtr) : Res Wtr := do
  check (w.sx.id = none)
  let (id, w) ← w.addSectionName nShndx
  let (_, w) ← w.reserveSectionIndex
  .ok { w with sx := { w.sx with id := some id } }

/-- `if writer.symtab_shndx_needed() { .. }`, src/write/elf/object.rs:710-712. -/
def Wtr.reserveShndxIndexIf (w : Wtr) : Res Wtr := if w.sx.need then w.reserveShndxIndex else .ok w

/-- The part of `Writer::reserve_symtab_shndx` if needed, src/write/elf/writer.rs:1763. -/
def Wtr.reserveShndxSome (w : Wtr) : Res Wtr := do
  let n ← mulU64 w.sy.num 4
  let (offset, w) ← w.reserve n 4
  .ok { w with sx := { w.sx with offset := offset } }

/-- `Writer::reserve_symtab_shndx`, src/write/elf/writer.rs:1758-1765. -/
def Wtr.reserveShndx (w : Wtr) : Res Wtr := do
  check (w.sx.offset = 0)
  if w.sx.need then w.reserveShndxSome else .ok w

/-- `Writer::reserve_strtab_section_index`, src/write/elf/writer.rs:1639-1644. -/
def Wtr.reserveStrtabIndex (w : Wtr) : Res Wtr := do
  check (w.st.index = 0)
  let (id, w) ← w.addSectionName nStrtab
  let (index, w) ← w.reserveSectionIndex
  .ok { w with st := { w.st with id := some id, index := index } }

/-- `Encoder::strtab`, src/write/elf/encoder.rs:892-899: size, table and data.  (On an error the state is
dropped by the callers.) -/
def encStrtab (t : StrTab) : Res (Nat × StrTab × List UInt8) :=
  match t.write 1 with
  | (.ok n, t, out) => .ok (n, t, 0 :: out)
  | (.err, _, _) => .err
  | (.panic, _, _) => .panic

/-- `Writer::reserve_strtab` when needed, src/write/elf/writer.rs:1613-1617. -/
def Wtr.reserveStrtabSome (w : Wtr) : Res Wtr := do
  let (n, t, data) ← encStrtab w.st.tab
  let (offset, w) ← w.reserve n 1
  .ok { w with st := { w.st with tab := t, size := n, offset := offset, data := data } }

/-- `Writer::reserve_strtab`, src/write/elf/writer.rs:1608-1618. -/
def Wtr.reserveStrtab (w : Wtr) : Res Wtr := do
  check (w.st.offset = 0)
  if w.needStr || !w.st.tab.strings.isEmpty then w.reserveStrtabSome else .ok w

/-- `Writer::reserve_relocations`, src/write/elf/writer.rs:2128-2133. -/
def Wtr.reserveRelocations (w : Wtr) (count : Nat) (isRela : Bool) : Res (Nat × Wtr) := do
  let n ← mulU64 count (w.c.relSize isRela)
  w.reserve n w.c.w

/-- `Writer::reserve_shstrtab_section_index`, src/write/elf/writer.rs:1586-1591. -/
def Wtr.reserveShstrtabIndex (w : Wtr) : Res Wtr := do
  check (w.layout.shstrtabIndex = 0)
  let (id, w) ← w.addSectionName nShstrtab
  let (index, w) ← w.reserveSectionIndex
  .ok { w with sh := { w.sh with id := some id }, layout := { w.layout with shstrtabIndex := index } }

/-- `Writer::reserve_shstrtab` if there are sections, src/write/elf/writer.rs:1565-1569. -/
def Wtr.reserveShstrtabSome (w : Wtr) : Res Wtr := do
  let (n, t, data) ← encStrtab w.sh.tab
  let (offset, w) ← w.reserve n 1
  .ok { w with sh := { w.sh with tab := t, size := n, offset := offset, data := data } }

/-- `Writer::reserve_shstrtab`, src/write/elf/writer.rs:1560-1570. -/
def Wtr.reserveShstrtab (w : Wtr) : Res Wtr := do
  check (w.sh.offset = 0)
  if w.layout.sectionNum = 0 then .ok w else w.reserveShstrtabSome

/-- `Writer::reserve_section_headers` if there are sections, src/write/elf/writer.rs:1544-1547. -/
def Wtr.reserveHeadersSome (w : Wtr) : Res Wtr := do
  let n ← mulU64 w.layout.sectionNum w.c.shdrSize
  let (offset, w) ← w.reserve n w.c.w
  .ok { w with layout := { w.layout with shoff := offset } }

/-- `Writer::reserve_section_headers`, src/write/elf/writer.rs:1539-1548. -/
def Wtr.reserveHeaders (w : Wtr) : Res Wtr := do
  check (w.layout.shoff = 0)
  if w.layout.sectionNum = 0 then .ok w else w.reserveHeadersSome

/-! ## Writing -/

/-- `Writer::write_align`, src/write/elf/writer.rs:257-262, without the returned offset. -/
def Wtr.writeAlign (w : Wtr) (align : Nat) : Res Wtr :=
  if 1 < align then do
    let out ← bufAlign w.out align
    .ok { w with out := out }
  else .ok w

/-- `Writer::write`, src/write/elf/writer.rs:267-269, and every encoder method that writes `data`. -/
def Wtr.write (w : Wtr) (data : List UInt8) : Res Wtr := do
  let out ← bufBytes w.out data
  .ok { w with out := out }

/-- `TwoPhase::reserve`, src/write/elf/writer.rs:1408-1416 (`Vec::reserve` is never refused). -/
def Wtr.checkLen (w : Wtr) : Res Unit := if ¬ w.c.is64 ∧ U32 ≤ w.len then .err else .ok ()

/-- `Writer::write_file_header`, src/write/elf/writer.rs:284-292. -/
def Wtr.writeFileHeader (w : Wtr) (h : WEhdr) : Res Wtr := do
  check (w.out.length = 0)
  w.checkLen
  let b ← fileHeader w.c h w.layout
  { w with mips := isMips64el w.c h.machine }.write b

/-- `Writer::write_null_section_header` when sections were reserved, src/write/elf/writer.rs:330-337. -/
def Wtr.writeNullHeaderSome (w : Wtr) : Res Wtr := do
  let w ← w.writeAlign w.c.w
  check (w.layout.shoff = w.out.length)
  let w ← w.write (nullSectionHeader w.c w.layout)
  check (1 ≤ w.layout.sectionNum)
  .ok { w with written := 1 }

/-- `Writer::write_null_section_header`, src/write/elf/writer.rs:326-337. -/
def Wtr.writeNullHeader (w : Wtr) : Res Wtr := if w.layout.shoff = 0 then .ok w else w.writeNullHeaderSome

/-- `Writer::write_section_header`, src/write/elf/writer.rs:342-349. -/
def Wtr.writeHeader (w : Wtr) (s : Shdr) : Res (Nat × Wtr) := do
  let w ← w.write (s.encode w.c)
  let n ← addU32 w.written 1
  check (n ≤ w.layout.sectionNum)
  .ok (w.written, { w with written := n })

/-- `Writer::section_name_offset`, src/write/elf/writer.rs:373-375, and `string_offset`, 412-414. -/
def nameOffset (t : StrTab) : Option Nat → Res Nat
  | none => .ok 0
  | some id => t.getOffset id

/-- `Writer::write_shstrtab_section_header`, src/write/elf/writer.rs:381-393, when the index was reserved. -/
def Wtr.writeShstrtabHeaderSome (w : Wtr) : Res Wtr := do
  check (w.sh.offset ≠ 0)
  let name ← nameOffset w.sh.tab w.sh.id
  let (index, w) ← w.writeHeader ⟨name, 3, 0, 0, w.sh.offset, w.sh.size, 0, 0, 1, 0⟩
  check (w.layout.shstrtabIndex = index)
  .ok w

/-- `Writer::write_shstrtab_section_header`, src/write/elf/writer.rs:381-393. -/
def Wtr.writeShstrtabHeader (w : Wtr) : Res Wtr := if w.sh.id = none then .ok w else w.writeShstrtabHeaderSome

/-- `Writer::write_strtab_section_header`, src/write/elf/writer.rs:420-431, when the index was reserved. -/
def Wtr.writeStrtabHeaderSome (w : Wtr) : Res Wtr := do
  let name ← nameOffset w.sh.tab w.st.id
  let (index, w) ← w.writeHeader ⟨name, 3, 0, 0, w.st.offset, w.st.size, 0, 0, 1, 0⟩
  check (w.st.index = index)
  .ok w

/-- `Writer::write_strtab_section_header`, src/write/elf/writer.rs:420-431. -/
def Wtr.writeStrtabHeader (w : Wtr) : Res Wtr := if w.st.id = none then .ok w else w.writeStrtabHeaderSome

/-- The null entry of the extended indices, src/write/elf/writer.rs:445-447. -/
def Wtr.shndxNull (w : Wtr) : List UInt8 := if w.sx.offset ≠ 0 then w.sx.data ++ wr w.c.en 4 0 else w.sx.data

/-- `Writer::write_null_symbol` when symbols were reserved, src/write/elf/writer.rs:441-454. -/
def Wtr.writeNullSymbolSome (w : Wtr) : Res Wtr := do
  let w ← w.writeAlign w.c.w
  check (w.sy.offset = w.out.length)
  let id ← w.sh.tab.getId nSymtab
  check (w.sy.id = some id)
  let w ← w.write (Sym.encode w.c ⟨0, 0, 0, 0, 0, 0⟩)
  check (1 ≤ w.sy.num)
  .ok { w with sx := { w.sx with data := w.shndxNull }, sy := { w.sy with written := 1 }, needStr := true }

/-- `Writer::write_null_symbol`, src/write/elf/writer.rs:437-455. -/
def Wtr.writeNullSymbol (w : Wtr) : Res Wtr := if w.sy.offset = 0 then .ok w else w.writeNullSymbolSome

/-- `Writer::write_symbol`, src/write/elf/writer.rs:458-475. -/
def Wtr.writeSym (w : Wtr) (s : WSym) : Res Wtr := do
  let r := writeSymbol w.c s
  let w ← w.write r.1
  let sx := if w.sx.offset ≠ 0 then
      { w.sx with need := w.sx.need || r.2.isSome, data := w.sx.data ++ wr w.c.en 4 (r.2.getD 0) }
    else w.sx
  let n ← addU32 w.sy.written 1
  check (n ≤ w.sy.num)
  .ok { w with sx := sx, sy := { w.sy with written := n } }

/-- `Writer::write_symtab_section_header`, src/write/elf/writer.rs:483-496, when the index was reserved. -/
def Wtr.writeSymtabHeaderSome (w : Wtr) (numLocal : Nat) : Res Wtr := do
  let name ← nameOffset w.sh.tab w.sy.id
  let size ← mulU64 w.sy.num w.c.symSize
  let (index, w) ← w.writeHeader
    ⟨name, 2, 0, 0, w.sy.offset, size, w.st.index, numLocal, w.c.w, w.c.symSize⟩
  check (w.sy.index = index)
  .ok w

/-- `Writer::write_symtab_section_header`, src/write/elf/writer.rs:483-496. -/
def Wtr.writeSymtabHeader (w : Wtr) (numLocal : Nat) : Res Wtr :=
  if w.sy.id = none then .ok w else w.writeSymtabHeaderSome numLocal

/-- `Writer::write_symtab_shndx` when needed, src/write/elf/writer.rs:507-517. -/
def Wtr.writeShndxSome (w : Wtr) : Res Wtr := do
  let w ← w.writeAlign 4
  check (w.sx.offset = w.out.length)
  let id ← w.sh.tab.getId nShndx
  check (w.sx.id = some id)
  let w ← w.write w.sx.data
  .ok { w with sx := { w.sx with data := [] } }

/-- `Writer::write_symtab_shndx`, src/write/elf/writer.rs:502-518. -/
def Wtr.writeShndx (w : Wtr) : Res Wtr :=
  if w.sx.need then w.writeShndxSome else .ok { w with sx := { w.sx with data := [] } }

/-- `sh_size` of the extended indices, src/write/elf/writer.rs:528-532: a `u32` multiplication. -/
def Wtr.shndxSize (w : Wtr) : Res Nat :=
  if w.sx.offset = 0 then .ok 0
  else if w.sy.num * 4 < U32 then .ok (w.sy.num * 4) else .panic

/-- `Writer::write_symtab_shndx_section_header`, src/write/elf/writer.rs:524-541, when the index was
reserved. -/
def Wtr.writeShndxHeaderSome (w : Wtr) : Res Wtr := do
  let size ← w.shndxSize
  let name ← nameOffset w.sh.tab w.sx.id
  let (_, w) ← w.writeHeader ⟨name, 18, 0, 0, w.sx.offset, size, w.sy.index, 0, 4, 4⟩
  .ok w

/-- `Writer::write_symtab_shndx_section_header`, src/write/elf/writer.rs:524-541. -/
def Wtr.writeShndxHeader (w : Wtr) : Res Wtr := if w.sx.id = none then .ok w else w.writeShndxHeaderSome

/-- `Writer::write_strtab` when reserved, src/write/elf/writer.rs:1627-1628. -/
def Wtr.writeStrtabSome (w : Wtr) : Res Wtr := do
  check (w.st.offset = w.out.length)
  w.write w.st.data

/-- `Writer::write_strtab`, src/write/elf/writer.rs:1623-1629. -/
def Wtr.writeStrtab (w : Wtr) : Res Wtr := if w.st.offset = 0 then .ok w else w.writeStrtabSome

/-- `Writer::write_shstrtab` when reserved, src/write/elf/writer.rs:1579-1580. -/
def Wtr.writeShstrtabSome (w : Wtr) : Res Wtr := do
  check (w.sh.offset = w.out.length)
  w.write w.sh.data

/-- `Writer::write_shstrtab`, src/write/elf/writer.rs:1575-1581. -/
def Wtr.writeShstrtab (w : Wtr) : Res Wtr := if w.sh.offset = 0 then .ok w else w.writeShstrtabSome

/-- `Writer::write_relocation_section_header`, src/write/elf/writer.rs:1042-1059. -/
def Wtr.writeRelocHeader (w : Wtr) (nameId sec symtab offset count : Nat) (isRela : Bool) : Res Wtr := do
  let name ← nameOffset w.sh.tab (some nameId)
  let size ← mulU64 count (w.c.relSize isRela)
  let (_, w) ← w.writeHeader
    ⟨name, if isRela then 4 else 9, 0x40, 0, offset, size, symtab, sec, w.c.w, w.c.relSize isRela⟩
  .ok w

/-- `Writer::write_comdat_header`, src/write/elf/writer.rs:1080-1083. -/
def Wtr.writeComdatStart (w : Wtr) : Res Wtr := do
  let out ← bufAlign w.out 4
  { w with out := out }.write (wr w.c.en 4 1)

/-- `Writer::write_comdat_entry`, src/write/elf/writer.rs:1086-1088. -/
def Wtr.writeComdatEntry (w : Wtr) (index : Nat) : Res Wtr := w.write (wr w.c.en 4 index)

/-- `Writer::write_comdat_section_header`, src/write/elf/writer.rs:1091-1107. -/
def Wtr.writeComdatHeader (w : Wtr) (nameId symtab symbol offset count : Nat) : Res Wtr := do
  let name ← nameOffset w.sh.tab (some nameId)
  let n ← addU64 count 1
  let n ← mulU64 n 4
  let (_, w) ← w.writeHeader ⟨name, 17, 0, 0, offset, n, symtab, symbol, 4, 4⟩
  .ok w

/-! ## `Object::elf_write` -/

open W

/-- `elf_section_flags`, src/write/elf/object.rs:143-170; `none` is `SectionFlags::None`. -/
def defaultSectionFlags (k : SectionKind) : Option (Nat × Nat) :=
  match k with
  | .unknown | .tlsVariables => none
  | .uninitializedData => some (8, 3)
  | .uninitializedTls => some (8, 0x403)
  | .note => some (7, 0)
  | .text => some (1, 6)
  | .data | .readOnlyDataWithRel => some (1, 3)
  | .tls => some (1, 0x403)
  | .readOnlyData => some (1, 2)
  | .readOnlyString => some (1, 0x32)
  | .otherString | .debugString => some (1, 0x30)
  | _ => some (1, 0)

/-- `section_flags`, src/write/mod.rs:362-368, as the `(sh_type, sh_flags)` of `SectionFlags::Elf`. -/
def sectionFlags (s : Section) : Option (Nat × Nat) :=
  match s.flags with
  | .none => defaultSectionFlags s.kind
  | .elf t f => some (t, f)
  | _ => none

/-- `Symbol::is_local`, src/write/mod.rs:1096-1098. -/
def isLocal (s : Symbol) : Bool := s.scope = .compilation

/-- The type of `elf_symbol_flags`, src/write/elf/object.rs:173-203; `none` returns `SymbolFlags::None`. -/
def symbolType (s : Symbol) : Option Nat :=
  match s.kind with
  | .text => some (if s.section_ = .undefined then 0 else 2)
  | .data => some (if s.section_ = .undefined then 0 else if s.section_ = .common then 5 else 1)
  | .sectionSym => some 3
  | .file => some 4
  | .tls => some 6
  | .label => some 0
  | .unknown => if s.section_ = .undefined then some 0 else none

/-- The binding of `elf_symbol_flags`, src/write/elf/object.rs:204-212: `STB_WEAK`, `STB_GLOBAL`,
`STB_LOCAL`. -/
def symbolBind (s : Symbol) : Nat :=
  if s.weak then 2 else if s.section_ = .undefined then 1 else if isLocal s then 0 else 1

/-- `elf_symbol_flags`, src/write/elf/object.rs:172-223: `(st_info, st_other)`, with `STV_HIDDEN = 2`. -/
def defaultSymbolFlags (s : Symbol) : Option (Nat × Nat) :=
  (symbolType s).map fun t => (symbolBind s <<< 4 ||| t, if s.scope = .linkage then 2 else 0)

/-- `symbol_flags`, src/write/mod.rs:494-500, as the `(st_info, st_other)` of `SymbolFlags::Elf`. -/
def symbolFlags (s : Symbol) : Option (Nat × Nat) :=
  match s.flags with
  | .none => defaultSymbolFlags s
  | .elf i o => some (i, o)
  | _ => none

/-- `FileFlags`, src/common.rs:471-500, as far as `elf_write` looks at it. -/
inductive FileFlags where
  | elf (osAbi abiVersion : UInt8) (eFlags : Nat)
  | other
  deriving DecidableEq, Repr

/-- `ComdatOffsets`, src/write/elf/object.rs:14-17. -/
structure ComdatOff where
  offset : Nat
  strId : Nat
  deriving DecidableEq, Repr

/-- `SectionOffsets`, src/write/elf/object.rs:20-26. -/
structure SecOff where
  index : Nat
  offset : Nat
  strId : Nat
  relocOffset : Nat
  relocStrId : Option Nat
  deriving DecidableEq, Repr

/-- The reserving loop over COMDATs, src/write/elf/object.rs:637-651.  (The error message reads the symbol;
`ComdatKind::Any` is discriminant 1.) -/
def reserveComdats (o : Object) (w : Wtr) : List Comdat → Res (List ComdatOff × Wtr)
  | [] => .ok ([], w)
  | d :: ds =>
    if d.kind ≠ 1 then (if d.symbol < o.symbols.length then .err else .panic)
    else do
      let (_, w) ← w.reserveSectionIndex
      let (offset, w) ← w.reserveComdat d.sections.length
      let (strId, w) ← w.addSectionName nGroup
      let (rest, w) ← reserveComdats o w ds
      .ok (⟨offset, strId⟩ :: rest, w)

/-- `reloc_names`, src/write/elf/object.rs:614-631, for a section with relocations. -/
def relocName (isRela : Bool) (s : Section) : List UInt8 := (if isRela then nRela else nRel) ++ s.name

/-- The relocation section of a section, src/write/elf/object.rs:658-661. -/
def reserveRelocName (isRela : Bool) (s : Section) (w : Wtr) : Res (Option Nat × Wtr) :=
  if s.relocs = [] then .ok (none, w)
  else do
    let (_, w) ← w.reserveSectionIndex
    let (id, w) ← w.addSectionName (relocName isRela s)
    .ok (some id, w)

/-- The reserving loop over sections, src/write/elf/object.rs:653-671. -/
def reserveSections (isRela : Bool) (w : Wtr) : List Section → Res (List SecOff × Wtr)
  | [] => .ok ([], w)
  | s :: ss => do
    let (index, w) ← w.reserveSectionIndex
    let (offset, w) ← w.reserve s.data.length s.align
    let (strId, w) ← w.addSectionName s.name
    let (relocStrId, w) ← reserveRelocName isRela s w
    let (rest, w) ← reserveSections isRela w ss
    .ok (⟨index, offset, strId, 0, relocStrId⟩ :: rest, w)

/-- `symbol.section.id().map(|s| section_offsets[s.0].index)`, src/write/elf/object.rs:680, 687. -/
def symSecIndex (secs : List SecOff) (s : Symbol) : Res (Option Nat) :=
  match s.section_.id? with
  | none => .ok none
  | some i => match secs[i]? with
    | some so => .ok (some so.index)
    | none => .panic

/-- One of the two loops that reserve symbol indices, src/write/elf/object.rs:678-690: the symbols for which
`p` holds get an index, the others keep theirs.  The list pairs each symbol with its
`symbol_offsets[index].index`. -/
def reserveSymbols (p : Symbol → Bool) (secs : List SecOff) (w : Wtr) : List (Symbol × Nat) → Res (List Nat × Wtr)
  | [] => .ok ([], w)
  | (s, i) :: rest =>
    if p s then do
      let sec ← symSecIndex secs s
      let (index, w) ← w.reserveSymbolIndex sec
      let (is, w) ← reserveSymbols p secs w rest
      .ok (index :: is, w)
    else do
      let (is, w) ← reserveSymbols p secs w rest
      .ok (i :: is, w)

/-- The condition at src/write/elf/object.rs:692. -/
def hasName (s : Symbol) : Bool := s.kind != .sectionSym && !s.name.isEmpty

/-- `symbol_offsets[index].str_id`, src/write/elf/object.rs:691-695. -/
def addSymbolName (s : Symbol) (w : Wtr) : Res (Option Nat × Wtr) :=
  if hasName s then do
    let (id, w) ← w.addString s.name
    .ok (some id, w)
  else .ok (none, w)

/-- The loop that adds symbol names, src/write/elf/object.rs:691-695. -/
def addSymbolNames (w : Wtr) : List Symbol → Res (List (Option Nat) × Wtr)
  | [] => .ok ([], w)
  | s :: ss => do
    let (id, w) ← addSymbolName s w
    let (ids, w) ← addSymbolNames w ss
    .ok (id :: ids, w)

/-- The relocation range of a section, src/write/elf/object.rs:718-721 (0 if there are none). -/
def reserveRelocsOf (isRela : Bool) (s : Section) (w : Wtr) : Res (Nat × Wtr) :=
  if s.relocs.length ≠ 0 then w.reserveRelocations s.relocs.length isRela else .ok (0, w)

/-- The loop that reserves relocations, src/write/elf/object.rs:716-722. -/
def reserveRelocs (isRela : Bool) (w : Wtr) : List (Section × SecOff) → Res (List SecOff × Wtr)
  | [] => .ok ([], w)
  | (s, so) :: rest => do
    let (offset, w) ← reserveRelocsOf isRela s w
    let (sos, w) ← reserveRelocs isRela w rest
    .ok ({ so with relocOffset := offset } :: sos, w)

/-- The vectors and values computed by the first half of `elf_write`. -/
structure Plan where
  comdats : List ComdatOff
  secs : List SecOff
  symIndex : List Nat
  symStr : List (Option Nat)
  numLocal : Nat
  deriving DecidableEq, Repr

/-- src/write/elf/object.rs:633-671: from the file header to the sections. -/
def planSections (o : Object) (isRela : Bool) (w : Wtr) : Res (List ComdatOff × List SecOff × Wtr) := do
  let w ← w.reserveFileHeader
  let (comdats, w) ← reserveComdats o w o.comdats
  let (secs, w) ← reserveSections isRela w o.sections
  .ok (comdats, secs, w)

/-- src/write/elf/object.rs:673-695: symbol indices and names. -/
def planSymbols (o : Object) (secs : List SecOff) (w : Wtr) : Res (List Nat × List (Option Nat) × Nat × Wtr) := do
  let w ← w.reserveNullSymbol
  let (ix, w) ← reserveSymbols isLocal secs w (o.symbols.map fun s => (s, 0))
  let numLocal := w.sy.num
  let (ix, w) ← reserveSymbols (fun s => !isLocal s) secs w (o.symbols.zip ix)
  let (ids, w) ← addSymbolNames w o.symbols
  .ok (ix, ids, numLocal, w)

/-- src/write/elf/object.rs:697-706: the symbol and string tables. -/
def planTables (w : Wtr) : Res Wtr := do
  let w ← w.reserveSymtabIndex
  let w ← w.reserveSymtab
  let w ← w.reserveShndxIndexIf
  let w ← w.reserveShndx
  let w ← w.reserveStrtabIndex
  w.reserveStrtab

/-- src/write/elf/object.rs:708-719: relocations, section names and section headers. -/
def planTail (o : Object) (isRela : Bool) (secs : List SecOff) (w : Wtr) : Res (List SecOff × Wtr) := do
  let (secs, w) ← reserveRelocs isRela w (o.sections.zip secs)
  let w ← w.reserveShstrtabIndex
  let w ← w.reserveShstrtab
  let w ← w.reserveHeaders
  .ok (secs, w)

/-- The first phase of `elf_write`, src/write/elf/object.rs:633-719. -/
def plan (o : Object) (isRela : Bool) (w : Wtr) : Res (Plan × Wtr) := do
  let (comdats, secs, w) ← planSections o isRela w
  let (ix, ids, numLocal, w) ← planSymbols o secs w
  let w ← planTables w
  let (secs, w) ← planTail o isRela secs w
  .ok (⟨comdats, secs, ix, ids, numLocal⟩, w)

/-- The entries of a COMDAT group, src/write/elf/object.rs:794-796. -/
def writeEntries (secs : List SecOff) (w : Wtr) : List Nat → Res Wtr
  | [] => .ok w
  | i :: is => match secs[i]? with
    | none => .panic
    | some so => do
      let w ← w.writeComdatEntry so.index
      writeEntries secs w is

/-- src/write/elf/object.rs:792-797. -/
def writeComdats (secs : List SecOff) (w : Wtr) : List Comdat → Res Wtr
  | [] => .ok w
  | d :: ds => do
    let w ← w.writeComdatStart
    let w ← writeEntries secs w d.sections
    writeComdats secs w ds

/-- src/write/elf/object.rs:798-802. -/
def writeSections (w : Wtr) : List (Section × SecOff) → Res Wtr
  | [] => .ok w
  | (s, so) :: rest => do
    let w ← w.writeAlign s.align
    check (so.offset = w.out.length)
    let w ← w.write s.data
    writeSections w rest

/-- `(st_shndx, section)` of a symbol, src/write/elf/object.rs:814-825. -/
def symShndx (secs : List SecOff) (s : Symbol) : Res (Nat × Option Nat) :=
  match s.section_ with
  | .none => if s.kind = .file then .ok (0xfff1, none) else .panic
  | .undefined => .ok (0, none)
  | .absolute => .ok (0xfff1, none)
  | .common => .ok (0xfff2, none)
  | .inSec i => match secs[i]? with
    | some so => .ok (0, some so.index)
    | none => .panic

/-- The closure `write_symbol`, src/write/elf/object.rs:806-836. -/
def writeOneSymbol (secs : List SecOff) (s : Symbol) (id : Option Nat) (w : Wtr) : Res Wtr :=
  match symbolFlags s with
  | none => .err
  | some (info, other) => do
    let (shndx, sec) ← symShndx secs s
    let name ← nameOffset w.st.tab id
    w.writeSym ⟨name, info, other, shndx, s.value, s.size, sec⟩

/-- One of the two loops that write symbols, src/write/elf/object.rs:837-846. -/
def writeSymbols (p : Symbol → Bool) (secs : List SecOff) (w : Wtr) : List (Symbol × Option Nat) → Res Wtr
  | [] => .ok w
  | (s, id) :: rest =>
    if p s then do
      let w ← writeOneSymbol secs s id w
      writeSymbols p secs w rest
    else writeSymbols p secs w rest

/-- One relocation, src/write/elf/object.rs:856-871. -/
def writeOneReloc (isRela : Bool) (symIndex : List Nat) (r : Reloc) (w : Wtr) : Res Wtr :=
  match r.flags with
  | .elf t => match symIndex[r.symbol]? with
    | some sym => w.write (writeRel w.c w.mips isRela ⟨r.offset, sym, t, r.addend⟩)
    | none => .panic
  | _ => .err

/-- The relocations of a section. -/
def writeRelocsOf (isRela : Bool) (symIndex : List Nat) (w : Wtr) : List Reloc → Res Wtr
  | [] => .ok w
  | r :: rs => do
    let w ← writeOneReloc isRela symIndex r w
    writeRelocsOf isRela symIndex w rs

/-- The relocations of a section that has some, src/write/elf/object.rs:853-872. -/
def writeRelocSection (isRela : Bool) (symIndex : List Nat) (s : Section) (so : SecOff) (w : Wtr) : Res Wtr :=
  if s.relocs = [] then .ok w
  else do
    let w ← w.writeAlign w.c.w
    check (so.relocOffset = w.out.length)
    writeRelocsOf isRela symIndex w s.relocs

/-- src/write/elf/object.rs:851-874. -/
def writeRelocs (isRela : Bool) (symIndex : List Nat) (w : Wtr) : List (Section × SecOff) → Res Wtr
  | [] => .ok w
  | (s, so) :: rest => do
    let w ← writeRelocSection isRela symIndex s so w
    writeRelocs isRela symIndex w rest

/-- The headers of the COMDAT groups, src/write/elf/object.rs:882-890. -/
def writeComdatHeaders (symIndex : List Nat) (w : Wtr) : List (Comdat × ComdatOff) → Res Wtr
  | [] => .ok w
  | (d, co) :: rest => match symIndex[d.symbol]? with
    | none => .panic
    | some sym => do
      let w ← w.writeComdatHeader co.strId w.sy.index sym co.offset d.sections.length
      writeComdatHeaders symIndex w rest

/-- `sh_entsize`, src/write/elf/object.rs:900-903. -/
def entsize (k : SectionKind) : Nat := if k = .readOnlyString ∨ k = .otherString then 1 else 0

/-- The header of the relocation section of a section, src/write/elf/object.rs:917-926. -/
def writeRelocHeaderIf (isRela : Bool) (s : Section) (so : SecOff) (w : Wtr) : Res Wtr :=
  if s.relocs = [] then .ok w
  else match so.relocStrId with
    | none => .panic
    | some id => w.writeRelocHeader id so.index w.sy.index so.relocOffset s.relocs.length isRela

/-- The headers of the sections, src/write/elf/object.rs:891-927. -/
def writeSectionHeaders (isRela : Bool) (w : Wtr) : List (Section × SecOff) → Res Wtr
  | [] => .ok w
  | (s, so) :: rest => match sectionFlags s with
    | none => .err
    | some (type, flags) => do
      let name ← nameOffset w.sh.tab (some so.strId)
      let (_, w) ← w.writeHeader ⟨name, type, flags, 0, so.offset, s.size, 0, 0, s.align, entsize s.kind⟩
      let w ← writeRelocHeaderIf isRela s so w
      writeSectionHeaders isRela w rest

/-- The contents, src/write/elf/object.rs:791-848. -/
def emitData (o : Object) (p : Plan) (w : Wtr) : Res Wtr := do
  let w ← writeComdats p.secs w o.comdats
  let w ← writeSections w (o.sections.zip p.secs)
  let w ← w.writeNullSymbol
  let w ← writeSymbols isLocal p.secs w (o.symbols.zip p.symStr)
  let w ← writeSymbols (fun s => !isLocal s) p.secs w (o.symbols.zip p.symStr)
  let w ← w.writeShndx
  w.writeStrtab

/-- The relocations and headers, src/write/elf/object.rs:850-934. -/
def emitTail (o : Object) (isRela : Bool) (p : Plan) (w : Wtr) : Res Wtr := do
  let w ← writeRelocs isRela p.symIndex w (o.sections.zip p.secs)
  let w ← w.writeShstrtab
  let w ← w.writeNullHeader
  let w ← writeComdatHeaders p.symIndex w (o.comdats.zip p.comdats)
  let w ← writeSectionHeaders isRela w (o.sections.zip p.secs)
  let w ← w.writeSymtabHeader p.numLocal
  let w ← w.writeShndxHeader
  let w ← w.writeStrtabHeader
  let w ← w.writeShstrtabHeader
  check (w.len = w.out.length)
  .ok w

/-- `e_machine`, src/write/elf/object.rs:721-764: an error for any sub-architecture. -/
def machineOf (arch : Arch) (hasSub : Bool) : Res Nat := if hasSub then .err else elfMachine arch

/-- The header given to the writer, src/write/elf/object.rs:765-790; `ET_REL = 1`. -/
def headerOf (arch : Arch) (machine : Nat) (flags : FileFlags) : WEhdr :=
  match flags with
  | .elf osAbi abiVersion f => ⟨osAbi, abiVersion, 1, machine, 0, elfFlags arch f⟩
  | .other => ⟨0, 0, 1, machine, 0, elfFlags arch 0⟩

/-- `self.elf_is_64()`, src/write/elf/object.rs:604-609. -/
def is64Of (arch : Arch) : Res Bool :=
  match elfIs64 arch with
  | some b => .ok b
  | none => .panic

/-- `Object::elf_write`, src/write/elf/object.rs:611-937: the bytes written.  `hasSub` is
`sub_architecture.is_some()`. -/
def elfWrite (o : Object) (hasSub : Bool) (flags : FileFlags) : Res (List UInt8) := do
  let isRela ← elfHasAddend o.arch
  let is64 ← is64Of o.arch
  let (p, w) ← plan o isRela (Wtr.new ⟨is64, o.endian⟩)
  let machine ← machineOf o.arch hasSub
  let w ← w.writeFileHeader (headerOf o.arch machine flags)
  let w ← emitData o p w
  let w ← emitTail o isRela p w
  .ok w.out

end Obj.ElfW

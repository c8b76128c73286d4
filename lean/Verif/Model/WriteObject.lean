import Verif.Model.RelocMap
import Verif.Model.RelocMap2
import Verif.Model.Endian
import Verif.Model.Bytes

/-!
# Model of the generic object builder `write::Object` (src/write/mod.rs)

The state is the `Object` struct; a `HashMap` is a partial function.  Methods taking `&mut self` return
the new state.  A panic (failed `debug_assert!`, index out of range, `unwrap` of `None`, arithmetic
overflow) is `Res.panic`.  `add_relocation*` can fail after having changed the object, so those
functions return the state next to the result.
-/

namespace Obj.W

/-- `SectionFlags`, src/common.rs:606-640. -/
inductive SecFlags where
  | none
  | elf (shType shFlags : Nat)
  | macho (flags reserved2 : Nat)
  | coff (characteristics : Nat)
  | xcoff (sFlags : Nat)
  deriving DecidableEq, Repr

/-- `SymbolFlags`, src/common.rs:642-708. -/
inductive SymFlags where
  | none
  | elf (stInfo stOther : Nat)
  | macho (nType nDesc : Nat)
  | coff (typ storageClass : Nat)
  | coffSection (typ storageClass selection : Nat) (associative : Option Nat)
  | xcoff (nType nSclass xSmtyp xSmclas : Nat) (csect : Option Nat)
  deriving DecidableEq, Repr

/-- `RelocationFlags`, src/common.rs:720-770. -/
inductive RelocFlags where
  | generic (kind : RelocKind) (enc : RelocEnc) (size : Nat)
  | elf (rType : Nat)
  | macho (rType : Nat) (pcrel : Bool) (rLength : Nat)
  | coff (typ : Nat)
  | xcoff (rtype rsize : Nat)
  deriving DecidableEq, Repr

/-- `SymbolSection`, src/write/mod.rs:1019-1031. -/
inductive SymSection where
  | none | undefined | absolute | common
  | inSec (id : Nat)
  deriving DecidableEq, Repr

/-- `SymbolSection::id`, src/write/mod.rs:1034-1046. -/
def SymSection.id? : SymSection → Option Nat
  | .inSec i => some i
  | _ => Option.none

/-- `Symbol`, src/write/mod.rs:1053-1078. -/
structure Symbol where
  name : List UInt8
  value : Nat
  size : Nat
  kind : SymbolKind
  scope : SymbolScope
  weak : Bool
  section_ : SymSection
  flags : SymFlags
  deriving DecidableEq, Repr

/-- `RelocationInternal`, src/write/mod.rs:1125-1133. -/
structure Reloc where
  offset : Nat
  symbol : Nat
  subtractor : Option Nat
  addend : Int
  flags : RelocFlags
  deriving DecidableEq, Repr

/-- `Section`, src/write/mod.rs:908-920. -/
structure Section where
  segment : List UInt8
  name : List UInt8
  kind : SectionKind
  size : Nat
  align : Nat
  data : List UInt8
  relocs : List Reloc
  symbol : Option Nat
  flags : SecFlags
  deriving DecidableEq, Repr

/-- `Comdat`, src/write/mod.rs:1152-1168 (`kind` is the discriminant of `ComdatKind`). -/
structure Comdat where
  kind : Nat
  symbol : Nat
  sections : List Nat
  deriving DecidableEq, Repr

/-- `StandardSection`, src/write/mod.rs:858-880. -/
inductive StdSection where
  | text | data | readOnlyData | readOnlyDataWithRel | readOnlyString | uninitializedData | tls
  | uninitializedTls | tlsVariables | gnuProperty | ehFrame
  deriving DecidableEq, Repr

/-- `StandardSection::all`, src/write/mod.rs:902-916. -/
def StdSection.all : List StdSection :=
  [.text, .data, .readOnlyData, .readOnlyDataWithRel, .readOnlyString, .uninitializedData, .tls,
    .uninitializedTls, .tlsVariables, .gnuProperty, .ehFrame]

/-- `Mangling`, src/write/mod.rs:1170-1185. -/
inductive Mangling where
  | none | coff | coffI386 | elf | macho | xcoff
  deriving DecidableEq, Repr

/-- `Mangling::default`, src/write/mod.rs:1187-1198. -/
def Mangling.default (f : Format) (arch : Arch) : Mangling :=
  match f, arch with
  | .coff, .i386 => .coffI386
  | .coff, _ => .coff
  | .elf, _ => .elf
  | .macho, _ => .macho
  | .xcoff, _ => .xcoff

/-- `Mangling::global_prefix`, src/write/mod.rs:1201-1206. -/
def Mangling.prefix? : Mangling → Option UInt8
  | .none | .elf | .coff | .xcoff => Option.none
  | .coffI386 | .macho => some 95

/-- `Object`, src/write/mod.rs:68-97.  Not modelled: `sub_architecture`, `flags`, `macho_cpu_subtype` and
`macho_build_version`, which the methods below never read. -/
structure Object where
  format : Format
  arch : Arch
  endian : Endianness
  sections : List Section
  std : StdSection → Option Nat
  symbols : List Symbol
  symMap : List UInt8 → Option Nat
  comdats : List Comdat
  mangling : Mangling
  stubs : Nat → Option Nat
  tlvBootstrap : Option Nat
  subsectionsViaSymbols : Bool

/-- `Object::new`, src/write/mod.rs:101-126. -/
def Object.new (f : Format) (arch : Arch) (e : Endianness) : Object :=
  { format := f, arch := arch, endian := e, sections := [], std := fun _ => none, symbols := [],
    symMap := fun _ => none, comdats := [], mangling := Mangling.default f arch,
    stubs := fun _ => none, tlvBootstrap := none, subsectionsViaSymbols := false }

/-- The tuple returned by `section_info`. -/
structure SectionInfo where
  segment : List UInt8
  name : List UInt8
  kind : SectionKind
  flags : SecFlags
  deriving DecidableEq, Repr

/-- `elf_section_info`, src/write/elf/object.rs:69-131. -/
def elfSectionInfo (arch : Arch) (s : StdSection) : SectionInfo :=
  match s with
  | .text => ⟨[], [46, 116, 101, 120, 116], .text, .none⟩  -- .text
  | .data => ⟨[], [46, 100, 97, 116, 97], .data, .none⟩  -- .data
  | .readOnlyData => ⟨[], [46, 114, 111, 100, 97, 116, 97], .readOnlyData, .none⟩  -- .rodata
  | .readOnlyDataWithRel => ⟨[], [46, 100, 97, 116, 97, 46, 114, 101, 108, 46, 114, 111], .readOnlyDataWithRel, .none⟩  -- .data.rel.ro
  | .readOnlyString => ⟨[], [46, 114, 111, 100, 97, 116, 97], .readOnlyData, .none⟩  -- .rodata
  | .uninitializedData => ⟨[], [46, 98, 115, 115], .uninitializedData, .none⟩  -- .bss
  | .tls => ⟨[], [46, 116, 100, 97, 116, 97], .tls, .none⟩  -- .tdata
  | .uninitializedTls => ⟨[], [46, 116, 98, 115, 115], .uninitializedTls, .none⟩  -- .tbss
  | .tlsVariables => ⟨[], [], .tlsVariables, .none⟩
  | .gnuProperty => ⟨[], [46, 110, 111, 116, 101, 46, 103, 110, 117, 46, 112, 114, 111, 112, 101, 114, 116, 121], .note, .elf 7 2⟩  -- .note.gnu.property
  | .ehFrame => ⟨[], [46, 101, 104, 95, 102, 114, 97, 109, 101], .readOnlyData, .elf (if arch = .x86_64 ∨ arch = .x86_64_X32 then 0x70000001 else 1) 2⟩  -- .eh_frame

/-- `coff_section_info`, src/write/coff/object.rs:36-78. -/
def coffSectionInfo (s : StdSection) : SectionInfo :=
  match s with
  | .text => ⟨[], [46, 116, 101, 120, 116], .text, .none⟩  -- .text
  | .data => ⟨[], [46, 100, 97, 116, 97], .data, .none⟩  -- .data
  | .readOnlyData => ⟨[], [46, 114, 100, 97, 116, 97], .readOnlyData, .none⟩  -- .rdata
  | .readOnlyDataWithRel => ⟨[], [46, 114, 100, 97, 116, 97], .readOnlyData, .none⟩  -- .rdata
  | .readOnlyString => ⟨[], [46, 114, 100, 97, 116, 97], .readOnlyData, .none⟩  -- .rdata
  | .uninitializedData => ⟨[], [46, 98, 115, 115], .uninitializedData, .none⟩  -- .bss
  | .tls => ⟨[], [46, 116, 108, 115, 36], .data, .none⟩  -- .tls$
  | .uninitializedTls => ⟨[], [], .uninitializedTls, .none⟩
  | .tlsVariables => ⟨[], [], .tlsVariables, .none⟩
  | .gnuProperty => ⟨[], [], .note, .none⟩
  | .ehFrame => ⟨[], [46, 101, 104, 95, 102, 114, 97, 109, 101], .readOnlyData, .none⟩  -- .eh_frame

/-- `macho_section_info`, src/write/macho/object.rs:65-141. -/
def machoSectionInfo (s : StdSection) : SectionInfo :=
  match s with
  | .text => ⟨[95, 95, 84, 69, 88, 84], [95, 95, 116, 101, 120, 116], .text, .none⟩  -- __TEXT,__text
  | .data => ⟨[95, 95, 68, 65, 84, 65], [95, 95, 100, 97, 116, 97], .data, .none⟩  -- __DATA,__data
  | .readOnlyData => ⟨[95, 95, 84, 69, 88, 84], [95, 95, 99, 111, 110, 115, 116], .readOnlyData, .none⟩  -- __TEXT,__const
  | .readOnlyDataWithRel => ⟨[95, 95, 68, 65, 84, 65], [95, 95, 99, 111, 110, 115, 116], .readOnlyDataWithRel, .none⟩  -- __DATA,__const
  | .readOnlyString => ⟨[95, 95, 84, 69, 88, 84], [95, 95, 99, 115, 116, 114, 105, 110, 103], .readOnlyString, .none⟩  -- __TEXT,__cstring
  | .uninitializedData => ⟨[95, 95, 68, 65, 84, 65], [95, 95, 98, 115, 115], .uninitializedData, .none⟩  -- __DATA,__bss
  | .tls => ⟨[95, 95, 68, 65, 84, 65], [95, 95, 116, 104, 114, 101, 97, 100, 95, 100, 97, 116, 97], .tls, .none⟩  -- __DATA,__thread_data
  | .uninitializedTls => ⟨[95, 95, 68, 65, 84, 65], [95, 95, 116, 104, 114, 101, 97, 100, 95, 98, 115, 115], .uninitializedTls, .none⟩  -- __DATA,__thread_bss
  | .tlsVariables => ⟨[95, 95, 68, 65, 84, 65], [95, 95, 116, 104, 114, 101, 97, 100, 95, 118, 97, 114, 115], .tlsVariables, .none⟩  -- __DATA,__thread_vars
  | .gnuProperty => ⟨[], [], .note, .none⟩
  | .ehFrame => ⟨[95, 95, 84, 69, 88, 84], [95, 95, 101, 104, 95, 102, 114, 97, 109, 101], .readOnlyData, .macho 0x6800000b 0⟩  -- __TEXT,__eh_frame

/-- `xcoff_section_info`, src/write/xcoff.rs:29-70. -/
def xcoffSectionInfo (s : StdSection) : SectionInfo :=
  match s with
  | .text => ⟨[], [46, 116, 101, 120, 116], .text, .none⟩  -- .text
  | .data => ⟨[], [46, 100, 97, 116, 97], .data, .none⟩  -- .data
  | .readOnlyData => ⟨[], [46, 114, 100, 97, 116, 97], .readOnlyData, .none⟩  -- .rdata
  | .readOnlyDataWithRel => ⟨[], [46, 114, 100, 97, 116, 97], .readOnlyData, .none⟩  -- .rdata
  | .readOnlyString => ⟨[], [46, 114, 100, 97, 116, 97], .readOnlyData, .none⟩  -- .rdata
  | .uninitializedData => ⟨[], [46, 98, 115, 115], .uninitializedData, .none⟩  -- .bss
  | .tls => ⟨[], [46, 116, 100, 97, 116, 97], .tls, .none⟩  -- .tdata
  | .uninitializedTls => ⟨[], [46, 116, 98, 115, 115], .uninitializedTls, .none⟩  -- .tbss
  | .tlsVariables => ⟨[], [], .unknown, .none⟩
  | .gnuProperty => ⟨[], [], .unknown, .none⟩
  | .ehFrame => ⟨[], [], .unknown, .none⟩

/-- `Object::section_info`, src/write/mod.rs:262-277. -/
def sectionInfo (f : Format) (arch : Arch) (s : StdSection) : SectionInfo :=
  match f with
  | .coff => coffSectionInfo s
  | .elf => elfSectionInfo arch s
  | .macho => machoSectionInfo s
  | .xcoff => xcoffSectionInfo s

/-! ## Sections -/

/-- `Section::set_data`, src/write/mod.rs:945-956.  (`align - 1` overflows for 0.) -/
def Section.setData (s : Section) (data : List UInt8) (align : Nat) : Res Section :=
  if s.kind.isBss then .panic
  else if align = 0 then .panic
  else if align &&& (align - 1) ≠ 0 then .panic
  else if s.data ≠ [] then .panic
  else .ok { s with data := data, size := data.length, align := align }

/-- `Section::append_data`, src/write/mod.rs:962-979: the new section and the offset.  A `Vec` longer than
`isize::MAX` bytes panics. -/
def Section.appendData (s : Section) (data : List UInt8) (align : Nat) : Res (Nat × Section) :=
  if s.kind.isBss then .panic
  else if align = 0 then .panic
  else if align &&& (align - 1) ≠ 0 then .panic
  else
    let newAlign := if s.align < align then align else s.align
    let len := s.data.length
    let offset := if len &&& (align - 1) ≠ 0 then len + (align - (len &&& (align - 1))) else len
    let padded := s.data ++ List.replicate (offset - len) 0
    let out := padded ++ data
    if out.length < 9223372036854775808 then
      .ok (offset, { s with data := out, size := out.length, align := newAlign })
    else .panic

/-- `Section::append_bss`, src/write/mod.rs:985-998. -/
def Section.appendBss (s : Section) (size align : Nat) : Res (Nat × Section) :=
  if ¬ s.kind.isBss then .panic
  else if align = 0 then .panic
  else if align &&& (align - 1) ≠ 0 then .panic
  else
    let newAlign := if s.align < align then align else s.align
    let offset := if s.size &&& (align - 1) ≠ 0 then s.size + (align - (s.size &&& (align - 1))) else s.size
    if offset + size < U64 then .ok (offset, { s with size := offset + size, align := newAlign })
    else .panic

/-- Replace section `i`. -/
def Object.setSection (o : Object) (i : Nat) (s : Section) : Object :=
  { o with sections := o.sections.set i s }

/-- Replace symbol `i`. -/
def Object.setSymbol (o : Object) (i : Nat) (s : Symbol) : Object :=
  { o with symbols := o.symbols.set i s }

/-- `Object::set_section_data`, src/write/mod.rs:193-198. -/
def Object.setSectionData (o : Object) (i : Nat) (data : List UInt8) (align : Nat) : Res Object :=
  match o.sections[i]? with
  | none => .panic
  | some s => (s.setData data align).bind fun s => .ok (o.setSection i s)

/-- `Object::append_section_data`, src/write/mod.rs:204-206. -/
def Object.appendSectionData (o : Object) (i : Nat) (data : List UInt8) (align : Nat) : Res (Nat × Object) :=
  match o.sections[i]? with
  | none => .panic
  | some s => (s.appendData data align).bind fun r => .ok (r.1, o.setSection i r.2)

/-- `Object::append_section_bss`, src/write/mod.rs:212-214. -/
def Object.appendSectionBss (o : Object) (i : Nat) (size align : Nat) : Res (Nat × Object) :=
  match o.sections[i]? with
  | none => .panic
  | some s => (s.appendBss size align).bind fun r => .ok (r.1, o.setSection i r.2)

/-- The condition of the loop of `add_section` for one standard section, src/write/mod.rs:251-252. -/
def SectionInfo.matches (info : SectionInfo) (s : Section) : Bool :=
  info.segment == s.segment && info.name == s.name && info.kind == s.kind

/-- `HashMap::insert`. -/
def insert {α β : Type} [DecidableEq α] (m : α → Option β) (k : α) (v : β) : α → Option β :=
  fun x => if x = k then some v else m x

/-- `Object::add_section`, src/write/mod.rs:234-260. -/
def Object.addSection (o : Object) (segment name : List UInt8) (kind : SectionKind) : Nat × Object :=
  let id := o.sections.length
  let s : Section := { segment := segment, name := name, kind := kind, size := 0, align := 1, data := [],
                       relocs := [], symbol := none, flags := .none }
  let std := StdSection.all.foldl (fun std ss =>
    if (std ss).isNone then
      if (sectionInfo o.format o.arch ss).matches s then insert std ss id else std
    else std) o.std
  (id, { o with sections := o.sections ++ [s], std := std })

/-- `self.section_mut(id).flags = flags`. -/
def Object.setSectionFlags (o : Object) (i : Nat) (flags : SecFlags) : Object :=
  match o.sections[i]? with
  | none => o
  | some s => o.setSection i { s with flags := flags }

/-- `Object::section_id`, src/write/mod.rs:219-229. -/
def Object.sectionId (o : Object) (ss : StdSection) : Nat × Object :=
  match o.std ss with
  | some i => (i, o)
  | none =>
    let info := sectionInfo o.format o.arch ss
    let r := o.addSection info.segment info.name info.kind
    (r.1, r.2.setSectionFlags r.1 info.flags)

/-- `elf_subsection_name` (src/write/elf/object.rs:133-140) and `coff_subsection_name`
(src/write/coff/object.rs:80-87), through `subsection_name`, src/write/mod.rs:324-334: `.` or `$` and the
value are appended.  `none` is `unimplemented!()`. -/
def subsectionName (f : Format) (name value : List UInt8) : Option (List UInt8) :=
  match f with
  | .elf => some (if value = [] then name else name ++ 46 :: value)
  | .coff => some (if value = [] then name else name ++ 36 :: value)
  | _ => none

/-- `Object::add_subsection`, src/write/mod.rs:287-299. -/
def Object.addSubsection (o : Object) (ss : StdSection) (value : List UInt8) : Res (Nat × Object) :=
  if o.format = .macho then .ok (o.sectionId ss)
  else
    let info := sectionInfo o.format o.arch ss
    match subsectionName o.format info.name value with
    | none => .panic
    | some name =>
      let r := o.addSection info.segment name info.kind
      .ok (r.1, r.2.setSectionFlags r.1 info.flags)

/-! ## Symbols -/

/-- `Object::add_raw_symbol`, src/write/mod.rs:465-469. -/
def Object.addRawSymbol (o : Object) (s : Symbol) : Nat × Object :=
  (o.symbols.length, { o with symbols := o.symbols ++ [s] })

/-- The bytes of `format!("ltmp{}", n)`. -/
def ltmp (n : Nat) : List UInt8 :=
  [108, 116, 109, 112] ++ (Nat.toDigits 10 n).map (fun c => UInt8.ofNat c.toNat)

/-- `Object::section_symbol`, src/write/mod.rs:557-585. -/
def Object.sectionSymbol (o : Object) (i : Nat) : Res (Nat × Object) :=
  match o.sections[i]? with
  | none => .panic
  | some s =>
    match s.symbol with
    | some id => .ok (id, o)
    | none =>
      let name := match o.format with
        | .coff => s.name
        | .macho => ltmp i
        | _ => []
      let id := o.symbols.length
      let sym : Symbol := { name := name, value := 0, size := 0, kind := .sectionSym,
                            scope := .compilation, weak := false, section_ := .inSec i, flags := .none }
      .ok (id, { o with symbols := o.symbols ++ [sym], sections := o.sections.set i { s with symbol := some id } })

/-- The symbol is entered in the name map by `add_symbol`, src/write/mod.rs:446-450. -/
def Symbol.named (s : Symbol) : Bool :=
  s.name != [] && (s.kind == .text || s.kind == .data || s.kind == .tls)

/-- `Object::add_symbol`, src/write/mod.rs:432-463. -/
def Object.addSymbol (o : Object) (s : Symbol) : Res (Nat × Object) :=
  if ¬ (s.section_ = .undefined ∨ s.scope ≠ .unknown) then .panic
  else if s.kind = .sectionSym then
    match s.section_.id? with
    | none => .panic
    | some i =>
      (o.sectionSymbol i).bind fun r =>
        if s.flags ≠ .none then
          match r.2.symbols[r.1]? with
          | none => .panic
          | some old => .ok (r.1, r.2.setSymbol r.1 { old with flags := s.flags })
        else .ok r
  else if s.named then
    let stored := match o.mangling.prefix? with
      | some p => { s with name := p :: s.name }
      | none => s
    let r := o.addRawSymbol stored
    .ok (r.1, { r.2 with symMap := insert r.2.symMap s.name r.1 })
  else .ok (o.addRawSymbol s)

/-- `Object::symbol_id`, src/write/mod.rs:409-411. -/
def Object.symbolId (o : Object) (name : List UInt8) : Option Nat := o.symMap name

/-- `Object::add_common_symbol`, src/write/mod.rs:535-540. -/
def Object.addCommonSymbol (o : Object) (s : Symbol) (size align : Nat) : Res (Nat × Object) :=
  o.addSymbol { s with section_ := .common, size := size, value := align }

/-- `Object::add_file_symbol`, src/write/mod.rs:543-554. -/
def Object.addFileSymbol (o : Object) (name : List UInt8) : Nat × Object :=
  o.addRawSymbol { name := name, value := 0, size := 0, kind := .file, scope := .compilation,
                   weak := false, section_ := .none, flags := .none }

/-- `Object::add_comdat`, src/write/mod.rs:402-406. -/
def Object.addComdat (o : Object) (c : Comdat) : Nat × Object :=
  (o.comdats.length, { o with comdats := o.comdats ++ [c] })

/-! ## Relocations -/

/-- `i64` addition with overflow check. -/
def addI64 (a b : Int) : Res Int :=
  if -9223372036854775808 ≤ a + b ∧ a + b ≤ 9223372036854775807 then .ok (a + b) else .panic

/-- A result together with the state of the object: a failed call may have changed the object. -/
abbrev St (α : Type) := Res α × Object

/-- `elf_translate_relocation`, src/write/elf/object.rs:264-543. -/
def Object.elfTranslate (o : Object) (r : Reloc) : St Reloc :=
  match r.flags with
  | .generic kind enc size =>
    match elfType o.arch o.endian kind enc size with
    | some t => (.ok { r with flags := .elf t }, o)
    | none => (.err, o)
  | _ => (.ok r, o)

/-- `macho_translate_relocation`, src/write/macho/object.rs:303-386. -/
def Object.machoTranslate (o : Object) (section_ : Nat) (r : Reloc) : St Reloc :=
  match r.flags with
  | .generic kind enc size =>
    match machoLength o.arch size with
    | none => (.err, o)
    | some len =>
      match machoType o.arch kind enc with
      | none => (.err, o)
      | some (pcrel, t) =>
        let flags := RelocFlags.macho t pcrel len
        if (o.arch = .aarch64 ∨ o.arch = .aarch64_Ilp32) ∧ kind = .relative ∧ enc = .generic then
          match o.sectionSymbol section_ with
          | .ok (sym, o') =>
            match addI64 r.addend (-(toI64 r.offset)) with
            | .ok a => (.ok { r with subtractor := some sym, addend := a, flags := flags }, o')
            | .err => (.err, o')
            | .panic => (.panic, o')
          | .err => (.err, o)
          | .panic => (.panic, o)
        else (.ok { r with flags := flags }, o)
  | _ => (.ok r, o)

/-- `xcoff_translate_relocation`, src/write/xcoff.rs:164-190.  (`size - 1` overflows for 0.) -/
def Object.xcoffTranslate (o : Object) (r : Reloc) : St Reloc :=
  match r.flags with
  | .generic kind _ size =>
    match xcoffType kind with
    | none => (.err, o)
    | some t => if size = 0 then (.panic, o) else (.ok { r with flags := .xcoff t (size - 1) }, o)
  | _ => (.ok r, o)

/-- `coff_translate_relocation`, src/write/coff/object.rs:170-257, with the creation of the stub symbol
(189) passed as `stub`. -/
def Object.coffTranslate (stub : Object → Nat → St Nat) (o : Object) (r : Reloc) : St Reloc :=
  match r.flags with
  | .generic kind enc size =>
    let finish (o : Object) (r : Reloc) (kind : RelocKind) : St Reloc :=
      match coffType o.arch kind enc size r.addend with
      | some t => (.ok { r with flags := .coff t }, o)
      | none => (.err, o)
    if kind = .gotRelative then
      match stub o r.symbol with
      | (.ok sym, o') => finish o' { r with symbol := sym } .relative
      | (.err, o') => (.err, o')
      | (.panic, o') => (.panic, o')
    else if kind = .pltRelative then finish o r .relative
    else finish o r kind
  | _ => (.ok r, o)

/-- `coff_adjust_addend`, `elf_adjust_addend`, `macho_adjust_addend`, `xcoff_adjust_addend`
(src/write/coff/object.rs:259-301, elf/object.rs:545-552, macho/object.rs:388-431, xcoff.rs:192-205): the
adjusted relocation, and whether the addend is implicit. -/
def adjustAddend (f : Format) (arch : Arch) (r : Reloc) : Res (Bool × Reloc) :=
  match f with
  | .coff =>
    match r.flags with
    | .coff typ =>
      (coffPcOffset arch typ).bind fun off =>
        (addI64 r.addend off).bind fun a => .ok (true, { r with addend := a })
    | _ => .err
  | .elf => (elfHasAddend arch).bind fun b => .ok (!b, r)
  | .macho =>
    match r.flags with
    | .macho rtype pcrel _ =>
      (addI64 r.addend (machoPcOffset arch rtype pcrel)).bind fun a =>
        .ok (machoImplicit arch rtype, { r with addend := a })
    | _ => .err
  | .xcoff =>
    match r.flags with
    | .xcoff rtype _ =>
      if rtype = 2 then (addI64 r.addend 4).bind fun a => .ok (true, { r with addend := a })
      else .ok (true, r)
    | _ => .err

/-- `coff_relocation_size`, `elf_relocation_size`, `macho_relocation_size`, `xcoff_relocation_size`
(src/write/coff/object.rs:303-358, elf/object.rs:554-602, macho/object.rs:433-439, xcoff.rs:207-214). -/
def relocSize (f : Format) (arch : Arch) (r : Reloc) : Res Nat :=
  match f, r.flags with
  | .coff, .coff typ => coffRelocSize arch typ
  | .elf, .elf rtype => elfRelocSize arch rtype
  | .macho, .macho _ _ len => machoRelocSize len
  | .xcoff, .xcoff _ rsize => if rsize + 1 < 256 then .ok (rsize + 1) else .panic
  | _, _ => .err

/-- Overwrite the bytes of `data` from `off` (`copy_from_slice` of the sub-slice). -/
def patch (data : List UInt8) (off : Nat) (src : List UInt8) : List UInt8 :=
  data.take off ++ src ++ data.drop (off + src.length)

/-- `Object::write_relocation_addend`, src/write/mod.rs:760-805. -/
def Object.writeAddend (o : Object) (i : Nat) (r : Reloc) : Res Object :=
  (relocSize o.format o.arch r).bind fun size =>
    match o.sections[i]? with
    | none => .panic
    | some s =>
      if s.kind.isBss then .panic
      else
        let write (src : List UInt8) : Res Object :=
          if r.offset ≤ s.data.length ∧ src.length ≤ s.data.length - r.offset then
            .ok (o.setSection i { s with data := patch s.data r.offset src })
          else .err
        if size = 32 then write (wrI o.endian 4 r.addend)
        else if size = 64 then write (wrI o.endian 8 r.addend)
        else .err

/-- The part of `add_relocation_internal` after the translation, src/write/mod.rs:735-757. -/
def Object.finishReloc (o : Object) (i : Nat) (r : Reloc) : St Unit :=
  match adjustAddend o.format o.arch r with
  | .err => (.err, o)
  | .panic => (.panic, o)
  | .ok (implicit, r) =>
    let push (o : Object) (r : Reloc) : St Unit :=
      match o.sections[i]? with
      | none => (.panic, o)
      | some s => (.ok (), o.setSection i { s with relocs := s.relocs ++ [r] })
    if implicit ∧ r.addend ≠ 0 then
      match o.writeAddend i r with
      | .err => (.err, o)
      | .panic => (.panic, o)
      | .ok o' => push o' { r with addend := 0 }
    else push o r

/-- The `match self.format` of `add_relocation_internal`, src/write/mod.rs:724-734. -/
def Object.translate (stub : Object → Nat → St Nat) (o : Object) (i : Nat) (r : Reloc) : St Reloc :=
  match o.format with
  | .coff => o.coffTranslate stub r
  | .elf => o.elfTranslate r
  | .macho => o.machoTranslate i r
  | .xcoff => o.xcoffTranslate r

/-- `Object::add_relocation_internal`, src/write/mod.rs:719-758, for a given stub function. -/
def Object.addRelocWith (stub : Object → Nat → St Nat) (o : Object) (i : Nat) (r : Reloc) : St Unit :=
  match o.translate stub i r with
  | (.err, o) => (.err, o)
  | (.panic, o) => (.panic, o)
  | (.ok r, o) => o.finishReloc i r

/-- `coff_add_stub_symbol`, src/write/coff/object.rs:360-399.  The relocation it adds is `Absolute`, so
that its translation never asks for a stub: the recursion is cut there. -/
def Object.coffStub (o : Object) (sym : Nat) : St Nat :=
  match o.stubs sym with
  | some id => (.ok id, o)
  | none =>
    match o.arch.addressSize with
    | none => (.panic, o)
    | some size =>
      -- ".rdata$.refptr"
      let r := o.addSection [] [46, 114, 100, 97, 116, 97, 36, 46, 114, 101, 102, 112, 116, 114] .readOnlyData
      match r.2.setSectionData r.1 (List.replicate size 0) size with
      | .err => (.err, r.2)
      | .panic => (.panic, r.2)
      | .ok o1 =>
        match o1.addRelocWith (fun o _ => (.panic, o)) r.1
            { offset := 0, symbol := sym, subtractor := none, addend := 0,
              flags := .generic .absolute .generic (size * 8) } with
        | (.err, o2) => (.err, o2)
        | (.panic, o2) => (.panic, o2)
        | (.ok (), o2) =>
          match o2.symbols[sym]? with
          | none => (.panic, o2)
          | some target =>
            let a := o2.addRawSymbol
              -- ".refptr."
              { name := [46, 114, 101, 102, 112, 116, 114, 46] ++ target.name, value := 0, size := size,
                kind := .data, scope := .compilation, weak := false, section_ := .inSec r.1,
                flags := .none }
            (.ok a.1, { a.2 with stubs := insert a.2.stubs sym a.1 })

/-- `Object::add_relocation_internal`, src/write/mod.rs:719-758. -/
def Object.addRelocInternal (o : Object) (i : Nat) (r : Reloc) : St Unit :=
  o.addRelocWith Object.coffStub i r

/-- `Object::add_relocation` and `Object::add_relocation_with_subtractor`, src/write/mod.rs:688-717.  A
`Relocation` is a `Reloc` without subtractor. -/
def Object.addRelocation (o : Object) (i : Nat) (offset symbol : Nat) (addend : Int) (flags : RelocFlags)
    (subtractor : Option Nat) : St Unit :=
  if subtractor.isSome ∧ o.format ≠ .macho then (.err, o)
  else o.addRelocInternal i
    { offset := offset, symbol := symbol, subtractor := subtractor, addend := addend, flags := flags }

/-! ## Symbols with data -/

/-- `macho_tlv_bootstrap`, src/write/macho/object.rs:205-223. -/
def Object.tlvBootstrapId (o : Object) : Res (Nat × Object) :=
  match o.tlvBootstrap with
  | some id => .ok (id, o)
  | none =>
    (o.addSymbol
      -- "_tlv_bootstrap"
      { name := [95, 116, 108, 118, 95, 98, 111, 111, 116, 115, 116, 114, 97, 112], value := 0, size := 0,
        kind := .text, scope := .dynamic, weak := false, section_ := .undefined, flags := .none }).bind
      fun r => .ok (r.1, { r.2 with tlvBootstrap := some r.1 })

/-- `macho_add_thread_var`, src/write/macho/object.rs:233-301. -/
def Object.addThreadVar (o : Object) (sym : Nat) : Res (Nat × Object) :=
  match o.symbols[sym]? with
  | none => .panic
  | some s =>
    if s.kind ≠ .tls then .ok (sym, o)
    else
      let init := o.addRawSymbol
        -- "$tlv$init"
        { name := s.name ++ [36, 116, 108, 118, 36, 105, 110, 105, 116], value := 0, size := 0, kind := .tls,
          scope := .compilation, weak := false, section_ := .undefined, flags := .none }
      let sec := init.2.sectionId .tlsVariables
      match o.arch.addressSize with
      | none => .panic
      | some asize =>
        let size := asize * 3
        (sec.2.appendSectionData sec.1 (List.replicate size 0) asize).bind fun d =>
          d.2.tlvBootstrapId.bind fun b =>
            match b.2.addRelocation sec.1 d.1 b.1 0 (.generic .absolute .generic (asize * 8)) none with
            | (.ok (), o1) =>
              match o1.addRelocation sec.1 (d.1 + asize * 2) init.1 0
                  (.generic .absolute .generic (asize * 8)) none with
              | (.ok (), o2) =>
                match o2.symbols[sym]? with
                | none => .panic
                | some t =>
                  .ok (init.1, o2.setSymbol sym
                    { t with value := d.1, size := size, section_ := .inSec sec.1 })
              | _ => .panic
            | _ => .panic

/-- `Object::set_symbol_data`, src/write/mod.rs:645-668. -/
def Object.setSymbolData (o : Object) (sym sec offset size : Nat) : Res Object :=
  match o.symbols[sym]? with
  | none => .panic
  | some s =>
    if s.scope = .unknown then .panic
    else
      (if o.format = .macho then o.addThreadVar sym else .ok (sym, o)).bind fun r =>
        match r.2.symbols[r.1]? with
        | none => .panic
        | some t => .ok (r.2.setSymbol r.1 { t with value := offset, size := size, section_ := .inSec sec })

/-- `Object::add_symbol_data`, src/write/mod.rs:600-616. -/
def Object.addSymbolData (o : Object) (sym sec : Nat) (data : List UInt8) (align : Nat) : Res (Nat × Object) :=
  let data := if data = [] ∧ o.subsectionsViaSymbols then [0] else data
  (o.appendSectionData sec data align).bind fun r =>
    (r.2.setSymbolData sym sec r.1 data.length).bind fun o' => .ok (r.1, o')

/-- `Object::add_symbol_bss`, src/write/mod.rs:624-638. -/
def Object.addSymbolBss (o : Object) (sym sec : Nat) (size align : Nat) : Res (Nat × Object) :=
  let size := if size = 0 ∧ o.subsectionsViaSymbols then 1 else size
  (o.appendSectionBss sec size align).bind fun r =>
    (r.2.setSymbolData sym sec r.1 size).bind fun o' => .ok (r.1, o')

/-- `Object::symbol_section_and_offset`, src/write/mod.rs:673-682. -/
def Object.symbolSectionAndOffset (o : Object) (sym : Nat) : Res (Option (Nat × Nat) × Object) :=
  match o.symbols[sym]? with
  | none => .panic
  | some s =>
    if s.kind = .sectionSym then .ok (some (sym, 0), o)
    else
      match s.section_.id? with
      | none => .ok (none, o)
      | some i => (o.sectionSymbol i).bind fun r => .ok (some (r.1, s.value), r.2)

/-! ## GNU properties -/

/-- The `data` of `add_elf_gnu_property_u32`, src/write/elf/object.rs:41-61: the note header (`NoteHeader32`:
`n_namesz`, `n_descsz`, `n_type`), the name `"GNU\0"`, the property type, the size 4 and the value, resized
with zeros.  `align_u32` is written as `align`, from which it differs only in the width.  The
`debug_assert_eq!` holds for both address sizes and is not modelled. -/
def gnuPropertyData (en : Endianness) (addressSize property value : Nat) : Res (List UInt8) :=
  (alignUsize (3 * 4) addressSize).bind fun descsz =>
  let data := encode en [(4, 4), (4, descsz), (4, 5)] ++ [71, 78, 85, 0] ++
    encode en [(4, property), (4, 4), (4, value)]
  (alignUsize data.length addressSize).bind fun len =>
  .ok (data.take len ++ List.replicate (len - data.length) 0)

/-- `Object::add_elf_gnu_property_u32`, src/write/elf/object.rs:36-65; `elf_is_64`, src/write/elf/object.rs:604-609,
unwraps the address size. -/
def Object.addGnuProperty (o : Object) (property value : Nat) : Res Object :=
  if o.format ≠ .elf then .ok o
  else
    match o.arch.addressSize with
    | none => .panic
    | some n =>
      let addressSize := if n = 8 then 8 else 4
      (gnuPropertyData o.endian addressSize property value).bind fun data =>
      let sec := o.sectionId .gnuProperty
      (sec.2.appendSectionData sec.1 data addressSize).bind fun r => .ok r.2

/-! ## Histories -/

/-- A call of a public method of `Object` that changes it.  `dataMut` is `section_mut(i).data_mut()`
followed by any edit of the slice (the length cannot change); `symbolMut` is `symbol_mut(i)` followed by
any assignment. -/
inductive Op where
  | setMangling (m : Mangling)
  | setSubsectionsViaSymbols
  | setSectionData (i : Nat) (data : List UInt8) (align : Nat)
  | appendSectionData (i : Nat) (data : List UInt8) (align : Nat)
  | appendSectionBss (i : Nat) (size align : Nat)
  | dataMut (i : Nat) (data : List UInt8)
  | setSectionFlags (i : Nat) (flags : SecFlags)
  | sectionId (s : StdSection)
  | addSection (segment name : List UInt8) (kind : SectionKind)
  | addGnuProperty (property value : Nat)
  | addSubsection (s : StdSection) (value : List UInt8)
  | addComdat (c : Comdat)
  | addSymbol (s : Symbol)
  | addCommonSymbol (s : Symbol) (size align : Nat)
  | addFileSymbol (name : List UInt8)
  | symbolMut (i : Nat) (s : Symbol)
  | sectionSymbol (i : Nat)
  | addSymbolData (sym sec : Nat) (data : List UInt8) (align : Nat)
  | addSymbolBss (sym sec : Nat) (size align : Nat)
  | setSymbolData (sym sec offset size : Nat)
  | symbolSectionAndOffset (sym : Nat)
  | addRelocation (i offset symbol : Nat) (addend : Int) (flags : RelocFlags) (subtractor : Option Nat)

/-- The state after a call, whatever it returned; `none` if it panicked. -/
def step (o : Object) : Op → Option Object
  | .setMangling m => some { o with mangling := m }
  | .setSubsectionsViaSymbols =>
    some (if o.format = .macho then { o with subsectionsViaSymbols := true } else o)
  | .setSectionData i d a => match o.setSectionData i d a with | .ok o' => some o' | _ => none
  | .appendSectionData i d a => match o.appendSectionData i d a with | .ok r => some r.2 | _ => none
  | .appendSectionBss i n a => match o.appendSectionBss i n a with | .ok r => some r.2 | _ => none
  | .dataMut i d =>
    match o.sections[i]? with
    | none => none
    | some s => if s.kind.isBss ∨ d.length ≠ s.data.length then none
                else some (o.setSection i { s with data := d })
  | .setSectionFlags i f => if i < o.sections.length then some (o.setSectionFlags i f) else none
  | .sectionId s => some (o.sectionId s).2
  | .addSection g n k => some (o.addSection g n k).2
  | .addGnuProperty p v => match o.addGnuProperty p v with | .ok o' => some o' | _ => none
  | .addSubsection s v => match o.addSubsection s v with | .ok r => some r.2 | _ => none
  | .addComdat c => some (o.addComdat c).2
  | .addSymbol s => match o.addSymbol s with | .ok r => some r.2 | _ => none
  | .addCommonSymbol s n a => match o.addCommonSymbol s n a with | .ok r => some r.2 | _ => none
  | .addFileSymbol n => some (o.addFileSymbol n).2
  | .symbolMut i s => if i < o.symbols.length then some (o.setSymbol i s) else none
  | .sectionSymbol i => match o.sectionSymbol i with | .ok r => some r.2 | _ => none
  | .addSymbolData y i d a => match o.addSymbolData y i d a with | .ok r => some r.2 | _ => none
  | .addSymbolBss y i n a => match o.addSymbolBss y i n a with | .ok r => some r.2 | _ => none
  | .setSymbolData y i f n => match o.setSymbolData y i f n with | .ok o' => some o' | _ => none
  | .symbolSectionAndOffset y => match o.symbolSectionAndOffset y with | .ok r => some r.2 | _ => none
  | .addRelocation i f y a g b =>
    match o.addRelocation i f y a g b with
    | (.panic, _) => none
    | (_, o') => some o'

/-- The state after a history of calls, none of which panicked. -/
def run (o : Object) : List Op → Option Object
  | [] => some o
  | op :: ops => (step o op).bind fun o' => run o' ops

end Obj.W

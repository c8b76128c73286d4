import Verif.Model.BuildWrite

/-!
# The ELF builder: sizes known before writing (src/build/elf.rs:1996-2180)

These functions let a user lay out the loaded sections before `Builder::write`.  Arithmetic in `u64` does not overflow for what fits in
memory, so it is modelled by `Nat`; the counts that are truncated (`as u32`, `as u16`) or held in a `u16` are modelled as such.
-/

namespace Obj.BuildW

open Obj Obj.Build

/-- The class and endianness of the encoder, src/build/elf.rs:1988-1994. -/
def cfgOf (b : Full) : Elf.Cfg := ⟨b.is64, b.endian⟩

/-- `Builder::file_header_size`, src/build/elf.rs:1996-1999. -/
def fileHeaderSize (b : Full) : Nat := (cfgOf b).ehdrSize

/-- `Builder::program_headers_size`, src/build/elf.rs:2001-2004. -/
def programHeadersSize (b : Full) : Nat := Build.count b.tables.segments * (cfgOf b).phdrSize

/-- `Builder::dynamic_symbol_size`, src/build/elf.rs:2006-2012. -/
def dynamicSymbolSize (b : Full) : Nat := (1 + Build.count b.tables.dynamicSymbols) * (cfgOf b).symSize

/-- The strings of a version, src/build/elf.rs:2039-2048. -/
def versionStrings (v : Ver) : List (List UInt8) :=
  match v.data with
  | .def_ names _ => names
  | .need _ name _ => [name]

/-- The strings that `Builder::dynamic_string_size` adds, src/build/elf.rs:2023-2051: unlike in `Builder::write`, empty names of symbols
and the name of the first version that is shared with the base are included. -/
def sizeStrings (b : Full) : List (List UInt8) :=
  dynStrings (iter b.tables.sections) ++ (iter b.tables.dynamicSymbols).map (·.name) ++ b.versionBase.toList ++
    (iter b.tables.versions).flatMap versionStrings ++ (iter b.tables.versionFiles).map (·.name)

/-- `Builder::dynamic_string_size`, src/build/elf.rs:2014-2053. -/
def dynamicStringSize (b : Full) : Res Nat := (addAll StrTab.new (sizeStrings b)).bind fun t => t.sizeOf 1

/-- `Builder::hash_size`, src/build/elf.rs:2055-2063. -/
def hashSize (b : Full) : Nat := 8 + b.hashBuckets * 4 + (1 + Build.count b.tables.dynamicSymbols) % U32 * 4

/-- `Builder::gnu_hash_size`, src/build/elf.rs:2065-2077. -/
def gnuHashSize (b : Full) : Nat :=
  16 + b.bloomCount * (cfgOf b).w + b.gnuBuckets * 4 + Build.countDefined b.tables.dynamicSymbols % U32 * 4

/-- `Builder::gnu_versym_size`, src/build/elf.rs:2079-2086. -/
def gnuVersymSize (b : Full) : Nat := (1 + Build.count b.tables.dynamicSymbols) % U32 * 2

/-- One version in `Builder::gnu_verdef_size`, src/build/elf.rs:2099-2106: the number of definitions, a `u16`, and of their names. -/
def verdefSizeStep (base : Option (List UInt8)) (o : Nat × Nat) (v : Ver) : Res (Nat × Nat) :=
  match v.data with
  | .def_ names _ =>
    if U16 ≤ o.1 + 1 then .panic else .ok (o.1 + 1, if isShared names o.1 base then o.2 else o.2 + names.length)
  | .need _ _ _ => .ok o

/-- `Builder::gnu_verdef_size`, src/build/elf.rs:2088-2108. -/
def gnuVerdefSize (b : Full) : Res Nat :=
  (foldR (verdefSizeStep b.versionBase) (if b.versionBase.isSome then (1, 1) else (0, 0)) (iter b.tables.versions)).bind fun o =>
  .ok (o.1 * 20 + o.2 * 8)

/-- A version needed from a file. -/
def isNeed (v : Ver) : Bool :=
  match v.data with
  | .need _ _ _ => true
  | .def_ _ _ => false

/-- `Builder::gnu_verneed_size`, src/build/elf.rs:2110-2123. -/
def gnuVerneedSize (b : Full) : Nat :=
  Build.count b.tables.versionFiles % U16 * 16 + ((iter b.tables.versions).filter isNeed).length * 16

/-- `Builder::section_size`, src/build/elf.rs:2125-2162 (`SHT_RELA = 4`). -/
def sectionSize (b : Full) (s : Sec) : Res Nat :=
  if s.delete || !isAlloc s then .ok 0
  else match s.data with
  | .data d => .ok d.length
  | .uninit len => .ok len
  | .relocs l => .ok (l.length * (cfgOf b).relSize (s.shType == 4))
  | .dynRelocs l => .ok (l.length * (cfgOf b).relSize (s.shType == 4))
  | .note d => .ok d.length
  | .dynamic l => .ok ((1 + l.length) * (2 * (cfgOf b).w))
  | .dynamicString => dynamicStringSize b
  | .dynamicSymbol => .ok (dynamicSymbolSize b)
  | .hash => .ok (hashSize b)
  | .gnuHash => .ok (gnuHashSize b)
  | .gnuVersym => .ok (gnuVersymSize b)
  | .gnuVerdef => gnuVerdefSize b
  | .gnuVerneed => .ok (gnuVerneedSize b)
  | .sectionString | .symbol | .symbolSectionIndex | .string | .attributes _ => .ok 0

/-- Replacing the sections. -/
def setSections (b : Full) (ss : List Sec) : Full := { b with tables := { b.tables with sections := ss } }

/-- The section at a position in `Builder::set_section_sizes`, src/build/elf.rs:2172-2178.  `Sections::get` and `get_mut` panic out of
range, which does not happen. -/
def setSizeStep (b : Full) (i : Nat) : Res Full :=
  match b.tables.sections[i]? with
  | none => .panic
  | some s =>
    if s.delete || !isAlloc s then .ok b
    else (sectionSize b s).bind fun n => .ok (setSections b (b.tables.sections.set i { s with shSize := n }))

/-- `Builder::set_section_sizes`, src/build/elf.rs:2164-2180. -/
def setSectionSizes (b : Full) : Res Full := foldR setSizeStep b (List.range b.tables.sections.length)

end Obj.BuildW

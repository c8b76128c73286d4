import Verif.Model.MachOIter
import Verif.Model.MachoView
import Verif.Model.DyldInfo
import Verif.Model.ExportsTrie
import Verif.Model.MachoFixup

/-!
# Model of the unified imports, exports and import libraries of Mach-O files

`src/read/macho/import.rs`, `src/read/macho/export.rs` and the accessors of load commands that they use.  `usize` is 64 bits.
-/

namespace Obj.MachoI
open Obj Obj.MachoR
open Obj.MachO (LoadCommands LoadCommandData)

/-! ## Load commands -/

/-- A command uses up one of the `ncmds`. -/
theorem next_lt {en : Endianness} {s s' : LoadCommands} {c : LoadCommandData} (h : s.next en = (.ok (some c), s')) : s'.ncmds < s.ncmds := by
  unfold LoadCommands.next at h
  split at h
  · simp at h
  · rename_i h0
    have hp : ∀ r t, s.parse en = (r, t) → t.ncmds = s.ncmds := by
      intro r t ht
      unfold LoadCommands.parse at ht
      split at ht
      · simp only at ht
        split at ht
        · cases ht; rfl
        · split at ht
          · split at ht <;> cases ht <;> rfl
          · cases ht; rfl
          · cases ht; rfl
      · cases ht; rfl
      · cases ht; rfl
    split at h
    · rename_i c' s1 h1
      have := hp _ _ h1
      simp only [Prod.mk.injEq] at h
      rw [← h.2]
      simp only
      omega
    · simp at h
    · simp at h

/-- `while let Some(command) = commands.next()? { .. }` with a body that may fail, which is the form of the loops
src/read/macho/file.rs:253-257, src/read/macho/import.rs:150-156 and src/read/macho/export.rs:67-73. -/
def forCommands {β : Type} (en : Endianness) (body : β → LoadCommandData → Res β) (cs : LoadCommands) (b : β) : Res β :=
  match _h : cs.next en with
  | (.ok none, _) => .ok b
  | (.ok (some c), cs) =>
    match body b c with
    | .ok b => forCommands en body cs b
    | .err => .err
    | .panic => .panic
  | (.err, _) => .err
  | (.panic, _) => .panic
termination_by cs.ncmds
decreasing_by exact next_lt _h

/-- `LoadCommandData::dylib`, src/read/macho/load_command.rs:234-245: an image of `DylibCommand` (src/macho.rs:1855-1882, 24 bytes). -/
def dylib (c : LoadCommandData) : Res (Option (List UInt8)) :=
  if c.cmd = 0xc ∨ c.cmd = 0x80000018 ∨ c.cmd = 0x8000001f ∨ c.cmd = 0x20 ∨ c.cmd = 0x80000023 then
    (Bytes.readAt c.data 0 24).bind fun d => .ok (some d)
  else .ok none

/-- `LoadCommandData::dylib_use_flags`, src/read/macho/load_command.rs:256-272. -/
def dylibUseFlags (en : Endianness) (c : LoadCommandData) (d : List UInt8) : Res (Option Nat) :=
  if field en d 8 4 ≠ 28 ∨ field en d 12 4 ≠ 0x1a741800 then .ok none
  else (Bytes.readAt c.data 24 4).bind fun b => .ok (some (rd en b))

/-- `LoadCommandData::string`, src/read/macho/load_command.rs:122-126. -/
def lcString (c : LoadCommandData) (offset : Nat) : Res (List UInt8) := Bytes.readStringAt c.data offset

/-- `LoadCommandData::dyld_chained_fixups`, src/read/macho/load_command.rs:313-319: `dataoff` and `datasize`. -/
def chainedFixupsCmd (en : Endianness) (c : LoadCommandData) : Res (Option (Nat × Nat)) :=
  if c.cmd = 0x80000034 then (Bytes.readAt c.data 0 16).bind fun d => .ok (some (field en d 8 4, field en d 12 4)) else .ok none

/-- `LoadCommandData::dyld_exports_trie`, src/read/macho/load_command.rs:304-310. -/
def exportsTrieCmd (en : Endianness) (c : LoadCommandData) : Res (Option (Nat × Nat)) :=
  if c.cmd = 0x80000033 then (Bytes.readAt c.data 0 16).bind fun d => .ok (some (field en d 8 4, field en d 12 4)) else .ok none

/-- `DyldInfoCommand`, src/macho.rs:2801-2935: the offsets and sizes that are used here. -/
structure DyldInfo where
  bindOff : Nat
  bindSize : Nat
  weakOff : Nat
  weakSize : Nat
  lazyOff : Nat
  lazySize : Nat
  exportOff : Nat
  exportSize : Nat
  deriving DecidableEq, Repr

/-- `LoadCommandData::dyld_info`, src/read/macho/load_command.rs:295-301. -/
def dyldInfoCmd (en : Endianness) (c : LoadCommandData) : Res (Option DyldInfo) :=
  if c.cmd = 0x22 ∨ c.cmd = 0x80000022 then
    (Bytes.readAt c.data 0 48).bind fun d =>
      .ok (some ⟨field en d 16 4, field en d 20 4, field en d 24 4, field en d 28 4, field en d 32 4, field en d 36 4,
        field en d 40 4, field en d 44 4⟩)
  else .ok none

/-! ## Libraries -/

/-- `ImportLibrary` with `ImportLibraryFlags::MachO`, src/read/macho/import.rs:69-79, and src/read/mod.rs:579-582. -/
structure Library where
  name : List UInt8
  ordinal : Nat
  cmd : Nat
  currentVersion : Nat
  compatibilityVersion : Nat
  useFlags : Option Nat
  deriving DecidableEq, Repr

/-- `MachOImportLibraryIterator`, src/read/macho/import.rs:26-35. -/
structure LibraryIt where
  commands : LoadCommands
  ordinal : Nat

/-- `MachOImportLibraryIterator::new`, src/read/macho/import.rs:42-49. -/
def importLibraries (f : File) (data : List UInt8) : Res LibraryIt :=
  (loadCommands f.cfg f.header data).bind fun cs => .ok ⟨cs, 0⟩

/-- The part of the loop after the command is known to be one for a library, src/read/macho/import.rs:66-79. -/
def libraryOf (en : Endianness) (ordinal : Nat) (c : LoadCommandData) (d : List UInt8) : Res Library :=
  (lcString c (field en d 8 4)).bind fun name =>
    (dylibUseFlags en c d).bind fun useFlags =>
      .ok ⟨name, ordinal, c.cmd, field en d 16 4, field en d 20 4, useFlags⟩

/-- `MachOImportLibraryIterator::next`, src/read/macho/import.rs:51-81; `self.ordinal += 1` panics on overflow. -/
def LibraryIt.next (en : Endianness) (s : LibraryIt) : Res (Option Library) × LibraryIt :=
  match _h : s.commands.next en with
  | (.ok none, cs) => (.ok none, { s with commands := cs })
  | (.err, cs) => (.err, { s with commands := cs })
  | (.panic, cs) => (.panic, { s with commands := cs })
  | (.ok (some c), cs) =>
    match dylib c with
    | .ok none => LibraryIt.next en { s with commands := cs }
    | d =>
      if U32 ≤ s.ordinal + 1 then (.panic, { s with commands := cs })
      else
        let s := { s with commands := cs, ordinal := s.ordinal + 1 }
        match d with
        | .ok (some d) =>
          match libraryOf en s.ordinal c d with
          | .ok l => (.ok (some l), s)
          | .err => (.err, s)
          | .panic => (.panic, s)
        | .panic => (.panic, s)
        | _ => (.err, s)
termination_by s.commands.ncmds
decreasing_by exact next_lt _h

/-- `MachOFile::libraries`, src/read/macho/file.rs:250-259. -/
def libraries (f : File) (data : List UInt8) : Res (List (List UInt8)) :=
  (loadCommands f.cfg f.header data).bind fun cs =>
    forCommands f.cfg.en (fun ls c =>
      (dylib c).bind fun r => match r with
        | some d => (lcString c (field f.cfg.en d 8 4)).bind fun name => .ok (ls ++ [name])
        | none => .ok ls) cs [[]]

/-! ## Imports -/

/-- `ImportFlags`, the variants of src/read/macho/import.rs:252-255, 314-317. -/
inductive ImportFlags where
  | symbol (ntype ndesc : Nat)
  | bind (dylib : Int) (flags : Nat)
  deriving DecidableEq, Repr

/-- `Import`, src/read/mod.rs:427-432 (the ordinal variant of the name does not occur). -/
structure Import where
  library : List UInt8
  name : List UInt8
  weak : Bool
  flags : ImportFlags
  deriving DecidableEq, Repr

/-- `library`, src/read/macho/import.rs:440-448, with `BindDylib::index`, src/macho.rs:2980-2986. -/
def library (libs : List (List UInt8)) (d : Int) : Res (List UInt8) :=
  if d ≤ 0 then .ok []
  else match libs[d.toNat]? with
    | some l => .ok l
    | none => .err

/-- `SymbolLibrary::index`, src/macho.rs:3631-3644, of `SymbolDesc::library`, 3509-3511; `MAX_LIBRARY_ORDINAL = 0xfd`. -/
def symbolLibrary (desc : Nat) : Option Nat :=
  let ordinal := (desc >>> 8) % 256
  if ordinal = 0 ∨ 0xfd < ordinal then none else some ordinal

/-- The part of `MachOImportSymbols::next` after an undefined symbol was found, src/read/macho/import.rs:232-256. -/
def symbolImport (f : File) (data : List UInt8) (twolevel : Bool) (libs : List (List UInt8)) (y : Nlist) : Res Import :=
  (f.symbols.name data y).bind fun name =>
    let library : Res (List UInt8) :=
      if twolevel then
        match symbolLibrary y.desc with
        | some index => match libs[index]? with
          | some l => .ok l
          | none => .err
        | none => .ok []
      else .ok []
    library.bind fun library => .ok ⟨library, name, y.desc &&& 0x40 = 0x40, .symbol y.typ y.desc⟩

/-- `MachOImportSymbols::next`, src/read/macho/import.rs:225-257; the state is what is left of the symbols. -/
def symbolsNext (f : File) (data : List UInt8) (twolevel : Bool) (libs : List (List UInt8)) : List Nlist → Res (Option Import) × List Nlist
  | [] => (.ok none, [])
  | y :: ys =>
    if MachoV.isUndefined y then
      match symbolImport f data twolevel libs y with
      | .ok i => (.ok (some i), ys)
      | .err => (.err, ys)
      | .panic => (.panic, ys)
    else symbolsNext f data twolevel libs ys

/-- An import uses up one of the `count`. -/
theorem fixups_lt {s s' : Fixup.ImportIt} {i : Fixup.Import} (h : s.next = (.ok (some i), s')) : s'.count < s.count := by
  unfold Fixup.ImportIt.next at h
  split at h
  · simp at h
  · split at h
    · simp only [Prod.mk.injEq] at h
      rw [← h.2]
      simp only
      omega
    · simp at h
    · simp at h

/-- `MachOImportChainedFixups::next`, src/read/macho/import.rs:289-319. -/
def fixupsNext (libs : List (List UInt8)) (s : Fixup.ImportIt) : Res (Option Import) × Fixup.ImportIt :=
  match _h : s.next with
  | (.ok none, s) => (.ok none, s)
  | (.err, s) => (.err, s)
  | (.panic, s) => (.panic, s)
  | (.ok (some i), s) =>
    if i.dylib = 0 then fixupsNext libs s
    else match library libs i.dylib with
      | .ok l => (.ok (some ⟨l, i.name, i.weak, .bind i.dylib (if i.weak then 1 else 0)⟩), s)
      | .err => (.err, s)
      | .panic => (.panic, s)
termination_by s.count
decreasing_by exact fixups_lt _h

/-- `MachOImportDyldInfo`, src/read/macho/import.rs:322-333.  `streams` are the elements of `binds` from `index` on: those before it
are not used again. -/
structure DyldIt where
  streams : List (List UInt8)
  index : Nat
  isLazy : Bool
  dylib : Option Int
  symbol : Option (Nat × List UInt8)
  unbound : Bool
  deriving DecidableEq, Repr

/-- `MachOImportDyldInfo::next_index`, src/read/macho/import.rs:428-437. -/
def DyldIt.nextIndex (s : DyldIt) : DyldIt :=
  { s with streams := s.streams.tail, index := s.index + 1, isLazy := s.index + 1 == 2,
           dylib := if s.index + 1 = 1 then some (-3) else none, symbol := none }

/-- The bytes and streams that are left. -/
def DyldIt.left (s : DyldIt) : Nat := (s.streams.map fun d => d.length + 1).sum

/-- The import at a bind operation, or that it goes on, src/read/macho/import.rs:405-416. -/
def DyldIt.bound (libs : List (List UInt8)) (s : DyldIt) : Res (Option Import) :=
  match s.symbol with
  | none => .err
  | some (flags, name) =>
    match s.dylib with
    | none => .err
    | some d =>
      if d ≠ 0 then
        (library libs d).bind fun l => .ok (some ⟨l, name, flags &&& 1 = 1, .bind d flags⟩)
      else .ok none

/-- `MachOImportDyldInfo::next`, src/read/macho/import.rs:364-426. -/
def DyldIt.next (libs : List (List UInt8)) (s : DyldIt) : Res (Option Import) × DyldIt :=
  match hs : s.streams with
  | [] => (.ok none, s)
  | d :: ds =>
    match _h : Dyld.bindOpNext d with
    | (.ok none, _) => DyldIt.next libs s.nextIndex
    | (.err, d') => (.err, { s with streams := d' :: ds })
    | (.panic, d') => (.panic, { s with streams := d' :: ds })
    | (.ok (some (_, op)), d') =>
      have : d'.length < d.length := Dyld.bindOpNext_lt _h
      let bindOp : Res (Option Import) × DyldIt :=
        if s.unbound then
          match DyldIt.bound libs { s with streams := d' :: ds } with
          | .ok none => DyldIt.next libs { s with streams := d' :: ds, unbound := false }
          | .ok (some i) => (.ok (some i), { s with streams := d' :: ds, unbound := false })
          | .err => (.err, { s with streams := d' :: ds, unbound := false })
          | .panic => (.panic, { s with streams := d' :: ds, unbound := false })
        else DyldIt.next libs { s with streams := d' :: ds }
      match op with
      | .done =>
        if s.isLazy then DyldIt.next libs { s with streams := d' :: ds, dylib := none, symbol := none }
        else DyldIt.next libs { s with streams := d' :: ds }.nextIndex
      | .setDylibOrdinal ordinal =>
        if ordinal < 2 ^ 31 then DyldIt.next libs { s with streams := d' :: ds, dylib := some ordinal }
        else (.err, { s with streams := d' :: ds })
      | .setDylibSpecial ordinal => DyldIt.next libs { s with streams := d' :: ds, dylib := some ordinal }
      | .setSymbol flags name => DyldIt.next libs { s with streams := d' :: ds, symbol := some (flags, name), unbound := true }
      | .doBindTimesSkipping count _ => if count = 0 then DyldIt.next libs { s with streams := d' :: ds } else bindOp
      | .doBind | .doBindAddAddr _ | .doBindAddAddrScaled _ => bindOp
      | .setType _ | .setAddend _ | .setSegmentAndOffset _ _ | .addAddr _ => DyldIt.next libs { s with streams := d' :: ds }
termination_by s.left
decreasing_by all_goals (simp only [DyldIt.left, DyldIt.nextIndex, hs, List.tail_cons, List.map_cons, List.sum_cons]; omega)

/-- `MachOImportIteratorInternal`, src/read/macho/import.rs:121-129. -/
inductive ImportIt where
  | fixups (libs : List (List UInt8)) (it : Fixup.ImportIt)
  | dyld (libs : List (List UInt8)) (it : DyldIt)
  | symbols (twolevel : Bool) (libs : List (List UInt8)) (left : List Nlist)

/-- `MachOImportIterator::next`, src/read/macho/import.rs:168-174. -/
def ImportIt.next (f : File) (data : List UInt8) : ImportIt → Res (Option Import) × ImportIt
  | .fixups libs it => ((fixupsNext libs it).1, .fixups libs (fixupsNext libs it).2)
  | .dyld libs it => ((it.next libs).1, .dyld libs (it.next libs).2)
  | .symbols twolevel libs left => ((symbolsNext f data twolevel libs left).1, .symbols twolevel libs (symbolsNext f data twolevel libs left).2)

/-- `MachOImportChainedFixups::new`, src/read/macho/import.rs:272-287; `linkedit_data` is the file (src/read/macho/file.rs:96). -/
def newFixups (f : File) (data : List UInt8) (c : Nat × Nat) : Res ImportIt :=
  (Fixup.chainedFixups f.cfg.en data c.1 c.2).bind fun x =>
    (x.imports f.cfg.en).bind fun it =>
      (libraries f data).bind fun libs => .ok (.fixups libs it)

/-- `MachOImportDyldInfo::new`, src/read/macho/import.rs:336-362, with src/read/macho/dyld_info.rs:16-57, 71-100. -/
def newDyld (f : File) (data : List UInt8) (c : DyldInfo) : Res ImportIt :=
  (ReadRef.readBytesAt data c.bindOff c.bindSize).bind fun b0 =>
    (ReadRef.readBytesAt data c.weakOff c.weakSize).bind fun b1 =>
      (ReadRef.readBytesAt data c.lazyOff c.lazySize).bind fun b2 =>
        (libraries f data).bind fun libs => .ok (.dyld libs ⟨[b0, b1, b2], 0, false, none, none, false⟩)

/-- `MachOImportSymbols::new`, src/read/macho/import.rs:206-223; `MH_TWOLEVEL = 0x80`. -/
def newSymbols (f : File) (data : List UInt8) : Res ImportIt :=
  let twolevel : Bool := f.header.flags &&& 0x80 = 0x80
  (if twolevel then libraries f data else .ok []).bind fun libs => .ok (.symbols twolevel libs f.symbols.symbols)

/-- The body of the loop of `MachOImportIterator::new`, src/read/macho/import.rs:151-155. -/
def importStep (en : Endianness) (b : Option (Nat × Nat) × Option DyldInfo) (c : LoadCommandData) : Res (Option (Nat × Nat) × Option DyldInfo) :=
  (chainedFixupsCmd en c).bind fun r => match r with
    | some x => .ok (some x, b.2)
    | none => (dyldInfoCmd en c).bind fun r => match r with
      | some x => .ok (b.1, some x)
      | none => .ok b

/-- `MachOImportIterator::new`, src/read/macho/import.rs:146-166. -/
def imports (f : File) (data : List UInt8) : Res ImportIt :=
  (loadCommands f.cfg f.header data).bind fun cs =>
    (forCommands f.cfg.en (importStep f.cfg.en) cs (none, none)).bind fun b =>
      match b.1 with
      | some c => newFixups f data c
      | none => match b.2 with
        | some c => newDyld f data c
        | none => newSymbols f data

/-! ## Exports -/

/-- `ExportTarget`, src/read/mod.rs:748-800, the variants of src/read/macho/export.rs. -/
inductive Target where
  | address (address : Nat)
  | absolute (value : Nat)
  | tlv (address : Nat)
  | resolver (resolver : Nat) (stub : Option Nat)
  | reexport (library name : List UInt8)
  deriving DecidableEq, Repr

/-- `Export`, src/read/mod.rs:678-683; the flags are `ExportFlags::None` or `ExportFlags::MachO`. -/
structure Export where
  name : List UInt8
  target : Target
  weak : Bool
  flags : Option (Nat × Nat)
  deriving DecidableEq, Repr

/-- `MachOFile::section_internal`, src/read/macho/file.rs:202-211. -/
def sectionInternal (f : File) (index : Nat) : Res SecInt :=
  if index = 0 then .err
  else match f.sections[index - 1]? with
    | some s => .ok s
    | none => .err

/-- The target of a symbol, if it is exported, src/read/macho/export.rs:191-223; `N_ABS = 2`, `N_INDR = 0xa`, `N_SECT = 0xe`,
`N_SYMBOL_RESOLVER = 0x100`, `S_THREAD_LOCAL_VARIABLES = 0x13`. -/
def symbolTarget (f : File) (data : List UInt8) (y : Nlist) : Res (Option Target) :=
  if MachoV.typ y = 2 then .ok (some (.absolute y.value))
  else if MachoV.typ y = 0xa then
    if y.value < U32 then
      match f.symbols.strings.get data y.value with
      | .ok name => .ok (some (.reexport [] name))
      | .err => .err
      | .panic => .panic
    else .err
  else if MachoV.typ y = 0xe then
    if y.desc &&& 0x100 = 0x100 then .ok (some (.resolver y.value none))
    else (sectionInternal f y.sect).bind fun s =>
      .ok (some (if s.sect.flags &&& 0xff = 0x13 then .tlv y.value else .address y.value))
  else .ok none

/-- The case `Symbols` of `MachOExportIterator::next`, src/read/macho/export.rs:175-236; the state is what is left of the symbols. -/
def exportSymbolsNext (f : File) (data : List UInt8) : List Nlist → Res (Option Export) × List Nlist
  | [] => (.ok none, [])
  | y :: ys =>
    if MachoV.isStab y ∨ MachoV.isExt y = false ∨ MachoV.isPext y then exportSymbolsNext f data ys
    else match f.symbols.name data y with
      | .err => (.err, ys)
      | .panic => (.panic, ys)
      | .ok name =>
        match symbolTarget f data y with
        | .err => (.err, ys)
        | .panic => (.panic, ys)
        | .ok none => exportSymbolsNext f data ys
        | .ok (some t) => (.ok (some ⟨name, t, y.desc &&& 0x80 = 0x80, some (y.typ, y.desc)⟩), ys)

/-- `wrapping_add`. -/
def wadd (a b : Nat) : Nat := (a + b) % U64

/-- The target of a symbol of the exports trie, src/read/macho/export.rs:120-166, and the libraries after it. -/
def trieTarget (f : File) (data : List UInt8) (imageBase : Nat) (libs : Option (List (List UInt8))) (y : Trie.ExportSymbol) :
    Res Target × Option (List (List UInt8)) :=
  match y.data with
  | .regular address =>
    (if y.flags &&& 3 = 2 then .ok (.absolute address)
     else if y.flags &&& 3 = 1 then .ok (.tlv (wadd imageBase address))
     else if y.flags &&& 3 = 0 then .ok (.address (wadd imageBase address))
     else .err, libs)
  | .stubAndResolver stub resolver =>
    (if y.flags &&& 3 ≠ 0 then .err
     else .ok (.resolver (wadd imageBase resolver) (some (wadd imageBase stub))), libs)
  | .reexport ordinal name =>
    let find (l : List (List UInt8)) : Res Target :=
      if ordinal = 0 then .err
      else match l[ordinal]? with
        | some x => .ok (.reexport x name)
        | none => .err
    match libs with
    | some l => (find l, some l)
    | none =>
      match libraries f data with
      | .ok l => (find l, some l)
      | .err => (.err, none)
      | .panic => (.panic, none)

/-- `MachOExportIteratorInternal`, src/read/macho/export.rs:31-47. -/
inductive ExportIt where
  | symbols (left : List Nlist)
  | trie (imageBase : Nat) (libs : Option (List (List UInt8))) (it : Trie.NodeIter)

/-- The case `ExportsTrie` of `MachOExportIterator::next`, src/read/macho/export.rs:111-174. -/
def trieNext (f : File) (data : List UInt8) (imageBase : Nat) (libs : Option (List (List UInt8))) (it : Trie.NodeIter) :
    Res (Option Export) × ExportIt :=
  match Trie.next it with
  | (.ok none, it) => (.ok none, .trie imageBase libs it)
  | (.err, it) => (.err, .trie imageBase libs it)
  | (.panic, it) => (.panic, .trie imageBase libs it)
  | (.ok (some y), it) =>
    match trieTarget f data imageBase libs y with
    | (.ok t, libs) => (.ok (some ⟨y.name, t, y.flags &&& 4 = 4, none⟩), .trie imageBase libs it)
    | (.err, libs) => (.err, .trie imageBase libs it)
    | (.panic, libs) => (.panic, .trie imageBase libs it)

/-- `MachOExportIterator::next`, src/read/macho/export.rs:109-239. -/
def ExportIt.next (f : File) (data : List UInt8) : ExportIt → Res (Option Export) × ExportIt
  | .symbols left => ((exportSymbolsNext f data left).1, .symbols (exportSymbolsNext f data left).2)
  | .trie imageBase libs it => trieNext f data imageBase libs it

/-- The body of the loop of `MachOExportIterator::new`, src/read/macho/export.rs:68-72. -/
def exportStep (en : Endianness) (b : Option (Nat × Nat) × Option DyldInfo) (c : LoadCommandData) : Res (Option (Nat × Nat) × Option DyldInfo) :=
  (exportsTrieCmd en c).bind fun r => match r with
    | some x => .ok (some x, b.2)
    | none => (dyldInfoCmd en c).bind fun r => match r with
      | some x => .ok (b.1, some x)
      | none => .ok b

/-- `image_base`, src/read/macho/export.rs:88-93; the name of a segment is the bytes before the first zero
(src/read/macho/segment.rs:245-251). -/
def imageBase (f : File) : Nat :=
  match f.segments.find? (fun s => upToNul s.segname = "__TEXT".toUTF8.toList) with
  | some s => s.vmaddr
  | none => 0

/-- `MachOExportIterator::new`, src/read/macho/export.rs:63-107.  The check of the command type in `exports_trie`
(src/read/macho/load_command.rs:531-533) never fails here. -/
def exports (f : File) (data : List UInt8) : Res ExportIt :=
  (loadCommands f.cfg f.header data).bind fun cs =>
    (forCommands f.cfg.en (exportStep f.cfg.en) cs (none, none)).bind fun b =>
      match b.1 with
      | some c => (ReadRef.readBytesAt data c.1 c.2).bind fun d => .ok (.trie (imageBase f) none (Trie.NodeIter.new d))
      | none => match b.2 with
        | some c => (ReadRef.readBytesAt data c.exportOff c.exportSize).bind fun d => .ok (.trie (imageBase f) none (Trie.NodeIter.new d))
        | none => .ok (.symbols f.symbols.symbols)

end Obj.MachoI

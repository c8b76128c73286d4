import Verif.Model.MachoImport
import Verif.Spec.Pe
import Verif.Spec.MachoFixup
import Verif.Spec.DyldInfo

/-!
# What the imports, exports and import libraries of a Mach-O file are

From the model only the types of results, the load command iterator (C27), the string table (C42), the bind operations (C25) and the
chained fixups (C81) are used.
-/

namespace Obj.Spec.MachoI
open Obj Obj.MachoR Obj.MachoI
open Obj.MachO (LoadCommands LoadCommandData)
open Obj.Spec.Pe (CStrAt)

/-- `cmds` are the load commands of the file, and `e` is how their list ends. -/
def Commands (f : File) (data : List UInt8) (cmds : List LoadCommandData) (e : End) : Prop :=
  ∃ cs, loadCommands f.cfg f.header data = .ok cs ∧ Runs (LoadCommands.next f.cfg.en) cs cmds e

/-! ## Libraries -/

/-- The commands that load a library: `LC_LOAD_DYLIB`, `LC_LOAD_WEAK_DYLIB`, `LC_REEXPORT_DYLIB`, `LC_LAZY_LOAD_DYLIB`,
`LC_LOAD_UPWARD_DYLIB`. -/
def IsDylib (c : LoadCommandData) : Prop := c.cmd ∈ [0xc, 0x80000018, 0x8000001f, 0x20, 0x80000023]

/-- The library command is complete and has a name: a string at the offset that the third word gives. -/
def NameIn (en : Endianness) (c : LoadCommandData) (name : List UInt8) : Prop :=
  24 ≤ c.data.length ∧ CStrAt c.data (field en c.data 8 4) name

/-- Whether the command is marked as having flags: the name is after them and the time stamp is `DYLIB_USE_MARKER`. -/
def Marked (en : Endianness) (c : LoadCommandData) : Prop := field en c.data 8 4 = 28 ∧ field en c.data 12 4 = 0x1a741800

/-- The flags of a library command. -/
inductive UseFlags (en : Endianness) (c : LoadCommandData) : Option Nat → Prop where
  | unmarked : ¬ Marked en c → UseFlags en c none
  | marked : Marked en c → 28 ≤ c.data.length → UseFlags en c (some (field en c.data 24 4))

/-- What a library command gives, if it is the `ordinal`-th. -/
inductive LibOut (en : Endianness) (ordinal : Nat) (c : LoadCommandData) : Res Library → Prop where
  | bad : ((¬ ∃ name, NameIn en c name) ∨ ¬ ∃ u, UseFlags en c u) → LibOut en ordinal c .err
  | item {name : List UInt8} {u : Option Nat} : NameIn en c name → UseFlags en c u →
      LibOut en ordinal c (.ok ⟨name, ordinal, c.cmd, field en c.data 16 4, field en c.data 20 4, u⟩)

/-- The libraries of a list of commands, if `n` come before them. -/
inductive Libraries (en : Endianness) : Nat → List LoadCommandData → List (Res Library) → Prop where
  | nil {n : Nat} : Libraries en n [] []
  | other {n : Nat} {c : LoadCommandData} {cs : List LoadCommandData} {xs : List (Res Library)} : ¬ IsDylib c → Libraries en n cs xs →
      Libraries en n (c :: cs) xs
  | dylib {n : Nat} {c : LoadCommandData} {cs : List LoadCommandData} {r : Res Library} {xs : List (Res Library)} : IsDylib c →
      LibOut en (n + 1) c r → Libraries en (n + 1) cs xs → Libraries en n (c :: cs) (r :: xs)

/-- All libraries of the commands have names, and these are the names. -/
inductive Names (en : Endianness) : List LoadCommandData → List (List UInt8) → Prop where
  | nil : Names en [] []
  | other {c : LoadCommandData} {cs : List LoadCommandData} {ls : List (List UInt8)} : ¬ IsDylib c → Names en cs ls → Names en (c :: cs) ls
  | dylib {c : LoadCommandData} {cs : List LoadCommandData} {name : List UInt8} {ls : List (List UInt8)} : IsDylib c → NameIn en c name →
      Names en cs ls → Names en (c :: cs) (name :: ls)

/-- The library with a number: numbers count from 1, and all others are no library. -/
inductive LibraryNo (libs : List (List UInt8)) : Int → List UInt8 → Prop where
  | special {d : Int} : d ≤ 0 → LibraryNo libs d []
  | lib {k : Nat} {l : List UInt8} : libs[k]? = some l → LibraryNo libs (k + 1) l

/-! ## Choice of the source -/

/-- `c` is the last command of some kind. -/
def LastIs (P : LoadCommandData → Prop) (cmds : List LoadCommandData) (c : LoadCommandData) : Prop :=
  ∃ pre post, cmds = pre ++ c :: post ∧ P c ∧ ∀ d ∈ post, ¬ P d

/-- `LC_DYLD_CHAINED_FIXUPS`. -/
def IsFixups (c : LoadCommandData) : Prop := c.cmd = 0x80000034
/-- `LC_DYLD_EXPORTS_TRIE`. -/
def IsTrie (c : LoadCommandData) : Prop := c.cmd = 0x80000033
/-- `LC_DYLD_INFO` or `LC_DYLD_INFO_ONLY`. -/
def IsDyldInfo (c : LoadCommandData) : Prop := c.cmd = 0x22 ∨ c.cmd = 0x80000022

/-- The commands of the kind `P`, with 16 bytes, and those for `dyld` info, with 48 bytes, are complete. -/
def Complete (P : LoadCommandData → Prop) (cmds : List LoadCommandData) : Prop :=
  ∀ c ∈ cmds, (P c → 16 ≤ c.data.length) ∧ (IsDyldInfo c → 48 ≤ c.data.length)

/-- The data that is `size` bytes long at `off`; an empty part is anywhere. -/
def PartIs (data : List UInt8) (off size : Nat) (part : List UInt8) : Prop :=
  (size = 0 ∧ part = []) ∨ (off + size ≤ data.length ∧ part = slice data off size)

/-! ## Imports -/

/-- `xs` are the results for the elements of a list of which each gives at most one. -/
inductive Outs {α β : Type} (P : α → Option β → Prop) : List α → List β → Prop where
  | nil : Outs P [] []
  | none {y : α} {ys : List α} {xs : List β} : P y none → Outs P ys xs → Outs P (y :: ys) xs
  | some {y : α} {x : β} {ys : List α} {xs : List β} : P y (some x) → Outs P ys xs → Outs P (y :: ys) (x :: xs)

/-- An import of the chained fixups: those from the file itself are left out. -/
inductive FixupOut (libs : List (List UInt8)) : Res Fixup.Import → Option (Res Import) → Prop where
  | bad : FixupOut libs .err (some .err)
  | self {i : Fixup.Import} : i.dylib = 0 → FixupOut libs (.ok i) none
  | noLibrary {i : Fixup.Import} : i.dylib ≠ 0 → (¬ ∃ l, LibraryNo libs i.dylib l) → FixupOut libs (.ok i) (some .err)
  | item {i : Fixup.Import} {l : List UInt8} : i.dylib ≠ 0 → LibraryNo libs i.dylib l →
      FixupOut libs (.ok i) (some (.ok ⟨l, i.name, i.weak, .bind i.dylib (if i.weak then 1 else 0)⟩))

/-- An undefined symbol: no debugging symbol, of type `N_UNDF`, and not common. -/
def Undefined (y : Nlist) : Prop := y.typ / 32 % 8 = 0 ∧ y.typ / 2 % 8 = 0 ∧ y.value = 0

/-- The library of an undefined symbol: its number is the high byte of `n_desc`, of which 0, 254 and 255 are special.  Without a two
level namespace there is none. -/
inductive SymbolLibrary (twolevel : Prop) (libs : List (List UInt8)) (desc : Nat) : List UInt8 → Prop where
  | flat : ¬ twolevel → SymbolLibrary twolevel libs desc []
  | special : twolevel → desc / 256 % 256 ∈ [0, 254, 255] → SymbolLibrary twolevel libs desc []
  | lib {k : Nat} {l : List UInt8} : twolevel → desc / 256 % 256 = k + 1 → k < 253 → libs[k]? = some l → SymbolLibrary twolevel libs desc l

/-- What a symbol gives. -/
inductive SymbolOut (f : File) (data : List UInt8) (twolevel : Prop) (libs : List (List UInt8)) (y : Nlist) : Option (Res Import) → Prop where
  | defined : ¬ Undefined y → SymbolOut f data twolevel libs y none
  | bad : Undefined y → ((¬ ∃ name, f.symbols.strings.get data y.strx = .ok name) ∨ ¬ ∃ l, SymbolLibrary twolevel libs y.desc l) →
      SymbolOut f data twolevel libs y (some .err)
  | item {name l : List UInt8} {weak : Bool} : Undefined y → f.symbols.strings.get data y.strx = .ok name →
      SymbolLibrary twolevel libs y.desc l → (weak = true ↔ y.desc / 64 % 2 = 1) →
      SymbolOut f data twolevel libs y (some (.ok ⟨l, name, weak, .symbol y.typ y.desc⟩))

/-- What has been set in a stream of bind operations: the library, and the symbol with its flags; `fresh` if the last symbol
that was set has not been used in a bind. -/
structure BState where
  dylib : Option Int
  symbol : Option (Nat × List UInt8)
  fresh : Bool

/-- The import of the first bind of a symbol. -/
inductive BindOut (libs : List (List UInt8)) (st : BState) : Option (Res Import) → Prop where
  | incomplete : st.dylib = none ∨ st.symbol = none → BindOut libs st (some .err)
  | self {sym : Nat × List UInt8} : st.symbol = some sym → st.dylib = some 0 → BindOut libs st none
  | noLibrary {d : Int} {sym : Nat × List UInt8} : st.symbol = some sym → st.dylib = some d → d ≠ 0 → (¬ ∃ l, LibraryNo libs d l) →
      BindOut libs st (some .err)
  | item {d : Int} {flags : Nat} {name l : List UInt8} {weak : Bool} : st.symbol = some (flags, name) → st.dylib = some d → d ≠ 0 →
      LibraryNo libs d l → (weak = true ↔ flags % 2 = 1) → BindOut libs st (some (.ok ⟨l, name, weak, .bind d flags⟩))

/-- The operations that bind something. -/
def Binds : Dyld.BindOp → Prop
  | .doBind | .doBindAddAddr _ | .doBindAddAddrScaled _ => True
  | .doBindTimesSkipping n _ => n ≠ 0
  | _ => False

/-- The library or the symbol after an operation. -/
def BState.after (st : BState) : Dyld.BindOp → BState
  | .setDylibOrdinal n => { st with dylib := some n }
  | .setDylibSpecial d => { st with dylib := some d }
  | .setSymbol flags name => { st with symbol := some (flags, name), fresh := true }
  | _ => st

/-- The imports of the rest of a stream, and whether the last symbol set is still unused at its end.  Only the lazy stream goes on
after `BIND_OPCODE_DONE`, without library and symbol.  A number of a library that does not fit is an error, but the stream goes on. -/
inductive Stream (libs : List (List UInt8)) (isLazy : Prop) : BState → List Dyld.BindOp → End → List (Res Import) → Bool → Prop where
  | stop {st : BState} : Stream libs isLazy st [] .done [] st.fresh
  | bad {st : BState} : Stream libs isLazy st [] .err [.err] st.fresh
  | done {st : BState} {ops : List Dyld.BindOp} {e : End} : ¬ isLazy → Stream libs isLazy st (.done :: ops) e [] st.fresh
  | lazyDone {st : BState} {ops : List Dyld.BindOp} {e : End} {xs : List (Res Import)} {b : Bool} : isLazy →
      Stream libs isLazy { st with dylib := none, symbol := none } ops e xs b → Stream libs isLazy st (.done :: ops) e xs b
  | ordinal {st : BState} {n : Nat} {ops : List Dyld.BindOp} {e : End} {xs : List (Res Import)} {b : Bool} : 2 ^ 31 ≤ n →
      Stream libs isLazy st ops e xs b → Stream libs isLazy st (.setDylibOrdinal n :: ops) e (.err :: xs) b
  | set {st : BState} {op : Dyld.BindOp} {ops : List Dyld.BindOp} {e : End} {xs : List (Res Import)} {b : Bool} : op ≠ .done → ¬ Binds op →
      (∀ n, op = .setDylibOrdinal n → n < 2 ^ 31) → Stream libs isLazy (st.after op) ops e xs b → Stream libs isLazy st (op :: ops) e xs b
  | again {st : BState} {op : Dyld.BindOp} {ops : List Dyld.BindOp} {e : End} {xs : List (Res Import)} {b : Bool} : Binds op →
      st.fresh = false → Stream libs isLazy st ops e xs b → Stream libs isLazy st (op :: ops) e xs b
  | first {st : BState} {op : Dyld.BindOp} {ops : List Dyld.BindOp} {e : End} {r : Option (Res Import)} {xs : List (Res Import)} {b : Bool} :
      Binds op → st.fresh = true → BindOut libs st r → Stream libs isLazy { st with fresh := false } ops e xs b →
      Stream libs isLazy st (op :: ops) e (r.toList ++ xs) b

/-- The imports of the streams for binds, weak binds and lazy binds.  The library of weak binds is
`BIND_SPECIAL_DYLIB_WEAK_LOOKUP` (-3) unless it is set. -/
def Streams (libs : List (List UInt8)) (s0 s1 s2 : List UInt8) (xs : List (Res Import)) : Prop :=
  ∃ ops0 e0 ops1 e1 ops2 e2 xs0 xs1 xs2 b0 b1 b2,
    Runs Dyld.bindOpNext s0 ops0 e0 ∧ Runs Dyld.bindOpNext s1 ops1 e1 ∧ Runs Dyld.bindOpNext s2 ops2 e2 ∧
    Stream libs False ⟨none, none, false⟩ (ops0.map (·.2)) e0 xs0 b0 ∧
    Stream libs False ⟨some (-3), none, b0⟩ (ops1.map (·.2)) e1 xs1 b1 ∧
    Stream libs True ⟨none, none, b1⟩ (ops2.map (·.2)) e2 xs2 b2 ∧ xs = xs0 ++ xs1 ++ xs2

/-- Whether the file has a two level namespace (`MH_TWOLEVEL`). -/
def TwoLevel (f : File) : Prop := f.header.flags / 128 % 2 = 1

/-- The imports of a file with the load commands `cmds`: those of the last chained fixups, or without any those of the last `dyld`
info, or without any those of the symbol table. -/
inductive ImportsAre (f : File) (data : List UInt8) (cmds : List LoadCommandData) : List (Res Import) → Prop where
  | fixups {c : LoadCommandData} {x : Fixup.Fixups} {libs : List (List UInt8)} {ys : List (Res Fixup.Import)} {xs : List (Res Import)} :
      LastIs IsFixups cmds c →
      Fixup.chainedFixups f.cfg.en data (field f.cfg.en c.data 8 4) (field f.cfg.en c.data 12 4) = .ok x →
      x.header.symbolsFormat = 0 → x.header.importsOffset ≤ x.data.length → x.header.symbolsOffset ≤ x.data.length →
      Names f.cfg.en cmds libs → Fixup.Imports f.cfg.en x 0 ys → Outs (FixupOut libs) ys xs → ImportsAre f data cmds xs
  | dyld {c : LoadCommandData} {s0 s1 s2 : List UInt8} {libs : List (List UInt8)} {xs : List (Res Import)} :
      (∀ d ∈ cmds, ¬ IsFixups d) → LastIs IsDyldInfo cmds c →
      PartIs data (field f.cfg.en c.data 16 4) (field f.cfg.en c.data 20 4) s0 →
      PartIs data (field f.cfg.en c.data 24 4) (field f.cfg.en c.data 28 4) s1 →
      PartIs data (field f.cfg.en c.data 32 4) (field f.cfg.en c.data 36 4) s2 →
      Names f.cfg.en cmds libs → Streams libs s0 s1 s2 xs → ImportsAre f data cmds xs
  | symbols {libs : List (List UInt8)} {xs : List (Res Import)} :
      (∀ d ∈ cmds, ¬ IsFixups d) → (∀ d ∈ cmds, ¬ IsDyldInfo d) → (TwoLevel f → Names f.cfg.en cmds libs) →
      Outs (SymbolOut f data (TwoLevel f) libs) f.symbols.symbols xs → ImportsAre f data cmds xs

/-! ## Exports -/

/-- A symbol that can be exported: no debugging symbol, external and not private external. -/
def Visible (y : Nlist) : Prop := y.typ / 32 % 8 = 0 ∧ y.typ % 2 = 1 ∧ y.typ / 16 % 2 = 0

/-- The section with a number that counts from 1 is of the type `S_THREAD_LOCAL_VARIABLES`, or it is not. -/
inductive InSection (f : File) (n : Nat) : Bool → Prop where
  | tlv {k : Nat} {s : SecInt} : n = k + 1 → f.sections[k]? = some s → s.sect.flags % 256 = 0x13 → InSection f n true
  | other {k : Nat} {s : SecInt} : n = k + 1 → f.sections[k]? = some s → s.sect.flags % 256 ≠ 0x13 → InSection f n false

/-- The target of a symbol by its type: `N_ABS` (1), `N_INDR` (5) or `N_SECT` (7). -/
inductive SymbolTarget (f : File) (data : List UInt8) (y : Nlist) : Target → Prop where
  | absolute : y.typ / 2 % 8 = 1 → SymbolTarget f data y (.absolute y.value)
  | indirect {name : List UInt8} : y.typ / 2 % 8 = 5 → y.value < 2 ^ 32 → f.symbols.strings.get data y.value = .ok name →
      SymbolTarget f data y (.reexport [] name)
  | resolver : y.typ / 2 % 8 = 7 → y.desc / 256 % 2 = 1 → SymbolTarget f data y (.resolver y.value none)
  | tlv : y.typ / 2 % 8 = 7 → y.desc / 256 % 2 = 0 → InSection f y.sect true → SymbolTarget f data y (.tlv y.value)
  | address : y.typ / 2 % 8 = 7 → y.desc / 256 % 2 = 0 → InSection f y.sect false → SymbolTarget f data y (.address y.value)

/-- What a symbol gives. -/
inductive SymbolExport (f : File) (data : List UInt8) (y : Nlist) : Option (Res Export) → Prop where
  | hidden : ¬ Visible y → SymbolExport f data y none
  | badName : Visible y → (¬ ∃ name, f.symbols.strings.get data y.strx = .ok name) → SymbolExport f data y (some .err)
  | badTarget {name : List UInt8} : Visible y → f.symbols.strings.get data y.strx = .ok name → y.typ / 2 % 8 ∈ [1, 5, 7] →
      (¬ ∃ t, SymbolTarget f data y t) → SymbolExport f data y (some .err)
  | otherType {name : List UInt8} : Visible y → f.symbols.strings.get data y.strx = .ok name → y.typ / 2 % 8 ∉ [1, 5, 7] →
      SymbolExport f data y none
  | item {name : List UInt8} {t : Target} {weak : Bool} : Visible y → f.symbols.strings.get data y.strx = .ok name → SymbolTarget f data y t →
      (weak = true ↔ y.desc / 128 % 2 = 1) → SymbolExport f data y (some (.ok ⟨name, t, weak, some (y.typ, y.desc)⟩))

/-- The address of the first segment named `__TEXT`, or 0. -/
inductive BaseIs (f : File) : Nat → Prop where
  | text {pre post : List Seg} {s : Seg} : f.segments = pre ++ s :: post → upToNul s.segname = "__TEXT".toUTF8.toList →
      (∀ t ∈ pre, upToNul t.segname ≠ "__TEXT".toUTF8.toList) → BaseIs f s.vmaddr
  | none : (∀ t ∈ f.segments, upToNul t.segname ≠ "__TEXT".toUTF8.toList) → BaseIs f 0

/-- The target of a symbol of the exports trie, for the libraries `libs` (if they can be read).  The kind is the low two bits of
the flags, and addresses are relative to `base` modulo 2^64. -/
inductive TrieTarget (base : Nat) (libs : Option (List (List UInt8))) (flags : Nat) : Trie.ExportData → Target → Prop where
  | address {a : Nat} : flags % 4 = 0 → TrieTarget base libs flags (.regular a) (.address ((base + a) % 2 ^ 64))
  | tlv {a : Nat} : flags % 4 = 1 → TrieTarget base libs flags (.regular a) (.tlv ((base + a) % 2 ^ 64))
  | absolute {a : Nat} : flags % 4 = 2 → TrieTarget base libs flags (.regular a) (.absolute a)
  | resolver {stub resolver : Nat} : flags % 4 = 0 →
      TrieTarget base libs flags (.stubAndResolver stub resolver) (.resolver ((base + resolver) % 2 ^ 64) (some ((base + stub) % 2 ^ 64)))
  | reexport {ls : List (List UInt8)} {k : Nat} {l name : List UInt8} : libs = some ls → ls[k]? = some l →
      TrieTarget base libs flags (.reexport (k + 1) name) (.reexport l name)

/-- What a symbol of the exports trie gives. -/
inductive TrieExport (base : Nat) (libs : Option (List (List UInt8))) (y : Trie.ExportSymbol) : Res Export → Prop where
  | bad : (¬ ∃ t, TrieTarget base libs y.flags y.data t) → TrieExport base libs y .err
  | item {t : Target} {weak : Bool} : TrieTarget base libs y.flags y.data t → (weak = true ↔ y.flags / 4 % 2 = 1) →
      TrieExport base libs y (.ok ⟨y.name, t, weak, none⟩)

/-- The exports trie of a file: that of the last command for it, or without any that of the last `dyld` info. -/
inductive TrieIs (f : File) (data : List UInt8) (cmds : List LoadCommandData) : List UInt8 → Prop where
  | command {c : LoadCommandData} {trie : List UInt8} : LastIs IsTrie cmds c →
      PartIs data (field f.cfg.en c.data 8 4) (field f.cfg.en c.data 12 4) trie → TrieIs f data cmds trie
  | dyld {c : LoadCommandData} {trie : List UInt8} : (∀ d ∈ cmds, ¬ IsTrie d) → LastIs IsDyldInfo cmds c →
      PartIs data (field f.cfg.en c.data 40 4) (field f.cfg.en c.data 44 4) trie → TrieIs f data cmds trie

/-- The elements of two lists are related one by one. -/
inductive Each {α β : Type} (P : α → β → Prop) : List α → List β → Prop where
  | nil : Each P [] []
  | cons {y : α} {x : β} {ys : List α} {xs : List β} : P y x → Each P ys xs → Each P (y :: ys) (x :: xs)

/-- The first calls of `next` give the results `xs`. -/
inductive Begins {σ α : Type} (next : σ → Res (Option α) × σ) : σ → List (Res α) → Prop where
  | nil {s : σ} : Begins next s []
  | item {s s' : σ} {x : α} {xs : List (Res α)} : next s = (.ok (some x), s') → Begins next s' xs → Begins next s (.ok x :: xs)
  | err {s s' : σ} {xs : List (Res α)} : next s = (.err, s') → Begins next s' xs → Begins next s (.err :: xs)

/-- The names of the libraries, if they can be read. -/
def NamesIf (en : Endianness) (cmds : List LoadCommandData) (libs : Option (List (List UInt8))) : Prop :=
  match libs with
  | some ls => Names en cmds ls
  | none => ¬ ∃ ls, Names en cmds ls

end Obj.Spec.MachoI

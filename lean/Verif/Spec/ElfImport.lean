import Verif.Model.ElfImport
import Verif.Spec.Note

/-! # What the imports, exports, libraries, build ID and debug links of an ELF file are -/

namespace Obj.Spec.ElfI
open Obj Obj.Elf

/-- The symbol at `index` has version `v` by the version table, if there is one.  Indices 0 and 1 (local and global) are no
version, as is a symbol that the version symbol table does not cover. -/
inductive VersionIs : Option VersionTable → Nat → Option Version → Prop where
  | noTable {i : Nat} : VersionIs none i none
  | uncovered {t : VersionTable} {i : Nat} : t.symbols[i]? = none → VersionIs (some t) i none
  | base {t : VersionTable} {i s : Nat} : t.symbols[i]? = some s → s % 0x8000 ≤ 1 → VersionIs (some t) i none
  | named {t : VersionTable} {i s : Nat} {v : Version} : t.symbols[i]? = some s → 1 < s % 0x8000 →
      t.versions[s % 0x8000]? = some v → v.valid = true → VersionIs (some t) i (some v)

/-- The symbol at `index` has its version marked hidden. -/
def Hidden : Option VersionTable → Nat → Prop
  | none, _ => False
  | some t, i => ∃ s, t.symbols[i]? = some s ∧ s / 0x8000 % 2 = 1

/-- What a dynamic symbol contributes to the imports: nothing, an error or an import. -/
inductive Imports (versions : Option VersionTable) (strings : StrTable) (data : List UInt8) (i : Nat) (y : Sym) : Option (Res Import) → Prop where
  | isDefined : y.shndx ≠ 0 → Imports versions strings data i y none
  | unnamed : y.shndx = 0 → strings.get data y.name = .ok [] → Imports versions strings data i y none
  | badName : y.shndx = 0 → strings.get data y.name = .err → Imports versions strings data i y (some .err)
  | badVersion {name : List UInt8} : y.shndx = 0 → strings.get data y.name = .ok name → name ≠ [] → (¬ ∃ v, VersionIs versions i v) →
      Imports versions strings data i y (some .err)
  | item {name library : List UInt8} {v : Option Version} {weak : Bool} : y.shndx = 0 → strings.get data y.name = .ok name → name ≠ [] →
      VersionIs versions i v → (weak = true ↔ y.info / 16 = 2) →
      (library = match v with | some ⟨_, _, _, some f⟩ => f | _ => []) →
      Imports versions strings data i y (some (.ok ⟨library, name, weak, y.info, y.other, v.map Version.name⟩))

/-- The target of an exported symbol by its section and type. -/
inductive TargetOf (y : Sym) : Target → Prop where
  | absolute : y.info % 16 ≤ 2 → y.shndx = 0xfff1 → TargetOf y (.absolute y.value)
  | address : y.info % 16 ≤ 2 → y.shndx ≠ 0xfff1 → TargetOf y (.address y.value)
  | tls : y.info % 16 = 6 → TargetOf y (.tls y.value)
  | resolver : y.info % 16 = 10 → TargetOf y (.resolver y.value)

/-- An exported symbol: not local, and in a section or absolute. -/
structure Exported (y : Sym) (t : Target) : Prop where
  notLocal : y.info / 16 ≠ 0
  place : (y.shndx ≠ 0 ∧ y.shndx < 0xff00) ∨ y.shndx = 0xffff ∨ y.shndx = 0xfff1
  target : TargetOf y t

/-- What a dynamic symbol contributes to the exports. -/
inductive Exports (versions : Option VersionTable) (strings : StrTable) (data : List UInt8) (i : Nat) (y : Sym) : Option (Res Export) → Prop where
  | no : (¬ ∃ t, Exported y t) → Exports versions strings data i y none
  | bad {t : Target} : Exported y t → (strings.get data y.name = .err ∨ ¬ ∃ v, VersionIs versions i v) → Exports versions strings data i y (some .err)
  | item {t : Target} {name : List UInt8} {v : Option Version} {weak hidden : Bool} : Exported y t → strings.get data y.name = .ok name →
      VersionIs versions i v → (weak = true ↔ y.info / 16 = 2) → (hidden = true ↔ Hidden versions i) →
      Exports versions strings data i y (some (.ok ⟨name, t, weak, y.info, y.other, v.map Version.name, hidden⟩))

/-- `outcomes` are those of the symbols after the null symbol. -/
def PerSymbol {β : Type} (P : Nat → Sym → Option β → Prop) (symbols : List Sym) (outcomes : List (Option β)) : Prop :=
  outcomes.length = symbols.length - 1 ∧
  ∀ (i : Nat) (y : Sym) (r : Option β), symbols[i + 1]? = some y → outcomes[i]? = some r → P (i + 1) y r

/-- The build ID note. -/
def IsBuildId (n : Note) : Prop := n.typ = 3 ∧ ∃ k, n.name = "GNU".toUTF8.toList ++ List.replicate k 0

/-- A place of notes (alignment and data, if it can be read) has only notes that are no build ID. -/
def NoBuildId (en : Endianness) : Res (Option (Nat × List UInt8)) → Prop
  | .ok none => True
  | .ok (some (a, d)) => ∃ ns stop, NotesFrom en a d 0 ns stop ∧ d.length ≤ stop ∧ ∀ n ∈ ns, ¬ IsBuildId n
  | _ => False

/-- A place of notes has `id` in its first build ID note. -/
def HasBuildId (en : Endianness) (id : List UInt8) : Res (Option (Nat × List UInt8)) → Prop
  | .ok (some (a, d)) => ∃ ns n stop, NotesFrom en a d 0 (ns ++ [n]) stop ∧ (∀ m ∈ ns, ¬ IsBuildId m) ∧ IsBuildId n ∧ n.desc = id
  | _ => False

end Obj.Spec.ElfI

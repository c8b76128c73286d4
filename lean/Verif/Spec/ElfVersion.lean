import Verif.Model.ElfVersion

/-! # ELF symbol versions: what can be written and what it means -/

namespace Obj.Spec.ElfVersionS
open Obj Obj.Elf

/-- The definition can be stored. -/
structure DefFits (v : WVerdef) : Prop where
  version : v.version < 2 ^ 16
  flags : v.flags < 2 ^ 16
  index : v.index < 2 ^ 16
  count : 1 + v.rest.length < 2 ^ 16
  hash : v.hash < 2 ^ 32
  names : ∀ n ∈ v.name :: v.rest, n < 2 ^ 32

/-- A definition written as shared is followed by a definition written in full with the same names. -/
def SharedOk : List WVerdef → Prop
  | [] => True
  | v :: vs => (v.shared = true → ∃ w ws, vs = w :: ws ∧ w.shared = false ∧ w.name = v.name ∧ w.rest = v.rest) ∧ SharedOk vs

/-- The auxiliary record of a requirement can be stored. -/
structure AuxFits (v : WVernaux) : Prop where
  flags : v.flags < 2 ^ 16
  index : v.index < 2 ^ 16
  name : v.name < 2 ^ 32
  hash : v.hash < 2 ^ 32

/-- The requirement can be stored. -/
structure NeedFits (v : WVerneed) : Prop where
  version : v.version < 2 ^ 16
  file : v.file < 2 ^ 32
  count : v.auxs.length < 2 ^ 16
  auxs : ∀ a ∈ v.auxs, AuxFits a

/-- The versions defined by `defs` and required by `needs`, with their indices, in order of appearance: the base
definition (flag 1) does not count, and neither do the reserved indices 0 and 1; the top bit of a required index is
ignored.  `str` gives the string at a string table offset. -/
def entries (str : Nat → List UInt8) (defs : List WVerdef) (needs : List WVerneed) : List (Nat × Version) :=
  ((defs.filter fun v => v.flags % 2 = 0 ∧ 2 ≤ v.index).map fun v => (v.index, ⟨str v.name, v.hash, true, none⟩)) ++
  needs.flatMap fun n => (n.auxs.filter fun a => 2 ≤ a.index % 2 ^ 15).map fun a =>
    (a.index % 2 ^ 15, ⟨str a.name, a.hash, true, some (str n.file)⟩)

/-- The version with the given index: the last one recorded for it. -/
def lookup (es : List (Nat × Version)) (index : Nat) : Option Version :=
  (es.reverse.find? fun e => e.1 == index).map Prod.snd

end Obj.Spec.ElfVersionS

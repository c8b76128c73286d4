import Verif.Model.RelocationMap

/-!
What applying relocations means, independently of the map.  A relocation is supported if it is absolute, has the generic encoding, and
refers to a symbol or section of the file.  Applied to a value, it gives S + A + value modulo 2^64 if the addend is in place, and S + A
otherwise; S is the address of the symbol or section, 0 for debug sections.
-/

namespace Obj.Spec.RMap

open Obj.RMap

/-- S: what the target of a relocation adds. -/
inductive Target (file : Objs) : RelTarget → Nat → Prop where
  | symbol {i a : Nat} : file.symbolAddress i = .ok a → Target file (.symbol i) a
  | section_ {i a : Nat} {k : SectionKind} : file.sectionAt i = .ok (k, a) → k ≠ .debug → Target file (.section_ i) a
  | debug {i a : Nat} : file.sectionAt i = .ok (.debug, a) → Target file (.section_ i) 0

/-- The relocation can be applied, and `s` is what its target adds. -/
def Supported (file : Objs) (r : Rel) (s : Nat) : Prop := r.kind = .absolute ∧ r.encoding = .generic ∧ Target file r.target s

/-- The relocations that do nothing. -/
def Ignored (r : Rel) : Prop := r.kind = .none

/-- The value after applying a relocation whose target adds `s`. -/
def applied (r : Rel) (s value : Nat) : Int := (s + r.addend + if r.implicitAddend then (value : Int) else 0) % 2 ^ 64

/-- The last supported relocation at an offset. -/
inductive LastAt (file : Objs) (offset : Nat) : List (Nat × Rel) → Rel → Nat → Prop where
  | intro {pre post : List (Nat × Rel)} {r : Rel} {s : Nat} : Supported file r s → (∀ r' s', (offset, r') ∈ post → ¬ Supported file r' s') →
      LastAt file offset (pre ++ (offset, r) :: post) r s

/-- All relocations are ignored or supported, the latter at different offsets. -/
def Acceptable (file : Objs) (rels : List (Nat × Rel)) : Prop :=
  (∀ p ∈ rels, Ignored p.2 ∨ ∃ s, Supported file p.2 s) ∧
  (rels.filter fun p => p.2.kind ≠ .none).Pairwise fun p q => p.1 ≠ q.1

/-- The file never panics, and its addresses have 64 bits. -/
structure Total (file : Objs) : Prop where
  symbol : ∀ i, file.symbolAddress i ≠ .panic
  section_ : ∀ i, file.sectionAt i ≠ .panic

end Obj.Spec.RMap

import Verif.Spec.WriteObject
import Verif.Spec.Note

/-!
# Specification of adding GNU properties to an object being built
-/

namespace Obj.W.Spec
open Obj Obj.Elf Obj.Spec

/-- The property with a 32-bit value, as in the GNU ABI: the value is stored in the byte order of the file. -/
def gnuProp (en : Endianness) (p : Nat × Nat) : GnuProperty := ⟨p.1, wr en 4 p.2⟩

/-- The note with one property: owner `"GNU"` (with its terminating zero), type `NT_GNU_PROPERTY_TYPE_0`,
and the property, padded to the address size, as descriptor. -/
def gnuNote (en : Endianness) (asz : Nat) (p : Nat × Nat) : Note :=
  ⟨5, ascii "GNU" ++ [0], propertyBytes en asz (gnuProp en p)⟩

/-- The alignment of the properties: 8 for 64-bit files and 4 for 32-bit files. -/
def gnuAlign (is64 : Bool) : Nat := if is64 then 8 else 4

/-- The object has a section with the name and kind of the GNU property section. -/
def HasProps (o : Object) : Prop := ∃ s ∈ o.sections, IsStd o .gnuProperty s

/-- The histories of an ELF object of architecture `a` in which the properties `ps` were added, in this
order, by `add_elf_gnu_property_u32`, and in which every other call neither changes a section of that name
and kind nor adds the first one, except that its id may be asked for. -/
inductive Added (a : Arch) (en : Endianness) : Object → List (Nat × Nat) → Prop where
  | new : Added a en (Object.new .elf a en) []
  | add {o o' : Object} {ps : List (Nat × Nat)} {p v : Nat} : Added a en o ps → p < 2 ^ 32 → v < 2 ^ 32 →
      o.addGnuProperty p v = .ok o' → Added a en o' (ps ++ [(p, v)])
  | get {o : Object} {ps : List (Nat × Nat)} : Added a en o ps → Added a en (o.sectionId .gnuProperty).2 ps
  | other {o o' : Object} {ps : List (Nat × Nat)} {op : Op} : Added a en o ps → step o op = some o' →
      (∀ (i : Nat) s, o.sections[i]? = some s → IsStd o .gnuProperty s → ¬ Touches o i op) →
      (HasProps o' → HasProps o) → Added a en o' ps

end Obj.W.Spec

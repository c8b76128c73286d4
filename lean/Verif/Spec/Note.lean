import Verif.Model.Note
import Verif.Spec.Buffer

/-! # Specification of ELF notes and GNU properties -/

namespace Obj.Spec
open Obj Obj.Elf

/-- The bytes of `data` at `pos` are the note `n` by the ELF rules (12-byte header with the sizes and the
type, name directly after it, descriptor at the next multiple of `align` counted from the header), and
the following note, if any, starts at `next`. -/
structure NoteAt (en : Endianness) (align : Nat) (data : List UInt8) (pos : Nat) (n : Note) (next : Nat) : Prop where
  header : pos + 12 ≤ data.length
  namesz : rd en (slice data pos 4) = n.name.length
  descsz : rd en (slice data (pos + 4) 4) = n.desc.length
  typ : rd en (slice data (pos + 8) 4) = n.typ
  name_in : pos + 12 + n.name.length ≤ data.length
  name : n.name = slice data (pos + 12) n.name.length
  desc_in : pos + roundUp (12 + n.name.length) align + n.desc.length ≤ data.length
  desc : n.desc = slice data (pos + roundUp (12 + n.name.length) align) n.desc.length
  next : next = pos + roundUp (roundUp (12 + n.name.length) align + n.desc.length) align

/-- Consecutive notes from `pos`, the next one (if any) being at `stop`. -/
inductive NotesFrom (en : Endianness) (align : Nat) (data : List UInt8) : Nat → List Note → Nat → Prop where
  | nil (pos : Nat) : NotesFrom en align data pos [] pos
  | cons {pos next stop : Nat} {n : Note} {ns : List Note} : pos < data.length → NoteAt en align data pos n next →
      NotesFrom en align data next ns stop → NotesFrom en align data pos (n :: ns) stop

/-- Zero padding up to a multiple of `align`. -/
def padTo (align : Nat) (l : List UInt8) : List UInt8 := l ++ List.replicate (roundUp l.length align - l.length) 0

/-- The bytes of a note by the ELF rules. -/
def noteBytes (en : Endianness) (align : Nat) (n : Note) : List UInt8 :=
  padTo align (padTo align (encode en [(4, n.name.length), (4, n.desc.length), (4, n.typ)] ++ n.name) ++ n.desc)

/-- The bytes of `data` at `pos` are the property `p`, and the next one starts at `next ≤ data.length`. -/
structure PropertyAt (en : Endianness) (align : Nat) (data : List UInt8) (pos : Nat) (p : GnuProperty) (next : Nat) : Prop where
  typ : rd en (slice data pos 4) = p.typ
  datasz : rd en (slice data (pos + 4) 4) = p.data.length
  content : p.data = slice data (pos + 8) p.data.length
  next_eq : next = pos + roundUp (8 + p.data.length) align
  next_in : next ≤ data.length

/-- Consecutive properties. -/
inductive PropertiesFrom (en : Endianness) (align : Nat) (data : List UInt8) : Nat → List GnuProperty → Nat → Prop where
  | nil (pos : Nat) : PropertiesFrom en align data pos [] pos
  | cons {pos next stop : Nat} {p : GnuProperty} {ps : List GnuProperty} : PropertyAt en align data pos p next →
      PropertiesFrom en align data next ps stop → PropertiesFrom en align data pos (p :: ps) stop

/-- The bytes of a property by the GNU ABI. -/
def propertyBytes (en : Endianness) (align : Nat) (p : GnuProperty) : List UInt8 :=
  padTo align (encode en [(4, p.typ), (4, p.data.length)] ++ p.data)

end Obj.Spec

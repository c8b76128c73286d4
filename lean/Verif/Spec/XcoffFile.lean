import Verif.Model.XcoffFile
import Verif.Spec.Xcoff

/-! XCOFF files as a whole: which bytes are one, and what the section names are. -/

namespace Obj.Spec.XcoffF

open Obj.Xcoff Obj.Spec.XcoffS

/-- The file has a full auxiliary header: it is an executable, and the size is right. -/
def HasAux (is64 : Bool) (h : Hdr) : Prop := h.flags.testBit 1 = true ∧ h.opthdr = if is64 then 120 else 72

instance (is64 : Bool) (h : Hdr) : Decidable (HasAux is64 h) := by unfold HasAux; infer_instance

/-- Where the auxiliary header starts. -/
def auxAt (is64 : Bool) : Nat := if is64 then 24 else 20

/-- `data` is the XCOFF file `f`. -/
structure Image (is64 : Bool) (data : List UInt8) (f : File) : Prop where
  class_ : f.is64 = is64
  header : HeaderAt is64 data f.header
  auxInside : HasAux is64 f.header → sectionsAt is64 f.header ≤ data.length
  aux : f.aux = if HasAux is64 f.header then some (field .big data (auxAt is64 + 44) 2, field .big data (auxAt is64 + 46) 2) else none
  count : f.sections.length = f.header.nscns
  sections : ∀ (i : Nat) (s : Sect), f.sections[i]? = some s → SectAt is64 data (sectionsAt is64 f.header + (if is64 then 72 else 40) * i) s
  symbols : TableAt is64 data f.header f.symbols

/-- A name in a field of 8 bytes ends at the first NUL, or fills the field. -/
def Named (s : Sect) (name : List UInt8) : Prop := (0 : UInt8) ∉ name ∧ (s.name = name ∨ ∃ rest, s.name = name ++ 0 :: rest)

/-- The relocation types whose meaning is known: kind and addend. -/
def relocTypes : List (Nat × RelocKind × Int) :=
  [(0x00, .absolute, 0), (0x08, .absolute, 0), (0x0c, .absolute, 0), (0x0d, .absolute, 0), (0x18, .absolute, 0), (0x20, .absolute, 0),
   (0x02, .relative, -4), (0x0a, .relative, -4), (0x1a, .relative, -4), (0x03, .got, 0), (0x30, .got, 0), (0x31, .got, 0)]

/-- What is reported for a record: the size is one more than the low six bits. -/
def Reports (r : Rel) (v : ViewReloc) : Prop :=
  v.offset = r.vaddr ∧ v.symbol = r.symndx ∧ v.size = r.rsize % 64 + 1 ∧
  ((r.rtype, v.kind, v.addend) ∈ relocTypes ∨ ((∀ k a, (r.rtype, k, a) ∉ relocTypes) ∧ v.kind = .unknown ∧ v.addend = 0))

/-- The records of the relocations of a section: there is no valid list if the 16-bit count overflowed or they are not in the file. -/
def RelocsOf (is64 : Bool) (data : List UInt8) (s : Sect) (rs : List Rel) : Prop :=
  ¬ (is64 = false ∧ s.nreloc = 65535) ∧ (s.nreloc = 0 ∨ s.relptr + (if is64 then 14 else 10) * s.nreloc ≤ data.length) ∧
  rs.length = s.nreloc ∧ ∀ (k : Nat) (r : Rel), rs[k]? = some r → RelAt is64 data (s.relptr + (if is64 then 14 else 10) * k) r

end Obj.Spec.XcoffF

import Verif.Model.Build

/-!
# Specification for the ELF builder
-/

namespace Obj.Build.Spec

open Obj Obj.Build

/-- Changes a user can make to a table: add an item (which gets the next id), change an item through
`get_mut`, or change all items in a `for item in &mut table` loop. -/
inductive TOp (α : Type) where
  | add (mk : Nat → α)
  | edit (i : Nat) (f : α → α)
  | editAll (f : α → α)

variable {α : Type} [Item α]

/-- The `id` field is private: new items hold the id they are given and no change affects it.  (Swapping two
whole items with `mem::swap` is not covered.) -/
def TOp.Valid : TOp α → Prop
  | .add mk => ∀ i, Item.id (mk i) = i
  | .edit _ f => ∀ x, Item.id (f x) = Item.id x
  | .editAll f => ∀ x, Item.id (f x) = Item.id x

/-- The change may affect the item with id `i`. -/
def TOp.Touches (i : Nat) : TOp α → Prop
  | .add _ => False
  | .edit j _ => j = i
  | .editAll _ => True

/-- One change, with the functions of the model. -/
def step (t : List α) : TOp α → Res (List α)
  | .add mk => .ok (push t (mk (nextId t)))
  | .edit i f => edit t i f
  | .editAll f => (forMut (fun (_ : Unit) x => .ok ((), f x)) () t).bind fun r => .ok r.2

/-- A history of changes. -/
def run : List α → List (TOp α) → Res (List α)
  | t, [] => .ok t
  | t, o :: os => (step t o).bind fun t => run t os

/-- The item with id `i` exists and is not deleted. -/
def Live (t : List α) (i : Nat) : Prop := ∃ x, t[i]? = some x ∧ Item.deleted x = false

/-- The symbol of a relocation, if it has one, is not deleted. -/
def RelLive (syms : List Sym) (r : Rel) : Prop := ∀ i, r.symbol = some i → Live syms i

/-- Every reference in the builder is to an existing item (deleted or not). -/
structure InRange (b : Builder) : Prop where
  segs : ∀ s ∈ b.segments, ∀ i ∈ s.sections, i < b.sections.length
  syms : ∀ s ∈ b.symbols, ∀ i, s.section_ = some i → i < b.sections.length
  dynSyms : ∀ s ∈ b.dynamicSymbols, ∀ i, s.section_ = some i → i < b.sections.length
  rels : ∀ c ∈ b.sections, ∀ l, c.data = .relocs l → ∀ r ∈ l, ∀ i, r.symbol = some i → i < b.symbols.length
  dynRels : ∀ c ∈ b.sections, ∀ l, c.data = .dynRelocs l → ∀ r ∈ l, ∀ i, r.symbol = some i →
    i < b.dynamicSymbols.length

/-- The section kind an automatic dynamic entry is generated from. -/
def autoNeeds : List (Int × SecData) :=
  [(6, .dynamicSymbol), (5, .dynamicString), (10, .dynamicString), (4, .hash), (0x6ffffef5, .gnuHash),
   (0x6ffffff0, .gnuVersym), (0x6ffffffe, .gnuVerneed), (0x6fffffff, .gnuVerneed),
   (0x6ffffffc, .gnuVerdef), (0x6ffffffd, .gnuVerdef)]

/-- A dynamic entry that needs a kind of section of which there is none that is not deleted. -/
def OrphanDyn (secs : List Sec) (d : Dyn) : Prop :=
  ∃ tag k, d = .auto tag ∧ (tag, k) ∈ autoNeeds ∧ ∀ c ∈ secs, c.data = k → c.delete = true

/-- No item that is not deleted refers to a deleted item. -/
structure NoOrphans (b : Builder) : Prop where
  segs : ∀ s ∈ b.segments, s.delete = false → ∀ i ∈ s.sections, Live b.sections i
  syms : ∀ s ∈ b.symbols, s.delete = false → ∀ i, s.section_ = some i → Live b.sections i
  dynSyms : ∀ s ∈ b.dynamicSymbols, s.delete = false → ∀ i, s.section_ = some i → Live b.sections i
  rels : ∀ c ∈ b.sections, c.delete = false → ∀ l, c.data = .relocs l → ∀ r ∈ l, ∀ i, r.symbol = some i →
    Live b.symbols i
  dynRels : ∀ c ∈ b.sections, c.delete = false → ∀ l, c.data = .dynRelocs l → ∀ r ∈ l, ∀ i, r.symbol = some i →
    Live b.dynamicSymbols i
  dyns : ∀ c ∈ b.sections, c.delete = false → ∀ l, c.data = .dynamic l → ∀ d ∈ l, ¬ OrphanDyn b.sections d

/-- The same item up to its deletion: deleted only if `p` holds. -/
def SymDeletedIf (p : Sym → Prop) (s s' : Sym) : Prop :=
  s' = { s with delete := s'.delete } ∧ (s'.delete = true ↔ s.delete = true ∨ p s)

/-- Two tables of the same length whose items are related one by one. -/
def Pointwise {α : Type} (R : α → α → Prop) (l l' : List α) : Prop :=
  l'.length = l.length ∧ ∀ (i : Nat) x, l[i]? = some x → ∃ y, l'[i]? = some y ∧ R x y

noncomputable section
open Classical

/-- What `delete_orphans` does to a segment: it loses the deleted sections, and is deleted if it had sections
and none is left. -/
def SegEffect (secs : List Sec) (s s' : Seg) : Prop :=
  s' = if s.delete = true ∨ s.sections = [] then s
    else { s with
      sections := s.sections.filter (fun i => decide (Live secs i)),
      delete := decide (s.sections.filter (fun i => decide (Live secs i)) = []) }

/-- What `delete_orphans` does to a symbol: it is deleted if its section is. -/
def SymEffect (secs : List Sec) : Sym → Sym → Prop :=
  SymDeletedIf fun s => ∃ i, s.section_ = some i ∧ ¬ Live secs i

/-- What `delete_orphans` does to a section: relocations for deleted symbols and automatic dynamic entries for
deleted sections are removed. -/
def SecEffect (syms dyns : List Sym) (secs : List Sec) (c c' : Sec) : Prop :=
  c' = if c.delete = true then c else
    { c with data := match c.data with
      | .relocs l => .relocs (l.filter fun r => decide (RelLive syms r))
      | .dynRelocs l => .dynRelocs (l.filter fun r => decide (RelLive dyns r))
      | .dynamic l => .dynamic (l.filter fun d => decide (¬ OrphanDyn secs d))
      | d => d }

end

/-- The symbol version is needed: by a dynamic symbol that is not deleted, or because it is the marker for
relative relocations. -/
def VerUsed (b : Builder) (v : Ver) : Prop :=
  (∃ s ∈ b.dynamicSymbols, s.delete = false ∧ s.version = v.id + 2) ∨
  ∃ file flags, v.data = .need file relrName flags

/-- The references that `delete_unused_versions` follows are to existing items. -/
structure VerInRange (b : Builder) : Prop where
  syms : ∀ s ∈ b.dynamicSymbols, s.delete = false → s.version < b.versions.length + 2
  files : ∀ v ∈ b.versions, v.delete = false → ∀ file name flags, v.data = .need file name flags →
    file < b.versionFiles.length
  verIds : ∀ (i : Nat) v, b.versions[i]? = some v → v.id = i
  fileIds : ∀ (i : Nat) f, b.versionFiles[i]? = some f → f.id = i

/-- The number of bytes a section takes in the file: none for `SHT_NOBITS` (8). -/
def fileBytes (c : Sec) : Nat := if c.shType = 8 then 0 else c.shSize

/-- A segment covers a section: the file range and the address range of the section are within those of the
segment.  (An empty section has no range.) -/
def Covers (s : Seg) (c : Sec) : Prop :=
  (fileBytes c ≠ 0 → s.pOffset ≤ c.shOffset ∧ c.shOffset + fileBytes c ≤ s.pOffset + s.pFilesz) ∧
  (c.shSize ≠ 0 → s.pVaddr ≤ c.shAddr ∧ c.shAddr + c.shSize ≤ s.pVaddr + s.pMemsz)

/-- Append sections to a segment one after the other: the segment and the changed sections. -/
def appendAll : Seg → List Sec → Res (Seg × List Sec)
  | s, [] => .ok (s, [])
  | s, c :: cs => (s.appendSection c).bind fun r => (appendAll r.1 cs).bind fun q => .ok (q.1, r.2 :: q.2)

/-- The offsets and the addresses of the sections do not decrease. -/
def Ordered (secs : List Sec) (ids : List Nat) : Prop :=
  ids.Pairwise fun i j => ∀ c d, secs[i]? = some c → secs[j]? = some d →
    c.shOffset ≤ d.shOffset ∧ c.shAddr ≤ d.shAddr

end Obj.Build.Spec

import Verif.Model.Coff
import Verif.Spec.FileKind

/-! # Vocabulary for the COFF properties -/

namespace Obj.Spec.CoffS
open Obj Obj.Coff

/-- The digits of base 64 numbers in section names, in order. -/
def alphabet : List UInt8 := "ABCDEFGHIJKLMNOPQRSTUVWXYZabcdefghijklmnopqrstuvwxyz0123456789+/".toUTF8.toList

/-- The number with the given digits, most significant first. -/
def digitsValue (base : Nat) (ds : List Nat) : Nat := ds.foldl (fun v d => v * base + d) 0

/-- The 8-byte name for a string table offset: `/` and up to 7 decimal digits, or `//` and 6 base 64 digits. -/
inductive IsLongName : Nat → List UInt8 → Prop where
  | decimal (ds : List Nat) : ds ≠ [] → ds.length ≤ 7 → (∀ d ∈ ds, d < 10) →
      IsLongName (digitsValue 10 ds) (47 :: (ds.map fun d => UInt8.ofNat (48 + d)) ++ List.replicate (7 - ds.length) 0)
  | base64 (ds : List Nat) : ds.length = 6 → (∀ d ∈ ds, d < 64) →
      IsLongName (digitsValue 64 ds) (47 :: 47 :: ds.map fun d => alphabet.getD d 0)

/-- Add a sequence of section or symbol names, one after the other: the names returned and the string table. -/
def addNames : StrTab → List (List UInt8) → List Name × StrTab
  | t, [] => ([], t)
  | t, s :: ss =>
    let r := addName t s
    let q := addNames r.2 ss
    (r.1 :: q.1, q.2)

/-- The relocation can be stored. -/
def RelocFits (r : Reloc) : Prop := r.virtualAddress < 2 ^ 32 ∧ r.symbol < 2 ^ 32 ∧ r.type < 2 ^ 16

instance (r : Reloc) : Decidable (RelocFits r) := by unfold RelocFits; infer_instance

/-- The fields of a section header given to the writer can be stored. -/
structure WSectionFits (s : WSection) : Prop where
  size : s.sizeOfRawData < 2 ^ 32
  pointer : s.pointerToRawData < 2 ^ 32
  relocs : s.pointerToRelocations < 2 ^ 32
  lines : s.pointerToLinenumbers < 2 ^ 32
  count : s.numberOfRelocations < 2 ^ 32
  flags : s.characteristics < 2 ^ 32

/-- What follows a symbol in the table. -/
inductive Aux where
  | none
  | file (name : List UInt8)
  | section (a : AuxSection)
  | weak (defaultIndex searchType : Nat)

/-- The number of auxiliary records. -/
def Aux.count : Aux → Nat
  | .none => 0
  | .file name => (name.length + 17) / 18
  | .section _ => 1
  | .weak _ _ => 1

/-- The auxiliary records can be stored.  A file name may have up to 255 records and may not contain NULs. -/
def Aux.Fits : Aux → Prop
  | .none => True
  | .file name => name.length ≤ 255 * 18 ∧ (0 : UInt8) ∉ name
  | .section a => a.length < 2 ^ 32 ∧ a.numberOfRelocations < 2 ^ 32 ∧ a.numberOfLinenumbers < 2 ^ 16 ∧ a.checkSum < 2 ^ 32 ∧
      a.number < 2 ^ 32 ∧ a.selection < 2 ^ 8
  | .weak d s => d < 2 ^ 32 ∧ s < 2 ^ 32

/-- A symbol as given to the writer (its 8-byte name field, see `C53_names`), and what follows it. -/
structure Entry where
  name : List UInt8
  value : Nat
  sectionNumber : Int
  typ : Nat
  storageClass : Nat
  aux : Aux

/-- The symbol can be stored in the small format: section numbers from 0xff00 on are reserved for special values. -/
structure Entry.Fits (e : Entry) : Prop where
  name : e.name.length = 8
  value : e.value < 2 ^ 32
  sectionNumber : -256 ≤ e.sectionNumber ∧ e.sectionNumber < 0xff00
  typ : e.typ < 2 ^ 16
  storageClass : e.storageClass < 2 ^ 8
  aux : e.aux.Fits

/-- The symbol to be read. -/
def Entry.symbol (e : Entry) : Symbol := ⟨e.name, e.value, e.sectionNumber, e.typ, e.storageClass, e.aux.count⟩

/-- The bytes the writer emits for a symbol and its auxiliary records (the name field given). -/
def Entry.bytes (t : StrTab) (e : Entry) : Res (List UInt8) :=
  (writeSymbol t ⟨.short e.name, e.value, e.sectionNumber, e.typ, e.storageClass,
    match e.aux with
    | .none => 0
    | .file name => auxFileNameCount name
    | .section _ => 1
    | .weak _ _ => 1⟩).bind fun sym =>
  match e.aux with
  | .none => .ok sym
  | .file name => (auxFileName name (auxFileNameCount name)).bind fun a => .ok (sym ++ a)
  | .section a => .ok (sym ++ auxSection a)
  | .weak d s => .ok (sym ++ auxWeak d s)

/-- The bytes of a list of symbols. -/
def entriesBytes (t : StrTab) : List Entry → Res (List UInt8)
  | [] => .ok []
  | e :: es => (e.bytes t).bind fun b => (entriesBytes t es).bind fun bs => .ok (b ++ bs)

/-- The symbols with their indices, from a given index on. -/
def indexed : Nat → List Entry → List (Nat × Entry)
  | _, [] => []
  | i, e :: es => (i, e) :: indexed (i + (1 + e.aux.count)) es

/-- The number of records of a list of symbols. -/
def records (es : List Entry) : Nat := (es.map fun e => 1 + e.aux.count).sum

/-- What must be read from the auxiliary records of the symbol at an index. -/
def AuxRead (t : SymTab) (index : Nat) : Aux → Prop
  | .none => True
  | .file name => t.auxFileName index ((name.length + 17) / 18) = .ok name
  | .section a => t.auxSection index = .ok ⟨a.length, min a.numberOfRelocations 0xffff, a.numberOfLinenumbers, a.checkSum,
      a.number % 2 ^ 16, a.selection⟩
  | .weak d s => t.auxWeak index = .ok (d, s)

/-! ## COMDAT groups -/

/-- The COMDAT group defined by a section symbol, given the symbols after it: it must have an auxiliary section record with a
selection other than none and associative, and the group symbol is the first later symbol in the same section. -/
def comdatOf (t : SymTab) (i : Nat) (s : Symbol) (post : List (Nat × Symbol)) : Option Comdat :=
  if 0 < s.auxCount ∧ s.storageClass = 3 ∧ s.typ = 0 ∧ 0 < s.sectionNumber then
    match t.auxSection i, post.find? fun p => p.2.sectionNumber == s.sectionNumber with
    | .ok aux, some p =>
      if aux.selection = 0 ∨ aux.selection = 5 then none
      else some ⟨p.1, p.2, s.sectionNumber.toNat, aux.selection⟩
    | _, _ => none
  else none

/-- The COMDAT groups of a list of symbols, in order. -/
def comdatsOf (t : SymTab) : List (Nat × Symbol) → List Comdat
  | [] => []
  | (i, s) :: post => (comdatOf t i s post).toList ++ comdatsOf t post

/-- A section symbol makes its section part of the group of section `n`: it is the section itself (selected somehow), or is
associated with it. -/
def InGroup (n : Nat) (s : Symbol) (aux : AuxSection) : Prop :=
  if aux.selection = 5 then aux.number = n else aux.selection ≠ 0 ∧ s.sectionNumber = n

instance (n : Nat) (s : Symbol) (aux : AuxSection) : Decidable (InGroup n s aux) := by unfold InGroup; infer_instance

/-- The sections of the group of section `n`; a section symbol without its auxiliary record ends the table. -/
def comdatSectionsOf (t : SymTab) (n : Nat) : List (Nat × Symbol) → List Nat
  | [] => []
  | (i, s) :: post =>
    if 0 < s.auxCount ∧ s.storageClass = 3 ∧ s.typ = 0 ∧ 0 < s.sectionNumber then
      match t.auxSection i with
      | .ok aux => if InGroup n s aux then s.sectionNumber.toNat :: comdatSectionsOf t n post else comdatSectionsOf t n post
      | _ => []
    else comdatSectionsOf t n post

end Obj.Spec.CoffS

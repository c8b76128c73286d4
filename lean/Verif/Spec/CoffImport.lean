import Verif.Model.CoffImport

/-! # The layout of COFF short import files, all fields little endian -/

namespace Obj.Spec.CoffImportS
open Obj Obj.CoffImport

/-- The undecorated name: without one leading `?`, `@` or `_`. -/
inductive Stripped : List UInt8 → List UInt8 → Prop where
  | prefixed {c : UInt8} {s : List UInt8} : c ∈ "?@_".toUTF8.toList → Stripped (c :: s) s
  | plain {s : List UInt8} : (∀ c ∈ s.head?, c ∉ "?@_".toUTF8.toList) → Stripped s s

/-- The part before the first `@`, or everything. -/
def UpToAt (s t : List UInt8) : Prop := (0x40 : UInt8) ∉ t ∧ (s = t ∨ ∃ u, s = t ++ 0x40 :: u)

/-- What is imported, by the name type: an ordinal, the symbol, the symbol without prefix, also cut at `@`, or an explicit name. -/
inductive Imports (ordinal : Nat) (symbol : List UInt8) (explicit : Option (List UInt8)) : Nat → Name → Prop where
  | ordinal : Imports ordinal symbol explicit 0 (.ordinal ordinal)
  | name : Imports ordinal symbol explicit 1 (.name symbol)
  | noPrefix {t : List UInt8} : Stripped symbol t → Imports ordinal symbol explicit 2 (.name t)
  | undecorated {t u : List UInt8} : Stripped symbol t → UpToAt t u → Imports ordinal symbol explicit 3 (.name u)
  | exportAs {t : List UInt8} : explicit = some t → Imports ordinal symbol explicit 4 (.name t)

/-- The kind of import by number. -/
def kindNumber : Kind → Nat
  | .code => 0
  | .data => 1
  | .const => 2

/-- `f` is the import file in `data`: a header of 20 bytes and the strings. -/
structure FileIn (data : List UInt8) (f : File) : Prop where
  inside : 20 + field .little data 12 4 ≤ data.length
  sig1 : field .little data 0 2 = 0
  sig2 : field .little data 2 2 = 0xffff
  version : field .little data 4 2 = 0
  header : f.header = ⟨0, 0xffff, 0, field .little data 6 2, field .little data 8 4, field .little data 12 4, field .little data 16 2,
    field .little data 18 2⟩
  kind : field .little data 18 2 % 4 = kindNumber f.kind
  strings : ∃ explicit rest, (0 : UInt8) ∉ f.symbol ∧ (0 : UInt8) ∉ f.dll ∧
    slice data 20 (field .little data 12 4) = f.symbol ++ [0] ++ f.dll ++ [0] ++ rest ∧
    (field .little data 18 2 / 4 % 8 = 4 → ∃ s tl, explicit = some s ∧ (0 : UInt8) ∉ s ∧ rest = s ++ 0 :: tl) ∧
    Imports (field .little data 16 2) f.symbol explicit (field .little data 18 2 / 4 % 8) f.importName

/-- The bytes of an import file. -/
def image (machine time ordinal kind nameType : Nat) (symbol dll : List UInt8) (explicit : List UInt8) : List UInt8 :=
  let strings := symbol ++ [0] ++ dll ++ [0] ++ if nameType = 4 then explicit ++ [0] else []
  wr .little 2 0 ++ wr .little 2 0xffff ++ wr .little 2 0 ++ wr .little 2 machine ++ wr .little 4 time ++ wr .little 4 strings.length ++
    wr .little 2 ordinal ++ wr .little 2 (kind + 4 * nameType) ++ strings

end Obj.Spec.CoffImportS

import Verif.Model.WriteString

/-! # What a written string table must contain -/

namespace Obj.Spec
open Obj

/-- `s` followed by a NUL starts at position `p` of `data`. -/
def StringAt (data s : List UInt8) (p : Nat) : Prop :=
  ∃ x y, data = x ++ s ++ 0 :: y ∧ x.length = p

/-- Add a sequence of strings to a table, one after the other. -/
def addAll (t : StrTab) (ss : List (List UInt8)) : StrTab := ss.foldl (fun t s => (t.add s).2) t

/-- `s` is not a proper suffix of any string of the set, and is not empty. -/
def Maximal (ss : List (List UInt8)) (s : List UInt8) : Prop :=
  s ≠ [] ∧ ∀ t ∈ ss, s <:+ t → t = s

instance (ss : List (List UInt8)) (s : List UInt8) : Decidable (Maximal ss s) := by
  unfold Maximal; infer_instance

/-- Total size of a set of strings each stored with its terminator. -/
def storedSize (ss : List (List UInt8)) : Nat := (ss.map fun s => s.length + 1).sum

end Obj.Spec

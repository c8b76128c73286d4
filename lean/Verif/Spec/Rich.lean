import Verif.Spec.FileKind
import Verif.Model.Rich

/-! # The PE "Rich" header -/

namespace Obj.Spec
open Obj

/-- `off` is the first offset that is a multiple of 4 at which `needle` occurs in `d`. -/
def FirstAligned (d needle : List UInt8) (off : Nat) : Prop :=
  off % 4 = 0 ∧ At d off needle ∧ ∀ o < off, o % 4 = 0 → ¬ At d o needle

/-- The start of a rich header masked with `key`: "DanS" and three zero words. -/
def richStart (key : Nat) : List UInt8 :=
  wr .little 4 (rd .little "DanS".toUTF8.toList ^^^ key) ++ wr .little 4 (0 ^^^ key) ++ wr .little 4 (0 ^^^ key) ++
    wr .little 4 (0 ^^^ key)

/-- A whole rich header. -/
def richBytes (key : Nat) (entries : List (Nat × Nat)) : List UInt8 :=
  richStart key ++ entries.flatMap (fun e => wr .little 4 (e.1 ^^^ key) ++ wr .little 4 (e.2 ^^^ key)) ++
    ("Rich".toUTF8.toList ++ wr .little 4 key)

end Obj.Spec

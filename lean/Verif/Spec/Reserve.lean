import Verif.Model.Reserve
import Verif.Spec.Buffer

/-! # When a list of reserved ranges is a proper layout -/

namespace Obj.Spec
open Obj Obj.Reserve

/-- Zero (no requirement) or a power of two below 2^64. -/
def AlignOk (a : Nat) : Prop := a = 0 ∨ ∃ k, k < 64 ∧ a = 2 ^ k

/-- The ranges lie in `[start, stop)`, each starts at a multiple of its alignment, and each starts at or
after the end of all earlier ones. -/
structure LaidOut (start stop : Nat) (rs : List Range) : Prop where
  inside : ∀ r ∈ rs, start ≤ r.offset ∧ r.offset + r.size ≤ stop
  aligned : ∀ r ∈ rs, r.align ≠ 0 → r.offset % r.align = 0
  ordered : rs.Pairwise fun a b => a.offset + a.size ≤ b.offset

end Obj.Spec

import Verif.Model.WriteUtil

/-! # What a sequence of buffer operations should produce -/

namespace Obj.Spec
open Obj

/-- Least multiple of `p` that is at least `n` (for `p > 0`, see `C12`). -/
def roundUp (n p : Nat) : Nat := (n + (p - 1)) / p * p

/-- The output after one operation, when `out` was written before: bytes are appended, padding is
zero bytes up to the requested length or the next multiple. -/
def outOp (out : List UInt8) : WOp → List UInt8
  | .bytes val => out ++ val
  | .zeros n => out ++ List.replicate n 0
  | .resize n => out ++ List.replicate (n - out.length) 0
  | .align p => out ++ List.replicate (roundUp out.length p - out.length) 0

/-- The output after a sequence of operations. -/
def outOps (out : List UInt8) (ops : List WOp) : List UInt8 := ops.foldl outOp out

/-- An operation a client may legitimately request when `len` bytes have been written: `resize` never
shrinks, alignments are powers of two. -/
def okOp (len : Nat) : WOp → Prop
  | .bytes _ => True
  | .zeros _ => True
  | .resize n => len ≤ n
  | .align p => ∃ k, k < 64 ∧ p = 2 ^ k

/-- Every operation of the sequence is legitimate when reached and leaves less than `limit` bytes. -/
def okOps (limit : Nat) : List UInt8 → List WOp → Prop
  | _, [] => True
  | out, o :: os => okOp out.length o ∧ (outOp out o).length < limit ∧ okOps limit (outOp out o) os

end Obj.Spec

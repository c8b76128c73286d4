import Verif.Model.Pod

/-! # Specification: typed views of bytes in memory -/

namespace Obj.Pod

/-- What Rust guarantees of the layout of a type: the alignment is not 0, and the size is a multiple of it. -/
def Ty.Layout (t : Ty) : Prop := 0 < t.align ∧ t.align ∣ t.size

/-- The addresses of a range of bytes. -/
def Bs.Holds (d : Bs) (x : Nat) : Prop := d.addr ≤ x ∧ x < d.addr + d.len

/-- A slice of bytes that can exist: its length fits `usize`. -/
def Bs.Valid (d : Bs) : Prop := d.len < 2 ^ 64

/-- A slice of values that can exist: aligned, and its size in bytes fits `usize`. -/
def Ts.Valid (t : Ty) (v : Ts) : Prop := t.align ∣ v.addr ∧ v.count * t.size < 2 ^ 64

/-- The bytes of element `k`. -/
def Ts.elem (t : Ty) (v : Ts) (k : Nat) : Bs := ⟨v.addr + k * t.size, t.size⟩

abbrev Mem := Nat → UInt8

/-- The bytes of a range. -/
def read (m : Mem) (d : Bs) : List UInt8 := (List.range d.len).map (fun i => m (d.addr + i))

/-- Store bytes at an address. -/
def store (m : Mem) (a : Nat) (bytes : List UInt8) : Mem :=
  fun x => if h : a ≤ x ∧ x - a < bytes.length then bytes[x - a]'h.2 else m x

/-- It is safe to use `v` as a slice of `t` in `d` and `tail` as the rest: the elements are aligned and in `d`, they do not overlap each
other or the tail, and together with the tail they are all of `d`. -/
structure Safe (t : Ty) (d : Bs) (v : Ts) (tail : Bs) : Prop where
  aligned : ∀ k < v.count, t.align ∣ (v.elem t k).addr
  inside : ∀ x, d.Holds x ↔ (∃ k < v.count, (v.elem t k).Holds x) ∨ tail.Holds x
  once : ∀ k < v.count, ∀ l < v.count, k ≠ l → ∀ x, (v.elem t k).Holds x → ¬ (v.elem t l).Holds x
  tailApart : ∀ k < v.count, ∀ x, (v.elem t k).Holds x → ¬ tail.Holds x

end Obj.Pod

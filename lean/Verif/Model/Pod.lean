/-!
# Model of `src/pod.rs`

The functions cast pointers, so the model has addresses: a slice of bytes is its address and length (`usize` has 64 bits, as in the rest of
the model), a slice of a type is its address and number of elements, and a type is its size and alignment.  A reference to one value is its
address.  The error `()` is `none`; `Panic` is modelled where a called function could panic.
-/

namespace Obj.Pod

/-- `mem::size_of` and `mem::align_of` of a type. -/
structure Ty where
  size : Nat
  align : Nat

/-- `&[u8]` or `&mut [u8]`. -/
structure Bs where
  addr : Nat
  len : Nat
  deriving DecidableEq

/-- `&[T]` or `&mut [T]`. -/
structure Ts where
  addr : Nat
  count : Nat
  deriving DecidableEq

/-- The results: a panic, the error `()`, or a value. -/
inductive Out (α : Type) where
  | panic
  | err
  | ok (a : α)
  deriving DecidableEq

/-- `data.get(size..)`. -/
def getFrom (d : Bs) (size : Nat) : Option Bs := if size ≤ d.len then some ⟨d.addr + size, d.len - size⟩ else none

/-- `data.split_at_mut(mid)`, which panics if `mid` is larger than the length. -/
def splitAtMut (d : Bs) (mid : Nat) : Out (Bs × Bs) :=
  if mid ≤ d.len then .ok (⟨d.addr, mid⟩, ⟨d.addr + mid, d.len - mid⟩) else .panic

/-- `usize::checked_mul`. -/
def checkedMul (a b : Nat) : Option Nat := if a * b < 2 ^ 64 then some (a * b) else none

/-- `from_bytes`, src/pod.rs:33-45. -/
def fromBytes (t : Ty) (d : Bs) : Out (Nat × Bs) :=
  match getFrom d t.size with
  | none => .err
  | some tail => if d.addr % t.align ≠ 0 then .err else .ok (d.addr, tail)

/-- `from_bytes_mut`, src/pod.rs:53-68. -/
def fromBytesMut (t : Ty) (d : Bs) : Out (Nat × Bs) :=
  if t.size > d.len then .err
  else match splitAtMut d t.size with
    | .ok (data, tail) => if data.addr % t.align ≠ 0 then .err else .ok (data.addr, tail)
    | .err => .err
    | .panic => .panic

/-- `slice_from_bytes`, src/pod.rs:76-88. -/
def sliceFromBytes (t : Ty) (d : Bs) (count : Nat) : Out (Ts × Bs) :=
  match checkedMul count t.size with
  | none => .err
  | some size =>
    match getFrom d size with
    | none => .err
    | some tail => if d.addr % t.align ≠ 0 then .err else .ok (⟨d.addr, count⟩, tail)

/-- `slice_from_bytes_mut`, src/pod.rs:96-114. -/
def sliceFromBytesMut (t : Ty) (d : Bs) (count : Nat) : Out (Ts × Bs) :=
  match checkedMul count t.size with
  | none => .err
  | some size =>
    if size > d.len then .err
    else match splitAtMut d size with
      | .ok (data, tail) => if data.addr % t.align ≠ 0 then .err else .ok (⟨data.addr, count⟩, tail)
      | .err => .err
      | .panic => .panic

/-- `slice_from_all_bytes`, src/pod.rs:128-135.  `size_of_nonzero` (158-162) is checked when the code is compiled. -/
def sliceFromAllBytes (t : Ty) (d : Bs) : Out Ts :=
  match sliceFromBytes t d (d.len / t.size) with
  | .ok (slice, tail) => if tail.len ≠ 0 then .err else .ok slice
  | .err => .err
  | .panic => .panic

/-- `slice_from_all_bytes_mut`, src/pod.rs:149-156. -/
def sliceFromAllBytesMut (t : Ty) (d : Bs) : Out Ts :=
  match sliceFromBytesMut t d (d.len / t.size) with
  | .ok (slice, tail) => if tail.len ≠ 0 then .err else .ok slice
  | .err => .err
  | .panic => .panic

/-- `bytes_of` and `bytes_of_mut`, src/pod.rs:166-184. -/
def bytesOf (t : Ty) (a : Nat) : Bs := ⟨a, t.size⟩

/-- `bytes_of_slice` and `bytes_of_slice_mut`, src/pod.rs:188-206 (`wrapping_mul`). -/
def bytesOfSlice (t : Ty) (v : Ts) : Bs := ⟨v.addr, v.count * t.size % 2 ^ 64⟩

end Obj.Pod

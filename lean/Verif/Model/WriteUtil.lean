import Verif.Base

/-!
# Model of `src/write/util.rs`: LEB128 writers, alignment, and the output buffers.
-/

namespace Obj

/-- Loop of `write_uleb128`, src/write/util.rs:302-316.  `buf` and `len` are the loop state. -/
def writeUlebLoop (buf : List UInt8) (len val : Nat) : List UInt8 × Nat :=
  let byte := UInt8.ofNat (val &&& 0x7f)
  let val' := val >>> 7
  if h : val' = 0 then (buf ++ [byte], len + 1)
  else writeUlebLoop (buf ++ [byte ||| 0x80]) (len + 1) val'
termination_by val
decreasing_by
  simp only [Nat.shiftRight_eq_div_pow] at h ⊢
  omega

/-- `write_uleb128`, src/write/util.rs:300-317: appended buffer and returned length.
(The buffer is pushed to byte by byte.) -/
def writeUleb (buf : List UInt8) (val : Nat) : List UInt8 × Nat := writeUlebLoop buf 0 val

/-- Loop of `write_sleb128`, src/write/util.rs:325-344. `val >>= 6` on `i64` is an arithmetic shift. -/
def writeSlebLoop (buf : List UInt8) (len : Nat) (val : Int) : List UInt8 × Nat :=
  let byte := UInt8.ofNat (val % 256).toNat
  let val' := val >>> 6
  if h : val' = 0 ∨ val' = -1 then (buf ++ [byte &&& ~~~0x80], len + 1)
  else writeSlebLoop (buf ++ [byte ||| 0x80]) (len + 1) (val' >>> 1)
termination_by val.natAbs
decreasing_by
  have h1 : val >>> 6 = val / 64 := by simp [Int.shiftRight_eq_div_pow]
  have h2 : ∀ x : Int, x >>> 1 = x / 2 := by intro x; simp [Int.shiftRight_eq_div_pow]
  have h3 : ¬ (val >>> 6 = 0 ∨ val >>> 6 = -1) := h
  show ((val >>> 6) >>> 1).natAbs < val.natAbs
  rw [h2]
  rw [h1] at h3 ⊢
  omega

/-- `write_sleb128`, src/write/util.rs:323-345. -/
def writeSleb (buf : List UInt8) (val : Int) : List UInt8 × Nat := writeSlebLoop buf 0 val

/-- `write::util::align`, src/write/util.rs:353-355 (`u64`). `size - 1` and the addition panic on
overflow in debug builds; `!x` is `U64 - 1 - x`. -/
def align64 (offset size : Nat) : Res Nat :=
  if size = 0 then .panic
  else if U64 ≤ offset + (size - 1) then .panic
  else .ok ((offset + (size - 1)) &&& (U64 - 1 - (size - 1)))

/-- `write::util::align_u32`, src/write/util.rs:348-350. -/
def align32 (offset size : Nat) : Res Nat :=
  if size = 0 then .panic
  else if U32 ≤ offset + (size - 1) then .panic
  else .ok ((offset + (size - 1)) &&& (U32 - 1 - (size - 1)))

/-! ## Buffers -/

/-- `trait WritableBuffer`, src/write/util.rs:14-34, as a record of operations on a state. -/
structure WBuf (β : Type) where
  reserve : β → Nat → Res β
  writeBytes : β → List UInt8 → Res β
  writeZeros : β → Nat → Res β

/-- Default `write_zeros`, src/write/util.rs:27-33. -/
def defaultWriteZeros {β : Type} (writeBytes : β → List UInt8 → Res β) (b : β) (additional : Nat) :
    Res β :=
  if 0 < additional then
    let amt := min additional 1024
    match writeBytes b ((List.replicate 1024 0).take amt) with
    | .ok b' => defaultWriteZeros writeBytes b' (additional - amt)
    | .err => .err
    | .panic => .panic
  else .ok b
termination_by additional

/-- `WritableBuffer for Vec<u8>`, src/write/util.rs:180-199.  Capacity is not modelled. -/
def vecBuf : WBuf (List UInt8) where
  reserve v _ := if v.isEmpty then .ok v else .panic
  writeBytes v val := .ok (v ++ val)
  writeZeros v n := .ok (v ++ List.replicate n 0)

/-- `WritableBuffer for &mut [u8]`, src/write/util.rs:206-228.  The state is the pair of the part
already written and the part still to be written of the caller's slice; `split_at_mut` panics when
there is not enough room. -/
def sliceBuf : WBuf (List UInt8 × List UInt8) where
  reserve s size := if s.2.length < size then .err else .ok s
  writeBytes s val :=
    if s.2.length < val.length then .panic else .ok (s.1 ++ val, s.2.drop val.length)
  writeZeros s n :=
    if s.2.length < n then .panic else .ok (s.1 ++ List.replicate n 0, s.2.drop n)

/-- State of `StreamingBuffer<W>`, src/write/util.rs:239-242. `failed` is `result.is_err()`. -/
structure Streaming (τ : Type) where
  writer : τ
  failed : Bool

/-- `WritableBuffer for StreamingBuffer<W>`, src/write/util.rs:282-294; `writeAll` is
`io::Write::write_all` of the underlying writer: whether it succeeded, and its new state. -/
def streamBuf {τ : Type} (writeAll : τ → List UInt8 → Bool × τ) : WBuf (Streaming τ) where
  reserve s _ := .ok s
  writeBytes s val :=
    if s.failed then .ok s
    else
      let r := writeAll s.writer val
      .ok { writer := r.2, failed := !r.1 }
  writeZeros := defaultWriteZeros fun s val =>
    if s.failed then .ok s
    else
      let r := writeAll s.writer val
      .ok { writer := r.2, failed := !r.1 }

/-- `StreamingBuffer::result`, src/write/util.rs:260-262: returns whether an error was recorded and
clears it. -/
def Streaming.result {τ : Type} (s : Streaming τ) : Bool × Streaming τ :=
  (s.failed, { s with failed := false })

/-- State of `CountingBuffer<W>`, src/write/util.rs:112-115. -/
structure Counting (β : Type) where
  buffer : β
  count : Nat

/-- `WritableBuffer for CountingBuffer<W>`, src/write/util.rs:155-172. -/
def countingBuf {β : Type} (w : WBuf β) : WBuf (Counting β) where
  reserve c size := match w.reserve c.buffer size with
    | .ok b => .ok { c with buffer := b }
    | .err => .err
    | .panic => .panic
  writeBytes c val := match w.writeBytes c.buffer val with
    | .ok b =>
      if U64 ≤ c.count + val.length then .panic
      else .ok { buffer := b, count := c.count + val.length }
    | .err => .err
    | .panic => .panic
  writeZeros c n := match w.writeZeros c.buffer n with
    | .ok b =>
      if U64 ≤ c.count + n then .panic else .ok { buffer := b, count := c.count + n }
    | .err => .err
    | .panic => .panic

/-- `CountingBuffer::resize`, src/write/util.rs:144-147 (`debug_assert!` included). -/
def Counting.resize {β : Type} (w : WBuf β) (c : Counting β) (newLen : Nat) : Res (Counting β) :=
  if newLen < c.count then .panic
  else (countingBuf w).writeZeros c (newLen - c.count)

/-- `CountingBuffer::write_align`, src/write/util.rs:150-152. -/
def Counting.writeAlign {β : Type} (w : WBuf β) (c : Counting β) (size : Nat) : Res (Counting β) :=
  match align64 c.count size with
  | .ok n => Counting.resize w c n
  | .err => .err
  | .panic => .panic

/-- The operations a client can perform on a `CountingBuffer`. -/
inductive WOp where
  | bytes (val : List UInt8)
  | zeros (n : Nat)
  | resize (newLen : Nat)
  | align (size : Nat)
  deriving DecidableEq, Repr

/-- Perform one operation. -/
def Counting.op {β : Type} (w : WBuf β) (c : Counting β) : WOp → Res (Counting β)
  | .bytes val => (countingBuf w).writeBytes c val
  | .zeros n => (countingBuf w).writeZeros c n
  | .resize n => Counting.resize w c n
  | .align n => Counting.writeAlign w c n

/-- Perform a sequence of operations. -/
def Counting.ops {β : Type} (w : WBuf β) (c : Counting β) : List WOp → Res (Counting β)
  | [] => .ok c
  | o :: os => match Counting.op w c o with
    | .ok c' => Counting.ops w c' os
    | .err => .err
    | .panic => .panic

end Obj

import Verif.Base

/-!
# Model of `src/read/util.rs` (`Bytes`, `align`, `data_range`, `StringTable`),
`src/read/read_ref.rs` (`ReadRef for &[u8]`) and the byte level of `src/pod.rs`.
-/

namespace Obj

/-- `memchr::memchr(d, l)`: index of the first occurrence of `d` (external crate, contract assumed). -/
def memchr (d : UInt8) : List UInt8 → Option Nat
  | [] => none
  | b :: bs => if b = d then some 0 else (memchr d bs).map (· + 1)

/-! ## `Bytes` (src/read/util.rs:16-210).  A method taking `&mut self` returns the new cursor. -/
namespace Bytes

/-- `Bytes::skip`, src/read/util.rs:44-55. -/
def skip (self : List UInt8) (offset : Nat) : Res Unit × List UInt8 :=
  if offset ≤ self.length then (.ok (), self.drop offset) else (.err, [])

/-- `Bytes::read_bytes`, src/read/util.rs:63-74. -/
def readBytes (self : List UInt8) (count : Nat) : Res (List UInt8) × List UInt8 :=
  if count ≤ self.length then (.ok (self.take count), self.drop count) else (.err, [])

/-- `Bytes::read_bytes_at`, src/read/util.rs:80-83 (takes `self` by value). -/
def readBytesAt (self : List UInt8) (offset count : Nat) : Res (List UInt8) :=
  match skip self offset with
  | (.ok (), tl) => (readBytes tl count).1
  | (.err, _) => .err
  | (.panic, _) => .panic

/-- `Bytes::read::<T>`, src/read/util.rs:91-102 with `pod::from_bytes`, src/pod.rs:33-45;
`size = size_of::<T>()`; the value is its byte image (alignment is 1 for all `T` used). -/
def read (self : List UInt8) (size : Nat) : Res (List UInt8) × List UInt8 :=
  readBytes self size

/-- `Bytes::read_at::<T>`, src/read/util.rs:108-111. -/
def readAt (self : List UInt8) (offset size : Nat) : Res (List UInt8) :=
  readBytesAt self offset size

/-- Cut a byte string into `count` consecutive images of `size` bytes. -/
def chunks (size : Nat) : Nat → List UInt8 → List (List UInt8)
  | 0, _ => []
  | count + 1, l => l.take size :: chunks size count (l.drop size)

/-- `Bytes::read_slice::<T>(count)`, src/read/util.rs:119-130 with `pod::slice_from_bytes`
(src/pod.rs:76-88: `count.checked_mul(size_of::<T>())`, then a bounds check). -/
def readSlice (self : List UInt8) (size count : Nat) : Res (List (List UInt8)) × List UInt8 :=
  if count * size < U64 ∧ count * size ≤ self.length then
    (.ok (chunks size count self), self.drop (count * size))
  else (.err, [])

/-- `Bytes::read_string`, src/read/util.rs:146-159. -/
def readString (self : List UInt8) : Res (List UInt8) × List UInt8 :=
  match memchr 0 self with
  | some null =>
    match readBytes self null with
    | (.ok bytes, tl) =>
      match skip tl 1 with
      | (.ok (), tl') => (.ok bytes, tl')
      | (.err, tl') => (.err, tl')
      | (.panic, tl') => (.panic, tl')
    | (.err, tl) => (.err, tl)
    | (.panic, tl) => (.panic, tl)
  | none => (.err, [])

/-- `Bytes::read_string_at`, src/read/util.rs:165-168. -/
def readStringAt (self : List UInt8) (offset : Nat) : Res (List UInt8) :=
  match skip self offset with
  | (.ok (), tl) => (readString tl).1
  | (.err, _) => .err
  | (.panic, _) => .panic

/-- The loop of `Bytes::read_uleb128`, src/read/util.rs:175-186.  `result` and `shift` are the loop
variables.  `<<` by 64 or more panics in a debug build. -/
def readUlebLoop : (self : List UInt8) → (result shift : Nat) → Res Nat × List UInt8
  | [], _, _ => (.err, [])
  | byte :: tl, result, shift =>
    if shift = 63 ∧ byte ≠ 0x00 ∧ byte ≠ 0x01 then (.err, tl)
    else if 64 ≤ shift then (.panic, tl)
    else
      let result := result ||| (((byte &&& 0x7f).toNat <<< shift) % U64)
      let shift := shift + 7
      if byte &&& 0x80 = 0 then (.ok result, tl) else readUlebLoop tl result shift

/-- `Bytes::read_uleb128`, src/read/util.rs:171-187. -/
def readUleb (self : List UInt8) : Res Nat × List UInt8 := readUlebLoop self 0 0

/-- The loop of `Bytes::read_sleb128`, src/read/util.rs:194-210; `result` is the bit pattern of the
`i64` accumulator. -/
def readSlebLoop : (self : List UInt8) → (result shift : Nat) → Res Int × List UInt8
  | [], _, _ => (.err, [])
  | byte :: tl, result, shift =>
    if shift = 63 ∧ byte ≠ 0x00 ∧ byte ≠ 0x7f then (.err, tl)
    else if 64 ≤ shift then (.panic, tl)
    else
      let result := result ||| (((byte &&& 0x7f).toNat <<< shift) % U64)
      let shift := shift + 7
      if byte &&& 0x80 = 0 then
        if shift < 64 ∧ byte &&& 0x40 ≠ 0 then
          -- `result |= !0 << shift`
          (.ok (toI64 (result ||| (((U64 - 1) <<< shift) % U64))), tl)
        else (.ok (toI64 result), tl)
      else readSlebLoop tl result shift

/-- `Bytes::read_sleb128`, src/read/util.rs:190-211. -/
def readSleb (self : List UInt8) : Res Int × List UInt8 := readSlebLoop self 0 0

end Bytes

/-- `read::util::align`, src/read/util.rs:255-257 on `usize`; `size - 1` and `offset + (size-1)`
panic on overflow in debug builds. `!x` is `U64 - 1 - x`. -/
def alignUsize (offset size : Nat) : Res Nat :=
  if size = 0 then .panic
  else if U64 ≤ offset + (size - 1) then .panic
  else .ok ((offset + (size - 1)) &&& (U64 - 1 - (size - 1)))

/-- `read::util::data_range`, src/read/util.rs:260-269. -/
def dataRange (data : List UInt8) (dataAddress rangeAddress size : Nat) : Option (List UInt8) :=
  if rangeAddress < dataAddress then none
  else
    let offset := rangeAddress - dataAddress
    if data.length < offset then none
    else if (data.drop offset).length < size then none
    else some ((data.drop offset).take size)

/-! ## `ReadRef for &[u8]` (src/read/read_ref.rs:127-154) and the provided methods (69-124). -/
namespace ReadRef

/-- `read_bytes_at`, src/read/read_ref.rs:132-140. -/
def readBytesAt (self : List UInt8) (offset size : Nat) : Res (List UInt8) :=
  if size = 0 then .ok []
  else if self.length < offset then .err
  else if (self.drop offset).length < size then .err
  else .ok ((self.drop offset).take size)

/-- `read_bytes_at_until`, src/read/read_ref.rs:142-153.
`self.get(start..end)` is `None` when `start > end` or `end > len`. -/
def readBytesAtUntil (self : List UInt8) (start stop : Nat) (delimiter : UInt8) : Res (List UInt8) :=
  if start ≤ stop ∧ stop ≤ self.length then
    let bytes := (self.drop start).take (stop - start)
    match memchr delimiter bytes with
    | some len => .ok (bytes.take len)
    | none => .err
  else .err

/-- `read_bytes`, src/read/read_ref.rs:69-73: returns the result and the new `offset`. -/
def readBytes (self : List UInt8) (offset size : Nat) : Res (List UInt8) × Nat :=
  match readBytesAt self offset size with
  | .ok bytes => (.ok bytes, (offset + size) % U64)
  | .err => (.err, offset)
  | .panic => (.panic, offset)

/-- `read::<T>`, src/read/read_ref.rs:85-90, `size = size_of::<T>()`. `from_bytes` on exactly
`size` bytes cannot fail. -/
def read (self : List UInt8) (offset size : Nat) : Res (List UInt8) × Nat := readBytes self offset size

/-- `read_slice::<T>`, src/read/read_ref.rs:106-115. -/
def readSlice (self : List UInt8) (offset size count : Nat) : Res (List (List UInt8)) × Nat :=
  if U64 ≤ count * size then (.err, offset)
  else match readBytes self offset (count * size) with
    | (.ok bytes, o) => (.ok (Bytes.chunks size count bytes), o)
    | (.err, o) => (.err, o)
    | (.panic, o) => (.panic, o)

end ReadRef

/-- `read::StringTable::get`, src/read/util.rs:297-305, over a byte slice; `none` data is the default
table. -/
def stringTableGet (data : Option (List UInt8)) (start stop offset : Nat) : Res (List UInt8) :=
  match data with
  | some data =>
    if U64 ≤ start + offset then .err
    else ReadRef.readBytesAtUntil data (start + offset) stop 0
  | none => .err

end Obj

import Verif.Base

/-!
# Model of `src/endian.rs`

Integers are `Nat` bit patterns (unsigned value, or two's complement for signed types).
-/

namespace Obj

/-- `Endianness`, src/endian.rs:160-170.  `LittleEndian` and `BigEndian` (205-275) are its two values
known at compile time: `is_big_endian` is the only method used below. -/
inductive Endianness where
  | little
  | big
  deriving DecidableEq, Repr

/-- `uN::from_le_bytes` (std). -/
def fromLe : List UInt8 → Nat
  | [] => 0
  | b :: bs => b.toNat + 256 * fromLe bs

/-- `uN::from_be_bytes` (std). -/
def fromBe (l : List UInt8) : Nat := l.foldl (fun acc b => acc * 256 + b.toNat) 0

/-- `uN::to_le_bytes` (std), for a type of `w` bytes. -/
def toLe : Nat → Nat → List UInt8
  | 0, _ => []
  | w + 1, n => UInt8.ofNat (n % 256) :: toLe w (n / 256)

/-- `uN::to_be_bytes` (std), for a type of `w` bytes. -/
def toBe : Nat → Nat → List UInt8
  | 0, _ => []
  | w + 1, n => UInt8.ofNat (n / 256 ^ w % 256) :: toBe w n

/-- `Endian::read_u16`, `read_u32`, `read_u64`, src/endian.rs:38-66 (the width is the array length). -/
def rd (e : Endianness) (n : List UInt8) : Nat :=
  match e with
  | .big => fromBe n
  | .little => fromLe n

/-- `Endian::write_u16`, `write_u32`, `write_u64`, src/endian.rs:98-126, and so `U16/U32/U64::{new,set}`
(323-335, 352-364, 409-421); `w` is the number of bytes. -/
def wr (e : Endianness) (w n : Nat) : List UInt8 :=
  match e with
  | .big => toBe w n
  | .little => toLe w n

/-- The signed value of a `w`-byte two's complement bit pattern. -/
def toSigned (w n : Nat) : Int := if n < 256 ^ w / 2 then (n : Int) else (n : Int) - (256 : Int) ^ w

/-- The `w`-byte two's complement bit pattern of an integer (`as iN` truncates). -/
def ofSigned (w : Nat) (i : Int) : Nat := (i % (256 : Int) ^ w).toNat

/-- `Endian::read_i16`, `read_i32`, `read_i64`, src/endian.rs:68-96. -/
def rdI (e : Endianness) (n : List UInt8) : Int := toSigned n.length (rd e n)

/-- `Endian::write_i16`, `write_i32`, `write_i64`, src/endian.rs:128-156, and `I16/I32/I64::{new,set}`. -/
def wrI (e : Endianness) (w : Nat) (i : Int) : List UInt8 := wr e w (ofSigned w i)

/-- `U32::new_u64`/`set_u64`, src/endian.rs:369-371,384-387: fails when the value does not fit. -/
def newU64 (e : Endianness) (n : Nat) : Res (List UInt8) := if n < U32 then .ok (wr e 4 n) else .err

/-- `U32::new_u64_truncate`/`set_u64_truncate`, src/endian.rs:374-376,390-392. -/
def newU64Truncate (e : Endianness) (n : Nat) : List UInt8 := wr e 4 (n % U32)

/-- `I32::new_i64`/`set_i64`, src/endian.rs:484-486,499-502. -/
def newI64 (e : Endianness) (i : Int) : Res (List UInt8) :=
  if -2147483648 ≤ i ∧ i ≤ 2147483647 then .ok (wrI e 4 i) else .err

/-- `I32::new_i64_truncate`, src/endian.rs:489-491. -/
def newI64Truncate (e : Endianness) (i : Int) : List UInt8 := wrI e 4 i

/-! ## Structs of endian integers

A `repr(C)` `Pod` struct of endian integers (alignment 1, no padding) is the concatenation of its
fields. -/

/-- The image of a struct whose fields have the given (width, value). -/
def encode (e : Endianness) : List (Nat × Nat) → List UInt8
  | [] => []
  | (w, v) :: fs => wr e w v ++ encode e fs

/-- The fields, of the given widths, of a struct image. -/
def decode (e : Endianness) : List Nat → List UInt8 → List Nat
  | [], _ => []
  | w :: ws, l => rd e (l.take w) :: decode e ws (l.drop w)

end Obj

namespace Obj

/-- The `w`-byte integer field at byte offset `off` of a struct image. -/
def field (e : Endianness) (img : List UInt8) (off w : Nat) : Nat := rd e ((img.drop off).take w)

end Obj

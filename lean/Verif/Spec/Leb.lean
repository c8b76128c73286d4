/-!
# LEB128, as described in the DWARF standard

An encoding is a group of bytes: every byte but the last has its high bit set, the low seven bits are
base-128 digits, least significant first.
-/

namespace Obj.Spec

/-- A complete LEB128 group: non-empty, continuation bit set on all bytes but the last. -/
def LebGroup : List UInt8 → Prop
  | [] => False
  | [b] => b.toNat < 128
  | b :: bs => 128 ≤ b.toNat ∧ LebGroup bs

/-- Unsigned value of a group. -/
def ulebValue : List UInt8 → Nat
  | [] => 0
  | b :: bs => b.toNat % 128 + 128 * ulebValue bs

/-- Signed value of a group: the last digit is a 7-bit two's complement number. -/
def slebValue : List UInt8 → Int
  | [] => 0
  | [b] => if b.toNat % 128 < 64 then (b.toNat % 128 : Nat) else ((b.toNat % 128 : Nat) : Int) - 128
  | b :: bs => ((b.toNat % 128 : Nat) : Int) + 128 * slebValue bs

end Obj.Spec

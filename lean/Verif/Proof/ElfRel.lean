import Verif.Proof.Elf
import Mathlib.Tactic.IntervalCases

namespace Obj.Elf
open Obj Obj.Spec Obj.Spec.ElfS

theorem mod_pow_testBit (x n i : Nat) : (x % 2 ^ n).testBit i = (decide (i < n) && x.testBit i) := by
  rw [Nat.testBit_mod_two_pow]

theorem rSym32_rInfo32 (sym typ : Nat) : rSym32 (rInfo32 sym typ) = sym % 2 ^ 24 := by
  unfold rSym32 rInfo32
  apply Nat.eq_of_testBit_eq; intro i
  rw [show U32 = 2 ^ 32 from rfl, show (0xff : Nat) = 2 ^ 8 - 1 from rfl]
  simp only [Nat.testBit_shiftRight, Nat.testBit_or, Nat.testBit_mod_two_pow, Nat.testBit_shiftLeft,
    Nat.testBit_and, Nat.testBit_two_pow_sub_one]
  by_cases h : i < 24
  · have h1 : 8 + i < 32 := by omega
    have h2 : ¬ 8 + i < 8 := by omega
    have h3 : 8 + i ≥ 8 := by omega
    have h4 : 8 + i - 8 = i := by omega
    simp [h, h1, h4]

  · have h1 : ¬ 8 + i < 32 := by omega
    simp [h, h1]

theorem rType32_rInfo32 (sym typ : Nat) : rType32 (rInfo32 sym typ) = typ % 2 ^ 8 := by
  unfold rType32 rInfo32
  apply Nat.eq_of_testBit_eq; intro i
  rw [show U32 = 2 ^ 32 from rfl, show (0xff : Nat) = 2 ^ 8 - 1 from rfl]
  simp only [Nat.testBit_or, Nat.testBit_mod_two_pow, Nat.testBit_shiftLeft,
    Nat.testBit_and, Nat.testBit_two_pow_sub_one]
  by_cases h : i < 8
  · have h3 : ¬ i ≥ 8 := by omega
    simp [h]

  · simp [h]

theorem testBit_of_lt {x n i : Nat} (h : x < 2 ^ n) (hi : ¬ i < n) : x.testBit i = false :=
  Nat.testBit_lt_two_pow (Nat.lt_of_lt_of_le h (Nat.pow_le_pow_right (by decide) (by omega)))

theorem getRInfo64_rInfo64 (mips : Bool) (sym typ : Nat) (hs : sym < 2 ^ 32) (ht : typ < 2 ^ 32) :
    getRInfo64 mips (rInfo64 mips sym typ) = (sym <<< 32) ||| typ := by
  unfold getRInfo64 rInfo64
  cases mips
  · simp
  · simp only [if_true]
    apply Nat.eq_of_testBit_eq; intro i
    rw [show U64 = 2 ^ 64 from rfl, show (0xff000000 : Nat) = (2 ^ 8 - 1) <<< 24 from rfl,
      show (0x00ff0000 : Nat) = (2 ^ 8 - 1) <<< 16 from rfl, show (0x0000ff00 : Nat) = (2 ^ 8 - 1) <<< 8 from rfl,
      show (0x000000ff : Nat) = 2 ^ 8 - 1 from rfl]
    have hsb : ∀ j, ¬ j < 32 → sym.testBit j = false := fun j hj => testBit_of_lt hs hj
    have htb : ∀ j, ¬ j < 32 → typ.testBit j = false := fun j hj => testBit_of_lt ht hj
    simp only [Nat.testBit_shiftRight, Nat.testBit_or, Nat.testBit_mod_two_pow, Nat.testBit_shiftLeft,
      Nat.testBit_and, Nat.testBit_two_pow_sub_one]
    by_cases h64 : 64 ≤ i
    · simp [hsb, htb, show ¬ i < 64 by omega, show ¬ 8 + i < 64 by omega, show ¬ 24 + i < 64 by omega,
        show ¬ 40 + i < 64 by omega, show ¬ 56 + i < 64 by omega, show ¬ i - 32 < 32 by omega,
        show ¬ i < 32 by omega,
        show ¬ i < 8 by omega, show ¬ i - 24 < 8 by omega, show ¬ i - 16 < 8 by omega,
        show ¬ i - 8 < 8 by omega]
    · have hi : i < 64 := by omega
      clear h64 hs ht
      interval_cases i <;> simp [hsb, htb]

theorem rSym64_rInfo64 (mips : Bool) (sym typ : Nat) (hs : sym < 2 ^ 32) (ht : typ < 2 ^ 32) :
    rSym64 mips (rInfo64 mips sym typ) = sym := by
  unfold rSym64
  rw [getRInfo64_rInfo64 mips sym typ hs ht, ← Nat.shiftLeft_add_eq_or_of_lt ht, Nat.shiftLeft_eq,
    Nat.shiftRight_eq_div_pow]
  omega

theorem rType64_rInfo64 (mips : Bool) (sym typ : Nat) (hs : sym < 2 ^ 32) (ht : typ < 2 ^ 32) :
    rType64 mips (rInfo64 mips sym typ) = typ := by
  unfold rType64
  rw [getRInfo64_rInfo64 mips sym typ hs ht, ← Nat.shiftLeft_add_eq_or_of_lt ht, Nat.shiftLeft_eq,
    show (0xffffffff : Nat) = 2 ^ 32 - 1 from rfl, Nat.and_two_pow_sub_one_eq_mod]
  omega

theorem or_lt_64 {a b : Nat} (ha : a < 2 ^ 64) (hb : b < 2 ^ 64) : a ||| b < 2 ^ 64 := Nat.or_lt_two_pow ha hb

theorem rInfo64_lt (mips : Bool) (sym typ : Nat) (hs : sym < 2 ^ 32) (ht : typ < 2 ^ 32) :
    rInfo64 mips sym typ < 2 ^ 64 := by
  unfold rInfo64
  have h0 : (sym <<< 32) ||| typ < 2 ^ 64 := by
    rw [← Nat.shiftLeft_add_eq_or_of_lt ht, Nat.shiftLeft_eq]; omega
  have hm : ∀ x, x % U64 < 2 ^ 64 := fun x => Nat.mod_lt _ (by decide)
  cases mips
  · simpa using h0
  · simp only [if_true]
    refine or_lt_64 (or_lt_64 (or_lt_64 (or_lt_64 ?_ (hm _)) (hm _)) (hm _)) (hm _)
    rw [Nat.shiftRight_eq_div_pow]
    exact Nat.lt_of_le_of_lt (Nat.div_le_self _ _) h0

theorem rInfo32_lt (sym typ : Nat) : rInfo32 sym typ < 2 ^ 32 := by
  unfold rInfo32
  apply Nat.or_lt_two_pow
  · exact Nat.mod_lt _ (by decide)
  · exact Nat.lt_of_le_of_lt Nat.and_le_right (by decide)

end Obj.Elf

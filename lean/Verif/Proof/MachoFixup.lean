import Verif.Spec.MachoFixup
import Verif.Proof.Endian

/-! # Lemmas for C81: the bit fields of the pointers -/

namespace Obj.Spec.Fixup
open Obj Obj.Fixup

theorem and1 (x : Nat) : x &&& 1 = x % 2 := Nat.and_two_pow_sub_one_eq_mod x 1
theorem and3 (x : Nat) : x &&& 3 = x % 4 := Nat.and_two_pow_sub_one_eq_mod x 2
theorem andf (x : Nat) : x &&& 0xf = x % 16 := Nat.and_two_pow_sub_one_eq_mod x 4
theorem and8 (x : Nat) : x &&& 0xff = x % 256 := Nat.and_two_pow_sub_one_eq_mod x 8
theorem and16 (x : Nat) : x &&& 0xffff = x % 65536 := Nat.and_two_pow_sub_one_eq_mod x 16
theorem and32 (x : Nat) : x &&& 0xffffffff = x % 4294967296 := Nat.and_two_pow_sub_one_eq_mod x 32

theorem bne_iff (m : Nat) : (m != 0) = decide (m ≠ 0) := by
  rw [Bool.eq_iff_iff]; simp

theorem bit_bne (m : Nat) (h : m < 2) : bit (m != 0) = m := by
  unfold bit
  rcases (by omega : m = 0 ∨ m = 1) with rfl | rfl <;> rfl

theorem bne_bit (b : Bool) : (bit b != 0) = b := by cases b <;> rfl

theorem bit_lt (b : Bool) : bit b < 2 := by cases b <;> decide

theorem keyNum_keyOf (k : Nat) (h : k < 4) : keyNum (keyOf k) = k := by
  rcases (by omega : k = 0 ∨ k = 1 ∨ k = 2 ∨ k = 3) with rfl | rfl | rfl | rfl <;> rfl

theorem keyOf_keyNum (k : Key) : keyOf (keyNum k) = k := by cases k <;> rfl

theorem keyNum_lt (k : Key) : keyNum k < 4 := by cases k <;> decide

/-- The authentication bits of a value. -/
theorem authBits_authOf (v : Nat) : authBits (authOf v) = v / 4294967296 % 524288 * 4294967296 := by
  unfold authBits authOf
  simp only [Nat.shiftRight_eq_div_pow, and1, and3, and16, Nat.reducePow]
  rw [bit_bne _ (Nat.mod_lt _ (by decide)), keyNum_keyOf _ (Nat.mod_lt _ (by decide))]
  omega

theorem authOf_ok (v : Nat) : AuthOk (authOf v) := by
  unfold AuthOk authOf
  simp only [Nat.shiftRight_eq_div_pow, and16, Nat.reducePow]
  omega

theorem authBits_lt (a : Auth) (h : AuthOk a) : authBits a % 4294967296 = 0 ∧ authBits a / 4294967296 < 524288 := by
  unfold authBits
  unfold AuthOk at h
  have h1 := bit_lt a.addrDiv
  have h2 := keyNum_lt a.key
  simp only [Nat.reducePow] at *
  omega

theorem authOf_eq (v : Nat) (a : Auth) (h : AuthOk a) (hv : v / 4294967296 % 524288 = authBits a / 4294967296) : authOf v = a := by
  obtain ⟨k, d, b⟩ := a
  unfold AuthOk at h
  unfold authBits at hv
  have h1 := bit_lt b
  have h2 := keyNum_lt k
  simp only [Nat.reducePow] at *
  unfold authOf
  simp only [Nat.shiftRight_eq_div_pow, and1, and3, and16, Nat.reducePow]
  have e1 : v / 562949953421312 % 4 = keyNum k := by omega
  have e2 : v / 4294967296 % 65536 = d := by omega
  have e3 : v / 281474976710656 % 2 = bit b := by omega
  rw [e1, e2, e3, keyOf_keyNum, bne_bit]

theorem addend19_eq (v : Nat) (a : Int) (h1 : -262144 ≤ a) (h2 : a < 262144) (hv : v / 4294967296 % 524288 = (a % 524288).toNat) :
    addend19 v = a := by
  unfold addend19 toSigned
  simp only [Nat.shiftRight_eq_div_pow, Nat.reducePow, Int.reducePow, Nat.reduceDiv]
  split <;> omega

theorem addend19_bounds (v : Nat) : -262144 ≤ addend19 v ∧ addend19 v < 262144 ∧ (addend19 v % 524288).toNat = v / 4294967296 % 524288 := by
  unfold addend19 toSigned
  simp only [Nat.shiftRight_eq_div_pow, Nat.reducePow, Int.reducePow, Nat.reduceDiv]
  split <;> omega

/-- The decoder of the arm64e formats. -/
def arm64eFix (ord v base : Nat) : Fix :=
  if v / 2 ^ 62 % 2 = 0 then
    if v / 2 ^ 63 % 2 = 0 then .rebase (withTop (v % 2 ^ 43) base (v / 2 ^ 43 % 2 ^ 8)) none
    else .rebase (v % 2 ^ 32) (some (authOf v))
  else if v / 2 ^ 63 % 2 = 0 then .bnd (v % 2 ^ ord) (addend19 v) none
  else .bnd (v % 2 ^ ord) 0 (some (authOf v))

theorem arm64e_iff (ord base v n : Nat) (f : Fix) (ho : ord = 16 ∨ ord = 24) (hv : v < 2 ^ 64) :
    Arm64e ord base v n f ↔ n = v / 2 ^ 51 % 2 ^ 11 ∧ f = arm64eFix ord v base := by
  constructor
  · intro h
    cases h with
    | rebase h1 h2 h3 =>
      simp only [Nat.reducePow] at *
      refine ⟨by omega, ?_⟩
      unfold arm64eFix
      simp only [Nat.reducePow]
      rw [if_pos (by omega), if_pos (by omega)]
      congr 2 <;> omega
    | @bnd ordinal z addend next h1 h2 h3 h4 h5 =>
      have h6 : (addend % 524288).toNat < 524288 := by omega
      rcases ho with rfl | rfl <;>
      · simp only [Nat.reducePow, Nat.reduceSub, Int.reducePow] at *
        refine ⟨by omega, ?_⟩
        unfold arm64eFix
        simp only [Nat.reducePow]
        rw [if_neg (by omega), if_pos (by omega), addend19_eq _ addend (by omega) (by omega) (by omega)]
        exact congrArg (fun x => Fix.bnd x addend none) (by omega)
    | @authRebase target next a h1 h2 h3 =>
      have h4 := authBits_lt a h2
      simp only [Nat.reducePow] at *
      refine ⟨by omega, ?_⟩
      unfold arm64eFix
      simp only [Nat.reducePow]
      rw [if_pos (by omega), if_neg (by omega), authOf_eq _ a h2 (by omega)]
      exact congrArg (fun x => Fix.rebase x (some a)) (by omega)
    | @authBind ordinal z next a h1 h2 h3 h5 =>
      have h4 := authBits_lt a h3
      rcases ho with rfl | rfl <;>
      · simp only [Nat.reducePow, Nat.reduceSub] at *
        refine ⟨by omega, ?_⟩
        unfold arm64eFix
        simp only [Nat.reducePow]
        rw [if_neg (by omega), if_neg (by omega), authOf_eq _ a h3 (by omega)]
        exact congrArg (fun x => Fix.bnd x 0 (some a)) (by omega)
  · rintro ⟨rfl, rfl⟩
    unfold arm64eFix
    have hn : v / 2 ^ 51 % 2 ^ 11 < 2 ^ 11 := Nat.mod_lt _ (by decide)
    by_cases hb : v / 2 ^ 62 % 2 = 0
    · rw [if_pos hb]
      by_cases ha : v / 2 ^ 63 % 2 = 0
      · rw [if_pos ha]
        have h := @Arm64e.rebase ord base (v % 2 ^ 43) (v / 2 ^ 43 % 2 ^ 8) _ (Nat.mod_lt _ (by decide)) (Nat.mod_lt _ (by decide)) hn
        have e : v % 2 ^ 43 + v / 2 ^ 43 % 2 ^ 8 * 2 ^ 43 + v / 2 ^ 51 % 2 ^ 11 * 2 ^ 51 = v := by
          simp only [Nat.reducePow] at *; omega
        rw [e] at h; exact h
      · rw [if_neg ha]
        have h := @Arm64e.authRebase ord base (v % 2 ^ 32) _ (authOf v) (Nat.mod_lt _ (by decide)) (authOf_ok v) hn
        have e : v % 2 ^ 32 + authBits (authOf v) + v / 2 ^ 51 % 2 ^ 11 * 2 ^ 51 + 2 ^ 63 = v := by
          rw [authBits_authOf]; simp only [Nat.reducePow] at *; omega
        rw [e] at h; exact h
    · rw [if_neg hb]
      by_cases ha : v / 2 ^ 63 % 2 = 0
      · rw [if_pos ha]
        obtain ⟨b1, b2, b3⟩ := addend19_bounds v
        have h := @Arm64e.bnd ord base (v % 2 ^ ord) (v / 2 ^ ord % 2 ^ (32 - ord)) (addend19 v) _ (Nat.mod_lt _ (Nat.two_pow_pos _))
          (Nat.mod_lt _ (Nat.two_pow_pos _)) (by simpa using b1) (by simpa using b2) hn
        have e : v % 2 ^ ord + v / 2 ^ ord % 2 ^ (32 - ord) * 2 ^ ord + (addend19 v % 2 ^ 19).toNat * 2 ^ 32 + v / 2 ^ 51 % 2 ^ 11 * 2 ^ 51 + 2 ^ 62 = v := by
          simp only [Int.reducePow]
          rw [b3]
          rcases ho with rfl | rfl <;> simp only [Nat.reducePow, Nat.reduceSub] at * <;> omega
        rw [e] at h; exact h
      · rw [if_neg ha]
        have h := @Arm64e.authBind ord base (v % 2 ^ ord) (v / 2 ^ ord % 2 ^ (32 - ord)) _ (authOf v) (Nat.mod_lt _ (Nat.two_pow_pos _))
          (Nat.mod_lt _ (Nat.two_pow_pos _)) (authOf_ok v) hn
        have e : v % 2 ^ ord + v / 2 ^ ord % 2 ^ (32 - ord) * 2 ^ ord + authBits (authOf v) + v / 2 ^ 51 % 2 ^ 11 * 2 ^ 51 + 2 ^ 62 + 2 ^ 63 = v := by
          rw [authBits_authOf]
          rcases ho with rfl | rfl <;> simp only [Nat.reducePow, Nat.reduceSub] at * <;> omega
        rw [e] at h; exact h


theorem kernelCache_iff (v n : Nat) (f : Fix) (hv : v < 2 ^ 64) : KernelCache v n f ↔
    n = v / 2 ^ 51 % 2 ^ 12 ∧ f = .kernelCache (v % 2 ^ 30) (v / 2 ^ 30 % 2 ^ 2) (if v / 2 ^ 63 % 2 = 0 then none else some (authOf v)) := by
  constructor
  · intro h
    cases h with
    | @plain target level next a h1 h2 h3 h5 =>
      have h4 := authBits_lt a h3
      simp only [Nat.reducePow] at *
      refine ⟨by omega, ?_⟩
      rw [if_pos (by omega)]
      have e1 : (target + level * 1073741824 + authBits a + n * 2251799813685248) % 1073741824 = target := by omega
      have e2 : (target + level * 1073741824 + authBits a + n * 2251799813685248) / 1073741824 % 4 = level := by omega
      rw [e1, e2]
    | @auth target level next a h1 h2 h3 h5 =>
      have h4 := authBits_lt a h3
      simp only [Nat.reducePow] at *
      refine ⟨by omega, ?_⟩
      rw [if_neg (by omega), authOf_eq _ a h3 (by omega)]
      have e1 : (target + level * 1073741824 + authBits a + n * 2251799813685248 + 9223372036854775808) % 1073741824 = target := by omega
      have e2 : (target + level * 1073741824 + authBits a + n * 2251799813685248 + 9223372036854775808) / 1073741824 % 4 = level := by omega
      rw [e1, e2]
  · rintro ⟨rfl, rfl⟩
    have hn : v / 2 ^ 51 % 2 ^ 12 < 2 ^ 12 := Nat.mod_lt _ (by decide)
    by_cases ha : v / 2 ^ 63 % 2 = 0
    · rw [if_pos ha]
      have h := @KernelCache.plain (v % 2 ^ 30) (v / 2 ^ 30 % 2 ^ 2) _ (authOf v) (Nat.mod_lt _ (by decide)) (Nat.mod_lt _ (by decide)) (authOf_ok v) hn
      have e : v % 2 ^ 30 + v / 2 ^ 30 % 2 ^ 2 * 2 ^ 30 + authBits (authOf v) + v / 2 ^ 51 % 2 ^ 12 * 2 ^ 51 = v := by
        rw [authBits_authOf]; simp only [Nat.reducePow] at *; omega
      rw [e] at h; exact h
    · rw [if_neg ha]
      have h := @KernelCache.auth (v % 2 ^ 30) (v / 2 ^ 30 % 2 ^ 2) _ (authOf v) (Nat.mod_lt _ (by decide)) (Nat.mod_lt _ (by decide)) (authOf_ok v) hn
      have e : v % 2 ^ 30 + v / 2 ^ 30 % 2 ^ 2 * 2 ^ 30 + authBits (authOf v) + v / 2 ^ 51 % 2 ^ 12 * 2 ^ 51 + 2 ^ 63 = v := by
        rw [authBits_authOf]; simp only [Nat.reducePow] at *; omega
      rw [e] at h; exact h

theorem segmented_iff (v n : Nat) (f : Fix) (hv : v < 2 ^ 64) : Segmented v n f ↔
    n = v / 2 ^ 51 % 2 ^ 12 ∧ f = .segmented (v / 2 ^ 28 % 2 ^ 4) (v % 2 ^ 28) (if v / 2 ^ 63 % 2 = 0 then none else some (authOf v)) := by
  constructor
  · intro h
    cases h with
    | @plain off idx next a h1 h2 h3 h5 =>
      have h4 := authBits_lt a h3
      simp only [Nat.reducePow] at *
      refine ⟨by omega, ?_⟩
      rw [if_pos (by omega)]
      have e1 : (off + idx * 268435456 + authBits a + n * 2251799813685248) % 268435456 = off := by omega
      have e2 : (off + idx * 268435456 + authBits a + n * 2251799813685248) / 268435456 % 16 = idx := by omega
      rw [e1, e2]
    | @auth off idx next a h1 h2 h3 h5 =>
      have h4 := authBits_lt a h3
      simp only [Nat.reducePow] at *
      refine ⟨by omega, ?_⟩
      rw [if_neg (by omega), authOf_eq _ a h3 (by omega)]
      have e1 : (off + idx * 268435456 + authBits a + n * 2251799813685248 + 9223372036854775808) % 268435456 = off := by omega
      have e2 : (off + idx * 268435456 + authBits a + n * 2251799813685248 + 9223372036854775808) / 268435456 % 16 = idx := by omega
      rw [e1, e2]
  · rintro ⟨rfl, rfl⟩
    have hn : v / 2 ^ 51 % 2 ^ 12 < 2 ^ 12 := Nat.mod_lt _ (by decide)
    by_cases ha : v / 2 ^ 63 % 2 = 0
    · rw [if_pos ha]
      have h := @Segmented.plain (v % 2 ^ 28) (v / 2 ^ 28 % 2 ^ 4) _ (authOf v) (Nat.mod_lt _ (by decide)) (Nat.mod_lt _ (by decide)) (authOf_ok v) hn
      have e : v % 2 ^ 28 + v / 2 ^ 28 % 2 ^ 4 * 2 ^ 28 + authBits (authOf v) + v / 2 ^ 51 % 2 ^ 12 * 2 ^ 51 = v := by
        rw [authBits_authOf]; simp only [Nat.reducePow] at *; omega
      rw [e] at h; exact h
    · rw [if_neg ha]
      have h := @Segmented.auth (v % 2 ^ 28) (v / 2 ^ 28 % 2 ^ 4) _ (authOf v) (Nat.mod_lt _ (by decide)) (Nat.mod_lt _ (by decide)) (authOf_ok v) hn
      have e : v % 2 ^ 28 + v / 2 ^ 28 % 2 ^ 4 * 2 ^ 28 + authBits (authOf v) + v / 2 ^ 51 % 2 ^ 12 * 2 ^ 51 + 2 ^ 63 = v := by
        rw [authBits_authOf]; simp only [Nat.reducePow] at *; omega
      rw [e] at h; exact h

theorem ptr64_iff (base v n : Nat) (f : Fix) (hv : v < 2 ^ 64) : Ptr64 base v n f ↔
    n = v / 2 ^ 51 % 2 ^ 12 ∧ f = if v / 2 ^ 63 % 2 = 0 then .rebase (withTop (v % 2 ^ 36) base (v / 2 ^ 36 % 2 ^ 8)) none
      else .bnd (v % 2 ^ 24) ((v / 2 ^ 24 % 2 ^ 8 : Nat) : Int) none := by
  constructor
  · intro h
    cases h with
    | rebase h1 h2 h3 h4 =>
      simp only [Nat.reducePow] at *
      refine ⟨by omega, ?_⟩
      rw [if_pos (by omega)]
      congr 2 <;> omega
    | @bnd ordinal addend reserved next h1 h2 h3 h4 =>
      simp only [Nat.reducePow] at *
      refine ⟨by omega, ?_⟩
      rw [if_neg (by omega)]
      have e1 : (ordinal + addend * 16777216 + reserved * 4294967296 + n * 2251799813685248 + 9223372036854775808) % 16777216 = ordinal := by omega
      have e2 : (ordinal + addend * 16777216 + reserved * 4294967296 + n * 2251799813685248 + 9223372036854775808) / 16777216 % 256 = addend := by omega
      rw [e1, e2]
  · rintro ⟨rfl, rfl⟩
    have hn : v / 2 ^ 51 % 2 ^ 12 < 2 ^ 12 := Nat.mod_lt _ (by decide)
    by_cases ha : v / 2 ^ 63 % 2 = 0
    · rw [if_pos ha]
      have h := @Ptr64.rebase base (v % 2 ^ 36) (v / 2 ^ 36 % 2 ^ 8) (v / 2 ^ 44 % 2 ^ 7) _ (Nat.mod_lt _ (by decide)) (Nat.mod_lt _ (by decide))
        (Nat.mod_lt _ (by decide)) hn
      have e : v % 2 ^ 36 + v / 2 ^ 36 % 2 ^ 8 * 2 ^ 36 + v / 2 ^ 44 % 2 ^ 7 * 2 ^ 44 + v / 2 ^ 51 % 2 ^ 12 * 2 ^ 51 = v := by
        simp only [Nat.reducePow] at *; omega
      rw [e] at h; exact h
    · rw [if_neg ha]
      have h := @Ptr64.bnd base (v % 2 ^ 24) (v / 2 ^ 24 % 2 ^ 8) (v / 2 ^ 32 % 2 ^ 19) _ (Nat.mod_lt _ (by decide)) (Nat.mod_lt _ (by decide))
        (Nat.mod_lt _ (by decide)) hn
      have e : v % 2 ^ 24 + v / 2 ^ 24 % 2 ^ 8 * 2 ^ 24 + v / 2 ^ 32 % 2 ^ 19 * 2 ^ 32 + v / 2 ^ 51 % 2 ^ 12 * 2 ^ 51 + 2 ^ 63 = v := by
        simp only [Nat.reducePow] at *; omega
      rw [e] at h; exact h

theorem ptr32_iff (base v n : Nat) (f : Fix) (hv : v < 2 ^ 32) : Ptr32 base v n f ↔
    n = v / 2 ^ 26 % 2 ^ 5 ∧ f = if v / 2 ^ 31 % 2 = 0 then .rebase ((v % 2 ^ 26 + 2 ^ 64 - base) % 2 ^ 64) none
      else .bnd (v % 2 ^ 20) ((v / 2 ^ 20 % 2 ^ 6 : Nat) : Int) none := by
  constructor
  · intro h
    cases h with
    | @rebase target next h1 h2 =>
      simp only [Nat.reducePow] at *
      refine ⟨by omega, ?_⟩
      rw [if_pos (by omega)]
      have e : (target + n * 67108864) % 67108864 = target := by omega
      rw [e]
    | @bnd ordinal addend next h1 h2 h3 =>
      simp only [Nat.reducePow] at *
      refine ⟨by omega, ?_⟩
      rw [if_neg (by omega)]
      have e1 : (ordinal + addend * 1048576 + n * 67108864 + 2147483648) % 1048576 = ordinal := by omega
      have e2 : (ordinal + addend * 1048576 + n * 67108864 + 2147483648) / 1048576 % 64 = addend := by omega
      rw [e1, e2]
  · rintro ⟨rfl, rfl⟩
    have hn : v / 2 ^ 26 % 2 ^ 5 < 2 ^ 5 := Nat.mod_lt _ (by decide)
    by_cases ha : v / 2 ^ 31 % 2 = 0
    · rw [if_pos ha]
      have h := @Ptr32.rebase base (v % 2 ^ 26) _ (Nat.mod_lt _ (by decide)) hn
      have e : v % 2 ^ 26 + v / 2 ^ 26 % 2 ^ 5 * 2 ^ 26 = v := by
        simp only [Nat.reducePow] at *; omega
      rw [e] at h; exact h
    · rw [if_neg ha]
      have h := @Ptr32.bnd base (v % 2 ^ 20) (v / 2 ^ 20 % 2 ^ 6) _ (Nat.mod_lt _ (by decide)) (Nat.mod_lt _ (by decide)) hn
      have e : v % 2 ^ 20 + v / 2 ^ 20 % 2 ^ 6 * 2 ^ 20 + v / 2 ^ 26 % 2 ^ 5 * 2 ^ 26 + 2 ^ 31 = v := by
        simp only [Nat.reducePow] at *; omega
      rw [e] at h; exact h

theorem cache32_iff (v n : Nat) (f : Fix) (hv : v < 2 ^ 32) : Cache32 v n f ↔ n = v / 2 ^ 30 % 2 ^ 2 ∧ f = .rebase (v % 2 ^ 30) none := by
  constructor
  · rintro ⟨h1, h2⟩
    rename_i target
    simp only [Nat.reducePow] at *
    refine ⟨by omega, ?_⟩
    have e : (target + n * 1073741824) % 1073741824 = target := by omega
    rw [e]
  · rintro ⟨rfl, rfl⟩
    have h := @Cache32.rebase (v % 2 ^ 30) (v / 2 ^ 30 % 2 ^ 2) (Nat.mod_lt _ (by decide)) (Nat.mod_lt _ (by decide))
    have e : v % 2 ^ 30 + v / 2 ^ 30 % 2 ^ 2 * 2 ^ 30 = v := by simp only [Nat.reducePow] at *; omega
    rw [e] at h; exact h

theorem firmware32_iff (v n : Nat) (f : Fix) (hv : v < 2 ^ 32) : Firmware32 v n f ↔ n = v / 2 ^ 26 % 2 ^ 6 ∧ f = .rebase (v % 2 ^ 26) none := by
  constructor
  · rintro ⟨h1, h2⟩
    rename_i target
    simp only [Nat.reducePow] at *
    refine ⟨by omega, ?_⟩
    have e : (target + n * 67108864) % 67108864 = target := by omega
    rw [e]
  · rintro ⟨rfl, rfl⟩
    have h := @Firmware32.rebase (v % 2 ^ 26) (v / 2 ^ 26 % 2 ^ 6) (Nat.mod_lt _ (by decide)) (Nat.mod_lt _ (by decide))
    have e : v % 2 ^ 26 + v / 2 ^ 26 % 2 ^ 6 * 2 ^ 26 = v := by simp only [Nat.reducePow] at *; omega
    rw [e] at h; exact h

theorem sharedCache_iff (v n : Nat) (f : Fix) (hv : v < 2 ^ 64) : SharedCache v n f ↔
    n = v / 2 ^ 52 % 2 ^ 11 ∧ f = if v / 2 ^ 63 % 2 = 0 then .rebase (v % 2 ^ 34 + v / 2 ^ 34 % 2 ^ 8 * 2 ^ 56) none
      else .rebase (v % 2 ^ 34) (some ⟨if v / 2 ^ 51 % 2 != 0 then .da else .ia, v / 2 ^ 34 % 2 ^ 16, v / 2 ^ 50 % 2 != 0⟩) := by
  constructor
  · intro h
    cases h with
    | @plain off high8 unused next h1 h2 h3 h4 =>
      simp only [Nat.reducePow] at *
      refine ⟨by omega, ?_⟩
      rw [if_pos (by omega)]
      have e1 : (off + high8 * 17179869184 + unused * 4398046511104 + n * 4503599627370496) % 17179869184 = off := by omega
      have e2 : (off + high8 * 17179869184 + unused * 4398046511104 + n * 4503599627370496) / 17179869184 % 256 = high8 := by omega
      rw [e1, e2]
    | @auth off diversity next addrDiv isData h1 h2 h3 =>
      have b1 := bit_lt addrDiv
      have b2 := bit_lt isData
      simp only [Nat.reducePow] at *
      refine ⟨by omega, ?_⟩
      generalize hw : off + diversity * 17179869184 + bit addrDiv * 1125899906842624 + bit isData * 2251799813685248 + n * 4503599627370496 + 9223372036854775808 = w
      have e1 : w % 17179869184 = off := by omega
      have e2 : w / 17179869184 % 65536 = diversity := by omega
      have e3 : w / 1125899906842624 % 2 = bit addrDiv := by omega
      have e4 : w / 2251799813685248 % 2 = bit isData := by omega
      have e5 : ¬ (w / 9223372036854775808 % 2 = 0) := by omega
      rw [if_neg e5, e1, e2, e3, e4, bne_bit, bne_bit]
  · rintro ⟨rfl, rfl⟩
    have hn : v / 2 ^ 52 % 2 ^ 11 < 2 ^ 11 := Nat.mod_lt _ (by decide)
    by_cases ha : v / 2 ^ 63 % 2 = 0
    · rw [if_pos ha]
      have h := @SharedCache.plain (v % 2 ^ 34) (v / 2 ^ 34 % 2 ^ 8) (v / 2 ^ 42 % 2 ^ 10) _ (Nat.mod_lt _ (by decide)) (Nat.mod_lt _ (by decide))
        (Nat.mod_lt _ (by decide)) hn
      have e : v % 2 ^ 34 + v / 2 ^ 34 % 2 ^ 8 * 2 ^ 34 + v / 2 ^ 42 % 2 ^ 10 * 2 ^ 42 + v / 2 ^ 52 % 2 ^ 11 * 2 ^ 52 = v := by
        simp only [Nat.reducePow] at *; omega
      rw [e] at h; exact h
    · rw [if_neg ha]
      have h := @SharedCache.auth (v % 2 ^ 34) (v / 2 ^ 34 % 2 ^ 16) _ (v / 2 ^ 50 % 2 != 0) (v / 2 ^ 51 % 2 != 0) (Nat.mod_lt _ (by decide))
        (Nat.mod_lt _ (by decide)) hn
      have e : v % 2 ^ 34 + v / 2 ^ 34 % 2 ^ 16 * 2 ^ 34 + bit (v / 2 ^ 50 % 2 != 0) * 2 ^ 50 + bit (v / 2 ^ 51 % 2 != 0) * 2 ^ 51 +
          v / 2 ^ 52 % 2 ^ 11 * 2 ^ 52 + 2 ^ 63 = v := by
        rw [bit_bne _ (Nat.mod_lt _ (by decide)), bit_bne _ (Nat.mod_lt _ (by decide))]
        simp only [Nat.reducePow] at *; omega
      rw [e] at h; exact h


theorem wsub_eq (a b : Nat) : wsub a b = (a + 2 ^ 64 - b) % 2 ^ 64 := rfl

theorem top_eq (t b h : Nat) (hh : h < 256) : wsub t b ||| (h <<< 56) % U64 = withTop t b h := by
  unfold withTop
  have h2 : h * 2 ^ 56 < U64 := by simp only [Nat.reducePow]; omega
  rw [Nat.shiftLeft_eq, wsub_eq, Nat.mod_eq_of_lt h2]

theorem low_or_top (t h : Nat) (ht : t < 2 ^ 34) : t ||| h * 2 ^ 56 = t + h * 2 ^ 56 := by
  have h1 := Nat.two_pow_add_eq_or_of_lt (i := 56) (b := t) (by simp only [Nat.reducePow] at *; omega) h
  rw [Nat.mul_comm, Nat.or_comm, ← h1, Nat.add_comm]

theorem bne_decide (m : Nat) : (m % 2 != 0) = true ↔ ¬ (m % 2 = 0) := by simp

theorem arm64eFix_eq (ord v base : Nat) (r b : Fix) (hr : r = arm64eRebase v base)
    (hb : b = if (v >>> 63) &&& 1 != 0 then .bnd (v &&& (2 ^ ord - 1)) 0 (some (authOf v)) else .bnd (v &&& (2 ^ ord - 1)) (addend19 v) none) :
    (if (v >>> 62) &&& 1 != 0 then b else r) = arm64eFix ord v base := by
  subst hr hb
  unfold arm64eFix arm64eRebase
  rw [and32]
  simp only [Nat.shiftRight_eq_div_pow, and1, Nat.and_two_pow_sub_one_eq_mod]
  by_cases h1 : v / 2 ^ 62 % 2 = 0
  · rw [if_pos h1, if_neg (by rw [h1]; decide)]
    by_cases h2 : v / 2 ^ 63 % 2 = 0
    · rw [if_pos h2, if_neg (by rw [h2]; decide), and8, top_eq _ _ _ (Nat.mod_lt _ (by decide))]
    · rw [if_neg h2, if_pos ((bne_decide _).2 h2)]
  · rw [if_neg h1, if_pos ((bne_decide _).2 h1)]
    by_cases h2 : v / 2 ^ 63 % 2 = 0
    · rw [if_pos h2, if_neg (by rw [h2]; decide)]
    · rw [if_neg h2, if_pos ((bne_decide _).2 h2)]

theorem parseArm64e_eq (v stride base : Nat) : parseArm64e v stride base = (v / 2 ^ 51 % 2 ^ 11 * stride, arm64eFix 16 v base) := by
  unfold parseArm64e
  rw [arm64eFix_eq 16 v base _ _ rfl (by unfold arm64eBind; rfl), Nat.shiftRight_eq_div_pow, Nat.and_two_pow_sub_one_eq_mod]

theorem parseUserland24_eq (v : Nat) : parseUserland24 v = (v / 2 ^ 51 % 2 ^ 11 * 8, arm64eFix 24 v 0) := by
  unfold parseUserland24
  rw [arm64eFix_eq 24 v 0 _ _ rfl (by unfold arm64eBind24; rfl), Nat.shiftRight_eq_div_pow, Nat.and_two_pow_sub_one_eq_mod]

theorem parseKernelCache_eq (v stride : Nat) : parseKernelCache v stride = (v / 2 ^ 51 % 2 ^ 12 * stride,
    .kernelCache (v % 2 ^ 30) (v / 2 ^ 30 % 2 ^ 2) (if v / 2 ^ 63 % 2 = 0 then none else some (authOf v))) := by
  unfold parseKernelCache
  simp only [Nat.shiftRight_eq_div_pow, and1, and3, Nat.and_two_pow_sub_one_eq_mod]
  by_cases h2 : v / 2 ^ 63 % 2 = 0
  · rw [if_pos h2, if_neg (by rw [h2]; decide)]
  · rw [if_neg h2, if_pos ((bne_decide _).2 h2)]

theorem parseSegmented_eq (v : Nat) : parseSegmented v = (v / 2 ^ 51 % 2 ^ 12 * 4,
    .segmented (v / 2 ^ 28 % 2 ^ 4) (v % 2 ^ 28) (if v / 2 ^ 63 % 2 = 0 then none else some (authOf v))) := by
  unfold parseSegmented
  simp only [Nat.shiftRight_eq_div_pow, and1, andf, Nat.and_two_pow_sub_one_eq_mod]
  by_cases h2 : v / 2 ^ 63 % 2 = 0
  · rw [if_pos h2, if_neg (by rw [h2]; decide)]
  · rw [if_neg h2, if_pos ((bne_decide _).2 h2)]

theorem parse64_eq (v base : Nat) : parse64 v base = (v / 2 ^ 51 % 2 ^ 12 * 4,
    if v / 2 ^ 63 % 2 = 0 then .rebase (withTop (v % 2 ^ 36) base (v / 2 ^ 36 % 2 ^ 8)) none
      else .bnd (v % 2 ^ 24) ((v / 2 ^ 24 % 2 ^ 8 : Nat) : Int) none) := by
  unfold parse64
  simp only [Nat.shiftRight_eq_div_pow, and1, and8, Nat.and_two_pow_sub_one_eq_mod]
  by_cases h2 : v / 2 ^ 63 % 2 = 0
  · rw [if_pos h2, if_neg (by rw [h2]; decide), top_eq _ _ _ (Nat.mod_lt _ (by decide))]
  · rw [if_neg h2, if_pos ((bne_decide _).2 h2)]

theorem parse32_eq (v base : Nat) : parse32 v base = (v / 2 ^ 26 % 2 ^ 5 * 4,
    if v / 2 ^ 31 % 2 = 0 then .rebase ((v % 2 ^ 26 + 2 ^ 64 - base) % 2 ^ 64) none
      else .bnd (v % 2 ^ 20) ((v / 2 ^ 20 % 2 ^ 6 : Nat) : Int) none) := by
  unfold parse32
  simp only [Nat.shiftRight_eq_div_pow, and1, Nat.and_two_pow_sub_one_eq_mod, wsub_eq]
  by_cases h2 : v / 2 ^ 31 % 2 = 0
  · rw [if_pos h2, if_neg (by rw [h2]; decide)]
  · rw [if_neg h2, if_pos ((bne_decide _).2 h2)]

theorem parse32Cache_eq (v : Nat) : parse32Cache v = (v / 2 ^ 30 % 2 ^ 2 * 4, .rebase (v % 2 ^ 30) none) := by
  unfold parse32Cache
  simp only [Nat.shiftRight_eq_div_pow, Nat.and_two_pow_sub_one_eq_mod]

theorem parse32Firmware_eq (v : Nat) : parse32Firmware v = (v / 2 ^ 26 % 2 ^ 6 * 4, .rebase (v % 2 ^ 26) none) := by
  unfold parse32Firmware
  simp only [Nat.shiftRight_eq_div_pow, Nat.and_two_pow_sub_one_eq_mod]

theorem parseSharedCache_eq (v : Nat) : parseSharedCache v = (v / 2 ^ 52 % 2 ^ 11 * 8,
    if v / 2 ^ 63 % 2 = 0 then .rebase (v % 2 ^ 34 + v / 2 ^ 34 % 2 ^ 8 * 2 ^ 56) none
      else .rebase (v % 2 ^ 34) (some ⟨if v / 2 ^ 51 % 2 != 0 then .da else .ia, v / 2 ^ 34 % 2 ^ 16, v / 2 ^ 50 % 2 != 0⟩)) := by
  unfold parseSharedCache
  simp only [Nat.shiftRight_eq_div_pow, and1, and8, and16, Nat.and_two_pow_sub_one_eq_mod, Nat.shiftLeft_eq]
  by_cases h2 : v / 2 ^ 63 % 2 = 0
  · have h3 : v / 2 ^ 34 % 256 * 2 ^ 56 < U64 := by
      have := Nat.mod_lt (v / 2 ^ 34) (show 256 > 0 by decide)
      simp only [Nat.reducePow] at *; omega
    rw [if_pos h2, if_neg (by rw [h2]; decide), Nat.mod_eq_of_lt h3, low_or_top _ _ (Nat.mod_lt _ (by decide))]
  · rw [if_neg h2, if_pos ((bne_decide _).2 h2)]

/-- Whether a value fits in a pointer of a format. -/
theorem ptrSize_lt {format v : Nat} (hv : v < 256 ^ ptrSize format) : v < 2 ^ 64 := by
  unfold ptrSize at hv
  split at hv <;> simp only [Nat.reducePow] at * <;> omega

theorem parse_iff (format v base n : Nat) (f : Fix) (hv : v < 256 ^ ptrSize format) :
    Fix.parse format v base = .ok (n, f) ↔ Decodes base format v n f := by
  have hv6 := ptrSize_lt hv
  unfold Fix.parse
  have key : ∀ {k : Nat} {g : Fix} {st : Nat} {P : Nat → Fix → Prop} (_ : ∀ n f, P n f ↔ n = k ∧ f = g),
      ((Res.ok (k * st, g) : Res (Nat × Fix)) = .ok (n, f) ↔ ∃ m, P m f ∧ n = m * st) := by
    intro k g st P h
    constructor
    · intro e
      injection e with e
      injection e with e1 e2
      exact ⟨k, (h _ _).2 ⟨rfl, e2.symm⟩, e1.symm⟩
    · rintro ⟨m, hm, rfl⟩
      obtain ⟨rfl, rfl⟩ := (h _ _).1 hm
      rfl
  by_cases h : format = 1
  · subst h
    rw [if_pos rfl, parseArm64e_eq, key (fun n f => arm64e_iff 16 base v n f (.inl rfl) hv6)]
    exact ⟨fun ⟨m, hm, e⟩ => e ▸ .arm64e hm, fun h => by cases h with | arm64e h => exact ⟨_, h, rfl⟩⟩
  rw [if_neg h]
  by_cases h : format = 7
  · subst h
    rw [if_pos rfl, parseArm64e_eq, key (fun n f => arm64e_iff 16 0 v n f (.inl rfl) hv6)]
    exact ⟨fun ⟨m, hm, e⟩ => e ▸ .arm64eKernel hm, fun h => by cases h with | arm64eKernel h => exact ⟨_, h, rfl⟩⟩
  rw [if_neg h]
  by_cases h : format = 9
  · subst h
    rw [if_pos rfl, parseArm64e_eq, key (fun n f => arm64e_iff 16 0 v n f (.inl rfl) hv6)]
    exact ⟨fun ⟨m, hm, e⟩ => e ▸ .arm64eUserland hm, fun h => by cases h with | arm64eUserland h => exact ⟨_, h, rfl⟩⟩
  rw [if_neg h]
  by_cases h : format = 10
  · subst h
    rw [if_pos rfl, parseArm64e_eq, key (fun n f => arm64e_iff 16 base v n f (.inl rfl) hv6)]
    exact ⟨fun ⟨m, hm, e⟩ => e ▸ .arm64eFirmware hm, fun h => by cases h with | arm64eFirmware h => exact ⟨_, h, rfl⟩⟩
  rw [if_neg h]
  by_cases h : format = 12
  · subst h
    rw [if_pos rfl, parseUserland24_eq, key (fun n f => arm64e_iff 24 0 v n f (.inr rfl) hv6)]
    exact ⟨fun ⟨m, hm, e⟩ => e ▸ .arm64eUserland24 hm, fun h => by cases h with | arm64eUserland24 h => exact ⟨_, h, rfl⟩⟩
  rw [if_neg h]
  by_cases h : format = 2
  · subst h
    rw [if_pos rfl, parse64_eq, key (fun n f => ptr64_iff base v n f hv6)]
    exact ⟨fun ⟨m, hm, e⟩ => e ▸ .ptr64 hm, fun h => by cases h with | ptr64 h => exact ⟨_, h, rfl⟩⟩
  rw [if_neg h]
  by_cases h : format = 6
  · subst h
    rw [if_pos rfl, parse64_eq, key (fun n f => ptr64_iff 0 v n f hv6)]
    exact ⟨fun ⟨m, hm, e⟩ => e ▸ .ptr64Offset hm, fun h => by cases h with | ptr64Offset h => exact ⟨_, h, rfl⟩⟩
  rw [if_neg h]
  by_cases h : format = 8
  · subst h
    rw [if_pos rfl, parseKernelCache_eq, key (fun n f => kernelCache_iff v n f hv6)]
    exact ⟨fun ⟨m, hm, e⟩ => e ▸ .kernelCache hm, fun h => by cases h with | kernelCache h => exact ⟨_, h, rfl⟩⟩
  rw [if_neg h]
  by_cases h : format = 11
  · subst h
    rw [if_pos rfl, parseKernelCache_eq, key (fun n f => kernelCache_iff v n f hv6)]
    exact ⟨fun ⟨m, hm, e⟩ => by rw [e, Nat.mul_one]; exact .x86KernelCache hm,
      fun h => by cases h with | x86KernelCache h => exact ⟨_, h, (Nat.mul_one _).symm⟩⟩
  rw [if_neg h]
  by_cases h : format = 3
  · subst h
    rw [if_pos rfl, parse32_eq, key (fun n f => ptr32_iff base v n f hv)]
    exact ⟨fun ⟨m, hm, e⟩ => e ▸ .ptr32 hm, fun h => by cases h with | ptr32 h => exact ⟨_, h, rfl⟩⟩
  rw [if_neg h]
  by_cases h : format = 4
  · subst h
    rw [if_pos rfl, parse32Cache_eq, key (fun n f => cache32_iff v n f hv)]
    exact ⟨fun ⟨m, hm, e⟩ => e ▸ .cache32 hm, fun h => by cases h with | cache32 h => exact ⟨_, h, rfl⟩⟩
  rw [if_neg h]
  by_cases h : format = 5
  · subst h
    rw [if_pos rfl, parse32Firmware_eq, key (fun n f => firmware32_iff v n f hv)]
    exact ⟨fun ⟨m, hm, e⟩ => e ▸ .firmware32 hm, fun h => by cases h with | firmware32 h => exact ⟨_, h, rfl⟩⟩
  rw [if_neg h]
  by_cases h : format = 14
  · subst h
    rw [if_pos rfl, parseSegmented_eq, key (fun n f => segmented_iff v n f hv6)]
    exact ⟨fun ⟨m, hm, e⟩ => e ▸ .segmented hm, fun h => by cases h with | segmented h => exact ⟨_, h, rfl⟩⟩
  rw [if_neg h]
  by_cases h : format = 13
  · subst h
    rw [if_pos rfl, parseSharedCache_eq, key (fun n f => sharedCache_iff v n f hv6)]
    exact ⟨fun ⟨m, hm, e⟩ => e ▸ .sharedCache hm, fun h => by cases h with | sharedCache h => exact ⟨_, h, rfl⟩⟩
  rw [if_neg h]
  constructor
  · intro e; simp at e
  · intro e; cases e <;> contradiction

theorem ite_prop {α : Type} (P : α → Prop) {c : Prop} [Decidable c] {x y : α} (hx : P x) (hy : P y) : P (if c then x else y) := by
  split
  · exact hx
  · exact hy

theorem parse_no_panic (format v base : Nat) : Fix.parse format v base ≠ .panic := by
  unfold Fix.parse
  repeat (refine ite_prop (· ≠ Res.panic) (by simp) ?_)
  simp

/-- The distance to the next pointer is small. -/
theorem parse_small {format v base n : Nat} {f : Fix} (h : Fix.parse format v base = .ok (n, f)) : n < 2 ^ 15 := by
  have key : (fun r : Res (Nat × Fix) => ∀ x, r = .ok x → x.1 < 2 ^ 15) (Fix.parse format v base) := by
    unfold Fix.parse
    repeat
      refine ite_prop (fun r : Res (Nat × Fix) => ∀ x, r = .ok x → x.1 < 2 ^ 15) ?_ ?_
      · intro x hx
        injection hx with hx
        subst hx
        simp only [parseArm64e_eq, parseUserland24_eq, parseKernelCache_eq, parseSegmented_eq, parse64_eq, parse32_eq, parse32Cache_eq,
          parse32Firmware_eq, parseSharedCache_eq, Nat.reducePow]
        omega
    intro x hx
    simp at hx
  exact key _ h

end Obj.Spec.Fixup

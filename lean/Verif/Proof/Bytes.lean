import Verif.Model.Bytes
import Verif.Model.WriteUtil

namespace Obj

theorem memchr_some_iff (d : UInt8) (l : List UInt8) (n : Nat) :
    memchr d l = some n ↔ ∃ pre suf, l = pre ++ d :: suf ∧ d ∉ pre ∧ pre.length = n := by
  induction l generalizing n with
  | nil => simp [memchr]
  | cons b bs ih =>
    simp only [memchr]
    by_cases hb : b = d
    · subst hb
      simp only [if_true, Option.some.injEq]
      constructor
      · rintro rfl; exact ⟨[], bs, rfl, by simp, rfl⟩
      · rintro ⟨pre, suf, h, hn, rfl⟩
        cases pre with
        | nil => rfl
        | cons c cs => simp at h; exact absurd h.1 (by intro h; subst h; simp at hn)
    · rw [if_neg hb]
      constructor
      · intro h
        simp only [Option.map_eq_some_iff] at h
        obtain ⟨m, hm, rfl⟩ := h
        obtain ⟨pre, suf, rfl, hn, rfl⟩ := (ih m).1 hm
        exact ⟨b :: pre, suf, rfl, by simp [hn, Ne.symm hb], by simp⟩
      · rintro ⟨pre, suf, h, hn, rfl⟩
        cases pre with
        | nil => simp at h; exact absurd h.1 hb
        | cons c cs =>
          simp at h hn
          obtain ⟨rfl, rfl⟩ := h
          have := (ih cs.length).2 ⟨cs, suf, rfl, hn.2, rfl⟩
          simp [this]

theorem memchr_none_iff (d : UInt8) (l : List UInt8) : memchr d l = none ↔ d ∉ l := by
  induction l with
  | nil => simp [memchr]
  | cons b bs ih =>
    simp only [memchr]
    by_cases hb : b = d
    · subst hb; simp
    · rw [if_neg hb]; simp [ih, Ne.symm hb]

theorem memchr_append {d : UInt8} {pre suf : List UInt8} (h : d ∉ pre) :
    memchr d (pre ++ d :: suf) = some pre.length :=
  (memchr_some_iff ..).2 ⟨pre, suf, rfl, h, rfl⟩

theorem readString_append {s tl : List UInt8} (h : (0 : UInt8) ∉ s) :
    Bytes.readString (s ++ 0 :: tl) = (.ok s, tl) := by
  simp [Bytes.readString, memchr_append h, Bytes.readBytes, Bytes.skip]

theorem readString_cases (l : List UInt8) :
    (∃ s tl, l = s ++ 0 :: tl ∧ (0 : UInt8) ∉ s ∧ Bytes.readString l = (.ok s, tl)) ∨
    ((0 : UInt8) ∉ l ∧ Bytes.readString l = (.err, [])) := by
  match h : memchr 0 l with
  | some n =>
    left
    obtain ⟨pre, suf, rfl, hn, rfl⟩ := (memchr_some_iff ..).1 h
    exact ⟨pre, suf, rfl, hn, readString_append hn⟩
  | none =>
    right
    exact ⟨(memchr_none_iff ..).1 h, by simp [Bytes.readString, h]⟩

theorem readBytes_append (a b : List UInt8) : Bytes.readBytes (a ++ b) a.length = (.ok a, b) := by
  simp [Bytes.readBytes]

theorem flatten_chunks (size : Nat) : ∀ (count : Nat) (l : List UInt8), count * size ≤ l.length →
    (Bytes.chunks size count l).flatten = l.take (count * size) ∧
    (∀ c ∈ Bytes.chunks size count l, c.length = size) ∧ (Bytes.chunks size count l).length = count := by
  intro count
  induction count with
  | zero => intro l _; simp [Bytes.chunks]
  | succ n ih =>
    intro l h
    rw [Nat.succ_mul] at h
    obtain ⟨h1, h2, h3⟩ := ih (l.drop size) (by simp; omega)
    refine ⟨?_, ?_, ?_⟩
    · rw [Bytes.chunks, List.flatten_cons, h1, Nat.succ_mul, Nat.add_comm, List.take_add]
    · intro c hc
      simp only [Bytes.chunks, List.mem_cons] at hc
      rcases hc with rfl | hc
      · simp; omega
      · exact h2 c hc
    · simp [Bytes.chunks, h3]

/-! ## alignment masks -/

theorem and_mask_eq {x k : Nat} {n : Nat} (hk : k ≤ n) (hx : x < 2 ^ n) :
    x &&& (2 ^ n - 1 - (2 ^ k - 1)) = x / 2 ^ k * 2 ^ k := by
  have h1 : 2 ^ n - 1 - (2 ^ k - 1) = (2 ^ (n - k) - 1) <<< k := by
    rw [Nat.shiftLeft_eq, Nat.sub_mul, ← Nat.pow_add, Nat.sub_add_cancel hk]
    have := Nat.two_pow_pos k
    omega
  rw [h1, ← Nat.shiftLeft_eq, ← Nat.shiftRight_eq_div_pow]
  apply Nat.eq_of_testBit_eq
  intro i
  simp only [Nat.testBit_and, Nat.testBit_shiftLeft, Nat.testBit_two_pow_sub_one, Nat.testBit_shiftRight]
  by_cases hi : k ≤ i
  · have hik : k + (i - k) = i := by omega
    simp only [hi, decide_true, Bool.true_and, hik]
    by_cases hlt : i - k < n - k
    · simp [hlt]
    · have : x.testBit i = false := by
        apply Nat.testBit_lt_two_pow
        exact Nat.lt_of_lt_of_le hx (Nat.pow_le_pow_right (by decide) (by omega))
      simp [this]
  · simp [hi]

theorem align_core {offset k n : Nat} (hk : k < n) (h : offset + (2 ^ k - 1) < 2 ^ n) :
    let r := (offset + (2 ^ k - 1)) &&& (2 ^ n - 1 - (2 ^ k - 1))
    r % 2 ^ k = 0 ∧ offset ≤ r ∧ r < offset + 2 ^ k := by
  intro r
  have hr : r = (offset + (2 ^ k - 1)) / 2 ^ k * 2 ^ k := and_mask_eq (by omega) h
  have hp := Nat.two_pow_pos k
  have hdm := Nat.div_add_mod (offset + (2 ^ k - 1)) (2 ^ k)
  have hml := Nat.mod_lt (offset + (2 ^ k - 1)) hp
  rw [Nat.mul_comm] at hdm
  refine ⟨by rw [hr]; exact Nat.mul_mod_left _ _, ?_, ?_⟩ <;> omega

theorem align64_eq {offset k : Nat} (hk : k < 64) (h : offset + (2 ^ k - 1) < 2 ^ 64) :
    align64 offset (2 ^ k) = .ok ((offset + (2 ^ k - 1)) / 2 ^ k * 2 ^ k) := by
  have hp := Nat.two_pow_pos k
  have h' : offset + (2 ^ k - 1) < U64 := by simpa using h
  have := and_mask_eq (x := offset + (2 ^ k - 1)) (k := k) (n := 64) (by omega) h
  simp only [align64]
  rw [if_neg (by omega), if_neg (by omega)]
  simp only [show (2 : Nat) ^ 64 = U64 by decide] at this
  rw [this]

theorem align32_eq {offset k : Nat} (hk : k < 32) (h : offset + (2 ^ k - 1) < 2 ^ 32) :
    align32 offset (2 ^ k) = .ok ((offset + (2 ^ k - 1)) / 2 ^ k * 2 ^ k) := by
  have hp := Nat.two_pow_pos k
  have h' : offset + (2 ^ k - 1) < U32 := by simpa using h
  have := and_mask_eq (x := offset + (2 ^ k - 1)) (k := k) (n := 32) (by omega) h
  simp only [align32]
  rw [if_neg (by omega), if_neg (by omega)]
  simp only [show (2 : Nat) ^ 32 = U32 by decide] at this
  rw [this]

theorem roundUp_spec (offset p : Nat) (hp : 0 < p) :
    let r := (offset + (p - 1)) / p * p
    r % p = 0 ∧ offset ≤ r ∧ r < offset + p := by
  intro r
  have hdm := Nat.div_add_mod (offset + (p - 1)) p
  have hml := Nat.mod_lt (offset + (p - 1)) hp
  rw [Nat.mul_comm] at hdm
  refine ⟨Nat.mul_mod_left _ _, ?_, ?_⟩ <;> omega

end Obj

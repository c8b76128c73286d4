import Verif.Proof.Elf

/-! # Small shared lemmas -/

namespace Obj
open Obj.Elf

theorem Res.bind_no_panic {α β : Type} {x : Res α} {f : α → Res β} (hx : x ≠ .panic) (hf : ∀ a, x = .ok a → f a ≠ .panic) :
    x.bind f ≠ .panic := by
  cases x with
  | ok a => exact hf a rfl
  | err => simp
  | panic => exact absurd rfl hx

theorem readSliceAt_no_panic (data : List UInt8) (o size n : Nat) : readSliceAt data o size n ≠ .panic := by
  unfold readSliceAt ReadRef.readSlice ReadRef.readBytes
  rw [readRef_readBytesAt_eq]
  by_cases h1 : U64 ≤ n * size
  · rw [if_pos h1]; simp
  · rw [if_neg h1]
    by_cases h2 : n * size = 0 ∨ o + n * size ≤ data.length
    · rw [if_pos h2]; simp
    · rw [if_neg h2]; simp

theorem readSlice_ok {data : List UInt8} {o size n o' : Nat} {imgs : List (List UInt8)}
    (h : ReadRef.readSlice data o size n = (.ok imgs, o')) :
    imgs = Bytes.chunks size n (slice data o (n * size)) ∧ (n * size = 0 ∨ o + n * size ≤ data.length) ∧ n * size < U64 ∧
      o' = (o + n * size) % U64 := by
  unfold ReadRef.readSlice ReadRef.readBytes at h
  rw [readRef_readBytesAt_eq] at h
  by_cases h1 : U64 ≤ n * size
  · rw [if_pos h1] at h; simp at h
  · rw [if_neg h1] at h
    by_cases h2 : n * size = 0 ∨ o + n * size ≤ data.length
    · rw [if_pos h2] at h
      simp only [Prod.mk.injEq, Res.ok.injEq] at h
      exact ⟨h.1.symm, h2, by omega, h.2.symm⟩
    · rw [if_neg h2] at h; simp at h

theorem length_slice_le (d : List UInt8) (o n : Nat) : (slice d o n).length ≤ n := by
  simp [slice]; omega

theorem length_slice_of {d : List UInt8} {o n : Nat} (h : n = 0 ∨ o + n ≤ d.length) : (slice d o n).length = n := by
  simp [slice]; omega

theorem and_two_pow_ne (v k : Nat) : v &&& 2 ^ k ≠ 0 ↔ v.testBit k = true := by
  constructor
  · intro h
    cases hb : v.testBit k with
    | true => rfl
    | false =>
      exfalso
      apply h
      apply Nat.eq_of_testBit_eq
      intro i
      rw [Nat.testBit_and, Nat.testBit_two_pow, Nat.zero_testBit]
      by_cases hi : k = i
      · subst hi; simp [hb]
      · simp [hi]
  · intro h hc
    have := congrArg (fun n => Nat.testBit n k) hc
    simp [Nat.testBit_and, h] at this

end Obj

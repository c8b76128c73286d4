import Verif.Model.Bytes

/-! # Closed forms of the slice readers -/

namespace Obj

theorem readRef_readBytesAt_eq (d : List UInt8) (off n : Nat) :
    ReadRef.readBytesAt d off n = if n = 0 ∨ off + n ≤ d.length then .ok (slice d off n) else .err := by
  unfold ReadRef.readBytesAt slice
  by_cases h0 : n = 0
  · simp [h0]
  · by_cases h1 : off + n ≤ d.length
    · rw [if_neg h0, if_neg (by omega), if_neg (by simp; omega), if_pos (Or.inr h1)]
    · rw [if_neg h0, if_neg (c := _ ∨ _) (by omega)]
      by_cases h2 : d.length < off
      · rw [if_pos h2]
      · rw [if_neg h2, if_pos (by simp; omega)]

theorem readRef_readBytesAt_pos {d : List UInt8} {off n : Nat} (hn : 0 < n) :
    ReadRef.readBytesAt d off n = if off + n ≤ d.length then .ok (slice d off n) else .err := by
  rw [readRef_readBytesAt_eq]
  by_cases h : off + n ≤ d.length
  · rw [if_pos h, if_pos (Or.inr h)]
  · rw [if_neg h, if_neg (by omega)]

theorem readRef_readBytesAt_ok {d : List UInt8} {off n : Nat} {b : List UInt8}
    (h : ReadRef.readBytesAt d off n = .ok b) : b = slice d off n ∧ b.length = n := by
  rw [readRef_readBytesAt_eq] at h
  split at h
  · rename_i hc
    simp at h
    subst h
    refine ⟨rfl, ?_⟩
    simp [slice]; omega
  · simp at h

theorem readRef_readBytesAt_no_panic (d : List UInt8) (off n : Nat) : ReadRef.readBytesAt d off n ≠ .panic := by
  rw [readRef_readBytesAt_eq]; split <;> simp

theorem slice_of_append {a b c : List UInt8} {off n : Nat} (ho : a.length = off) (hn : b.length = n) :
    slice (a ++ (b ++ c)) off n = b := by
  subst ho hn
  simp [slice]

theorem slice_slice (d : List UInt8) (a n b m : Nat) (h : b + m ≤ n) : slice (slice d a n) b m = slice d (a + b) m := by
  unfold slice
  rw [List.drop_take, List.take_take, List.drop_drop, Nat.min_eq_left (by omega)]

end Obj

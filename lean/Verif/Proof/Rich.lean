import Verif.Spec.Rich
import Verif.Proof.FileKind
import Verif.Proof.Iter

/-! # Lemmas about the rich header -/

namespace Obj
open Obj.Spec Obj.Pe

theorem at_le {d p : List UInt8} {o : Nat} (h : At d o p) (hp : p ≠ []) : o + p.length ≤ d.length := by
  have h1 := congrArg List.length h
  have := List.length_pos_iff.2 hp
  simp [slice] at h1; omega

theorem memmemLoop_spec (d needle : List UInt8) (hn : needle ≠ []) (fuel offset : Nat) (hf : d.length < offset + 4 * fuel)
    (ho : offset % 4 = 0) (hprev : ∀ o < offset, o % 4 = 0 → ¬ At d o needle) (off : Nat) :
    memmemLoop d needle 4 fuel offset = some off ↔ FirstAligned d needle off := by
  have hpos := List.length_pos_iff.2 hn
  have none_of : ∀ o, d.length < o + needle.length → ¬ At d o needle := by
    intro o h ha; have := at_le ha hn; omega
  have no_later : d.length < offset + needle.length → ¬ FirstAligned d needle off := by
    rintro h ⟨h1, h2, h3⟩
    have := at_le h2 hn
    by_cases hlt : off < offset
    · exact hprev off hlt h1 h2
    · omega
  induction fuel generalizing offset with
  | zero =>
    simp only [memmemLoop, reduceCtorEq, false_iff]
    exact no_later (by omega)
  | succ fuel ih =>
    simp only [memmemLoop]
    by_cases h1 : d.length < offset
    · rw [if_pos h1]; simp only [reduceCtorEq, false_iff]; exact no_later (by omega)
    rw [if_neg h1]
    by_cases h2 : (d.drop offset).length < needle.length
    · rw [if_pos h2]; simp only [reduceCtorEq, false_iff]; simp at h2; exact no_later (by omega)
    rw [if_neg h2]
    by_cases h3 : (d.drop offset).take needle.length = needle
    · rw [if_pos h3]
      have ha : At d offset needle := h3
      simp only [Option.some.injEq]
      constructor
      · rintro rfl; exact ⟨ho, ha, hprev⟩
      · rintro ⟨k1, k2, k3⟩
        rcases Nat.lt_trichotomy off offset with h | h | h
        · exact absurd k2 (hprev off h k1)
        · exact h.symm
        · exact absurd ha (k3 offset h ho)
    · rw [if_neg h3]
      have hprev' : ∀ o < offset + 4, o % 4 = 0 → ¬ At d o needle := by
        intro o h ho'
        by_cases hlt : o < offset
        · exact hprev o hlt ho'
        · have : o = offset := by omega
          subst this; exact h3
      refine ih (offset + 4) (by omega) (by omega) hprev' ?_
      rintro h ⟨k1, k2, k3⟩
      have := at_le k2 hn
      by_cases hlt : off < offset + 4
      · exact hprev' off hlt k1 k2
      · omega

theorem memmem_iff (d needle : List UInt8) (hn : needle ≠ []) (off : Nat) :
    memmem d needle 4 = some off ↔ FirstAligned d needle off :=
  memmemLoop_spec d needle hn _ 0 (by omega) rfl (by omega) off

theorem at_take {d p : List UInt8} {o n : Nat} (h : o + p.length ≤ n) : At (d.take n) o p ↔ At d o p := by
  unfold At slice
  rw [List.drop_take, List.take_take, Nat.min_eq_left (by omega)]

theorem rd_dans : rd .little "DanS".toUTF8.toList = 0x536e6144 := by decide +kernel

theorem xor_lt_32 {a b : Nat} (ha : a < 256 ^ 4) (hb : b < 256 ^ 4) : a ^^^ b < 256 ^ 4 := by
  have : (256 : Nat) ^ 4 = 2 ^ 32 := by decide
  rw [this] at *
  exact Nat.xor_lt_two_pow ha hb

/-- `chunks` of a list long enough. -/
theorem chunks_eq_map (size count : Nat) (l : List UInt8) :
    Bytes.chunks size count l = (List.range count).map (fun i => slice l (i * size) size) := by
  induction count generalizing l with
  | zero => rfl
  | succ n ih =>
    rw [List.range_succ_eq_map, List.map_cons, List.map_map, Bytes.chunks, ih]
    congr 1
    · simp [slice]
    · apply List.map_congr_left
      intro i _
      simp [slice, List.drop_drop, Nat.succ_mul, Nat.add_comm]

end Obj

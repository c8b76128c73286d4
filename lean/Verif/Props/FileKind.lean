import Verif.Proof.FileKind

/-! # C41: file kind detection -/

namespace Obj.Props
open Obj Obj.Spec

/-- C41: a kind is reported exactly when 16 bytes can be read at the offset and the magic of that kind is
there (the order in which magics are tested does not matter). -/
theorem C41_exact (data : List UInt8) (off : Nat) (k : FileKind) :
    FileKind.parseAt data off = .ok k ↔ off + 16 ≤ data.length ∧ Magic data off k := by
  unfold FileKind.parseAt
  rw [readRef_readBytesAt_pos (by omega)]
  by_cases h16 : off + 16 ≤ data.length
  · rw [if_pos h16, magic_iff_magic8 _ _ h16]
    have hl : (slice data off 16).length = 16 := by simp [slice]; omega
    have ht : (slice data off 16).take 8 = slice data off 8 := by simp [slice, List.take_take]
    dsimp only
    rw [if_neg (by omega), ht]
    generalize slice data off 8 = m
    simp only [h16, true_and]
    constructor
    · intro h
      rcases ite_ok h with ⟨c, rfl⟩ | ⟨_, h⟩
      · simpa [magic8] using c
      rcases ite_ok h with ⟨c, rfl⟩ | ⟨_, h⟩
      · simpa [magic8] using c
      rcases ite_ok h with ⟨c, rfl⟩ | ⟨_, h⟩
      · simpa [magic8] using c
      rcases ite_ok h with ⟨c, rfl⟩ | ⟨_, h⟩
      · simpa [magic8] using c
      rcases ite_ok h with ⟨c, rfl⟩ | ⟨_, h⟩
      · simpa [magic8] using c
      rcases ite_ok h with ⟨c, rfl⟩ | ⟨_, h⟩
      · simpa [magic8] using c
      rcases ite_ok h with ⟨c, rfl⟩ | ⟨_, h⟩
      · simpa [magic8] using c
      rcases ite_ok h with ⟨c, rfl⟩ | ⟨_, h⟩
      · simpa [magic8] using c
      rcases ite_ok h with ⟨c, rfl⟩ | ⟨_, h⟩
      · simpa [magic8] using c
      by_cases c : ([77, 90].isPrefixOf m && off == 0) = true
      · rw [if_pos c] at h
        have c' : [77, 90].isPrefixOf m = true ∧ off = 0 := by simpa using c
        cases hm : optionalHeaderMagic data with
        | ok v =>
          rw [hm] at h
          rcases ite_ok h with ⟨e, rfl⟩ | ⟨_, h⟩
          · exact ⟨c'.2, c'.1, by rw [hm, e]⟩
          rcases ite_ok h with ⟨e, rfl⟩ | ⟨_, h⟩
          · exact ⟨c'.2, c'.1, by rw [hm, e]⟩
          cases h
        | err => rw [hm] at h; cases h
        | panic => rw [hm] at h; cases h
      rw [if_neg c] at h
      rcases ite_ok h with ⟨c, rfl⟩ | ⟨_, h⟩
      · simpa [magic8, or_assoc] using c
      rcases ite_ok h with ⟨c, rfl⟩ | ⟨_, h⟩
      · simpa [magic8] using c
      by_cases c : ([0x00, 0x00, 0xff, 0xff, 0x02, 0x00].isPrefixOf m && off == 0) = true
      · rw [if_pos c] at h
        have c' : [0x00, 0x00, 0xff, 0xff, 0x02, 0x00].isPrefixOf m = true ∧ off = 0 := by simpa using c
        cases hm : anonObjectClassId data with
        | ok v =>
          rw [hm] at h
          rcases ite_ok h with ⟨e, rfl⟩ | ⟨_, h⟩
          · exact ⟨c'.2, c'.1, by rw [hm, e]⟩
          cases h
        | err => rw [hm] at h; cases h
        | panic => rw [hm] at h; cases h
      rw [if_neg c] at h
      rcases ite_ok h with ⟨c, rfl⟩ | ⟨_, h⟩
      · simpa [magic8] using c
      rcases ite_ok h with ⟨c, rfl⟩ | ⟨_, h⟩
      · simpa [magic8] using c
      cases h
    · intro h
      cases k <;> simp only [magic8] at h
      case archive => rcases h with h | h <;> simp [h]
      case dyldCache => simp [h, prefix_excl h]
      case elf32 => simp [h, prefix_excl h]
      case elf64 => simp [h, prefix_excl h]
      case machO32 => rcases h with h | h <;> simp [h, prefix_excl h]
      case machO64 => rcases h with h | h <;> simp [h, prefix_excl h]
      case machOFat32 => simp [h, prefix_excl h]
      case machOFat64 => simp [h, prefix_excl h]
      case wasm => simp [h.1, h.2, prefix_excl h.1]
      case pe32 => simp [h.1, h.2.1, h.2.2, prefix_excl h.2.1]
      case pe64 => simp [h.1, h.2.1, h.2.2, prefix_excl h.2.1]
      case coff => rcases h with h | h | h | h | h | h | h | h <;> simp [h, prefix_excl h]
      case coffImport => simp [h, prefix_excl h]
      case coffBig => simp [h.1, h.2.1, h.2.2, prefix_excl h.2.1]
      case xcoff32 => simp [h, prefix_excl h]
      case xcoff64 => simp [h, prefix_excl h]
  · rw [if_neg h16]
    simp [h16]

/-- C41: at most one kind's magic is present. -/
theorem C41_unique (data : List UInt8) (off : Nat) (hin : off + 16 ≤ data.length) (k k' : FileKind)
    (h : Magic data off k) (h' : Magic data off k') : k = k' := by
  have a := (C41_exact data off k).2 ⟨hin, h⟩
  rw [(C41_exact data off k').2 ⟨hin, h'⟩] at a
  injection a with a; exact a.symm

/-- C41: detection never panics, and fails on anything else. -/
theorem C41_total (data : List UInt8) (off : Nat) :
    FileKind.parseAt data off ≠ .panic ∧
    (FileKind.parseAt data off = .err ↔ data.length < off + 16 ∨ ∀ k, ¬ Magic data off k) := by
  have hp : FileKind.parseAt data off ≠ .panic := by
    unfold FileKind.parseAt
    have h1 := optionalHeaderMagic_no_panic data
    have h2 := anonObjectClassId_no_panic data
    rw [readRef_readBytesAt_pos (by omega)]
    by_cases h16 : off + 16 ≤ data.length
    · rw [if_pos h16]
      have hl : (slice data off 16).length = 16 := by simp [slice]; omega
      dsimp only
      rw [if_neg (by omega)]
      iterate 9 apply ite_no_panic
      by_cases c : ([77, 90].isPrefixOf (List.take 8 (slice data off 16)) && off == 0) = true
      · rw [if_pos c]
        cases hm : optionalHeaderMagic data with
        | ok v => dsimp only; split <;> (try split) <;> simp
        | err => simp
        | panic => exact absurd hm h1
      rw [if_neg c]
      iterate 2 apply ite_no_panic
      by_cases c : ([0x00, 0x00, 0xff, 0xff, 0x02, 0x00].isPrefixOf (List.take 8 (slice data off 16)) && off == 0) = true
      · rw [if_pos c]
        cases hm : anonObjectClassId data with
        | ok v => dsimp only; split <;> simp
        | err => simp
        | panic => exact absurd hm h2
      rw [if_neg c]
      iterate 2 apply ite_no_panic
      simp
    · rw [if_neg h16]; simp
  refine ⟨hp, ?_⟩
  cases hk : FileKind.parseAt data off with
  | ok k =>
    obtain ⟨h1, h2⟩ := (C41_exact data off k).1 hk
    simp only [reduceCtorEq, false_iff, not_or, Nat.not_lt]
    exact ⟨h1, fun h => h k h2⟩
  | panic => exact absurd hk hp
  | err =>
    simp only [true_iff]
    by_cases h16 : off + 16 ≤ data.length
    · right
      intro k hm
      rw [(C41_exact data off k).2 ⟨h16, hm⟩] at hk; cases hk
    · left; omega

example : FileKind.parseAt ([0x7f, 0x45, 0x4c, 0x46, 2] ++ List.replicate 11 0) 0 = .ok .elf64 := by decide

example : FileKind.parseAt ([1] ++ [0, 0, 0xff, 0xff, 0, 0] ++ List.replicate 10 0) 1 = .ok .coffImport := by decide

end Obj.Props

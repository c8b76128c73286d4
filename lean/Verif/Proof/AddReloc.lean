import Verif.Proof.WriteObject2
import Verif.Model.MachoReloc
import Verif.Proof.Endian

/-!
# Adding relocations to the object builder
-/

namespace Obj.W
open Obj

theorem writeAddend_ok {o o' : Object} {i : Nat} {r : Reloc} (h : o.writeAddend i r = .ok o') :
    ∃ s n, o.sections[i]? = some s ∧ relocSize o.format o.arch r = .ok n ∧ (n = 32 ∨ n = 64) ∧ s.kind.isBss = false ∧
      r.offset + n / 8 ≤ s.data.length ∧
      o' = { o with
        sections := o.sections.set i { s with
          data := s.data.take r.offset ++ wrI o.endian (n / 8) r.addend ++ s.data.drop (r.offset + n / 8) } } := by
  unfold Object.writeAddend at h
  cases hn : relocSize o.format o.arch r with
  | err => rw [hn] at h; simp at h
  | panic => rw [hn] at h; simp at h
  | ok n =>
    rw [hn, Res.ok_bind] at h
    cases hs : o.sections[i]? with
    | none => rw [hs] at h; simp at h
    | some s =>
      rw [hs] at h
      simp only at h
      by_cases hb : s.kind.isBss = true
      · rw [if_pos hb] at h; simp at h
      rw [if_neg hb] at h
      have hl : ∀ w, (wrI o.endian w r.addend).length = w := fun w => by unfold wrI; rw [length_wr]
      by_cases h32 : n = 32
      · rw [if_pos h32] at h
        split at h
        · rename_i hc
          rw [hl] at hc
          cases h
          refine ⟨s, n, rfl, rfl, .inl h32, by simpa using hb, by omega, ?_⟩
          subst h32
          simp only [Object.setSection, patch, hl]
        · cases h
      · rw [if_neg h32] at h
        by_cases h64 : n = 64
        · rw [if_pos h64] at h
          split at h
          · rename_i hc
            rw [hl] at hc
            cases h
            refine ⟨s, n, rfl, rfl, .inr h64, by simpa using hb, by omega, ?_⟩
            subst h64
            simp only [Object.setSection, patch, hl]
          · cases h
        · rw [if_neg h64] at h; cases h

/-- The effect of the last part of `add_relocation_internal`. -/
theorem finish_ok {o o' : Object} {i : Nat} {r : Reloc} (h : o.finishReloc i r = (.ok (), o')) :
    ∃ s imp r', o.sections[i]? = some s ∧ adjustAddend o.format o.arch r = .ok (imp, r') ∧
      ((¬ (imp = true ∧ r'.addend ≠ 0) ∧
          o' = { o with sections := o.sections.set i { s with relocs := s.relocs ++ [r'] } }) ∨
       (imp = true ∧ r'.addend ≠ 0 ∧ ∃ n, relocSize o.format o.arch r' = .ok n ∧ (n = 32 ∨ n = 64) ∧
          s.kind.isBss = false ∧ r'.offset + n / 8 ≤ s.data.length ∧
          o' = { o with sections := o.sections.set i { s with
            data := s.data.take r'.offset ++ wrI o.endian (n / 8) r'.addend ++ s.data.drop (r'.offset + n / 8),
            relocs := s.relocs ++ [{ r' with addend := 0 }] } })) := by
  unfold Object.finishReloc at h
  cases ha : adjustAddend o.format o.arch r with
  | err => rw [ha] at h; simp at h
  | panic => rw [ha] at h; simp at h
  | ok x =>
    obtain ⟨imp, r'⟩ := x
    rw [ha] at h
    simp only at h
    by_cases hc : imp = true ∧ r'.addend ≠ 0
    · rw [if_pos hc] at h
      cases hw : o.writeAddend i r' with
      | err => rw [hw] at h; simp at h
      | panic => rw [hw] at h; simp at h
      | ok o1 =>
        rw [hw] at h
        simp only at h
        obtain ⟨s, n, hs, hn, hn2, hb, hl, rfl⟩ := writeAddend_ok hw
        simp only [getElem_set_self hs, Prod.mk.injEq, true_and] at h
        refine ⟨s, imp, r', hs, rfl, .inr ⟨hc.1, hc.2, n, hn, hn2, hb, hl, ?_⟩⟩
        rw [← h]
        simp only [Object.setSection, List.set_set]
    · rw [if_neg hc] at h
      cases hs : o.sections[i]? with
      | none => rw [hs] at h; simp at h
      | some s =>
        rw [hs] at h
        simp only [Prod.mk.injEq, true_and] at h
        exact ⟨s, imp, r', rfl, rfl, .inl ⟨hc, h.symm⟩⟩

/-- The converse of `finish_ok` without an implicit addend. -/
theorem finish_plain {o : Object} {i : Nat} {r r' : Reloc} {s : Section} {imp : Bool} (hs : o.sections[i]? = some s)
    (ha : adjustAddend o.format o.arch r = .ok (imp, r')) (hc : ¬ (imp = true ∧ r'.addend ≠ 0)) :
    o.finishReloc i r =
      (.ok (), { o with sections := o.sections.set i { s with relocs := s.relocs ++ [r'] } }) := by
  unfold Object.finishReloc
  rw [ha]
  simp only
  rw [if_neg hc, hs]
  rfl

/-- The converse of `finish_ok` with an implicit addend. -/
theorem finish_implicit {o : Object} {i : Nat} {r r' : Reloc} {s : Section} {n : Nat}
    (hs : o.sections[i]? = some s) (ha : adjustAddend o.format o.arch r = .ok (true, r')) (hc : r'.addend ≠ 0)
    (hz : relocSize o.format o.arch r' = .ok n) (hn : n = 32 ∨ n = 64) (hb : s.kind.isBss = false)
    (hl : r'.offset + n / 8 ≤ s.data.length) :
    o.finishReloc i r = (.ok (), { o with sections := o.sections.set i { s with
            data := s.data.take r'.offset ++ wrI o.endian (n / 8) r'.addend ++ s.data.drop (r'.offset + n / 8),
            relocs := s.relocs ++ [{ r' with addend := 0 }] } }) := by
  have hw : ∀ w, (wrI o.endian w r'.addend).length = w := fun w => by unfold wrI; rw [length_wr]
  have : o.writeAddend i r' = .ok { o with
      sections := o.sections.set i { s with
        data := s.data.take r'.offset ++ wrI o.endian (n / 8) r'.addend ++ s.data.drop (r'.offset + n / 8) } } := by
    unfold Object.writeAddend
    rw [hz, Res.ok_bind, hs]
    simp only
    rw [if_neg (by simp [hb])]
    obtain rfl | rfl := hn
    · rw [if_pos rfl, if_pos (by rw [hw]; omega)]
      simp only [Object.setSection, patch, hw]
    · rw [if_neg (by decide), if_pos rfl, if_pos (by rw [hw]; omega)]
      simp only [Object.setSection, patch, hw]
  unfold Object.finishReloc
  rw [ha]
  simp only
  rw [if_pos ⟨trivial, hc⟩, this]
  simp only [getElem_set_self hs]
  simp only [Object.setSection, List.set_set]

theorem finish_err {o o' : Object} {i : Nat} {r : Reloc} (h : o.finishReloc i r = (.err, o')) : o' = o := by
  unfold Object.finishReloc at h
  split at h
  · simpa using h.symm
  · simp at h
  · rename_i imp r' _
    simp only at h
    split at h
    · split at h
      · simpa using h.symm
      · simp at h
      · split at h <;> simp at h
    · split at h <;> simp at h

end Obj.W

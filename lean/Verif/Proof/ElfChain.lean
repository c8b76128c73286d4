import Verif.Spec.ElfReloc
import Verif.Proof.Util

/-! Facts about the table of relocation sections. -/

namespace Obj.ElfChain
open Obj Obj.Elf Obj.Spec.ElfRelocS

theorem isReloc_iff (s : Shdr) : isRelocType s.type = true ↔ IsReloc s := by
  unfold isRelocType IsReloc
  simp only [Bool.or_eq_true, beq_iff_eq]
  omega

/-- The first section from `i` on that applies to `t`, or 0. -/
def nx (ss : List Shdr) (sym t i : Nat) : Nat :=
  ((List.range' i (ss.length - i)).find? fun j => decide (Applies ss sym t j)).getD 0

theorem nx_step (ss : List Shdr) (sym t i : Nat) (hi : i < ss.length) :
    nx ss sym t i = if Applies ss sym t i then i else nx ss sym t (i + 1) := by
  unfold nx
  have e : ss.length - i = (ss.length - (i + 1)) + 1 := by omega
  rw [e, List.range'_succ, List.find?_cons]
  by_cases h : Applies ss sym t i <;> simp [h]

/-- A relocation section that cannot be chained. -/
def Bad (ss : List Shdr) (sym j : Nat) : Prop :=
  ∃ s, ss[j]? = some s ∧ IsReloc s ∧ s.link = sym ∧ s.info ≠ 0 ∧ (ss.length ≤ s.info ∨ ∃ s', ss[s.info]? = some s' ∧ IsReloc s')

/-- The vector after the sections from `i` on were handled. -/
def Inv (ss : List Shdr) (sym i : Nat) (R : List Nat) : Prop :=
  R.length = ss.length ∧ ∀ (k : Nat) s, ss[k]? = some s →
    (IsReloc s → i ≤ k → s.link = sym → s.info ≠ 0 → R[k]? = some (nx ss sym s.info (k + 1))) ∧
    (IsReloc s → (k < i ∨ s.link ≠ sym ∨ s.info = 0) → R[k]? = some 0) ∧
    (¬ IsReloc s → R[k]? = some (nx ss sym k i))

theorem step_spec (t : SectionTable) (sym i : Nat) (s : Shdr) (R : List Nat) (hs : t.sections[i]? = some s)
    (hI : Inv t.sections sym (i + 1) R) :
    (Bad t.sections sym i → relocStep t sym i s R = .err) ∧
    (¬ Bad t.sections sym i → ∃ R', relocStep t sym i s R = .ok R' ∧ Inv t.sections sym i R') := by
  have hi : i < t.sections.length := (List.getElem?_eq_some_iff.1 hs).1
  obtain ⟨hl, hI⟩ := hI
  have hkeep : ¬ (IsReloc s ∧ s.link = sym ∧ s.info ≠ 0) → Inv t.sections sym i R := by
    intro hno
    refine ⟨hl, fun k s' hk => ?_⟩
    obtain ⟨a, b, c⟩ := hI k s' hk
    refine ⟨fun h1 h2 h3 h4 => ?_, fun h1 h2 => ?_, fun h1 => ?_⟩
    · by_cases hki : k = i
      · subst hki; rw [hs] at hk; cases hk; exact absurd ⟨h1, h3, h4⟩ hno
      · exact a h1 (by omega) h3 h4
    · exact b h1 (by omega)
    · rw [c h1, nx_step _ _ _ _ hi, if_neg]
      rintro ⟨s2, e1, e2, e3, e4, e5⟩
      rw [hs] at e1; cases e1
      exact hno ⟨e2, e3, by omega⟩
  unfold relocStep
  by_cases hr : IsReloc s
  · rw [if_pos ((isReloc_iff s).2 hr)]
    by_cases hlk : s.link = sym
    · rw [if_neg (by simpa using hlk)]
      by_cases hin : s.info = 0
      · rw [if_pos hin]
        refine ⟨?_, fun _ => ⟨R, rfl, hkeep (by simp [hin])⟩⟩
        rintro ⟨s2, e1, -, -, e4, -⟩
        rw [hs] at e1; cases e1; exact absurd hin e4
      · rw [if_neg hin, hl]
        by_cases hle : t.sections.length ≤ s.info
        · rw [if_pos hle]
          refine ⟨fun _ => rfl, fun h => absurd ⟨s, hs, hr, hlk, hin, .inl hle⟩ h⟩
        · rw [if_neg hle]
          have hlt : s.info < t.sections.length := by omega
          have htar := List.getElem?_eq_getElem hlt
          generalize t.sections[s.info] = target at htar
          have hsec : t.section s.info = .ok target := by
            unfold SectionTable.section; rw [if_neg hin, htar]
          rw [hsec]
          simp only [Res.bind_eq, Res.ok_bind]
          by_cases htr : IsReloc target
          · rw [if_pos ((isReloc_iff target).2 htr)]
            exact ⟨fun _ => rfl, fun h => absurd ⟨s, hs, hr, hlk, hin, .inr ⟨target, htar, htr⟩⟩ h⟩
          · rw [if_neg (fun h => htr ((isReloc_iff target).1 h))]
            have hnext := (hI s.info target htar).2.2 htr
            rw [hnext]
            simp only
            rw [if_neg (by omega)]
            refine ⟨?_, fun _ => ⟨_, rfl, ?_⟩⟩
            · rintro ⟨s2, e1, -, -, -, e5⟩
              rw [hs] at e1; cases e1
              rcases e5 with e5 | ⟨s', e6, e7⟩
              · omega
              · rw [htar] at e6; cases e6; exact absurd e7 htr
            · have hne : s.info ≠ i := by
                intro he
                rw [he, hs] at htar; cases htar; exact htr hr
              have happ : Applies t.sections sym s.info i := ⟨s, hs, hr, hlk, rfl, hin⟩
              refine ⟨by simp [hl], fun k s' hk => ?_⟩
              have hkl : k < t.sections.length := (List.getElem?_eq_some_iff.1 hk).1
              obtain ⟨a, b, c⟩ := hI k s' hk
              have hget : ((R.set s.info i).set i (nx t.sections sym s.info (i + 1)))[k]? =
                  if i = k then some (nx t.sections sym s.info (i + 1)) else if s.info = k then some i else R[k]? := by
                rw [List.getElem?_set]
                simp only [List.length_set, hl]
                by_cases h1 : i = k
                · rw [if_pos h1, if_pos h1, if_pos hi]
                · rw [if_neg h1, if_neg h1, List.getElem?_set]
                  by_cases h2 : s.info = k
                  · rw [if_pos h2, if_pos h2, if_pos (by omega)]
                  · rw [if_neg h2, if_neg h2]
              rw [hget]
              refine ⟨fun h1 h2 h3 h4 => ?_, fun h1 h2 => ?_, fun h1 => ?_⟩
              · by_cases hki : i = k
                · subst hki; rw [hs] at hk; cases hk; rw [if_pos rfl]
                · rw [if_neg hki, if_neg]
                  · exact a h1 (by omega) h3 h4
                  · intro he; rw [he] at htar; rw [htar] at hk; cases hk; exact htr h1
              · have hki : i ≠ k := by
                  rintro rfl
                  rw [hs] at hk; cases hk
                  rcases h2 with h2 | h2 | h2
                  · omega
                  · exact h2 hlk
                  · exact hin h2
                rw [if_neg hki, if_neg]
                · exact b h1 (by omega)
                · intro he; rw [he] at htar; rw [htar] at hk; cases hk; exact htr h1
              · have hki : i ≠ k := by
                  rintro rfl
                  rw [hs] at hk; cases hk; exact h1 hr
                rw [if_neg hki, nx_step _ _ _ _ hi]
                by_cases he : s.info = k
                · rw [if_pos he, if_pos (by rw [← he]; exact happ)]
                · rw [if_neg he, if_neg, c h1]
                  rintro ⟨s2, e1, e2, e3, e4, e5⟩
                  rw [hs] at e1; cases e1; exact he e4
    · rw [if_pos hlk]
      refine ⟨?_, fun _ => ⟨R, rfl, hkeep (by simp [hlk])⟩⟩
      rintro ⟨s2, e1, -, e3, -, -⟩
      rw [hs] at e1; cases e1; exact absurd e3 hlk
  · rw [if_neg (fun h => hr ((isReloc_iff s).1 h))]
    refine ⟨?_, fun _ => ⟨R, rfl, hkeep (by simp [hr])⟩⟩
    rintro ⟨s2, e1, e2, -⟩
    rw [hs] at e1; cases e1; exact absurd e2 hr

theorem loop_spec (t : SectionTable) (sym n : Nat) (R : List Nat) (hn : n ≤ t.sections.length) (hI : Inv t.sections sym n R) :
    ((∃ j, j < n ∧ Bad t.sections sym j) → relocLoop t sym n R = .err) ∧
    ((¬ ∃ j, j < n ∧ Bad t.sections sym j) → ∃ R', relocLoop t sym n R = .ok R' ∧ Inv t.sections sym 0 R') := by
  induction n generalizing R with
  | zero =>
    refine ⟨?_, fun _ => ⟨R, rfl, hI⟩⟩
    rintro ⟨j, hj, -⟩; omega
  | succ n ih =>
    have hs := List.getElem?_eq_getElem (l := t.sections) (i := n) (by omega)
    generalize t.sections[n] = s at hs
    obtain ⟨h1, h2⟩ := step_spec t sym n s R hs hI
    unfold relocLoop
    rw [hs]
    simp only
    by_cases hb : Bad t.sections sym n
    · rw [h1 hb]
      exact ⟨fun _ => rfl, fun h => absurd ⟨n, by omega, hb⟩ h⟩
    · obtain ⟨R', e1, e2⟩ := h2 hb
      rw [e1, Res.ok_bind]
      obtain ⟨i1, i2⟩ := ih R' (by omega) e2
      constructor
      · rintro ⟨j, hj, hbj⟩
        apply i1
        refine ⟨j, ?_, hbj⟩
        by_cases hjn : j = n
        · subst hjn; exact absurd hbj hb
        · omega
      · intro h
        exact i2 (fun ⟨j, hj, hbj⟩ => h ⟨j, by omega, hbj⟩)

theorem inv_init (ss : List Shdr) (sym : Nat) : Inv ss sym ss.length (List.replicate ss.length 0) := by
  refine ⟨by simp, fun k s hk => ?_⟩
  have hkl : k < ss.length := (List.getElem?_eq_some_iff.1 hk).1
  have h0 : (List.replicate ss.length 0)[k]? = some 0 := by rw [List.getElem?_replicate, if_pos hkl]
  refine ⟨fun _ h => by omega, fun _ _ => h0, fun _ => ?_⟩
  rw [h0]; unfold nx; simp

theorem nx_cases (ss : List Shdr) (sym t i : Nat) : nx ss sym t i = 0 ∨ (i ≤ nx ss sym t i ∧ Applies ss sym t (nx ss sym t i)) := by
  unfold nx
  cases h : (List.range' i (ss.length - i)).find? fun j => decide (Applies ss sym t j) with
  | none => left; rfl
  | some j =>
    right
    have h1 := List.mem_of_find?_eq_some h
    have h2 := List.find?_some h
    simp only [List.mem_range', Option.getD_some, decide_eq_true_eq] at h1 h2 ⊢
    obtain ⟨x, hx, rfl⟩ := h1
    exact ⟨by omega, h2⟩

end Obj.ElfChain

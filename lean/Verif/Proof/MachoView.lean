import Verif.Proof.MachoW7
import Verif.Spec.MachoView

/-! # Lemmas about the unified view of Mach-O files -/

namespace Obj.MachoV
open Obj Obj.Spec Obj.Spec.MachoO Obj.MachoW Obj.MachoR
open Obj.W.Spec (ascii)

theorem ltmp_iff (name : List UInt8) : isLtmp name = true ↔ LtmpName name := by
  have e4 : ascii "ltmp" = [108, 116, 109, 112] := by decide +kernel
  have hd : ∀ b : UInt8, (48 ≤ b ∧ b ≤ 57) ↔ b ∈ ascii "0123456789" := by
    have h : ∀ b : Fin 256, (48 ≤ UInt8.ofNat b.val ∧ UInt8.ofNat b.val ≤ 57) ↔ UInt8.ofNat b.val ∈ ascii "0123456789" := by decide +kernel
    intro b
    have := h ⟨b.toNat, b.toNat_lt⟩
    simpa using this
  unfold isLtmp LtmpName
  simp only [Bool.and_eq_true, decide_eq_true_eq, List.all_eq_true, hd, e4]
  constructor
  · rintro ⟨⟨h1, h2⟩, h3⟩
    refine ⟨name.drop 4, ?_, ?_, h3⟩
    · intro h
      have := congrArg List.length h
      simp at this
      omega
    · rw [← h2, List.take_append_drop]
  · rintro ⟨ds, h1, rfl, h3⟩
    refine ⟨⟨?_, by simp⟩, by simpa using h3⟩
    have : 0 < ds.length := List.length_pos_iff.2 h1
    simp
    omega

theorem sectKind_default {s : W.Section} {x : Sect} (hf : s.flags = .none)
    (hx : MachoW.sectionFlags s = some (x.flags, x.reserved2)) (hs : upToNul x.segname = s.segment) :
    sectKind none x = keptSectionKind s.segment s.kind ∧ s.kind ≠ .note ∧ s.kind ≠ .unknown := by
  have e1 : ascii "__DWARF" = [95, 95, 68, 87, 65, 82, 70] := by decide +kernel
  have e2 : ascii "__TEXT" = [95, 95, 84, 69, 88, 84] := by decide +kernel
  unfold MachoW.sectionFlags at hx
  rw [hf] at hx
  unfold sectKind keptSectionKind
  rw [hs, e1, e2]
  cases hk : s.kind <;> rw [hk] at hx <;> simp [defaultSectionFlags] at hx
  all_goals
    simp only [← hx.1]
    by_cases h : s.segment = [95, 95, 68, 87, 65, 82, 70]
    · simp [h]
    · rw [if_neg h, if_neg h]; simp

theorem kindIn_default {seg : List UInt8} (k : SectionKind) (h1 : seg ≠ ascii "__DWARF") (h2 : k ≠ .note) (h3 : k ≠ .unknown) :
    KindIn k (kindIn (keptSectionKind seg k)) := by
  unfold keptSectionKind
  rw [if_neg h1]
  by_cases h : seg = ascii "__TEXT"
  all_goals
    cases k <;> simp [kindIn, h] at h2 h3 ⊢
    all_goals first
      | exact .text
      | exact .debug (by simp)
      | exact .tls (by simp)
      | exact .data (by simp)

theorem desc_common (w : Bool) (k : Nat) (hk : k < 16) :
    let d := ((if w = true then 0x80 else 0) &&& 0xf0ff) ||| ((k &&& 0xf) <<< 8)
    (d >>> 8) &&& 0xf = k ∧ ((d &&& 0xc0 ≠ 0) ↔ w = true) := by
  have h : ∀ (w : Bool) (k : Fin 16), (let d := ((if w = true then 0x80 else 0) &&& 0xf0ff) ||| ((k.val &&& 0xf) <<< 8)
    (d >>> 8) &&& 0xf = k.val ∧ ((d &&& 0xc0 ≠ 0) ↔ w = true)) := by decide +kernel
  exact h w ⟨k, hk⟩

theorem commonAlign_le (v : Nat) : commonAlign v < 16 := by
  unfold commonAlign; split <;> omega

theorem commonAlign_pow (k : Nat) (hk : k ≤ 15) : commonAlign (2 ^ k) = k := by
  unfold commonAlign
  rw [tz_pow k 64 (by omega)]
  by_cases h : k = 0
  · subst h; rfl
  · rw [if_pos (Nat.one_lt_two_pow h)]; omega

/-! ## The iterator -/

theorem runs_from (t : SymTab) : ∀ (l : List Nlist) (i : Nat), t.symbols.drop i = l →
    Runs (symbolNext t) i ((l.zipIdx i).filterMap fun p => if isStab p.1 then none else some (p.2, p.1)) .done := by
  intro l
  induction l with
  | nil =>
    intro i h
    refine .done (s' := i) ?_
    unfold symbolNext
    rw [h]; rfl
  | cons a l ih =>
    intro i h
    have hd : t.symbols.drop (i + 1) = l := by
      rw [← List.drop_drop, h]; rfl
    have IH := ih (i + 1) hd
    rw [List.zipIdx_cons, List.filterMap_cons]
    by_cases hs : isStab a = true
    · simp only [hs, if_true]
      have e : symbolNext t i = symbolNext t (i + 1) := by
        unfold symbolNext
        rw [h, hd]
        show (let r := nextFrom i (a :: l); _) = _
        rw [nextFrom, if_pos hs]
      generalize ((l.zipIdx (i + 1)).filterMap _) = xs at IH
      cases IH with
      | done h1 => exact .done (e.trans h1)
      | item h1 h2 => exact .item (e.trans h1) h2
    · simp only [Bool.not_eq_true] at hs
      simp only [hs, Bool.false_eq_true, if_false]
      refine .item ?_ IH
      unfold symbolNext
      rw [h, nextFrom]
      simp [hs]

end Obj.MachoV

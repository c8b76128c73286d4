import Verif.Props.XcoffWrite
import Verif.Spec.XcoffView

/-! # C75: the unified view of a written XCOFF object -/

namespace Obj.Props
open Obj Obj.W Obj.Spec Obj.Spec.XcoffO Obj.XcoffW Obj.Xcoff Obj.Spec.XcoffS

/-- The default flags. -/
private theorem default_cases {o : Object} {s : W.Symbol} {f : XcoffW.Flags} (hn : s.flags = .none) (h : XcoffW.symbolFlags o s = .ok (some f)) :
    (s.kind = .file ∧ f = ⟨0, 103, 0, 0, none⟩) ∨
    (s.kind ≠ .file ∧ s.scope = .compilation ∧ f = ⟨0, 3, 0, 0, none⟩) ∨
    (s.kind ≠ .file ∧ s.scope ≠ .compilation ∧ f.sclass = (if s.weak then 111 else 2) ∧ f.typ = (if s.scope = .linkage then 0x2000 else 0) ∧
      (f.smtyp = 1 ∨ f.smtyp = 3) ∧ classKind f.smclas = s.kind ∧ f.csect = none) := by
  unfold XcoffW.symbolFlags at h
  rw [hn] at h
  simp only at h
  unfold defaultSymbolFlags at h
  cases hc : storageClass s with
  | none => rw [hc] at h; cases h
  | some c =>
    rw [hc] at h
    simp only at h
    unfold storageClass at hc
    by_cases hfile : s.kind = .file
    · left
      rw [hfile] at hc
      simp only [Option.some.injEq] at hc
      subst hc
      refine ⟨hfile, ?_⟩
      simp [external, typeOf] at h
      exact h.symm
    · right
      have hc' : c = if s.scope = .compilation then 3 else if s.weak then 111 else 2 := by
        split at hc <;> simp_all
      by_cases hs : s.scope = .compilation
      · left
        rw [if_pos hs] at hc'
        subst hc'
        refine ⟨hfile, hs, ?_⟩
        simp [external, typeOf] at h
        exact h.symm
      · right
        rw [if_neg hs] at hc'
        have hx : external c = true := by
          rw [hc']; split <;> decide
        rw [if_pos hx] at h
        cases hk : kindOfSection o s with
        | err => rw [hk] at h; cases h
        | panic => rw [hk] at h; cases h
        | ok k =>
          rw [hk, Res.ok_bind] at h
          cases hcs : csectFlags s.kind k with
          | none => rw [hcs] at h; cases h
          | some p =>
            obtain ⟨a, b⟩ := p
            rw [hcs] at h
            simp only [Res.ok.injEq, Option.some.injEq] at h
            rw [← h]
            refine ⟨hfile, hs, hc', ?_, ?_⟩
            · unfold typeOf
              simp [hx]
            · unfold csectFlags at hcs
              split at hcs
              · rename_i h1
                rw [h1]
                simp only [Option.some.injEq, Prod.mk.injEq] at hcs
                obtain ⟨rfl, rfl⟩ := hcs
                simp [classKind]
              · rename_i h1
                rw [h1]
                simp only [Option.some.injEq] at hcs
                split at hcs
                · simp only [Prod.mk.injEq] at hcs
                  obtain ⟨rfl, rfl⟩ := hcs
                  simp [classKind]
                · split at hcs <;> simp only [Prod.mk.injEq] at hcs <;> obtain ⟨rfl, rfl⟩ := hcs <;> simp [classKind]
              · rename_i h1
                rw [h1]
                simp only [Option.some.injEq] at hcs
                split at hcs <;> simp only [Prod.mk.injEq] at hcs <;> obtain ⟨rfl, rfl⟩ := hcs <;> simp [classKind]
              · cases hcs

private theorem number_cases (x : W.SymSection) :
    (numberOf x = 0 ↔ x = .undefined ∨ x = .common) ∧ (numberOf x = -1 ↔ x = .absolute) ∧ (numberOf x = -2 ↔ x = .none) ∧
    (0 < numberOf x ↔ ∃ j, x = .inSec j) := by
  cases x with
  | inSec i =>
    simp only [numberOf]
    refine ⟨⟨fun h => by omega, by simp⟩, ⟨fun h => by omega, by simp⟩, ⟨fun h => by omega, by simp⟩, ⟨fun _ => ⟨i, rfl⟩, fun _ => by omega⟩⟩
  | _ => simp [numberOf]

private theorem reported {o : Object} {out : List UInt8} {f : File} {s : W.Symbol} {i : Nat} {y : Sym} (hb : SymbolBack o out f s i y)
    (hn : s.flags = .none) (hsn : y.scnum < 2 ^ 16) : Reported f s i y := by
  obtain ⟨c, d, e, hfl, hcs⟩ := hb.flags
  obtain ⟨n0, n1, n2, n3⟩ := number_cases s.section_
  have hI := hb.section_
  have hsec : KeptSection s (symSection y) := by
    unfold symSection
    rw [hI]
    cases hx : s.section_ with
    | none => exact .none hx
    | undefined => exact .unplaced (.inl hx)
    | absolute => exact .absolute hx
    | common => exact .unplaced (.inr hx)
    | inSec j =>
      have h2 : y.scnumI = j + 1 := by rw [hI, hx]; rfl
      have h3 : y.scnum = j + 1 := by
        unfold Sym.scnumI at h2
        split at h2 <;> omega
      rw [if_neg (by simp only [numberOf]; omega), if_neg (by simp only [numberOf]; omega), if_neg (by simp only [numberOf]; omega),
        if_pos (by simp only [numberOf]; omega), h3]
      exact .inSec j hx
  have haddr : ∀ a : Nat, (y.sclass = 2 ∨ y.sclass = 111 ∨ y.sclass = 3) → a = y.value → symAddress y = a := by
    intro a h1 h2
    unfold symAddress
    rw [if_pos (by rcases h1 with h | h | h <;> simp [h]), h2]
  have hval : ∀ (_ : y.sclass = 2 ∨ y.sclass = 111 ∨ y.sclass = 3), ∃ v, (f.is64 = true ∨ v < 2 ^ 32 → symAddress y = v) ∧
      (∀ j, s.section_ = .inSec j → ∃ x, f.sections[j]? = some x ∧ v = x.vaddr + s.value) ∧
      ((∀ j, s.section_ ≠ .inSec j) → v = s.value) := by
    intro hc
    obtain ⟨v, v1, v2, v3, v4⟩ := hb.value
    refine ⟨v, ?_, v3, v4⟩
    intro h
    exact haddr v hc (h.elim v1 v2).symm
  rcases default_cases hn hfl with ⟨hk, he⟩ | ⟨hk, hs, he⟩ | ⟨hk, hs, hcl, htp, hty, hcls, hcx⟩
  · -- file
    simp only [XcoffW.Flags.mk.injEq] at he
    obtain ⟨e1, e2, -⟩ := he
    have hng : ¬ Global s := fun h => h.1 hk
    have hno : csectOf f.symbols i y = .ok none := by
      unfold csectOf Sym.hasAuxCsect; rw [e2]; simp
    refine ⟨?_, hsec, ?_, ?_, ?_, ?_, ?_, ?_, ?_, ⟨fun h => absurd h hng, fun _ => ?_⟩, ⟨fun _ => ?_, fun h => absurd hk h⟩⟩
    · unfold symKind plainKind; rw [hno, Res.ok_bind, if_pos hk]; simp only; rw [if_pos e2]
    · unfold symScope
      rw [hI]
      by_cases h0 : numberOf s.section_ = 0
      · rw [if_pos h0]; exact .unplaced (n0.1 h0)
      · rw [if_neg h0, if_neg (by rw [e2]; decide)]
        exact .local_ (fun h => h0 (n0.2 h)) hng
    · unfold isGlobal; rw [e2]; simp [hng]
    · unfold isLocal isGlobal; rw [e2]; simp [hng]
    · unfold isWeak; rw [e2]; simp [hng]
    · unfold isUndefined; rw [e2]; simp [hng]
    · unfold isCommon; rw [e2]; simp [hng]
    · unfold isDefinition
      by_cases h0 : y.scnumI ≤ 0
      · rw [if_pos h0]; exact ⟨false, rfl, by simp [hng]⟩
      · rw [if_neg h0, hno, Res.ok_bind]; exact ⟨false, rfl, by simp [hng]⟩
    · unfold symSize; rw [hno, Res.ok_bind]
    · unfold symAddress; rw [e2]; simp
  · -- local
    simp only [XcoffW.Flags.mk.injEq] at he
    obtain ⟨e1, e2, -⟩ := he
    have hng : ¬ Global s := fun h => h.2 hs
    have hno : csectOf f.symbols i y = .ok none := by
      unfold csectOf Sym.hasAuxCsect; rw [e2]; simp
    refine ⟨?_, hsec, ?_, ?_, ?_, ?_, ?_, ?_, ?_, ⟨fun h => absurd h hng, fun _ => ?_⟩, ⟨fun h => absurd h hk, fun _ => hval (by simp [e2])⟩⟩
    · unfold symKind plainKind; rw [hno, Res.ok_bind, if_neg hk, if_pos hs]; simp only; rw [if_neg (by rw [e2]; decide)]
    · unfold symScope
      rw [hI]
      by_cases h0 : numberOf s.section_ = 0
      · rw [if_pos h0]; exact .unplaced (n0.1 h0)
      · rw [if_neg h0, if_neg (by rw [e2]; decide)]
        exact .local_ (fun h => h0 (n0.2 h)) hng
    · unfold isGlobal; rw [e2]; simp [hng]
    · unfold isLocal isGlobal; rw [e2]; simp [hng]
    · unfold isWeak; rw [e2]; simp [hng]
    · unfold isUndefined; rw [e2]; simp [hng]
    · unfold isCommon; rw [e2]; simp [hng]
    · unfold isDefinition
      by_cases h0 : y.scnumI ≤ 0
      · rw [if_pos h0]; exact ⟨false, rfl, by simp [hng]⟩
      · rw [if_neg h0, hno, Res.ok_bind]; exact ⟨false, rfl, by simp [hng]⟩
    · unfold symSize; rw [hno, Res.ok_bind]
  · -- global
    simp only at hcl htp hty hcls hcx
    have hg : Global s := ⟨hk, hs⟩
    have hc2 : y.sclass = 2 ∨ y.sclass = 111 := by
      rw [hcl]; split <;> simp
    obtain ⟨a, ha, a1, a2, a3, -⟩ := hcs (by rcases hc2 with h | h <;> simp [Csect, h])
    have a3 := a3 hcx
    have htyp : a.symType = 1 ∨ a.symType = 3 := by
      unfold CsectAux.symType
      rw [a1]
      rcases hty with h | h <;> rw [h] <;> decide
    refine ⟨?_, hsec, ?_, ?_, ?_, ?_, ?_, ?_, ?_, ⟨fun _ => ?_, fun h => absurd hg h⟩, ⟨fun h => absurd h hk, fun _ => hval (hc2.imp id .inl)⟩⟩
    · unfold symKind; rw [ha, Res.ok_bind, if_neg hk, if_neg hs]; simp only; rw [if_pos htyp, a2, hcls]
    · unfold symScope
      rw [hI]
      by_cases h0 : numberOf s.section_ = 0
      · rw [if_pos h0]; exact .unplaced (n0.1 h0)
      · rw [if_neg h0, if_pos hc2, htp]
        by_cases hl : s.scope = .linkage
        · rw [if_pos hl, if_pos (by decide)]
          exact .linkage (fun h => h0 (n0.2 h)) hg hl
        · rw [if_neg hl, if_neg (by decide)]
          exact .dynamic (fun h => h0 (n0.2 h)) hg hl
    · unfold isGlobal; simp [hc2, hg]
    · unfold isLocal isGlobal; simp [hc2, hg]
    · unfold isWeak
      rw [hcl]
      cases s.weak <;> simp [hg]
    · unfold isUndefined
      rw [hI]
      simp only [Bool.and_eq_true, decide_eq_true_eq, hc2, true_and, hg, n0]
      exact Iff.rfl
    · unfold isCommon
      rw [hI, hcl]
      cases s.weak
      · simp only [Bool.and_eq_true, decide_eq_true_eq, hg, true_and, n0, Bool.false_eq_true, if_false]
        exact Iff.rfl
      · simp
    · unfold isDefinition
      rw [hI]
      by_cases h0 : numberOf s.section_ ≤ 0
      · rw [if_pos h0]
        refine ⟨false, rfl, ?_⟩
        simp only [Bool.false_eq_true, false_iff]
        rintro ⟨-, h⟩
        have := n3.2 h
        omega
      · rw [if_neg h0, ha, Res.ok_bind]
        refine ⟨_, rfl, ?_⟩
        rw [decide_eq_true_eq]
        have : ∃ j, s.section_ = .inSec j := n3.1 (by omega)
        constructor
        · intro _; exact ⟨hg, this⟩
        · intro _
          rcases htyp with h | h <;> simp [h]
    · unfold symSize; rw [ha, Res.ok_bind]; simp only; rw [if_pos htyp, a3]

/-- Every symbol without explicit flags of a file that was written is reported with the kind, section, scope, weakness,
address and size that were asked for, as far as XCOFF has them: see `Reported`. -/
theorem C75_symbols (o : Object) (hv : Valid o) (flags : Option Nat) (is64 : Bool) (h64 : elfIs64 o.arch = some is64)
    (hf : XcoffO.Fits is64 o flags) (out : List UInt8) (h : xcoffWrite o flags = .ok out) :
    ∃ f, ReadsBack o flags out f ∧ ∀ (i : Nat) (s : W.Symbol), o.symbols[i]? = some s → s.flags = .none →
      ∃ y, f.symbols.symbol (indexOf o i) = .ok y ∧ Reported f s (indexOf o i) y := by
  obtain ⟨f, hr⟩ := C74_round_trip o hv flags is64 h64 hf out h
  refine ⟨f, hr, ?_⟩
  intro i s hs hn
  obtain ⟨y, h1, h2⟩ := hr.symbols i s hs
  refine ⟨y, h1, reported h2 hn ?_⟩
  have hlen : out.length < 2 ^ 64 := by
    have := C74_size o hv flags out h
    have := hv.room
    omega
  obtain ⟨-, g2, -, -, g5⟩ := (C73_parse f.is64 out hlen).2 f hr.parse.2
  have hns : f.header.nsyms < 2 ^ 32 := by rw [g2.nsyms]; exact field_lt .big out _ 4
  obtain ⟨r, -, hy⟩ := (C73_symbol f.is64 out f.header hns f.symbols g5 (indexOf o i)).2.2 y h1
  rw [hy.scnum]
  exact field_lt .big r 12 2

/-- Only files, functions, data and thread-local symbols are written without explicit flags. -/
theorem C75_accepted_symbols (o : Object) (hv : Valid o) (flags : Option Nat) (out : List UInt8) (h : xcoffWrite o flags = .ok out)
    (s : W.Symbol) (hs : s ∈ o.symbols) (hn : s.flags = .none) : s.kind = .file ∨ s.kind = .text ∨ s.kind = .data ∨ s.kind = .tls := by
  obtain ⟨f, hf⟩ := (C74_accepted o hv flags out h).2.1 s hs
  unfold XcoffW.symbolFlags at hf
  rw [hn] at hf
  simp only at hf
  unfold defaultSymbolFlags storageClass at hf
  cases hk : s.kind <;> rw [hk] at hf <;> simp at hf ⊢

/-- Every section without explicit flags of a file that was written is reported with the kind that was asked for, as far
as XCOFF has it; its alignment is not kept. -/
theorem C75_sections (o : Object) (hv : Valid o) (flags : Option Nat) (is64 : Bool) (h64 : elfIs64 o.arch = some is64)
    (hf : XcoffO.Fits is64 o flags) (out : List UInt8) (h : xcoffWrite o flags = .ok out) :
    ∃ f, ReadsBack o flags out f ∧ ∀ (i : Nat) (s : W.Section), o.sections[i]? = some s → s.flags = .none →
      ∃ x, f.sections[i]? = some x ∧ sectionKind x.flags = keptSectionKind s.kind ∧ f.alignOf x = 4 ∧
        s.kind ∉ [SectionKind.note, .linker, .unknown, .tlsVariables] := by
  obtain ⟨f, hr⟩ := C74_round_trip o hv flags is64 h64 hf out h
  refine ⟨f, hr, ?_⟩
  intro i s hs hn
  obtain ⟨x, h1, h2⟩ := hr.sections i s hs
  have hfl := h2.flags
  have haux : f.aux = none := by
    have hp := hr.parse.2
    have ho := hr.header.2.1
    unfold File.parse at hp
    simp only [Res.bind_eq] at hp
    obtain ⟨hd, -, hp⟩ := Res.bind_eq_ok.1 hp
    obtain ⟨⟨aux, off⟩, ha, hp⟩ := Res.bind_eq_ok.1 hp
    simp only at hp
    obtain ⟨ss, -, hp⟩ := Res.bind_eq_ok.1 hp
    obtain ⟨yy, -, hp⟩ := Res.bind_eq_ok.1 hp
    simp only [Res.ok.injEq] at hp
    rw [← hp] at ho ⊢
    simp only at ho ⊢
    unfold auxHeader at ha
    simp only at ha
    rw [ho] at ha
    split at ha
    · simp only [Res.ok.injEq, Prod.mk.injEq] at ha; exact ha.1.symm
    · rw [if_pos (by cases f.is64 <;> decide)] at ha
      simp only [Res.ok.injEq, Prod.mk.injEq] at ha; exact ha.1.symm
  refine ⟨x, h1, ?_, ?_, ?_⟩
  · unfold XcoffW.sectionFlags at hfl
    rw [hn] at hfl
    simp only at hfl
    cases hk : s.kind <;> rw [hk] at hfl <;> simp only [defaultSectionFlags, Option.some.injEq, reduceCtorEq] at hfl <;> rw [← hfl] <;> decide
  · unfold File.alignOf; rw [haux]
  · unfold XcoffW.sectionFlags at hfl
    rw [hn] at hfl
    simp only at hfl
    cases hk : s.kind <;> rw [hk] at hfl <;> first | (exfalso; simp [defaultSectionFlags] at hfl; done) | decide

/-- The view of the concrete object. -/
example : ∃ out f y, xcoffWrite (xcoffExample .powerPc64) (some 4) = .ok out ∧
    f.symbols.symbol 6 = .ok y ∧ symKind f.symbols 6 y = .ok .unknown ∧ symSection y = .sec 2 ∧ ReadsBack (xcoffExample .powerPc64) (some 4) out f := by
  obtain ⟨out, h⟩ := xcoffExample_written .powerPc64 (by decide)
  obtain ⟨f, hr, hs⟩ := C75_symbols _ (xcoffExample_valid _ (by decide)) _ true rfl (xcoffExample_fits _ _) out h
  obtain ⟨y, h1, h2⟩ := hs 3 _ rfl rfl
  have e : indexOf (xcoffExample .powerPc64) 3 = 6 := by decide +kernel
  rw [e] at h1 h2
  refine ⟨out, f, y, h, h1, h2.kind, ?_, hr⟩
  have := h2.section_
  generalize symSection y = z at this
  cases this with
  | unplaced h => rcases h with h | h <;> simp at h
  | absolute h => simp at h
  | none h => simp at h
  | inSec j h =>
    simp at h; subst h; rfl

end Obj.Props

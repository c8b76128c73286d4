import Verif.Props.MachoWrite
import Verif.Proof.MachoView

/-! # C72: the unified view of what was written as Mach-O -/

namespace Obj.Props
open Obj Obj.Spec Obj.Spec.MachoO Obj.MachoW Obj.MachoR
open Obj.W.Spec (ascii)

/-- The kind of a section without explicit flags is kept as far as Mach-O can tell kinds apart. -/
theorem C72_sections (c : Cfg) (o : W.Object) (data : List UInt8) (order : List Nat) (seg : Seg) (cpu : Nat) (s : W.Section) (x : SecInt)
    (h : SectionBack c o data order seg cpu s x) (hf : s.flags = .none) (h0 : (0 : UInt8) ∉ s.segment) :
    x.kind = keptSectionKind s.segment s.kind := by
  rw [h.kind]
  exact (MachoV.sectKind_default hf h.flags.1 (h.segment h0)).1

private theorem scope_eq (w : Bool) (k : SymbolKind) (n : List UInt8) (v sz : Nat) (sc : SymbolScope) (se : W.SymSection) :
    keptScope ⟨n, v, sz, k, sc, w, se, .none⟩ = .compilation ↔
      se ≠ .undefined ∧ se ≠ .common ∧ sc ≠ .linkage ∧ sc ≠ .dynamic := by
  cases sc <;> cases se <;> simp [keptScope]

/-- Every symbol of the object without explicit flags is reported as asked for, provided that undefined symbols have
the value 0 and common symbols have a size (otherwise Mach-O takes one for the other), that values fit in a 32-bit file, and
that the section of the symbol has no explicit flags. -/
theorem C72_symbols (o : W.Object) (x : Extra) (data : List UInt8) (order : List Nat) (f : File) (seg : Seg)
    (hr : ReadsBack o x data order f seg) (s : W.Symbol) (y : Nlist) (hy : SymbolBack o data f s y) (hf : s.flags = .none)
    (hu : s.section_ = .undefined → s.value = 0) (hc : s.section_ = .common → s.size ≠ 0)
    (h32 : f.cfg.is64 = false → s.size < 2 ^ 32 ∧ s.value < 2 ^ 32 ∧ ∀ z ∈ f.sections, z.sect.addr + s.value < 2 ^ 32)
    (hs : ∀ i, s.section_ = .inSec i → ∃ z, o.sections[i]? = some z ∧ z.flags = .none ∧ (0 : UInt8) ∉ z.segment) :
    Reported o data f s y := by
  obtain ⟨v, v1, v2, v3, v4, v5⟩ := hy.value
  have hval : y.value = v := by
    by_cases h : f.cfg.is64 = true
    · exact v1 h
    · simp only [Bool.not_eq_true] at h
      obtain ⟨b1, b2, b3⟩ := h32 h
      refine v2 ?_
      by_cases hcm : s.section_ = .common
      · rw [v3 hcm]; exact b1
      · by_cases hin : ∃ i, s.section_ = .inSec i
        · obtain ⟨i, hi⟩ := hin
          obtain ⟨z, h1, h2⟩ := v4 i hi
          rw [h2]; exact b3 z (List.mem_of_getElem? h1)
        · rw [v5 hcm (fun i hi => hin ⟨i, hi⟩)]; exact b2
  have hname := hy.name
  have hfl := hy.flags
  have hsec := hy.section_
  have hsects := hr.sections
  clear hy hr h32 v1 v2
  obtain ⟨n, w, sz, k, sc, we, se, fl⟩ := s
  obtain ⟨yx, yt, ys, yd, yv⟩ := y
  simp only at hu hc hs hf hfl hsec hval hname v3 v4 v5
  subst hf hsec hval
  simp only [symbolFlags, defaultSymbolFlags] at hfl
  cases se with
  | none => simp [typeOf] at hfl
  | undefined =>
    have hv0 : yv = 0 := by rw [v5 (by simp) (by simp), hu rfl]
    subst hv0
    simp only [typeOf, Option.map_some, Option.some.injEq, Prod.mk.injEq, descOf, weakBits] at hfl
    obtain ⟨rfl, rfl⟩ := hfl
    constructor
    · simp [MachoV.kind, MachoV.sectionOf, MachoV.symSection, MachoV.isCommon, MachoV.typ]
      cases sc <;> simp [scopeBits] <;> exact .other (.inl rfl)
    · cases sc <;> simp [MachoV.symSection, MachoV.isCommon, MachoV.typ, scopeBits] <;> exact .undefined rfl
    all_goals cases sc <;> cases we <;> simp [MachoV.scope, MachoV.isUndefined, MachoV.isStab, MachoV.typ, scopeBits, keptScope,
      MachoV.isGlobal, MachoV.isLocal, MachoV.isWeak, MachoV.isCommon, MachoV.isDefinition, MachoV.address, MachoV.size]
  | absolute =>
    have hv0 := v5 (by simp) (by simp)
    subst hv0
    simp only [typeOf, Option.map_some, Option.some.injEq, Prod.mk.injEq, descOf, weakBits] at hfl
    obtain ⟨rfl, rfl⟩ := hfl
    constructor
    · simp [MachoV.kind, MachoV.sectionOf, MachoV.symSection, MachoV.isCommon, MachoV.typ]
      cases sc <;> simp [scopeBits] <;> exact .other (.inr rfl)
    · cases sc <;> simp [MachoV.symSection, MachoV.isCommon, MachoV.typ, scopeBits] <;> exact .absolute rfl
    all_goals cases sc <;> cases we <;> simp [MachoV.scope, MachoV.isUndefined, MachoV.isStab, MachoV.typ, scopeBits, keptScope,
      MachoV.isGlobal, MachoV.isLocal, MachoV.isWeak, MachoV.isCommon, MachoV.isDefinition, MachoV.address, MachoV.size,
      MachoV.isExt, MachoV.isPext]
  | common =>
    have hv0 := v3 rfl
    subst hv0
    have hne := hc rfl
    obtain ⟨d1, d2⟩ := MachoV.desc_common we (commonAlign w) (MachoV.commonAlign_le w)
    simp only [typeOf, Option.map_some, Option.some.injEq, Prod.mk.injEq, descOf, weakBits, if_true, if_false, reduceCtorEq] at hfl
    obtain ⟨rfl, rfl⟩ := hfl
    generalize (((if we = true then 0x80 else 0) &&& 0xf0ff) ||| ((commonAlign w &&& 0xf) <<< 8)) = d at d1 d2 ⊢
    constructor
    · simp [MachoV.kind, MachoV.sectionOf, MachoV.symSection, MachoV.isCommon, MachoV.typ, MachoV.isStab]
      cases sc <;> simp [scopeBits, hne] <;> exact .common rfl
    · cases sc <;> simp [MachoV.symSection, MachoV.isCommon, MachoV.typ, scopeBits, MachoV.isStab, hne] <;> exact .common rfl
    case weak =>
      show decide (d &&& 0xc0 ≠ 0) = we
      cases we <;> simp_all
    case alignment =>
      intro _ k hk e
      show (d >>> 8) &&& 0xf = k
      simp only at e
      rw [d1, e, MachoV.commonAlign_pow k hk]
    all_goals cases sc <;> cases we <;> simp [MachoV.scope, MachoV.isUndefined, MachoV.isStab, MachoV.typ, scopeBits, keptScope,
      MachoV.isGlobal, MachoV.isLocal, MachoV.isWeak, MachoV.isCommon, MachoV.isDefinition, MachoV.address, MachoV.size,
      MachoV.isExt, MachoV.isPext, hne]
  | inSec j =>
    obtain ⟨z, z1, z2, z3⟩ := hs j rfl
    obtain ⟨u, u1, u2⟩ := hsects j z z1
    obtain ⟨u', e1, e2⟩ := v4 j rfl
    rw [u1] at e1
    cases e1
    obtain ⟨g1, g2, g3⟩ := MachoV.sectKind_default z2 u2.flags.1 (u2.segment z3)
    rw [← u2.kind] at g1
    simp only [typeOf, Option.map_some, Option.some.injEq, Prod.mk.injEq, descOf, weakBits, reduceCtorEq, if_false] at hfl
    obtain ⟨rfl, rfl⟩ := hfl
    constructor
    case kind =>
      have hso : MachoV.sectionOf f ⟨yx, 0xe ||| scopeBits sc, numberOf (.inSec j), if we = true then 0x80 else 0, yv⟩ = some u := by
        unfold MachoV.sectionOf MachoV.symSection
        cases sc <;> simp [MachoV.typ, scopeBits, numberOf, u1]
      unfold MachoV.kind
      rw [hso]
      simp only
      have hss : MachoV.isSectionSymbol f data ⟨yx, 0xe ||| scopeBits sc, numberOf (.inSec j), if we = true then 0x80 else 0, yv⟩ u = true ↔
          (w = 0 ∧ LtmpName n ∧ keptScope ⟨n, w, sz, k, sc, we, .inSec j, .none⟩ = .compilation) := by
        unfold MachoV.isSectionSymbol
        rw [hname]
        simp only [Bool.and_eq_true, decide_eq_true_eq, MachoV.ltmp_iff, scope_eq]
        have ha : MachoV.address ⟨yx, 0xe ||| scopeBits sc, numberOf (.inSec j), if we = true then 0x80 else 0, yv⟩ = yv := by
          cases sc <;> simp [MachoV.address, MachoV.isCommon, MachoV.typ, scopeBits]
        have hl : MachoV.isLocal ⟨yx, 0xe ||| scopeBits sc, numberOf (.inSec j), if we = true then 0x80 else 0, yv⟩ = true ↔
            sc ≠ .linkage ∧ sc ≠ .dynamic := by
          cases sc <;> simp [MachoV.isLocal, MachoV.scope, MachoV.isUndefined, MachoV.isExt, MachoV.isPext, MachoV.typ, scopeBits]
        rw [ha, hl, e2]
        constructor
        · rintro ⟨⟨h1, h2⟩, h3⟩; exact ⟨by omega, h2, by simp, by simp, h1⟩
        · rintro ⟨h1, h2, -, -, h3⟩; exact ⟨⟨h3, h2⟩, by omega⟩
      by_cases hq : MachoV.isSectionSymbol f data ⟨yx, 0xe ||| scopeBits sc, numberOf (.inSec j), if we = true then 0x80 else 0, yv⟩ u = true
      · rw [if_pos hq]
        obtain ⟨a1, a2, a3⟩ := hss.1 hq
        exact .section_ j rfl a1 a2 a3
      · rw [if_neg hq]
        have hq' := fun h => hq (hss.2 h)
        by_cases hd : z.segment = ascii "__DWARF"
        · have : MachoV.kindIn u.kind = .unknown := by rw [g1]; unfold keptSectionKind; rw [if_pos hd]; rfl
          rw [this]
          exact .debug j z rfl z1 hd hq'
        · refine .inSec j z rfl z1 hd hq' ?_
          rw [g1]
          exact MachoV.kindIn_default z.kind hd g2 g3
    case section_ =>
      have : MachoV.symSection ⟨yx, 0xe ||| scopeBits sc, numberOf (.inSec j), if we = true then 0x80 else 0, yv⟩ = .sec (j + 1) := by
        unfold MachoV.symSection
        cases sc <;> simp [MachoV.typ, scopeBits, numberOf]
      rw [this]; exact .inSec j rfl
    case address =>
      refine ⟨?_, by simp, by simp⟩
      intro j' hj
      cases hj
      refine ⟨u, u1, ?_⟩
      rw [← e2]
      cases sc <;> simp [MachoV.address, MachoV.isCommon, MachoV.typ, scopeBits]
    all_goals cases sc <;> cases we <;> simp [MachoV.scope, MachoV.isUndefined, MachoV.isStab, MachoV.typ, scopeBits, keptScope,
      MachoV.isGlobal, MachoV.isLocal, MachoV.isWeak, MachoV.isCommon, MachoV.isDefinition, MachoV.address, MachoV.size,
      MachoV.isExt, MachoV.isPext]

private theorem stab_iff (y : Nlist) : MachoV.isStab y = false ↔ y.typ % 256 < 32 := by
  have h : ∀ n : Fin 256, (n.val &&& 0xe0 = 0) ↔ n.val < 32 := by decide +kernel
  have e : y.typ &&& 0xe0 = (y.typ % 256) &&& 0xe0 := by
    have := Nat.and_assoc y.typ 0xff 0xe0
    rw [show (0xff : Nat) = 2 ^ 8 - 1 from rfl, Nat.and_two_pow_sub_one_eq_mod] at this
    exact this.symm
  unfold MachoV.isStab
  rw [e]
  have := h ⟨y.typ % 256, Nat.mod_lt _ (by decide)⟩
  simpa using this

/-- Iterating over the symbols of any symbol table gives the entries that are not debugging entries (those have one of the upper
three bits of the type set), in the order of their indices, and then ends; these are also the entries that have a symbol with a
given index. -/
theorem C72_iterate (t : SymTab) : ∃ xs, Runs (MachoV.symbolNext t) 0 xs .done ∧
    (∀ (i : Nat) (y : Nlist), (i, y) ∈ xs ↔ t.symbols[i]? = some y ∧ y.typ % 256 < 32) ∧ xs.Pairwise (fun a b => a.1 < b.1) ∧
    (∀ (i : Nat) (y : Nlist), MachoV.symbolByIndex t i = .ok y ↔ (i, y) ∈ xs) ∧ ∀ i, MachoV.symbolByIndex t i ≠ .panic := by
  have hm : ∀ (i : Nat) (y : Nlist), (i, y) ∈ (t.symbols.zipIdx 0).filterMap (fun p => if MachoV.isStab p.1 then none else some (p.2, p.1)) ↔
      t.symbols[i]? = some y ∧ y.typ % 256 < 32 := by
    intro i y
    rw [← stab_iff]
    simp only [List.mem_filterMap, Prod.exists]
    constructor
    · rintro ⟨a, b, h1, h2⟩
      split at h2
      · cases h2
      · simp only [Option.some.injEq, Prod.mk.injEq] at h2
        obtain ⟨rfl, rfl⟩ := h2
        rw [List.mem_zipIdx_iff_getElem?] at h1
        rename_i hn
        exact ⟨h1, by simpa using hn⟩
    · rintro ⟨h1, h2⟩
      exact ⟨y, i, List.mem_zipIdx_iff_getElem?.2 h1, by simp [h2]⟩
  refine ⟨_, MachoV.runs_from t t.symbols 0 rfl, hm, ?_, ?_, ?_⟩
  · rw [List.pairwise_filterMap]
    refine List.Pairwise.imp ?_ (R := fun a b => a.2 < b.2) ?_
    · intro a b hab p hp q hq
      split at hp
      · cases hp
      · split at hq
        · cases hq
        · cases hp; cases hq; exact hab
    · have : (t.symbols.zipIdx 0).Pairwise fun a b => a.2 < b.2 := by
        rw [← List.pairwise_map (f := Prod.snd) (R := fun a b => a < b)]
        simp only [List.zipIdx_map_snd]
        exact List.pairwise_lt_range'
      exact this
  · intro i y
    rw [hm, ← stab_iff]
    unfold MachoV.symbolByIndex
    cases t.symbols[i]? with
    | none => simp
    | some z =>
      by_cases h : MachoV.isStab z = true
      · simp only [h, if_true]
        constructor
        · nofun
        · rintro ⟨h1, h2⟩
          cases h1
          rw [h] at h2; cases h2
      · simp only [h]
        constructor
        · intro h1; cases h1; exact ⟨rfl, by simpa using h⟩
        · rintro ⟨h1, h2⟩; cases h1; rfl
  · intro i
    unfold MachoV.symbolByIndex
    split
    · nofun
    · split <;> nofun

/-- The groups of `LC_DYSYMTAB` in the file are those of the view: the local symbols and the symbols without a definition.
(The scope of defined symbols is given, and C72_symbols applies to all symbols.) -/
theorem C72_groups (o : W.Object) (x : Extra) (data : List UInt8) (order : List Nat) (f : File) (seg : Seg)
    (hr : ReadsBack o x data order f seg)
    (hs : ∀ (i : Nat) (s : W.Symbol), i ∈ order → o.symbols[i]? = some s → s.scope ≠ .unknown ∨ s.section_ = .undefined ∨ s.section_ = .common)
    (hy : ∀ (k i : Nat) (s : W.Symbol) (y : Nlist), order[k]? = some i → o.symbols[i]? = some s → f.symbols.symbols[k]? = some y →
      Reported o data f s y) :
    ∃ cs cmds, loadCommands f.cfg f.header data = .ok cs ∧ Runs (fun cs : MachO.LoadCommands => cs.next f.cfg.en) cs cmds .done ∧
      ∃ cmd ∈ cmds, ∃ d, dysymtab f.cfg cmd = .ok (some d) ∧
        ∀ (k : Nat) (y : Nlist), f.symbols.symbols[k]? = some y →
          (MachoV.isLocal y = true ↔ d.ilocalsym ≤ k ∧ k < d.ilocalsym + d.nlocalsym) ∧
          (MachoV.isUndefined y = true ∨ MachoV.isCommon y = true ↔ d.iundefsym ≤ k ∧ k < d.iundefsym + d.nundefsym) := by
  obtain ⟨cs, cmds, h1, h2, h3⟩ := hr.commands
  obtain ⟨cmd, h4, d, h5, h6⟩ := h3.groups
  refine ⟨cs, cmds, h1, h2, cmd, h4, d, h5, ?_⟩
  intro k y hk
  have hlt : k < order.length := by
    rw [← hr.symbolCount]; exact (List.getElem?_eq_some_iff.1 hk).1
  have ho : order[k]? = some order[k] := List.getElem?_eq_getElem hlt
  obtain ⟨s, hs1, -⟩ := (hr.ordered.members order[k]).1 (List.getElem_mem hlt)
  have hR := hy k _ s y ho hs1 hk
  obtain ⟨g0, g1, g2⟩ := h6.groups k _ s ho hs1
  rw [← g0, ← g2, hR.local_, hR.undefined, hR.common]
  have hsc := hs _ s (List.getElem_mem hlt) hs1
  have hne : s.section_ ≠ .none := by
    intro e
    have hk := hR.section_
    revert hk
    generalize MachoV.symSection y = v
    intro hk
    cases hk <;> simp_all
  clear hR hy hs g0 g1 g2
  unfold group keptScope
  generalize s.section_ = se at hne hsc ⊢
  generalize s.scope = sc at hsc ⊢
  cases se <;> cases sc <;> simp_all

/-! The object of C71. -/

private theorem mem_order {out : List UInt8} {order : List Nat} {f : File} {seg : Seg}
    (h : ReadsBack machoExample machoOptions out order f seg) : order = [3, 6, 1, 0, 4, 2] := by
  rw [C71_order_unique _ _ _ h.ordered (order_ok machoExample)]
  decide +kernel

/-- All symbols of the object are reported as asked for, and the groups are those of the view. -/
example : ∃ out f seg, machoWrite machoExample machoOptions = .ok out ∧ ReadsBack machoExample machoOptions out [3, 6, 1, 0, 4, 2] f seg ∧
    (∀ (k i : Nat) (s : W.Symbol) (y : Nlist), [3, 6, 1, 0, 4, 2][k]? = some i → machoExample.symbols[i]? = some s →
      f.symbols.symbols[k]? = some y → Reported machoExample out f s y) ∧
    (∀ (i : Nat) (s : W.Symbol), i ∈ [3, 6, 1, 0, 4, 2] → machoExample.symbols[i]? = some s →
      s.scope ≠ .unknown ∨ s.section_ = .undefined ∨ s.section_ = .common) := by
  obtain ⟨out, h⟩ := machoExample_written
  obtain ⟨order, f, seg, h2⟩ := C71_round_trip machoExample machoExample_valid machoOptions machoExample_fits out h
  have e := mem_order h2
  subst e
  refine ⟨out, f, seg, h, h2, ?_, ?_⟩
  · intro k i s y hk hi hy
    obtain ⟨y', h3, h4⟩ := h2.symbols k i s hk hi
    rw [hy] at h3
    cases h3
    have h64 : f.cfg.is64 = true := by
      have := h2.parse.1
      have e : elfIs64 machoExample.arch = some true := by decide
      rw [e] at this
      exact (Option.some.inj this).symm
    have hm := List.mem_of_getElem? hi
    have hall : ∀ s ∈ machoExample.symbols, s.flags = .none ∧ (s.section_ = .undefined → s.value = 0) ∧ (s.section_ = .common → s.size ≠ 0) := by
      decide +kernel
    obtain ⟨a1, a2, a3⟩ := hall s hm
    refine C72_symbols _ _ _ _ _ _ h2 s y h4 a1 a2 a3 (by rw [h64]; nofun) ?_
    intro j hj
    have hlt := machoExample_valid.symbolSection s hm j hj
    have hsec : ∀ z ∈ machoExample.sections, z.flags = .none ∧ (0 : UInt8) ∉ z.segment := by decide +kernel
    exact ⟨_, List.getElem?_eq_getElem hlt, hsec _ (List.getElem_mem hlt)⟩
  · intro i s _ hi
    have hall : ∀ s ∈ machoExample.symbols, s.scope ≠ .unknown ∨ s.section_ = .undefined ∨ s.section_ = .common := by decide +kernel
    exact hall s (List.mem_of_getElem? hi)

/-- A symbol table with a debugging entry: the two others are symbols. -/
example : Runs (MachoV.symbolNext ⟨[⟨0, 0xf, 1, 0, 0⟩, ⟨0, 0x64, 0, 0, 0⟩, ⟨0, 1, 0, 0, 0⟩], none⟩) 0
    [(0, ⟨0, 0xf, 1, 0, 0⟩), (2, ⟨0, 1, 0, 0, 0⟩)] .done := by
  refine .item (s' := 1) ?_ (.item (s' := 3) ?_ (.done (s' := 3) ?_)) <;> rfl

end Obj.Props

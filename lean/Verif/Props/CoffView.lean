import Verif.Props.CoffWrite
import Verif.Spec.CoffView
import Verif.Proof.CoffView

/-! # C70: the unified view of what was written as COFF -/

namespace Obj.Props
open Obj Obj.Spec Obj.Spec.CoffO Obj.CoffW

set_option hygiene false in
/-- One combination of kind and section. -/
local macro "combination" : tactic => `(tactic| (
  constructor
  · simp [CoffV.kind, CoffV.derivedType, keptKind, Coff.Symbol.hasAuxSection, auxRecords]
  · simp [CoffV.isGlobal, External]
  · simp [CoffV.scope, External]
  · simp [CoffV.isWeak]
  · simp [CoffV.isUndefined, sectionNumberOf, hu, hc]; try omega
  · simp [CoffV.isCommon, sectionNumberOf, hu, hc]; try omega
  · simp [CoffV.symSection, Coff.Symbol.section, sectionNumberOf, hu, hc]
    first
    | exact .none rfl rfl
    | exact .absolute rfl rfl
    | exact .placeless (.inr ⟨.inl rfl, .inl rfl⟩)
    | exact .placeless (.inr ⟨.inl rfl, .inr rfl⟩)
    | exact .placeless (.inr ⟨.inr rfl, .inl rfl⟩)
    | exact .placeless (.inr ⟨.inr rfl, .inr rfl⟩)
    | (refine .undefined ?_ rfl <;> (simp [Placeless]; done))
    | (refine .common ?_ rfl ?_ <;> (simp [Placeless]; done))
    | exact .commonSection rfl rfl rfl
    | skip
  · simp [CoffV.address, Coff.Symbol.address, Coff.Symbol.section, sectionNumberOf]
  · simp [CoffV.isDefinition, Definition, sectionNumberOf, Coff.Symbol.hasAuxSection, auxRecords]; try omega
  · simp [CoffV.size, CoffV.externalSize, CoffV.staticSize, CoffV.hasAuxFunction, sectionNumberOf, Coff.Symbol.hasAuxSection, auxRecords, hu]
    first
    | (refine .none (.inr (.inl ⟨?_, ?_⟩)) <;> (simp; done))
    | exact .none (.inr (.inr (.inl rfl)))
    | exact .none (.inr (.inr (.inr (.inl rfl))))
    | (refine .none (.inr (.inr (.inr (.inr ⟨rfl, ?_⟩)))) <;> (simp; done))
    | (refine .common rfl rfl ?_ <;> (simp; done))
    | skip))

set_option hygiene false in
/-- One kind, in a section. -/
local macro "placed" : tactic => `(tactic| (
  constructor
  · simp [CoffV.kind, CoffV.derivedType, keptKind, Coff.Symbol.hasAuxSection, auxRecords]
  · simp [CoffV.isGlobal, External]
  · simp [CoffV.scope, External]
  · simp [CoffV.isWeak]
  · simp [CoffV.isUndefined, sectionNumberOf, q0]
  · simp [CoffV.isCommon, sectionNumberOf, q0]
  · simp only [CoffV.symSection, Coff.Symbol.section, sectionNumberOf, q0, q1, q2, q3, q4, if_true, if_false]
    exact .inSec j rfl rfl
  · simp [CoffV.address, Coff.Symbol.address, Coff.Symbol.section, sectionNumberOf, q3, q4, h1, h2]
    try exact h64
  · simp [CoffV.isDefinition, Definition, sectionNumberOf, Coff.Symbol.hasAuxSection, auxRecords, q5]
  · simp [CoffV.size, CoffV.externalSize, CoffV.staticSize, CoffV.hasAuxFunction, sectionNumberOf, Coff.Symbol.hasAuxSection, auxRecords, q0]
    first
    | (refine .none (.inr (.inl ⟨?_, ?_⟩)) <;> (simp; done))
    | exact .none (.inr (.inr (.inl rfl)))
    | exact .none (.inr (.inr (.inr (.inl rfl))))
    | (obtain ⟨sec', g1, a, g2, g3, -⟩ := f6 rfl j rfl
       simp only [g2, g3]
       exact .section_ j sec' rfl rfl rfl g1)
    | skip))

/-- Every symbol of the object without explicit flags is reported as asked for, provided that undefined symbols have
the value 0 and common symbols have a size (otherwise COFF takes one for the other).  (Values have 64 bits.) -/
theorem C70_symbols (crc : List UInt8 → Nat) (o : W.Object) (hv : Valid o) (m : Nat) (flags : Option Nat) (data : List UInt8) (hd : Coff.Header)
    (ss : List Coff.Section) (suffix : List UInt8) (t : Coff.SymTab) (hr : ReadsBack crc o m flags data hd ss t suffix)
    (i : Nat) (s : W.Symbol) (y : Coff.Symbol) (hi : o.symbols[i]? = some s) (hy : SymbolBack crc o data suffix t i s y) (hf : s.flags = .none)
    (h64 : s.value < 2 ^ 64) (hu : s.section_ = .undefined → s.value = 0) (hc : s.section_ = .common → s.size ≠ 0) :
    Reported o ss t (symIndex o i) s y := by
  have hmem := List.mem_of_getElem? hi
  obtain ⟨f1, f2⟩ := CoffV.fields hy hf
  have f3 := hy.value
  have f4 := hy.section_
  have f5 := hy.aux
  have f6 := hy.sectionAux
  have hno := hv.noSection s hmem
  have hin : ∀ j, s.section_ = .inSec j → ∃ sec, Coff.sectionAt ss (j + 1) = .ok sec ∧ sec.virtualAddress = 0 := by
    intro j hj
    have hjl := hv.symbolSection s hmem j hj
    obtain ⟨sec, h1, h2⟩ := hr.sections j _ (List.getElem?_eq_getElem hjl)
    refine ⟨sec, ?_, h2.address.2⟩
    unfold Coff.sectionAt
    rw [if_neg (by omega), Nat.add_sub_cancel, h1]
    rfl
  generalize symIndex o i = index at f6 ⊢
  clear hy hr hv hi hmem hf
  obtain ⟨n, v, sz, k, sc, w, se, fl⟩ := s
  obtain ⟨yn, yv, ys, yt, yc, ya⟩ := y
  simp only at f1 f2 f3 f4 f5 f6 hu hc hno hin h64
  subst f2 f3 f4 f5
  have d2 : ∀ k : SymbolKind, ((if k = .text then 0x20 else 0) &&& 0x30) >>> 4 = if k = .text then 2 else 0 := by
    intro k; split <;> decide
  cases w with
  | true =>
    simp only [storageClass, if_true, Option.some.injEq] at f1
    subst f1
    constructor
    · simp only [CoffV.kind, CoffV.derivedType, keptKind, d2]
      cases k <;> simp
    · simp [CoffV.isGlobal, External]
    · simp [CoffV.scope, External]
    · simp [CoffV.isWeak]
    · simp [CoffV.isUndefined]
    · simp [CoffV.isCommon]
    · have : CoffV.symSection ⟨yn, 0, 0, if k = .text then 0x20 else 0, 0x69, 1⟩ = .unknown := by simp [CoffV.symSection]
      exact this ▸ .placeless (.inl rfl)
    · simp [CoffV.address, Coff.Symbol.address, Coff.Symbol.section]
    · simp [CoffV.isDefinition, Definition]
    · have : CoffV.size t index ⟨yn, 0, 0, if k = .text then 0x20 else 0, 0x69, 1⟩ = 0 := by simp [CoffV.size]
      exact this ▸ .none (.inl rfl)
  | false =>
    simp only [Bool.false_eq_true, if_false, forall_const] at f1 f6 ⊢
    cases se with
    | none =>
      have hk : k = .file := by simpa using hno
      subst hk
      simp only [storageClass, Bool.false_eq_true, if_false, Option.some.injEq] at f1
      subst f1
      combination
    | undefined =>
      simp only [forall_const] at hu
      cases k <;> simp [storageClass, definedClass, W.SymSection.id?] at f1 <;> subst f1
      all_goals combination
    | absolute =>
      cases k <;> cases sc <;> simp [storageClass, definedClass, W.SymSection.id?] at f1 <;> subst f1
      all_goals combination
    | common =>
      simp only [forall_const] at hc
      cases k <;> simp [storageClass, definedClass, W.SymSection.id?] at f1 <;> subst f1
      all_goals combination
    | inSec j =>
      obtain ⟨sec, h1, h2⟩ := hin j rfl
      have q0 : ((j : Int) + 1 = 0) = False := by simp only [eq_iff_iff, iff_false]; omega
      have q1 : ((j : Int) + 1 = -1) = False := by simp only [eq_iff_iff, iff_false]; omega
      have q2 : ((j : Int) + 1 = -2) = False := by simp only [eq_iff_iff, iff_false]; omega
      have q3 : ((0 : Int) < j + 1) = True := by simp only [eq_iff_iff, iff_true]; omega
      have q4 : ((j : Int) + 1).toNat = j + 1 := by omega
      have q5 : ((j : Int) + 1 ≤ 0) = False := by simp only [eq_iff_iff, iff_false]; omega
      cases k <;> cases sc <;> simp [storageClass, definedClass, W.SymSection.id?] at f1 <;> subst f1
      all_goals placed

/-- The kind of a section without explicit flags is kept as far as COFF can tell kinds apart. -/
theorem C70_sections (o : W.Object) (data : List UInt8) (strings : Elf.StrTable) (i : Nat) (s : W.Section) (sec : Coff.Section)
    (h : SectionBack o data strings i s sec) (hf : s.flags = .none) : CoffV.sectionKind sec.characteristics = keptSectionKind s.kind := by
  obtain ⟨c, h1, h2⟩ := h.flags
  have h3 : defaultSectionFlags s.kind = some c := by
    unfold sectionFlags at h1
    rw [hf] at h1
    exact h1
  rw [← CoffV.default_kind s.kind c h3]
  apply CoffV.sectionKind_bits
  intro b hb
  have h4 := h2 b (by simp at hb; omega)
  have e : (sec.characteristics.testBit b = true) ↔ (c.testBit b = true) := by
    rw [h4]
    simp at hb
    constructor
    · rintro (h | ⟨h, -⟩ | ⟨h, -⟩)
      · exact h
      · omega
      · omega
    · exact .inl
  cases hx : sec.characteristics.testBit b <;> cases hy : c.testBit b <;> simp_all

/-- The COMDAT groups that are read are exactly those of the object, with the same symbol, section and selection, one for
each section. -/
theorem C70_comdats (crc : List UInt8 → Nat) (o : W.Object) (hg : Grouped o) (m : Nat) (flags : Option Nat) (data : List UInt8) (hd : Coff.Header)
    (ss : List Coff.Section) (suffix : List UInt8) (t : Coff.SymTab) (hr : ReadsBack crc o m flags data hd ss t suffix) :
    ∃ cs, Runs (Coff.comdatNext t) 0 cs .done ∧ (∀ d ∈ o.comdats, ∃ c ∈ cs, IsGroup o d c) ∧
      (∀ c ∈ cs, ∃ d ∈ o.comdats, IsGroup o d c) ∧ (cs.map (·.sectionIndex)).Nodup := by
  obtain ⟨xs, hx, hi⟩ := hr.iterate
  refine ⟨_, C55_comdats t xs hx, ?_, ?_, ?_⟩
  · intro d hdm
    obtain ⟨k, i, x, hk, hgx, hxi, -⟩ := hg.order d hdm
    obtain ⟨s, s1, s2, s3, s4⟩ := hk
    obtain ⟨y, hym, -⟩ := CoffV.entry_of hr hx hi s1
    obtain ⟨pre, post, e⟩ := List.append_of_mem hym
    obtain ⟨c, hc, hgc⟩ := CoffV.comdatOf_group hg hr hx hi hdm ⟨s, s1, s2, s3, s4⟩ ⟨x, hgx, hxi⟩ e
    exact ⟨c, (CoffV.mem_comdatsOf _ _ _).2 ⟨pre, _, _, post, e, hc⟩, hgc⟩
  · intro c hc
    obtain ⟨pre, i, s, post, e, h⟩ := (CoffV.mem_comdatsOf _ _ _).1 hc
    exact CoffV.group_comdat hg hr hx hi e h
  · exact (CoffV.sections_nodup hg hr hx hi).sublist (CoffV.comdatsOf_sublist t xs)

/-- The sections of the group of a COMDAT are those that belong to it and have a section symbol, each once. -/
theorem C70_comdat_sections (crc : List UInt8 → Nat) (o : W.Object) (hg : Grouped o) (m : Nat) (flags : Option Nat) (data : List UInt8)
    (hd : Coff.Header) (ss : List Coff.Section) (suffix : List UInt8) (t : Coff.SymTab) (hr : ReadsBack crc o m flags data hd ss t suffix)
    (d : W.Comdat) (hdm : d ∈ o.comdats) (i : Nat) (hl : Leads o d i) :
    ∃ l, Runs (Coff.comdatSectionNext t (i + 1)) 0 l .done ∧ l.Nodup ∧
      ∀ n, n ∈ l ↔ ∃ j, n = j + 1 ∧ Belongs o d j ∧ ∃ k, SectionSymbol o k j := by
  obtain ⟨xs, hx, hi⟩ := hr.iterate
  have hall : ∀ p ∈ xs, 0 < p.2.auxCount ∧ p.2.storageClass = 3 ∧ p.2.typ = 0 ∧ 0 < p.2.sectionNumber → ∃ a, t.auxSection p.1 = .ok a := by
    intro p hp hc
    obtain ⟨k, j, s, e, h1, h2, h3, h4, h5⟩ := CoffV.section_entry hg hr hx hi hp hc
    obtain ⟨-, -, a, ha, -⟩ := CoffV.sectionSymbol_entry hg h1 h2 h3 h4 h5
    exact ⟨a, by rw [e]; exact ha⟩
  obtain ⟨g1, g2⟩ := CoffV.comdatSectionsOf_eq t (i + 1) xs hall
  refine ⟨_, C55_comdat_sections t (i + 1) xs hx, (CoffV.sections_nodup hg hr hx hi).sublist g1, ?_⟩
  intro n
  rw [g2]
  constructor
  · rintro ⟨p, hp, hc, hn, a, ha, hin⟩
    obtain ⟨k, j, s, e, h1, h2, h3, h4, h5⟩ := CoffV.section_entry hg hr hx hi hp hc
    obtain ⟨-, hsn, a', ha', hgi⟩ := CoffV.sectionSymbol_entry hg h1 h2 h3 h4 h5
    rw [e, ha'] at ha
    cases ha
    exact ⟨j, by omega, (CoffV.inGroup_iff hg hdm hl hsn hgi).1 hin, k, s, h1, h2, h3, h4⟩
  · rintro ⟨j, hn, hb, k, s, h1, h2, h3, h4⟩
    obtain ⟨y, hym, hyb⟩ := CoffV.entry_of hr hx hi h1
    obtain ⟨hc, hsn, a, ha, hgi⟩ := CoffV.sectionSymbol_entry hg h1 h2 h3 h4 hyb
    exact ⟨_, hym, hc, by simp only; omega, a, ha, (CoffV.inGroup_iff hg hdm hl hsn hgi).2 hb⟩

/-! The object of `C69`: its function `f` is in a COMDAT group with an associated section. -/

private theorem symbol_at (k : Nat) (s : W.Symbol) (h : coffExample.symbols[k]? = some s) :
    (k = 0 ∧ s.kind = .file ∧ s.section_ = .none) ∨ (k = 1 ∧ s.kind = .sectionSym ∧ s.section_ = .inSec 0) ∨
    (k = 2 ∧ s.kind = .sectionSym ∧ s.section_ = .inSec 1) ∨ (k = 3 ∧ s.kind = .unknown ∧ s.section_ = .undefined) ∨
    (k = 4 ∧ s.kind = .text ∧ s.section_ = .inSec 0) ∨ (k = 5 ∧ s.kind = .text ∧ s.section_ = .inSec 0) ∨
    (k = 6 ∧ s.kind = .data ∧ s.section_ = .common) := by
  rcases k with _ | _ | _ | _ | _ | _ | _ | k <;> simp [coffExample] at h <;> subst h <;> simp

private theorem grouped : Grouped coffExample := by
  refine ⟨?_, ?_, ?_, ?_, ?_⟩
  · intro s hs
    simp only [coffExample, List.mem_cons, List.not_mem_nil, or_false] at hs
    rcases hs with rfl | rfl | rfl | rfl | rfl | rfl | rfl <;> rfl
  · intro s hs hw
    simp only [coffExample, List.mem_cons, List.not_mem_nil, or_false] at hs
    rcases hs with rfl | rfl | rfl | rfl | rfl | rfl | rfl <;> simp at hw ⊢
  · rintro a b j ⟨s, h1, -, h3, h4⟩ ⟨s', h1', -, h3', h4'⟩
    have q := symbol_at a s h1
    have q' := symbol_at b s' h1'
    simp [h3, h4] at q
    simp [h3', h4'] at q'
    omega
  · intro a b d e i h1 h2 _ _
    have hl : coffExample.comdats.length = 1 := rfl
    have := ElfW.length_of_getElem? h1
    have := ElfW.length_of_getElem? h2
    omega
  · intro d hd
    simp [coffExample] at hd
    subst hd
    refine ⟨1, 0, _, ⟨_, rfl, rfl, rfl, rfl⟩, rfl, rfl, rfl, by decide, ?_⟩
    intro j y h1 h2 h3
    simp only at h2
    have q := symbol_at j y h3
    rcases q with h | h | h | h | h | h | h <;> obtain ⟨q1, q2, q3⟩ := h <;> rw [q3] <;> first | omega | simp

/-- It is written, and a group with symbol 8, the function, and section 1 is read, to which sections 1 and 2 belong. -/
example : ∃ out t cs c l, coffWrite (fun _ => 0) coffExample none (some 0x104) = .ok out ∧ Runs (Coff.comdatNext t) 0 cs .done ∧
    c ∈ cs ∧ c.symbolIndex = 8 ∧ c.sectionIndex = 1 ∧ CoffV.comdatKind c.selection = 1 ∧
    Runs (Coff.comdatSectionNext t 1) 0 l .done ∧ 1 ∈ l ∧ 2 ∈ l ∧ 3 ∉ l := by
  obtain ⟨out, h⟩ := coffExample_written
  obtain ⟨m, hd, ss, t, suffix, -, h2⟩ := C69_round_trip _ coffExample coffExample_valid none (some 0x104) coffExample_fits out h
  obtain ⟨cs, c1, c2, -⟩ := C70_comdats _ _ grouped _ _ _ _ _ _ _ h2
  have hl : Leads coffExample ⟨1, 4, [0, 1]⟩ 0 := ⟨_, rfl, rfl⟩
  have hm : (⟨1, 4, [0, 1]⟩ : W.Comdat) ∈ coffExample.comdats := by simp [coffExample]
  obtain ⟨c, g1, i, g2, g3, g4, g5⟩ := c2 _ hm
  have := CoffV.leads_eq hl g2
  subst this
  obtain ⟨l, l1, -, l3⟩ := C70_comdat_sections _ _ grouped _ _ _ _ _ _ _ h2 _ hm 0 hl
  refine ⟨out, t, cs, c, l, h, c1, g1, g3.trans (by decide +kernel), g4, g5, l1, (l3 1).2 ⟨0, rfl, .inl hl, 1, _, rfl, rfl, rfl, rfl⟩,
    (l3 2).2 ⟨1, rfl, .inr (by simp), 2, _, rfl, rfl, rfl, rfl⟩, ?_⟩
  intro h3
  obtain ⟨j, e, -, k, s, q1, -, q2, q3⟩ := (l3 3).1 h3
  have q := symbol_at k s q1
  simp [q2, q3] at q
  omega

/-- Its undefined symbol is reported as such, and the common symbol with its size. -/
example : ∃ (out : List UInt8) (t : Coff.SymTab) (y z : Coff.Symbol), coffWrite (fun _ => 0) coffExample none (some 0x104) = .ok out ∧ t.symbol 7 = .ok y ∧ CoffV.isUndefined y = true ∧
    CoffV.isGlobal y = true ∧ t.symbol 12 = .ok z ∧ CoffV.isCommon z = true ∧ CoffV.kind z = .data := by
  obtain ⟨out, h⟩ := coffExample_written
  obtain ⟨m, hd, ss, t, suffix, -, h2⟩ := C69_round_trip _ coffExample coffExample_valid none (some 0x104) coffExample_fits out h
  obtain ⟨y, hy⟩ := h2.symbols 3 _ rfl
  obtain ⟨z, hz⟩ := h2.symbols 6 _ rfl
  have ry := C70_symbols _ _ coffExample_valid _ _ _ _ _ _ _ h2 3 _ y rfl hy rfl (by decide) (fun _ => rfl) (by simp)
  have rz := C70_symbols _ _ coffExample_valid _ _ _ _ _ _ _ h2 6 _ z rfl hz rfl (by decide) (by simp) (by simp)
  have e7 : symIndex coffExample 3 = 7 := by decide +kernel
  have e12 : symIndex coffExample 6 = 12 := by decide +kernel
  refine ⟨out, t, y, z, h, e7 ▸ hy.sym, ry.undefined.2 (by simp), ry.global.2 (.inr ⟨by simp, .inr (.inl rfl)⟩), e12 ▸ hz.sym,
    rz.common.2 (by simp), rz.kind⟩

end Obj.Props

import Verif.Props.ElfWrite
import Verif.Spec.ElfView

/-! # C68: the unified view of what was written as ELF -/

namespace Obj.Props
open Obj Obj.Elf Obj.W Obj.Spec Obj.Spec.ElfO Obj.Spec.ElfS Obj.ElfW Obj.ElfV

private theorem nib : ∀ b < 3, ∀ t < 7, (b <<< 4 ||| t) >>> 4 = b ∧ (b <<< 4 ||| t) &&& 0xf = t := by decide

private theorem bind_lt (s : Symbol) : symbolBind s < 3 := by unfold symbolBind; split; decide; split; decide; split <;> decide

private theorem type_lt (s : Symbol) {t : Nat} (h : symbolType s = some t) : t < 7 := by
  unfold symbolType at h
  split at h <;> (try split at h) <;> (try split at h) <;> simp at h <;> omega

/-- The two ways to ask for the section of a symbol agree, for every symbol table, entry and index: one names a
section if and only if the other does. -/
theorem C68_section_views_agree (tab : SymTab) (y : Sym) (index n : Nat) :
    tab.symbolSection y index = .ok (some n) ↔ ElfV.symSection tab y index = .sec n := by
  unfold SymTab.symbolSection ElfV.symSection symbolSectionIndex
  by_cases h0 : y.shndx = 0
  · simp [h0]
  by_cases h1 : y.shndx = 0xfff1
  · simp [h1]; split <;> simp
  by_cases h2 : y.shndx = 0xfff2
  · simp [h2]
  by_cases h3 : y.shndx = 0xffff
  · simp only [h3]
    simp
    cases hx : tab.shndx[index]? with
    | none => simp [extSection]
    | some x =>
      cases x with
      | zero => simp [extSection]
      | succ k => simp [extSection]
  · simp only [h0, h1, h2, h3, if_false, false_or]
    by_cases h4 : 65280 ≤ y.shndx <;> simp [h4]

/-- Every symbol of the object without explicit flags is reported as asked for. -/
theorem C68_symbols (o : Object) (hv : Valid o) (data : List UInt8) (tab : SymTab) (i : Nat) (s : Symbol) (y : Sym)
    (hi : o.symbols[i]? = some s) (hy : SymbolBack o data tab i s y) (hf : s.flags = .none) :
    Reported o data tab (symIndex o i) s y := by
  have hmem : s ∈ o.symbols := List.mem_of_getElem? hi
  have hfl := hy.flags
  unfold symbolFlags at hfl
  rw [hf] at hfl
  simp only [defaultSymbolFlags] at hfl
  cases ht : symbolType s with
  | none => rw [ht] at hfl; simp at hfl
  | some t =>
  rw [ht] at hfl
  simp only [Option.map_some, Option.some.injEq, Prod.mk.injEq] at hfl
  obtain ⟨hinfo, hother⟩ := hfl
  have htl := type_lt s ht
  obtain ⟨n1, n2⟩ := nib _ (bind_lt s) t htl
  have hb : stBind y = symbolBind s := by unfold stBind; rw [← hinfo]; exact n1
  have hty : stType y = t := by unfold stType; rw [← hinfo]; exact n2
  have hvis : stVis y = if s.scope = .linkage then 2 else 0 := by
    unfold stVis; rw [← hother]; split <;> rfl
  have hsec : symSection tab y (symIndex o i) = keptSection o s ∧ (y.shndx = 0 ↔ s.section_ = .undefined) ∧
      (y.shndx = 0xfff2 ↔ s.section_ = .common) ∧
      ((∃ j, s.section_ = .inSec j) ↔ ¬ ((symbolSectionIndex y.shndx).isNone ∧ y.shndx ≠ 0xffff)) := by
    have kfile : t = 4 ↔ s.kind = .file := by
      unfold symbolType at ht
      cases hk : s.kind <;> rw [hk] at ht <;> simp at ht <;> (try split at ht) <;> (try split at ht) <;> simp_all <;> omega
    cases hs : s.section_ with
    | inSec j =>
      have h1 := hy.inSection j hs
      have h2 := (C68_section_views_agree tab y _ _).1 h1
      refine ⟨by rw [h2]; simp [keptSection, hs], ?_, ?_, ?_⟩
      · constructor
        · intro h0; unfold SymTab.symbolSection symbolSectionIndex at h1; simp [h0] at h1
        · intro h; simp at h
      · constructor
        · intro h0; unfold SymTab.symbolSection symbolSectionIndex at h1; simp [h0] at h1
        · intro h; simp at h
      · refine ⟨fun _ hc => ?_, fun _ => ⟨j, rfl⟩⟩
        unfold SymTab.symbolSection at h1
        cases hq : symbolSectionIndex y.shndx with
        | some k => rw [hq] at hc; simp at hc
        | none => rw [hq] at h1; simp [hc.2] at h1
    | undefined =>
      have h1 := (hy.special (by simp [hs])).2
      rw [hs] at h1
      simp only at h1
      refine ⟨?_, ?_, ?_, ?_⟩ <;> simp [ElfV.symSection, keptSection, hs, h1, symbolSectionIndex]
    | common =>
      have h1 := (hy.special (by simp [hs])).2
      rw [hs] at h1
      simp only at h1
      refine ⟨?_, ?_, ?_, ?_⟩ <;> simp [ElfV.symSection, keptSection, hs, h1, symbolSectionIndex]
    | absolute =>
      have h1 := (hy.special (by simp [hs])).2
      rw [hs] at h1
      simp only at h1
      refine ⟨?_, ?_, ?_, ?_⟩ <;> simp [ElfV.symSection, keptSection, hs, h1, symbolSectionIndex, hty, kfile]
    | none =>
      have h1 := (hy.special (by simp [hs])).2
      rw [hs] at h1
      simp only at h1
      have := hv.noSection s hmem hs
      refine ⟨?_, ?_, ?_, ?_⟩ <;> simp [ElfV.symSection, keptSection, hs, h1, symbolSectionIndex, hty, kfile, this]
  obtain ⟨s1, s2, s3, s4⟩ := hsec
  refine ⟨?_, ?_, ?_, ?_, ?_, ?_, s1, ?_, ?_⟩
  · unfold ElfV.kind keptKind
    rw [hty]
    unfold symbolType at ht
    cases hk : s.kind <;> rw [hk] at ht <;> simp at ht
    · obtain ⟨h1, h2⟩ := ht; subst h2; simp
    · by_cases hu : s.section_ = .undefined
      · simp [hu] at ht; subst ht; simp [hu]
      · simp [hu] at ht; subst ht; simp [hu]
    · by_cases hu : s.section_ = .undefined
      · simp [hu] at ht; subst ht; simp [hu]
      · by_cases hc : s.section_ = .common
        · simp [hc] at ht; subst ht; simp [hc]
        · simp [hu, hc] at ht; subst ht; simp [hu]
    · subst ht; simp
    · subst ht; simp
    · subst ht; simp
    · subst ht; simp
  · unfold ElfV.scope keptScope
    rw [hb, hvis]
    by_cases hu : s.section_ = .undefined
    · rw [if_pos (s2.2 hu), if_pos hu]
    · rw [if_neg (mt s2.1 hu), if_neg hu]
      unfold symbolBind ElfW.isLocal
      cases hw : s.weak <;> cases hsc : s.scope <;> simp [hu]
  · unfold ElfV.isWeak
    rw [hb]
    unfold symbolBind
    cases hw : s.weak
    · simp only [Bool.false_eq_true, if_false]; split; · simp
      split <;> simp
    · simp
  · unfold ElfV.isLocal
    rw [hb]
    unfold symbolBind ElfW.isLocal
    cases hw : s.weak <;> by_cases hu : s.section_ = .undefined <;> by_cases hc : s.scope = .compilation <;> simp [hu, hc]
  · unfold ElfV.isUndefined; rw [Bool.eq_iff_iff]; simpa using s2
  · unfold ElfV.isCommon; rw [Bool.eq_iff_iff]; simpa using s3
  · unfold ElfV.address ElfV.isCommon
    by_cases hc : s.section_ = .common
    · rw [if_pos (by simpa using s3.2 hc), if_pos hc]
    · rw [if_neg (by simpa using mt s3.1 hc), if_neg hc]; exact hy.value
  · unfold ElfV.isDefinition Definition
    rw [s4]
    by_cases hc : (symbolSectionIndex y.shndx).isNone ∧ y.shndx ≠ 0xffff
    · rw [if_pos hc]; simp [hc]
    · rw [if_neg hc]
      simp only [hc, not_false_eq_true, true_and]
      have hin := s4.2 hc
      obtain ⟨j, hj⟩ := hin
      have hun : s.section_ ≠ .undefined := by rw [hj]; simp
      have hco : s.section_ ≠ .common := by rw [hj]; simp
      rw [hty, hb]
      unfold symbolType at ht
      have hlab : symbolBind s = 0 ↔ s.weak = false ∧ s.scope = .compilation := by
        unfold symbolBind ElfW.isLocal
        cases hw : s.weak <;> by_cases hc : s.scope = .compilation <;> simp [hun, hc]
      cases hk : s.kind <;> rw [hk] at ht <;> simp [hun, hco] at ht <;> subst ht <;> try simp
      rw [hy.name]
      unfold storedName
      rw [if_neg (by rw [hk]; simp)]
      rw [hlab]
      by_cases hq : s.weak = false ∧ s.scope = .compilation
      · simp only [hq, and_self, not_true, false_or, forall_const]
        cases hn : s.name with
        | nil => simp [notMapping]
        | cons a b =>
          by_cases ha : a = 36
          · subst ha; simp [notMapping]
          · simp [ha]
            unfold notMapping
            split
            · rename_i h; injection h with h; injection h with h; exact absurd h ha
            · rfl
      · simp only [hq, not_false_eq_true, true_or, true_iff]
        intro h1 h2
        exact absurd ⟨h1, h2⟩ hq

/-- Every section of the object without explicit flags is reported with its kind, as far as ELF can tell the
kinds apart. -/
theorem C68_section_kinds (o : Object) (data : List UInt8) (t : SectionTable) (i : Nat) (s : Section) (h : Shdr)
    (hy : SectionBack o data t i s h) (hf : s.flags = .none) : sectionKind h.type h.flags = keptSectionKind s.kind := by
  have hfl := hy.flags
  unfold sectionFlags at hfl
  rw [hf] at hfl
  simp only [defaultSectionFlags] at hfl
  cases hk : s.kind <;> rw [hk] at hfl <;> simp at hfl <;> (obtain ⟨h1, h2⟩ := hfl; rw [← h1, ← h2]; decide)

private theorem take_count {α : Type} (p : α → Bool) : ∀ (l : List α) (k : Nat), k < (l.filter p).length →
    ∃ i a, l[i]? = some a ∧ p a = true ∧ ((l.take i).filter p).length = k
  | [], k, h => by simp at h
  | a :: l, k, h => by
    by_cases hp : p a = true
    · rw [List.filter_cons_of_pos hp, List.length_cons] at h
      cases k with
      | zero => exact ⟨0, a, rfl, hp, rfl⟩
      | succ k =>
        obtain ⟨i, b, h1, h2, h3⟩ := take_count p l k (by omega)
        exact ⟨i + 1, b, by simpa using h1, h2, by rw [List.take_succ_cons, List.filter_cons_of_pos hp, List.length_cons, h3]⟩
    · rw [List.filter_cons_of_neg hp] at h
      obtain ⟨i, b, h1, h2, h3⟩ := take_count p l k h
      exact ⟨i + 1, b, by simpa using h1, h2, by rw [List.take_succ_cons, List.filter_cons_of_neg hp, h3]⟩

private theorem take_mono {α : Type} (p : α → Bool) {l : List α} {i j : Nat} {a : α} (h : l[i]? = some a) (hp : p a = true) (hij : i < j) :
    ((l.take i).filter p).length < ((l.take j).filter p).length := by
  have hil : i < l.length := by
    rcases Nat.lt_or_ge i l.length with h1 | h1
    · exact h1
    · rw [List.getElem?_eq_none h1] at h; simp at h
  have h1 : l.take j = l.take i ++ a :: (l.take j).drop (i + 1) := by
    have h2 : (l.take j)[i]? = some a := by rw [List.getElem?_take_of_lt hij]; exact h
    have := split_at h2
    rw [List.take_take, Nat.min_eq_left (by omega)] at this
    exact this
  rw [h1, List.filter_append, List.length_append, List.filter_cons_of_pos hp, List.length_cons]
  omega

/-- The symbols of the object fill the entries `1, 2, .., n` of the symbol table, each exactly one. -/
theorem C68_each_once (o : Object) :
    (∀ i j, i < o.symbols.length → j < o.symbols.length → symIndex o i = symIndex o j → i = j) ∧
    (∀ i, i < o.symbols.length → 1 ≤ symIndex o i ∧ symIndex o i ≤ o.symbols.length) ∧
    (∀ k, 1 ≤ k → k ≤ o.symbols.length → ∃ i, i < o.symbols.length ∧ symIndex o i = k) := by
  have hlen : ∀ l : List Symbol, (l.filter localSym).length + (l.filter fun s => !localSym s).length = l.length := by
    intro l
    induction l with
    | nil => rfl
    | cons a l ih => cases h : localSym a <;> simp [h] <;> omega
  have hpos := hlen o.symbols
  refine ⟨?_, ?_, ?_⟩
  · have key : ∀ i j, i < j → j < o.symbols.length → symIndex o i ≠ symIndex o j := by
      intro i j hij hj
      have hi : i < o.symbols.length := by omega
      have gi := List.getElem?_eq_getElem hi
      have gj := List.getElem?_eq_getElem hj
      generalize o.symbols[i] = a at gi
      generalize o.symbols[j] = b at gj
      unfold symIndex
      rw [gi, gj]
      simp only
      have l1 : localSym a = true → ((o.symbols.take i).filter localSym).length < (o.symbols.filter localSym).length := by
        intro h
        have := take_mono localSym gi h (j := o.symbols.length) hi
        rwa [List.take_length] at this
      have l2 : localSym b = true → ((o.symbols.take j).filter localSym).length < (o.symbols.filter localSym).length := by
        intro h
        have := take_mono localSym gj h (j := o.symbols.length) hj
        rwa [List.take_length] at this
      have l3 := fun h => take_mono localSym gi (j := j) h hij
      have l4 := fun h => take_mono (fun s => !localSym s) gi (j := j) h hij
      cases ha : localSym a <;> cases hb : localSym b
      · have := l4 (by simp [ha]); simp only [Bool.false_eq_true, if_false]; omega
      · have := l2 hb; simp only [Bool.false_eq_true, if_false, if_true]; omega
      · have := l1 ha; simp only [Bool.false_eq_true, if_false, if_true]; omega
      · have := l3 ha; simp only [if_true]; omega
    intro i j hi hj h
    rcases Nat.lt_trichotomy i j with h1 | h1 | h1
    · exact absurd h (key i j h1 hj)
    · exact h1
    · exact absurd h.symm (key j i h1 hi)
  · intro i hi
    have := symIndex_pos o hi
    have e : num o = 1 + o.symbols.length := rfl
    omega
  · intro k h1 h2
    by_cases hk : k ≤ (o.symbols.filter localSym).length
    · obtain ⟨i, a, g, ha, hc⟩ := take_count localSym o.symbols (k - 1) (by omega)
      refine ⟨i, length_of_getElem? g, ?_⟩
      unfold symIndex
      rw [g]
      simp only [ha, if_true]
      omega
    · obtain ⟨i, a, g, ha, hc⟩ := take_count (fun s => !localSym s) o.symbols (k - 1 - (o.symbols.filter localSym).length) (by omega)
      refine ⟨i, length_of_getElem? g, ?_⟩
      unfold symIndex
      rw [g]
      simp only [Bool.not_eq_true'] at ha
      simp only [ha, Bool.false_eq_true, if_false]
      omega

/-- ELF requires that exactly the entries below `sh_info` have local binding.  This holds for the written table
if no symbol has explicit flags and none with `Compilation` scope is weak or undefined. -/
theorem C68_locals_first (o : Object) (hv : Valid o) (c : Cfg) (data : List UInt8) (t : SectionTable) (h : Shdr) (tab : SymTab)
    (hb : SymbolsBack o c data t h tab) (hflags : ∀ s ∈ o.symbols, s.flags = .none)
    (hclean : ∀ s ∈ o.symbols, s.scope = .compilation → s.weak = false ∧ s.section_ ≠ .undefined) (k : Nat) (h1 : 1 ≤ k)
    (h2 : k ≤ o.symbols.length) : ∃ y, tab.symbol k = .ok y ∧ (ElfV.isLocal y = true ↔ k < h.info) := by
  obtain ⟨i, hi, rfl⟩ := (C68_each_once o).2.2 k h1 h2
  have g := List.getElem?_eq_getElem hi
  generalize o.symbols[i] = s at g
  have hmem : s ∈ o.symbols := List.mem_of_getElem? g
  obtain ⟨y, hy⟩ := hb.each i s g
  refine ⟨y, hy.index, ?_⟩
  rw [(C68_symbols o hv data tab i s y g hy (hflags s hmem)).local_, hb.firstGlobal, decide_eq_true_iff]
  have hl : (s.weak = false ∧ s.section_ ≠ .undefined ∧ s.scope = .compilation) ↔ localSym s = true := by
    unfold localSym
    rw [decide_eq_true_iff]
    exact ⟨fun h => h.2.2, fun h => ⟨(hclean s hmem h).1, (hclean s hmem h).2, h⟩⟩
  rw [hl]
  unfold symIndex
  rw [g]
  simp only
  cases ha : localSym s
  · simp
  · have := take_mono localSym g ha (j := o.symbols.length) hi
    rw [List.take_length] at this
    simp only [if_true, true_iff]
    omega

/-- The condition is needed: a weak (or undefined) symbol with `Compilation` scope is put among the local
entries, below `sh_info`, but has weak (or global) binding. -/
theorem C68_misplaced (o : Object) (hv : Valid o) (c : Cfg) (data : List UInt8) (t : SectionTable) (h : Shdr) (tab : SymTab)
    (hb : SymbolsBack o c data t h tab) (i : Nat) (s : Symbol) (hi : o.symbols[i]? = some s) (hf : s.flags = .none)
    (hs : s.scope = .compilation) (hbad : s.weak = true ∨ s.section_ = .undefined) :
    ∃ y, tab.symbol (symIndex o i) = .ok y ∧ symIndex o i < h.info ∧ ElfV.isLocal y = false := by
  obtain ⟨y, hy⟩ := hb.each i s hi
  refine ⟨y, hy.index, ?_, ?_⟩
  · rw [hb.firstGlobal]
    have ha : localSym s = true := by simp [localSym, hs]
    have := take_mono localSym hi ha (j := o.symbols.length) (length_of_getElem? hi)
    rw [List.take_length] at this
    unfold symIndex
    rw [hi]
    simp only [ha, if_true]
    omega
  · rw [(C68_symbols o hv data tab i s y hi hy hf).local_]
    rcases hbad with h | h <;> simp [h]

/-- All together: an object written as ELF without explicit flags is read back with every section's kind and
contents and every symbol's attributes. -/
theorem C68_written (o : Object) (hv : Valid o) (hasSub : Bool) (flags : FileFlags)
    (hfl : ∀ a b f, flags = .elf a b f → f < 2 ^ 32) (is64 isRela : Bool) (hi : elfIs64 o.arch = some is64)
    (hr : elfHasAddend o.arch = .ok isRela) (hf : ElfO.Fits o is64 isRela) (out : List UInt8)
    (h : elfWrite o hasSub flags = .ok out) :
    ∃ e t tab, parseHeader is64 out = .ok (⟨is64, o.endian⟩, e) ∧ Elf.sections ⟨is64, o.endian⟩ e out = .ok t ∧
      SectionTable.symbolTableByIndex ⟨is64, o.endian⟩ out t (symtabIndex o) = .ok tab ∧
      (∀ i s, o.sections[i]? = some s → s.flags = .none → ∃ hd, t.section (secIndex o i) = .ok hd ∧
        t.sectionName out hd = .ok s.name ∧ sectionKind hd.type hd.flags = keptSectionKind s.kind ∧
        hd.size = s.size ∧ (s.kind.isBss = false → s.data.length = s.size → hd.data out = .ok s.data)) ∧
      (∀ i s, o.symbols[i]? = some s → s.flags = .none → ∃ y, tab.symbol (symIndex o i) = .ok y ∧
        tab.symbolName out y = .ok (storedName s) ∧ y.size = s.size ∧ Reported o out tab (symIndex o i) s y) := by
  obtain ⟨m, e, t, _, hb⟩ := C67_round_trip o hv hasSub flags hfl is64 isRela hi hr hf out h
  obtain ⟨hd, tab, hs⟩ := hb.symbols
  refine ⟨e, t, tab, hb.parse, hb.table, hs.byIndex, ?_, ?_⟩
  · intro i s his hfs
    obtain ⟨hd, hh⟩ := hb.sections i s his
    refine ⟨hd, hh.index, hh.name, C68_section_kinds o out t i s hd hh hfs, hh.size, fun hbss hd2 => hh.data ?_ hd2⟩
    have := hh.flags
    unfold sectionFlags at this
    rw [hfs] at this
    simp only [defaultSectionFlags] at this
    intro h8
    cases hk : s.kind <;> rw [hk] at this hbss <;> simp [SectionKind.isBss] at this hbss <;> omega
  · intro i s his hfs
    obtain ⟨y, hy⟩ := hs.each i s his
    exact ⟨y, hy.index, hy.name, hy.size, C68_symbols o hv out tab i s y his hy hfs⟩

/-- The conditions can be met: see the objects in `Props/ElfWrite.lean`; the values asked for are not trivial. -/
example : keptKind ⟨[102], 0, 5, .text, .dynamic, false, .inSec 0, .none⟩ = .text ∧
    keptKind ⟨[102], 0, 0, .text, .unknown, false, .undefined, .none⟩ = .unknown ∧
    keptScope ⟨[120], 8, 4, .data, .compilation, false, .inSec 2, .none⟩ = .compilation ∧
    keptScope ⟨[120], 8, 4, .data, .compilation, true, .inSec 2, .none⟩ = .dynamic := by decide

end Obj.Props

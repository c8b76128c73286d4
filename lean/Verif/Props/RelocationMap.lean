import Verif.Proof.RelocationMap
import Verif.Props.ElfFile
import Verif.Props.CoffFile
import Verif.Props.MachoFile
import Verif.Props.XcoffRead

namespace Obj.Props

open Obj.RMap Obj.Spec.RMap

private theorem lastAt_cons {file : Objs} {o : Nat} {p : Nat × Rel} {rels : List (Nat × Rel)} {r : Rel} {s : Nat} (h : LastAt file o rels r s) :
    LastAt file o (p :: rels) r s := by
  cases h with
  | @intro pre post _ _ h1 h2 => exact LastAt.intro (pre := p :: pre) h1 h2

private theorem lastAt_of {file : Objs} (o : Nat) (rels : List (Nat × Rel)) :
    (∃ r s, LastAt file o rels r s) ∨ ∀ r s, (o, r) ∈ rels → ¬ Supported file r s := by
  induction rels with
  | nil => exact Or.inr (fun _ _ h => by cases h)
  | cons p rels ih =>
    rcases ih with ⟨r, s, h⟩ | h
    · exact Or.inl ⟨r, s, lastAt_cons h⟩
    · by_cases c : ∃ s, p.1 = o ∧ Supported file p.2 s
      · obtain ⟨s, rfl, hs⟩ := c
        exact Or.inl ⟨p.2, s, LastAt.intro (pre := []) hs h⟩
      · refine Or.inr ?_
        intro r s hm hs
        rcases List.mem_cons.1 hm with hm | hm
        · exact c ⟨s, by rw [← hm], by rw [← hm]; exact hs⟩
        · exact h r s hm hs

private theorem addAll_find (file : Objs) (ht : Total file) (o : Nat) (rels : List (Nat × Rel)) (m : RelocationMap) :
    (∀ r s, LastAt file o rels r s → (addAll file rels m).2.find o = some (entryOf r s)) ∧
    ((∀ r s, (o, r) ∈ rels → ¬ Supported file r s) → (addAll file rels m).2.find o = m.find o) := by
  induction rels generalizing m with
  | nil =>
    refine ⟨?_, fun _ => rfl⟩
    intro r s h
    generalize hl : ([] : List (Nat × Rel)) = l at h
    cases h
    simp at hl
  | cons p rels ih =>
    obtain ⟨o', r'⟩ := p
    have hstep : ∀ m', (addAll file ((o', r') :: rels) m').2 = (addAll file rels (m'.add file o' r').2).2 := fun _ => rfl
    have hrest : ∀ r s, LastAt file o rels r s → (addAll file ((o', r') :: rels) m).2.find o = some (entryOf r s) := by
      intro r s h; rw [hstep]; exact (ih _).1 r s h
    have hnone : (∀ r s, (o, r) ∈ rels → ¬ Supported file r s) → (addAll file ((o', r') :: rels) m).2.find o = (m.add file o' r').2.find o := by
      intro h; rw [hstep]; exact (ih _).2 h
    constructor
    · intro r s h
      generalize hl : (o', r') :: rels = l at h
      cases h with
      | @intro pre post _ _ h1 h2 =>
        cases pre with
        | nil =>
          simp only [List.nil_append, List.cons.injEq, Prod.mk.injEq] at hl
          obtain ⟨⟨rfl, rfl⟩, rfl⟩ := hl
          rw [List.nil_append, hnone h2, add_supported file m o' r' s h1, find_put, if_pos rfl]
        | cons q pre =>
          simp only [List.cons_append, List.cons.injEq] at hl
          obtain ⟨rfl, rfl⟩ := hl
          exact hrest r s (LastAt.intro h1 h2)
    · intro h
      rw [hnone (fun r s hm => h r s (List.mem_cons_of_mem _ hm))]
      by_cases c1 : Ignored r'
      · rw [add_ignored file m o' r' c1]
      · by_cases c2 : ∃ s, Supported file r' s
        · obtain ⟨s, hs⟩ := c2
          rw [add_supported file m o' r' s hs, find_put, if_neg ?_]
          rintro rfl
          exact h r' s (List.mem_cons_self ..) hs
        · rw [add_other file ht m o' r' c1 (fun s hs => c2 ⟨s, hs⟩)]

/-- C89: after adding any relocations, errors being skipped, a value is relocated by the last supported relocation at its offset, and is
unchanged if there is none. -/
theorem C89_history (file : Objs) (ht : Total file) (rels : List (Nat × Rel)) (offset value : Nat) :
    (∀ r s, LastAt file offset rels r s → ((addAll file rels []).2.relocate offset value : Int) = applied r s value) ∧
    ((∀ r s, (offset, r) ∈ rels → ¬ Supported file r s) → (addAll file rels []).2.relocate offset value = value) ∧
    ((∃ r s, LastAt file offset rels r s) ∨ ∀ r s, (offset, r) ∈ rels → ¬ Supported file r s) := by
  obtain ⟨h1, h2⟩ := addAll_find file ht offset rels []
  refine ⟨fun r s h => relocate_entry _ _ _ r s (h1 r s h), ?_, lastAt_of offset rels⟩
  intro h
  unfold RelocationMap.relocate
  rw [h2 h]
  rfl

private theorem find_iff (file : Objs) (ht : Total file) (o : Nat) (rels : List (Nat × Rel)) :
    ((addAll file rels []).2.find o).isSome = true ↔ ∃ r s, (o, r) ∈ rels ∧ Supported file r s := by
  obtain ⟨h1, h2⟩ := addAll_find file ht o rels []
  rcases lastAt_of (file := file) o rels with ⟨r, s, h⟩ | h
  · rw [h1 r s h]
    simp only [Option.isSome_some, true_iff]
    cases h with
    | @intro pre post _ _ h1 h2 => exact ⟨r, s, by simp, h1⟩
  · rw [h2 h]
    constructor
    · intro c; cases c
    · rintro ⟨r, s, hm, hs⟩; exact absurd hs (h r s hm)

private theorem addAll_append (file : Objs) (xs ys : List (Nat × Rel)) (m : RelocationMap) :
    addAll file (xs ++ ys) m = ((addAll file xs m).1 ++ (addAll file ys (addAll file xs m).2).1, (addAll file ys (addAll file xs m).2).2) := by
  induction xs generalizing m with
  | nil => rfl
  | cons x xs ih =>
    obtain ⟨o, r⟩ := x
    simp only [List.cons_append, addAll, ih]

private theorem addAll_length (file : Objs) (xs : List (Nat × Rel)) (m : RelocationMap) : (addAll file xs m).1.length = xs.length := by
  induction xs generalizing m with
  | nil => rfl
  | cons x xs ih => obtain ⟨o, r⟩ := x; simp only [addAll, List.length_cons, ih]

/-- C89: adding a relocation succeeds exactly if it does nothing, or is supported and is the first supported one at its offset; otherwise it
is an error, never a panic. -/
theorem C89_add (file : Objs) (ht : Total file) (pre : List (Nat × Rel)) (offset : Nat) (r : Rel) (rest : List (Nat × Rel)) :
    ∃ x, (addAll file (pre ++ (offset, r) :: rest) []).1[pre.length]? = some x ∧ x ≠ .panic ∧
      (x = .ok () ↔ Ignored r ∨ ((∃ s, Supported file r s) ∧ ∀ r' s', (offset, r') ∈ pre → ¬ Supported file r' s')) := by
  have hf := find_iff file ht offset pre
  refine ⟨((addAll file pre []).2.add file offset r).1, ?_, ?_⟩
  · rw [addAll_append, List.getElem?_append_right (by rw [addAll_length]), addAll_length]
    simp [addAll]
  · generalize (addAll file pre []).2 = m at hf
    by_cases c1 : Ignored r
    · rw [add_ignored file m offset r c1]
      exact ⟨by simp, by simp [c1]⟩
    · by_cases c2 : ∃ s, Supported file r s
      · have c3 := c2
        obtain ⟨s, hs⟩ := c2
        rw [add_supported file m offset r s hs]
        simp only []
        by_cases c : (m.find offset).isSome = true
        · rw [if_pos c]
          refine ⟨by simp, ?_⟩
          obtain ⟨r', s', hm, hs'⟩ := hf.1 c
          simp only [reduceCtorEq, false_iff]
          rintro (h | ⟨-, h⟩)
          · exact c1 h
          · exact h r' s' hm hs'
        · rw [if_neg c]
          refine ⟨by simp, by simp only [true_iff]; exact Or.inr ⟨c3, fun r' s' hm hs' => c (hf.2 ⟨r', s', hm, hs'⟩)⟩⟩
      · rw [add_other file ht m offset r c1 (fun s hs => c2 ⟨s, hs⟩)]
        refine ⟨by simp, ?_⟩
        simp only [reduceCtorEq, false_iff]
        rintro (h | ⟨h, -⟩)
        · exact c1 h
        · exact c2 h

private theorem newLoop_eq (file : Objs) (rels : List (Nat × Rel)) (m : RelocationMap) (hp : ∀ x ∈ (addAll file rels m).1, x ≠ .panic) :
    ((∀ x ∈ (addAll file rels m).1, x = .ok ()) → newLoop file rels m = .ok (addAll file rels m).2) ∧
    (¬ (∀ x ∈ (addAll file rels m).1, x = .ok ()) → newLoop file rels m = .err) := by
  induction rels generalizing m with
  | nil => exact ⟨fun _ => rfl, fun h => absurd (fun x hx => by cases hx) h⟩
  | cons p rels ih =>
    obtain ⟨o, r⟩ := p
    unfold newLoop
    simp only [addAll] at hp ⊢
    generalize m.add file o r = q at hp ⊢
    obtain ⟨x, m'⟩ := q
    cases x with
    | ok u =>
      cases u
      simp only [List.forall_mem_cons, true_and]
      exact ih m' (fun x hx => hp x (List.mem_cons_of_mem _ hx))
    | err => simp
    | panic => exact absurd rfl (hp _ (List.mem_cons_self ..))

private theorem mem_split {rels : List (Nat × Rel)} {xs : List (Res Unit)} (hl : xs.length = rels.length) :
    (∀ x ∈ xs, x = .ok ()) ↔ ∀ pre p rest, rels = pre ++ p :: rest → xs[pre.length]? = some (.ok ()) := by
  constructor
  · intro h pre p rest he
    have : pre.length < xs.length := by rw [hl, he]; simp
    rw [List.getElem?_eq_getElem this, h _ (List.getElem_mem _)]
  · intro h x hx
    obtain ⟨k, hk, rfl⟩ := List.mem_iff_getElem.1 hx
    have hk' : k < rels.length := by omega
    have := h (rels.take k) rels[k] (rels.drop (k + 1)) (by rw [← List.drop_eq_getElem_cons hk', List.take_append_drop])
    rw [List.length_take, Nat.min_eq_left (by omega), List.getElem?_eq_getElem hk] at this
    exact Option.some.inj this

/-- C89: the map of a section is made exactly if every relocation does nothing or is supported, no two of the latter at the same offset;
it then relocates a value at the offset of a supported relocation by that relocation, and no other value. -/
theorem C89_new (file : Objs) (ht : Total file) (rels : List (Nat × Rel)) :
    new file rels ≠ .panic ∧ ((∃ m, new file rels = .ok m) ↔ Acceptable file rels) ∧
    ∀ m, new file rels = .ok m → ∀ offset value : Nat,
      (∀ r s, (offset, r) ∈ rels → Supported file r s → (m.relocate offset value : Int) = applied r s value) ∧
      ((∀ r, (offset, r) ∈ rels → Ignored r) → m.relocate offset value = value) := by
  have hadd := fun pre (p : Nat × Rel) rest => C89_add file ht pre p.1 p.2 rest
  have hp : ∀ x ∈ (addAll file rels []).1, x ≠ .panic := by
    intro x hx
    obtain ⟨k, hk, rfl⟩ := List.mem_iff_getElem.1 hx
    have hk' : k < rels.length := by rw [addAll_length] at hk; exact hk
    obtain ⟨x, h1, h2, -⟩ := hadd (rels.take k) rels[k] (rels.drop (k + 1))
    have he : rels.take k ++ (rels[k].1, rels[k].2) :: rels.drop (k + 1) = rels := by
      show rels.take k ++ rels[k] :: _ = rels
      rw [← List.drop_eq_getElem_cons hk', List.take_append_drop]
    rw [he, List.length_take, Nat.min_eq_left (by omega), List.getElem?_eq_getElem hk] at h1
    rw [Option.some.inj h1]; exact h2
  obtain ⟨hyes, hno⟩ := newLoop_eq file rels [] hp
  have hacc : (∀ x ∈ (addAll file rels []).1, x = .ok ()) ↔ Acceptable file rels := by
    rw [mem_split (addAll_length file rels [])]
    have hks : ∀ r s, Supported file r s → ¬ Ignored r := by
      intro r s h c; rw [Ignored, h.1] at c; cases c
    constructor
    · intro h
      have h' : ∀ pre p rest, rels = pre ++ p :: rest → Ignored p.2 ∨ ((∃ s, Supported file p.2 s) ∧ ∀ r' s', (p.1, r') ∈ pre → ¬ Supported file r' s') := by
        intro pre p rest he
        obtain ⟨x, h1, h2, h3⟩ := hadd pre p rest
        have h4 := h pre p rest he
        rw [he] at h4
        rw [show (p.1, p.2) = p from rfl, h4] at h1
        rw [← Option.some.inj h1] at h3
        exact h3.1 rfl
      have hall : ∀ p ∈ rels, Ignored p.2 ∨ ∃ s, Supported file p.2 s := by
        intro p hm
        obtain ⟨pre, rest, he⟩ := List.append_of_mem hm
        rcases h' pre p rest he with h | ⟨h, -⟩
        · exact Or.inl h
        · exact Or.inr h
      refine ⟨hall, ?_⟩
      clear h hyes hno hp hadd
      rw [List.pairwise_filter]
      rw [List.pairwise_iff_forall_sublist]
      intro p q hsub hpk hqk heq
      obtain ⟨l1, l2, he, hs1, hs2⟩ := List.cons_sublist_iff.1 hsub
      have hq : q ∈ l2 := List.singleton_sublist.1 hs2
      obtain ⟨a, b, hab⟩ := List.append_of_mem hq
      rcases h' (l1 ++ a) q b (by rw [he, hab]; simp) with h | ⟨-, h⟩
      · unfold Ignored at h; simp [h] at hqk
      · have hpm : p ∈ rels := by rw [he]; exact List.mem_append_left _ hs1
        rcases hall p hpm with h2 | ⟨s, h2⟩
        · unfold Ignored at h2; simp [h2] at hpk
        · exact h p.2 s (by rw [← heq]; exact List.mem_append_left _ hs1) h2
    · rintro ⟨h1, h2⟩ pre p rest he
      obtain ⟨x, g1, g2, g3⟩ := hadd pre p rest
      rw [show (p.1, p.2) = p from rfl, ← he] at g1
      rw [g1, g3.2]
      rcases h1 p (by rw [he]; simp) with h | h
      · exact Or.inl h
      · refine Or.inr ⟨h, ?_⟩
        obtain ⟨s, hs⟩ := h
        intro r' s' hm hs'
        rw [he] at h2
        rw [List.filter_append, List.pairwise_append] at h2
        refine h2.2.2 (p.1, r') ?_ p ?_ rfl
        · rw [List.mem_filter]
          exact ⟨hm, by simpa using (show ¬ (r'.kind = .none) from hks r' s' hs')⟩
        · rw [List.mem_filter]
          exact ⟨List.mem_cons_self .., by simpa using (show ¬ (p.2.kind = .none) from hks _ s hs)⟩
  rw [hacc] at hyes hno
  unfold new
  by_cases hall : Acceptable file rels
  case neg =>
    rw [hno hall]
    exact ⟨by simp, by simp [hall], by simp⟩
  rw [hyes hall]
  refine ⟨by simp, by simp [hall], ?_⟩
  · intro m hm offset value
    cases hm
    obtain ⟨h1, h2, h3⟩ := C89_history file ht rels offset value
    have ha := hall
    constructor
    · intro r s hmem hs
      refine h1 r s ?_
      obtain ⟨pre, post, he⟩ := List.append_of_mem hmem
      rw [he]
      refine LastAt.intro hs ?_
      intro r' s' hm' hs'
      have hpw := ha.2
      rw [he, List.filter_append, List.pairwise_append] at hpw
      have hkeep : (fun p : Nat × Rel => decide (p.2.kind ≠ .none)) (offset, r) = true := by simp [hs.1]
      rw [List.filter_cons_of_pos (p := fun p : Nat × Rel => decide (p.2.kind ≠ .none)) hkeep] at hpw
      exact List.rel_of_pairwise_cons hpw.2.1 (List.mem_filter.2 ⟨hm', by simp [hs'.1]⟩) rfl
    · intro hi
      refine h2 ?_
      intro r s hm hs
      have := hi r hm
      rw [Ignored, hs.1] at this; cases this

/-- C89: for ELF files the relocations are those of the section. -/
theorem C89_elf (is64 : Bool) (data : List UInt8) (hlen : data.length < 2 ^ 64) (f : ElfF.File) (hf : ElfF.File.parse is64 data = .ok f) (i : Nat) :
    Total (elfObjs f) ∧
    (∃ xs, Runs (ElfF.sectionRelocNext f data) (ElfF.relocationsOf i) xs .done) ∧
    ∀ a j, (elfObjs f).symbolAddress j = .ok a ↔ j ≠ 0 ∧ ∃ y, f.symbols.symbols[j]? = some y ∧ a = if y.shndx = 0xfff2 then 0 else y.value := by
  refine ⟨⟨?_, ?_⟩, C87_relocations_end is64 data hlen f hf i, ?_⟩
  · intro j
    simp only [elfObjs, Elf.SymTab.symbol]
    split
    · simp [Res.bind]
    · split <;> simp [Res.bind]
  · intro j
    simp only [elfObjs, Elf.SectionTable.section]
    split
    · simp [Res.bind]
    · split <;> simp [Res.bind]
  · intro a j
    simp only [elfObjs, Elf.SymTab.symbol]
    by_cases c : j = 0
    · rw [if_pos c]; simp [Res.bind, c]
    · rw [if_neg c]
      cases hj : f.symbols.symbols[j]? with
      | none => simp [Res.bind]
      | some y => simp [Res.bind, c, ElfV.address, ElfV.isCommon, eq_comm]

/-- C89: for COFF files, whose addends are always in place. -/
theorem C89_coff (big : Bool) (data : List UInt8) (hlen : data.length < 2 ^ 63) (f : CoffF.File) (hf : CoffF.File.parse big data = .ok f)
    (s : Coff.Section) :
    Total (coffObjs f) ∧ coffMap f data s ≠ .panic ∧
    ∀ m, coffMap f data s = .ok m → ∀ p ∈ f.relocations data s, p.2.kind ≠ .none → ∃ i a, p.2.target = some i ∧ p.2.kind = .absolute ∧
      (coffObjs f).symbolAddress i = .ok a ∧ ∀ value : Nat, (m.relocate p.1 value : Int) = (a + p.2.addend + value) % 2 ^ 64 := by
  have ht : Total (coffObjs f) := by
    constructor
    · intro j
      have := (C88_symbol_by_index big data hlen f hf j).2
      simp only [coffObjs]
      cases h : f.symbolByIndex j
      · simp [Res.bind]
      · simp [Res.bind]
      · exact absurd h this
    · intro j
      have := (C88_sections f).2.2.2 j
      simp only [coffObjs]
      cases h : f.sectionByIndex j
      · simp [Res.bind]
      · simp [Res.bind]
      · exact absurd h this
  obtain ⟨h1, h2, h3⟩ := C89_new (coffObjs f) ht ((f.relocations data s).map fun p => (p.1, ofElf p.2))
  refine ⟨ht, h1, ?_⟩
  intro m hm p hp hk
  have ha := h2.1 ⟨m, hm⟩
  have hpm : (p.1, ofElf p.2) ∈ (f.relocations data s).map fun p => (p.1, ofElf p.2) := List.mem_map.2 ⟨p, hp, rfl⟩
  have himp : p.2.implicitAddend = true := by
    unfold CoffF.File.relocations at hp
    split at hp
    · obtain ⟨r, -, rfl⟩ := List.mem_map.1 hp; rfl
    · cases hp
  rcases ha.1 _ hpm with h | ⟨a, h⟩
  · exact absurd h hk
  · have h' := h
    obtain ⟨g1, g2, g3⟩ := h
    have hv := fun value => (h3 m hm p.1 value).1 _ a hpm h'
    cases htg : p.2.target with
    | none => simp only [ofElf, htg] at g3; cases g3
    | some i =>
      simp only [ofElf, htg] at g3
      cases g3 with
      | symbol h =>
        refine ⟨i, a, rfl, g1, h, ?_⟩
        intro value
        rw [hv value]
        unfold applied
        simp only [ofElf, himp, if_true]

/-- C89: for Mach-O files: a relocation relative to a debug section gives an offset in that section. -/
theorem C89_macho (f : MachoR.File) (data : List UInt8) (s : MachoR.SecInt) :
    Total (machoObjs f) ∧ machoMap f data s ≠ .panic ∧
    (∀ i a, (machoObjs f).symbolAddress i = .ok a ↔ ∃ y, f.symbols.symbols[i]? = some y ∧ y.typ &&& 0xe0 = 0 ∧ a = MachoV.address y) ∧
    ∀ i k a, (machoObjs f).sectionAt i = .ok (k, a) ↔ i ≠ 0 ∧ ∃ x, f.sections[i - 1]? = some x ∧ k = x.kind ∧ a = x.sect.addr := by
  have ht : Total (machoObjs f) := by
    constructor
    · intro j
      simp only [machoObjs, MachoV.symbolByIndex]
      split
      · simp [Res.bind]
      · split <;> simp [Res.bind]
    · intro j
      simp only [machoObjs, MachoF.sectionByIndex]
      split
      · simp [Res.bind]
      · split <;> simp [Res.bind]
  refine ⟨ht, (C89_new (machoObjs f) ht _).1, ?_, ?_⟩
  · intro i a
    simp only [machoObjs, MachoV.symbolByIndex]
    cases hj : f.symbols.symbols[i]? with
    | none => simp [Res.bind]
    | some y =>
      by_cases c : y.typ &&& 0xe0 = 0
      · simp [MachoV.isStab, c, Res.bind, eq_comm]
      · simp [MachoV.isStab, c, Res.bind]
  · intro i k a
    simp only [machoObjs, MachoF.sectionByIndex]
    by_cases c : i = 0
    · rw [if_pos c]; simp [Res.bind, c]
    · rw [if_neg c]
      cases hj : f.sections[i - 1]? with
      | none => simp [Res.bind]
      | some x => simp [Res.bind, c, eq_comm]

/-- C89: for XCOFF files, whose addends are always in place. -/
theorem C89_xcoff (f : Xcoff.File) (data : List UInt8) (s : Xcoff.Sect) :
    Total (xcoffObjs f) ∧ xcoffMap f data s ≠ .panic ∧
    ∀ m, xcoffMap f data s = .ok m → ∀ r ∈ s.viewRelocations f.is64 data, r.kind ≠ .none → r.kind = .absolute ∧ ∃ a,
      (xcoffObjs f).symbolAddress r.symbol = .ok a ∧ ∀ value : Nat, (m.relocate r.offset value : Int) = (a + r.addend + value) % 2 ^ 64 := by
  have ht : Total (xcoffObjs f) := by
    constructor
    · intro j
      have hu : f.symbols.symbolUnchecked j ≠ .panic := by
        unfold Xcoff.SymTab.symbolUnchecked Xcoff.SymTab.get
        split
        · simp [Res.bind]
        · split <;> simp [Res.bind]
      simp only [xcoffObjs, Xcoff.SymTab.symbol]
      cases h : f.symbols.symbolUnchecked j
      · simp only [Res.bind_eq, Res.ok_bind]
        split <;> simp [Res.bind]
      · simp [Res.bind]
      · exact absurd h hu
    · intro j
      simp only [xcoffObjs, Xcoff.section?]
      split
      · simp [Res.bind]
      · split <;> simp [Res.bind]
  obtain ⟨h1, h2, h3⟩ := C89_new (xcoffObjs f) ht ((s.viewRelocations f.is64 data).map ofXcoff)
  refine ⟨ht, h1, ?_⟩
  intro m hm r hr hk
  have ha := h2.1 ⟨m, hm⟩
  have hpm : ofXcoff r ∈ (s.viewRelocations f.is64 data).map ofXcoff := List.mem_map.2 ⟨r, hr, rfl⟩
  rcases ha.1 _ hpm with h | ⟨a, h⟩
  · exact absurd h hk
  · have h' := h
    obtain ⟨g1, g2, g3⟩ := h
    have hv := fun value => (h3 m hm r.offset value).1 _ a hpm h'
    simp only [ofXcoff] at g3
    cases g3 with
    | symbol h =>
      refine ⟨g1, a, h, ?_⟩
      intro value
      rw [hv value]
      unfold applied
      simp only [ofXcoff, if_true]

/-! Relocations of a debug section: against a symbol at 0x1000 with addend -4, against a debug section and against a text section at
0x400, one that does nothing; then a second one at an offset. -/

private def exObjs : Objs where
  symbolAddress i := if i = 3 then .ok 0x1000 else .err
  sectionAt i := if i = 1 then .ok (.text, 0x400) else if i = 2 then .ok (.debug, 0x800) else .err

private def exRels : List (Nat × Rel) :=
  [(0, ⟨.absolute, .generic, .symbol 3, -4, false⟩), (8, ⟨.absolute, .generic, .section_ 2, 16, true⟩),
   (16, ⟨.absolute, .generic, .section_ 1, 0, true⟩), (0, ⟨.none, .unknown, .absolute, 0, false⟩)]

private theorem exTotal : Total exObjs := by
  constructor
  · intro i; simp only [exObjs]; split <;> simp
  · intro i; simp only [exObjs]; split
    · simp
    · split <;> simp

example : Supported exObjs ⟨.absolute, .generic, .symbol 3, -4, false⟩ 0x1000 := ⟨rfl, rfl, .symbol rfl⟩
example : Supported exObjs ⟨.absolute, .generic, .section_ 2, 16, true⟩ 0 := ⟨rfl, rfl, .debug rfl⟩
example : LastAt exObjs 0 exRels ⟨.absolute, .generic, .symbol 3, -4, false⟩ 0x1000 := by
  refine LastAt.intro (pre := []) ⟨rfl, rfl, .symbol rfl⟩ ?_
  intro r' s' hm h
  have hk := h.1
  simp only [List.mem_cons, Prod.mk.injEq, List.not_mem_nil, or_false] at hm
  rcases hm with ⟨h, -⟩ | ⟨h, -⟩ | ⟨-, rfl⟩
  · cases h
  · cases h
  · cases hk
example : ((new exObjs exRels).bind fun m => .ok (m.relocate 0 7, m.relocate 8 7, m.relocate 16 7, m.relocate 24 7)) = .ok (0xffc, 23, 0x407, 7) := by
  decide
example : Acceptable exObjs exRels := ((C89_new exObjs exTotal exRels).2.1.1 ⟨_, rfl⟩)
example : new exObjs (exRels ++ [(16, ⟨.absolute, .generic, .section_ 1, 1, true⟩)]) = .err := by decide
example : (addAll exObjs (exRels ++ [(16, ⟨.absolute, .generic, .section_ 1, 1, true⟩)]) []).2.relocate 16 0 = 0x401 := by decide
example : new exObjs [(0, ⟨.absolute, .generic, .symbol 4, 0, false⟩)] = .err := by decide

end Obj.Props

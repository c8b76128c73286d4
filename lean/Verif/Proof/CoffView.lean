import Verif.Props.Coff
import Verif.Spec.CoffView
import Verif.Proof.CoffW7

/-! # Lemmas about the unified view of COFF files -/

namespace Obj.CoffV
open Obj Obj.Spec Obj.Spec.CoffO Obj.Spec.CoffS Obj.CoffW

/-- The fields of an entry, given the symbol. -/
theorem fields {crc : List UInt8 → Nat} {o : W.Object} {data suffix : List UInt8} {t : Coff.SymTab} {i : Nat} {s : W.Symbol} {y : Coff.Symbol}
    (hy : SymbolBack crc o data suffix t i s y) (hf : s.flags = .none) :
    storageClass s = some y.storageClass ∧ y.typ = if s.kind = .text then 0x20 else 0 := by
  have h := hy.flags
  unfold symbolFlags defaultSymbolFlags at h
  rw [hf] at h
  simp only at h
  cases hc : storageClass s with
  | none => rw [hc] at h; simp at h
  | some c =>
    rw [hc] at h
    simp only [Option.map_some, Option.some.injEq, Prod.mk.injEq] at h
    exact ⟨by rw [h.2], h.1.symm⟩


/-! ## Sections -/

theorem bit_ne {c k : Nat} : (c &&& 2 ^ k ≠ 0) ↔ c.testBit k = true := by
  rw [ne_eq, (and_bit c k).2]
  cases c.testBit k <;> simp

theorem sectionKind_bits {c c' : Nat} (h : ∀ b ∈ [5, 6, 7, 9, 25, 29, 31], c.testBit b = c'.testBit b) :
    sectionKind c = sectionKind c' := by
  have e : ∀ b ∈ [5, 6, 7, 9, 25, 29, 31], (c &&& 2 ^ b ≠ 0) = (c' &&& 2 ^ b ≠ 0) := by
    intro b hb
    simp only [bit_ne, h b hb]
  have e5 := e 5 (by simp)
  have e6 := e 6 (by simp)
  have e7 := e 7 (by simp)
  have e9 := e 9 (by simp)
  have e25 := e 25 (by simp)
  have e29 := e 29 (by simp)
  have e31 := e 31 (by simp)
  unfold sectionKind
  simp only [show (0x20 : Nat) = 2 ^ 5 from rfl, show (0x40 : Nat) = 2 ^ 6 from rfl, show (0x80 : Nat) = 2 ^ 7 from rfl,
    show (0x200 : Nat) = 2 ^ 9 from rfl, show (0x2000000 : Nat) = 2 ^ 25 from rfl, show (0x20000000 : Nat) = 2 ^ 29 from rfl,
    show (0x80000000 : Nat) = 2 ^ 31 from rfl, e5, e6, e7, e9, e25, e29, e31]

theorem default_kind (k : SectionKind) (c : Nat) (h : defaultSectionFlags k = some c) : sectionKind c = keptSectionKind k := by
  cases k <;> simp [defaultSectionFlags] at h <;> subst h <;> decide

/-! ## The list of entries -/

theorem runs_symbol {t : Coff.SymTab} {n : Nat} {xs : List (Nat × Coff.Symbol)} {e : End} (h : Runs t.next n xs e) :
    ∀ p ∈ xs, t.symbol p.1 = .ok p.2 := by
  induction h with
  | done | err | panic => intro p hp; cases hp
  | @item s s' x xs e h1 h2 ih =>
    intro p hp
    rcases List.mem_cons.1 hp with rfl | hp
    · unfold Coff.SymTab.next at h1
      split at h1
      · split at h1
        · simp at h1
        · simp only [Prod.mk.injEq, Res.ok.injEq, Option.some.injEq] at h1
          rw [← h1.1]; assumption
      · simp at h1
      · simp at h1
    · exact ih p hp

/-- Symbol `i` of the list has entry `k`, its own one or that of its default symbol. -/
def Owns (n : Nat) (l : List W.Symbol) (k i : Nat) (s : W.Symbol) : Prop :=
  l[i]? = some s ∧ (k = n + ((l.take i).map symRecords).sum + (if s.weak then 1 else 0) ∨
    (s.weak = true ∧ k = n + ((l.take i).map symRecords).sum))

theorem mem_indices (l : List W.Symbol) : ∀ (n k : Nat), k ∈ indices n l ↔ ∃ i s, Owns n l k i s := by
  induction l with
  | nil => intro n k; simp [indices, Owns]
  | cons a l ih =>
    intro n k
    rw [indices, List.mem_append, ih]
    constructor
    · rintro (h | ⟨i, s, h1, h2⟩)
      · refine ⟨0, a, by simp, ?_⟩
        by_cases w : a.weak = true
        · simp only [w, if_true, List.mem_cons, List.not_mem_nil, or_false] at h
          simp [w]; omega
        · simp [w] at h
          simp [w]; omega
      · refine ⟨i + 1, s, by simpa using h1, ?_⟩
        simp only [List.take_succ_cons, List.map_cons, List.sum_cons]
        rcases h2 with h2 | ⟨w, h2⟩
        · exact .inl (by omega)
        · exact .inr ⟨w, by omega⟩
    · rintro ⟨i, s, h1, h2⟩
      cases i with
      | zero =>
        left
        simp only [List.getElem?_cons_zero, Option.some.injEq] at h1
        subst h1
        by_cases w : a.weak = true
        · simp [w] at h2 ⊢; omega
        · simp [w] at h2 ⊢; omega
      | succ i =>
        right
        refine ⟨i, s, by simpa using h1, ?_⟩
        simp only [List.take_succ_cons, List.map_cons, List.sum_cons] at h2
        rcases h2 with h2 | ⟨w, h2⟩
        · exact .inl (by omega)
        · exact .inr ⟨w, by omega⟩

theorem symRecords_pos (s : W.Symbol) : 1 + (if s.weak then 1 else 0) ≤ symRecords s := by
  unfold symRecords; split <;> omega

theorem indices_sorted (l : List W.Symbol) : ∀ n : Nat, (indices n l).Pairwise (· < ·) ∧ ∀ k ∈ indices n l, n ≤ k := by
  induction l with
  | nil => intro n; simp [indices]
  | cons a l ih =>
    intro n
    obtain ⟨h1, h2⟩ := ih (n + symRecords a)
    have hp := symRecords_pos a
    rw [indices]
    by_cases w : a.weak = true
    · simp only [w, if_true] at hp ⊢
      refine ⟨?_, ?_⟩
      · simp only [List.cons_append, List.nil_append, List.pairwise_cons, List.mem_cons]
        refine ⟨?_, ?_, h1⟩
        · rintro k (rfl | hk)
          · omega
          · have := h2 k hk; omega
        · intro k hk
          have := h2 k hk; omega
      · intro k hk
        simp only [List.cons_append, List.nil_append, List.mem_cons] at hk
        rcases hk with rfl | rfl | hk
        · omega
        · omega
        · have := h2 k hk; omega
    · simp only [w] at hp ⊢
      simp only [Bool.false_eq_true, if_false] at hp ⊢
      refine ⟨?_, ?_⟩
      · simp only [List.cons_append, List.nil_append, List.pairwise_cons]
        refine ⟨?_, h1⟩
        intro k hk
        have := h2 k hk; omega
      · intro k hk
        simp only [List.cons_append, List.nil_append, List.mem_cons] at hk
        rcases hk with rfl | hk
        · omega
        · have := h2 k hk; omega

theorem firstIndex_succ {o : W.Object} {i : Nat} {s : W.Symbol} (h : o.symbols[i]? = some s) :
    firstIndex o (i + 1) = firstIndex o i + symRecords s := by
  unfold firstIndex
  rw [List.take_succ, h]
  simp

theorem firstIndex_mono {o : W.Object} {i j : Nat} (h : i ≤ j) : firstIndex o i ≤ firstIndex o j := by
  obtain ⟨d, rfl⟩ := Nat.exists_eq_add_of_le h
  induction d with
  | zero => exact Nat.le_refl _
  | succ d ih =>
    refine Nat.le_trans (ih (by omega)) ?_
    unfold firstIndex
    rw [show i + (d + 1) = (i + d) + 1 by omega, List.take_succ]
    simp

theorem symIndex_eq {o : W.Object} {i : Nat} {s : W.Symbol} (h : o.symbols[i]? = some s) :
    symIndex o i = firstIndex o i + if s.weak then 1 else 0 := by
  unfold symIndex; rw [h]

/-- The records of a symbol are before those of the next. -/
theorem index_lt {o : W.Object} {i j : Nat} {s : W.Symbol} (h : o.symbols[i]? = some s) (hij : i < j) :
    symIndex o i < firstIndex o j := by
  have h1 := firstIndex_succ h
  have h2 := firstIndex_mono (o := o) (show i + 1 ≤ j from hij)
  have h3 := symRecords_pos s
  rw [symIndex_eq h]
  omega

theorem mem_comdatsOf (t : Coff.SymTab) (xs : List (Nat × Coff.Symbol)) (c : Coff.Comdat) :
    c ∈ comdatsOf t xs ↔ ∃ pre i s post, xs = pre ++ (i, s) :: post ∧ comdatOf t i s post = some c := by
  induction xs with
  | nil => simp [comdatsOf]
  | cons x xs ih =>
    obtain ⟨i, s⟩ := x
    rw [comdatsOf, List.mem_append, ih]
    constructor
    · rintro (h | ⟨pre, j, y, post, h1, h2⟩)
      · refine ⟨[], i, s, xs, rfl, ?_⟩
        simpa using h
      · exact ⟨(i, s) :: pre, j, y, post, by rw [h1]; rfl, h2⟩
    · rintro ⟨pre, j, y, post, h1, h2⟩
      cases pre with
      | nil =>
        simp only [List.nil_append, List.cons.injEq, Prod.mk.injEq] at h1
        obtain ⟨⟨rfl, rfl⟩, rfl⟩ := h1
        left; simp [h2]
      | cons q pre =>
        simp only [List.cons_append, List.cons.injEq] at h1
        exact .inr ⟨pre, j, y, post, h1.2, h2⟩

/-! ## Entries and symbols -/

section Entries
variable {crc : List UInt8 → Nat} {o : W.Object} {m : Nat} {flags : Option Nat} {data : List UInt8} {hd : Coff.Header}
  {ss : List Coff.Section} {suffix : List UInt8} {t : Coff.SymTab}

/-- An entry is that of a symbol or of the default of a weak symbol. -/
theorem entry_cases (hr : ReadsBack crc o m flags data hd ss t suffix) {xs : List (Nat × Coff.Symbol)} (hx : Runs t.next 0 xs .done)
    (hi : xs.map (·.1) = indices 0 o.symbols) {p : Nat × Coff.Symbol} (hp : p ∈ xs) :
    ∃ i s, o.symbols[i]? = some s ∧ ((p.1 = symIndex o i ∧ SymbolBack crc o data suffix t i s p.2) ∨
      (s.weak = true ∧ p.1 = firstIndex o i ∧ DefaultBack data suffix t (firstIndex o i) s p.2)) := by
  have h1 : p.1 ∈ indices 0 o.symbols := by rw [← hi]; exact List.mem_map_of_mem hp
  have hs := runs_symbol hx p hp
  obtain ⟨i, s, h2, h3⟩ := (mem_indices _ _ _).1 h1
  refine ⟨i, s, h2, ?_⟩
  obtain ⟨y, hy⟩ := hr.symbols i s h2
  rcases h3 with h3 | ⟨w, h3⟩
  · left
    have e : p.1 = symIndex o i := by rw [symIndex_eq h2, h3, Nat.zero_add]; rfl
    refine ⟨e, ?_⟩
    have hq := hy.sym
    rw [← e, hs] at hq
    cases hq
    exact hy
  · right
    obtain ⟨d, hd⟩ := hy.weak w
    have e : p.1 = firstIndex o i := by rw [h3, Nat.zero_add]; rfl
    refine ⟨w, e, ?_⟩
    have hq := hd.sym
    rw [← e, hs] at hq
    cases hq
    exact hd

/-- Every symbol has an entry. -/
theorem entry_of (hr : ReadsBack crc o m flags data hd ss t suffix) {xs : List (Nat × Coff.Symbol)} (hx : Runs t.next 0 xs .done)
    (hi : xs.map (·.1) = indices 0 o.symbols) {i : Nat} {s : W.Symbol} (hs : o.symbols[i]? = some s) :
    ∃ y, (symIndex o i, y) ∈ xs ∧ SymbolBack crc o data suffix t i s y := by
  obtain ⟨y, hy⟩ := hr.symbols i s hs
  have h1 : symIndex o i ∈ indices 0 o.symbols := by
    rw [mem_indices]
    refine ⟨i, s, hs, .inl ?_⟩
    rw [symIndex_eq hs, Nat.zero_add]; rfl
  rw [← hi, List.mem_map] at h1
  obtain ⟨p, h2, h3⟩ := h1
  have h4 := runs_symbol hx p h2
  rw [h3, hy.sym] at h4
  cases h4
  exact ⟨p.2, by rw [← h3]; exact h2, hy⟩

theorem entries_sorted {xs : List (Nat × Coff.Symbol)} (hi : xs.map (·.1) = indices 0 o.symbols) :
    xs.Pairwise (fun p q => p.1 < q.1) := by
  have h := (indices_sorted o.symbols 0).1
  rw [← hi, List.pairwise_map] at h
  exact h

theorem comdat_eq (hg : Grouped o) {d e : W.Comdat} {i : Nat} (hd : d ∈ o.comdats) (he : e ∈ o.comdats)
    (h1 : Belongs o d i) (h2 : Belongs o e i) : d = e := by
  obtain ⟨a, ha⟩ := List.mem_iff_getElem?.1 hd
  obtain ⟨b, hb⟩ := List.mem_iff_getElem?.1 he
  have := hg.disjoint a b d e i ha hb h1 h2
  subst this
  rw [ha] at hb
  exact Option.some.inj hb

theorem leads_eq {d : W.Comdat} {i j : Nat} (h1 : Leads o d i) (h2 : Leads o d j) : i = j := by
  obtain ⟨s, a, b⟩ := h1
  obtain ⟨s', a', b'⟩ := h2
  rw [a] at a'
  cases a'
  rw [b] at b'
  cases b'
  rfl

/-- The entry of a section symbol. -/
theorem sectionSymbol_entry (hg : Grouped o) {k j : Nat} {s : W.Symbol} {y : Coff.Symbol} (hs : o.symbols[k]? = some s)
    (hw : s.weak = false) (hk : s.kind = .sectionSym) (hj : s.section_ = .inSec j) (hy : SymbolBack crc o data suffix t k s y) :
    (0 < y.auxCount ∧ y.storageClass = 3 ∧ y.typ = 0 ∧ 0 < y.sectionNumber) ∧ y.sectionNumber = j + 1 ∧
    ∃ a, t.auxSection (symIndex o k) = .ok a ∧ GroupInfo o j a.selection a.number := by
  obtain ⟨f1, f2⟩ := fields hy (hg.flags s (List.mem_of_getElem? hs))
  have f3 := hy.section_
  have f4 := hy.aux
  obtain ⟨sec, -, a, g1, -, -, -, -, g2⟩ := hy.sectionAux hw hk j hj
  rw [hk] at f2
  rw [hw, hj] at f3
  simp only [Bool.false_eq_true, if_false, sectionNumberOf] at f3
  simp [storageClass, hw, hk, hj, W.SymSection.id?] at f1
  simp [auxRecords, hw, hk, hj] at f4
  exact ⟨⟨by omega, f1.symm, by simpa using f2, by omega⟩, f3, a, g1, g2 hg.disjoint⟩

/-- An entry with a section record is that of a section symbol. -/
theorem section_entry (hg : Grouped o) (hr : ReadsBack crc o m flags data hd ss t suffix) {xs : List (Nat × Coff.Symbol)}
    (hx : Runs t.next 0 xs .done) (hi : xs.map (·.1) = indices 0 o.symbols) {p : Nat × Coff.Symbol} (hp : p ∈ xs)
    (hc : 0 < p.2.auxCount ∧ p.2.storageClass = 3 ∧ p.2.typ = 0 ∧ 0 < p.2.sectionNumber) :
    ∃ k j s, p.1 = symIndex o k ∧ o.symbols[k]? = some s ∧ s.weak = false ∧ s.kind = .sectionSym ∧ s.section_ = .inSec j ∧
      SymbolBack crc o data suffix t k s p.2 := by
  obtain ⟨k, s, h1, ⟨h2, h3⟩ | ⟨-, -, h3⟩⟩ := entry_cases hr hx hi hp
  · obtain ⟨f1, f2⟩ := fields h3 (hg.flags s (List.mem_of_getElem? h1))
    have f4 := h3.aux
    obtain ⟨c1, c2, c3, c4⟩ := hc
    rw [c2] at f1
    have hw : s.weak = false := by
      cases hw : s.weak with
      | false => rfl
      | true => simp [storageClass, hw] at f1
    have hk : s.kind = .sectionSym ∧ ∃ j, s.section_ = .inSec j := by
      rw [f4] at c1
      unfold auxRecords at c1
      rw [hw] at c1
      simp only [Bool.false_eq_true, if_false] at c1
      split at c1
      · rename_i hkf; simp [storageClass, hw, hkf] at f1
      · rename_i j hks hj; exact ⟨hks, j, hj⟩
      · omega
    obtain ⟨hk, j, hj⟩ := hk
    exact ⟨k, j, s, h2, h1, hw, hk, hj, h3⟩
  · have := h3.class_.2.2
    omega

/-- An entry between a section symbol and the group symbol is in another section. -/
theorem between (hgr : Grouped o) (hr : ReadsBack crc o m flags data hd ss t suffix) {xs : List (Nat × Coff.Symbol)}
    (hx : Runs t.next 0 xs .done) (hi : xs.map (·.1) = indices 0 o.symbols) {p : Nat × Coff.Symbol} (hp : p ∈ xs) {k g i : Nat}
    {x x' : W.Symbol} (hk : o.symbols[k]? = some x') (hx' : x'.weak = false)
    (hgs : o.symbols[g]? = some x) (hw : x.weak = false)
    (ho : ∀ (j : Nat) (y : W.Symbol), k < j → j < g → o.symbols[j]? = some y → y.section_ ≠ .inSec i)
    (h1 : symIndex o k < p.1) (h2 : p.1 < symIndex o g) : p.2.sectionNumber ≠ i + 1 := by
  obtain ⟨j, s, h3, h4⟩ := entry_cases hr hx hi hp
  have eg := symIndex_eq hgs
  rw [hw] at eg
  simp only [Bool.false_eq_true, if_false, Nat.add_zero] at eg
  have ek := symIndex_eq hk
  rw [hx'] at ek
  simp only [Bool.false_eq_true, if_false, Nat.add_zero] at ek
  have ej := symIndex_eq h3
  have hle : firstIndex o j ≤ p.1 ∧ p.1 ≤ symIndex o j := by
    rcases h4 with ⟨h4, -⟩ | ⟨w, h4, -⟩ <;> constructor <;> omega
  have hkj : k < j := by
    apply Nat.lt_of_not_le
    intro hc
    rcases Nat.lt_or_ge j k with hc' | hc'
    · have := index_lt (o := o) h3 hc'
      omega
    · have : j = k := by omega
      subst this
      omega
  have hjg : j < g := by
    apply Nat.lt_of_not_le
    intro hc
    rcases Nat.lt_or_ge g j with hc' | hc'
    · have := index_lt (o := o) hgs hc'
      omega
    · have : j = g := by omega
      subst this
      omega
  have hne := ho j s hkj hjg h3
  rcases h4 with ⟨-, h4⟩ | ⟨w, -, h4⟩
  · rw [h4.section_]
    split
    · omega
    · cases hs : s.section_ with
      | inSec a =>
        simp only [sectionNumberOf]
        rw [hs] at hne
        intro hc
        exact hne (by rw [show a = i by omega])
      | _ => simp only [sectionNumberOf]; omega
  · rcases hgr.weak s (List.mem_of_getElem? h3) w with hs | ⟨a, hs⟩
    · rw [h4.section_.2 hs]; omega
    · rw [h4.section_.1 a hs]
      rw [hs] at hne
      intro hc
      exact hne (by rw [show a = i by omega])

/-- The group of a COMDAT, found at its section symbol. -/
theorem comdatOf_group (hg : Grouped o) (hr : ReadsBack crc o m flags data hd ss t suffix) {xs : List (Nat × Coff.Symbol)}
    (hx : Runs t.next 0 xs .done) (hi : xs.map (·.1) = indices 0 o.symbols) {d : W.Comdat} (hdm : d ∈ o.comdats) {k i : Nat}
    (hk : SectionSymbol o k i) (hl : Leads o d i) {pre post : List (Nat × Coff.Symbol)} {y : Coff.Symbol}
    (hs : xs = pre ++ (symIndex o k, y) :: post) : ∃ c, comdatOf t (symIndex o k) y post = some c ∧ IsGroup o d c := by
  obtain ⟨k', i', x, hk', hgx, hxi, hxw, hkg, ho⟩ := hg.order d hdm
  have hii : i' = i := leads_eq (o := o) (d := d) ⟨x, hgx, hxi⟩ hl
  subst hii
  have hkk := hg.unique k' k i' hk' hk
  subst hkk
  obtain ⟨s, s1, s2, s3, s4⟩ := hk
  have hmem : (symIndex o k', y) ∈ xs := by rw [hs]; simp
  obtain ⟨y', hym, hyb⟩ := entry_of hr hx hi s1
  have hyy : y' = y := by
    have h1 := runs_symbol hx _ hmem
    have h2 := runs_symbol hx _ hym
    simp only at h1 h2
    rw [h1] at h2
    cases h2
    rfl
  subst hyy
  obtain ⟨hc, hn, a, ha, hgi⟩ := sectionSymbol_entry hg s1 s2 s3 s4 hyb
  -- the selection
  have hsel : selectionCode d.kind a.selection := by
    generalize a.selection = z at hgi
    generalize a.number = w at hgi
    cases hgi with
    | leader d' sel h1 h2 h3 => rw [comdat_eq hg hdm h1 (.inl hl) (.inl h2)]; exact h3
    | member d' j h1 h2 h3 h4 =>
      have := comdat_eq hg hdm h1 (.inl hl) (.inr h2)
      subst this
      exact absurd (leads_eq hl h3) h4
    | outside h1 => exact absurd (.inl hl) (h1 d hdm)
  -- the group symbol
  obtain ⟨z, hzm, hzb⟩ := entry_of hr hx hi hgx
  have hzn : z.sectionNumber = i' + 1 := by rw [hzb.section_, hxw, hxi]; rfl
  have hlt : symIndex o k' < symIndex o d.symbol := by
    have h1 := index_lt (o := o) s1 hkg
    rw [symIndex_eq hgx]
    omega
  have hsorted := entries_sorted (o := o) hi
  have hzp : (symIndex o d.symbol, z) ∈ post := by
    rw [hs] at hzm hsorted
    rw [List.pairwise_append] at hsorted
    rcases List.mem_append.1 hzm with h | h
    · have := hsorted.2.2 _ h (symIndex o k', y') (by simp)
      simp only at this
      omega
    · rcases List.mem_cons.1 h with h | h
      · simp only [Prod.mk.injEq] at h; omega
      · exact h
  have hfind : post.find? (fun p => p.2.sectionNumber == y'.sectionNumber) = some (symIndex o d.symbol, z) := by
    cases hf : post.find? (fun p => p.2.sectionNumber == y'.sectionNumber) with
    | none =>
      rw [List.find?_eq_none] at hf
      have := hf _ hzp
      simp only [hzn, hn] at this
      simp at this
    | some p =>
      rw [List.find?_eq_some_iff_append] at hf
      obtain ⟨hpp, as, bs, e, hno⟩ := hf
      have hpx : p ∈ xs := by rw [hs, e]; simp
      rw [e] at hzp
      rcases List.mem_append.1 hzp with h | h
      · have := hno _ h
        simp only [hzn, hn] at this
        simp at this
      · rcases List.mem_cons.1 h with h | h
        · rw [h]
        · exfalso
          rw [hs, e] at hsorted
          rw [List.pairwise_append, List.pairwise_cons, List.pairwise_append, List.pairwise_cons] at hsorted
          have l1 := hsorted.2.1.1 p (by simp)
          have l2 := hsorted.2.1.2.2.1.1 _ h
          have := between hg hr hx hi hpx s1 s2 hgx hxw ho l1 l2
          rw [hn] at hpp
          simp at hpp
          exact this hpp
  have hne : ¬ (a.selection = 0 ∨ a.selection = 5) := by
    simp [selectionCode] at hsel
    omega
  refine ⟨⟨symIndex o d.symbol, z, i' + 1, a.selection⟩, ?_, i', hl, rfl, rfl, ?_⟩
  · unfold comdatOf
    rw [if_pos hc, ha, hfind]
    simp only
    rw [if_neg hne, hn]
    rfl
  · simp [selectionCode] at hsel
    rcases hsel with ⟨h1, h2⟩ | ⟨h1, h2⟩ | ⟨h1, h2⟩ | ⟨h1, h2⟩ | ⟨h1, h2⟩ | ⟨h1, h2⟩ <;> simp only [h1, h2] <;> decide

/-- Every group is that of a COMDAT. -/
theorem group_comdat (hg : Grouped o) (hr : ReadsBack crc o m flags data hd ss t suffix) {xs : List (Nat × Coff.Symbol)}
    (hx : Runs t.next 0 xs .done) (hi : xs.map (·.1) = indices 0 o.symbols) {c : Coff.Comdat} {i : Nat} {s : Coff.Symbol}
    {pre post : List (Nat × Coff.Symbol)} (hs : xs = pre ++ (i, s) :: post) (h : comdatOf t i s post = some c) :
    ∃ d ∈ o.comdats, IsGroup o d c := by
  have hp : (i, s) ∈ xs := by rw [hs]; simp
  have hc : 0 < s.auxCount ∧ s.storageClass = 3 ∧ s.typ = 0 ∧ 0 < s.sectionNumber := by
    unfold comdatOf at h
    split at h
    · assumption
    · cases h
  obtain ⟨k, j, x, e, h1, h2, h3, h4, h5⟩ := section_entry hg hr hx hi hp hc
  simp only at e h5
  obtain ⟨-, hn, a, ha, hgi⟩ := sectionSymbol_entry hg h1 h2 h3 h4 h5
  have hsel : ¬ (a.selection = 0 ∨ a.selection = 5) := by
    intro hsel
    unfold comdatOf at h
    rw [if_pos hc, e, ha] at h
    split at h
    · rename_i aux p q1 q2
      cases q1
      rw [if_pos hsel] at h
      cases h
    · cases h
  generalize hz : a.selection = z at hgi hsel
  generalize a.number = w at hgi
  cases hgi with
  | leader d sel g1 g2 g3 =>
    obtain ⟨c', q1, q2⟩ := comdatOf_group hg hr hx hi g1 ⟨x, h1, h2, h3, h4⟩ g2 (by rw [← e]; exact hs)
    rw [← e, h] at q1
    cases q1
    exact ⟨d, g1, q2⟩
  | member d j g1 g2 g3 g4 => simp at hsel
  | outside g1 => simp at hsel

theorem comdatsOf_sublist (t : Coff.SymTab) (xs : List (Nat × Coff.Symbol)) :
    ((comdatsOf t xs).map (·.sectionIndex)).Sublist
      ((xs.filter fun p => decide (0 < p.2.auxCount ∧ p.2.storageClass = 3 ∧ p.2.typ = 0 ∧ 0 < p.2.sectionNumber)).map (·.2.sectionNumber.toNat)) := by
  induction xs with
  | nil => simp [comdatsOf]
  | cons x xs ih =>
    obtain ⟨i, s⟩ := x
    rw [comdatsOf]
    by_cases hc : 0 < s.auxCount ∧ s.storageClass = 3 ∧ s.typ = 0 ∧ 0 < s.sectionNumber
    · rw [List.filter_cons_of_pos (by simpa using hc)]
      cases hm : comdatOf t i s xs with
      | none =>
        simp only [Option.toList_none, List.nil_append, List.map_cons]
        exact ih.cons _
      | some c =>
        simp only [Option.toList_some, List.cons_append, List.nil_append, List.map_cons]
        have : c.sectionIndex = s.sectionNumber.toNat := by
          unfold comdatOf at hm
          rw [if_pos hc] at hm
          split at hm
          · split at hm
            · cases hm
            · simp only [Option.some.injEq] at hm; rw [← hm]
          · cases hm
        rw [this]
        exact ih.cons_cons _
    · rw [List.filter_cons_of_neg (by simpa using hc)]
      have : comdatOf t i s xs = none := by unfold comdatOf; rw [if_neg hc]
      rw [this]
      exact ih

theorem sections_nodup (hg : Grouped o) (hr : ReadsBack crc o m flags data hd ss t suffix) {xs : List (Nat × Coff.Symbol)}
    (hx : Runs t.next 0 xs .done) (hi : xs.map (·.1) = indices 0 o.symbols) :
    ((xs.filter fun p => decide (0 < p.2.auxCount ∧ p.2.storageClass = 3 ∧ p.2.typ = 0 ∧ 0 < p.2.sectionNumber)).map
      (·.2.sectionNumber.toNat)).Nodup := by
  rw [List.Nodup, List.pairwise_map]
  refine ((entries_sorted (o := o) hi).filter _).imp_of_mem ?_
  intro p q hp hq hlt he
  simp only [List.mem_filter, decide_eq_true_eq] at hp hq
  obtain ⟨k, j, s, e, h1, h2, h3, h4, h5⟩ := section_entry hg hr hx hi hp.1 hp.2
  obtain ⟨k', j', s', e', h1', h2', h3', h4', h5'⟩ := section_entry hg hr hx hi hq.1 hq.2
  have n1 := (sectionSymbol_entry hg h1 h2 h3 h4 h5).2.1
  have n2 := (sectionSymbol_entry hg h1' h2' h3' h4' h5').2.1
  have : j' = j := by omega
  subst this
  have := hg.unique k k' j' ⟨s, h1, h2, h3, h4⟩ ⟨s', h1', h2', h3', h4'⟩
  subst this
  omega

/-- The sections of a group, if all records of section symbols can be read. -/
theorem comdatSectionsOf_eq (t : Coff.SymTab) (n : Nat) (xs : List (Nat × Coff.Symbol))
    (h : ∀ p ∈ xs, 0 < p.2.auxCount ∧ p.2.storageClass = 3 ∧ p.2.typ = 0 ∧ 0 < p.2.sectionNumber → ∃ a, t.auxSection p.1 = .ok a) :
    (comdatSectionsOf t n xs).Sublist
      ((xs.filter fun p => decide (0 < p.2.auxCount ∧ p.2.storageClass = 3 ∧ p.2.typ = 0 ∧ 0 < p.2.sectionNumber)).map (·.2.sectionNumber.toNat)) ∧
    ∀ q, q ∈ comdatSectionsOf t n xs ↔ ∃ p ∈ xs, (0 < p.2.auxCount ∧ p.2.storageClass = 3 ∧ p.2.typ = 0 ∧ 0 < p.2.sectionNumber) ∧
      q = p.2.sectionNumber.toNat ∧ ∃ a, t.auxSection p.1 = .ok a ∧ InGroup n p.2 a := by
  induction xs with
  | nil => simp [comdatSectionsOf]
  | cons x xs ih =>
    obtain ⟨i, s⟩ := x
    obtain ⟨ih1, ih2⟩ := ih fun p hp => h p (List.mem_cons_of_mem _ hp)
    rw [comdatSectionsOf]
    by_cases hc : 0 < s.auxCount ∧ s.storageClass = 3 ∧ s.typ = 0 ∧ 0 < s.sectionNumber
    · obtain ⟨a, ha⟩ := h (i, s) (by simp) hc
      simp only at ha
      rw [List.filter_cons_of_pos (by simpa using hc), if_pos hc, ha]
      simp only [List.map_cons]
      by_cases hgr : InGroup n s a
      · rw [if_pos hgr]
        refine ⟨ih1.cons_cons _, ?_⟩
        intro q
        rw [List.mem_cons, ih2]
        constructor
        · rintro (rfl | ⟨p, hp, h'⟩)
          · exact ⟨(i, s), by simp, hc, rfl, a, ha, hgr⟩
          · exact ⟨p, List.mem_cons_of_mem _ hp, h'⟩
        · rintro ⟨p, hp, h1, h2, h3⟩
          rcases List.mem_cons.1 hp with rfl | hp
          · exact .inl h2
          · exact .inr ⟨p, hp, h1, h2, h3⟩
      · rw [if_neg hgr]
        refine ⟨ih1.cons _, ?_⟩
        intro q
        rw [ih2]
        constructor
        · rintro ⟨p, hp, h'⟩
          exact ⟨p, List.mem_cons_of_mem _ hp, h'⟩
        · rintro ⟨p, hp, h1, h2, h3⟩
          rcases List.mem_cons.1 hp with rfl | hp
          · obtain ⟨a', h4, h5⟩ := h3
            simp only at h4
            rw [ha] at h4
            cases h4
            exact absurd h5 hgr
          · exact ⟨p, hp, h1, h2, h3⟩
    · rw [List.filter_cons_of_neg (by simpa using hc), if_neg hc]
      refine ⟨ih1, ?_⟩
      intro q
      rw [ih2]
      constructor
      · rintro ⟨p, hp, h'⟩
        exact ⟨p, List.mem_cons_of_mem _ hp, h'⟩
      · rintro ⟨p, hp, h1, h2, h3⟩
        rcases List.mem_cons.1 hp with rfl | hp
        · exact absurd h1 hc
        · exact ⟨p, hp, h1, h2, h3⟩

/-- A section is in the group of section `i` exactly if it belongs to its COMDAT. -/
theorem inGroup_iff (hg : Grouped o) {d : W.Comdat} (hdm : d ∈ o.comdats) {i : Nat} (hl : Leads o d i) {j : Nat} {s : Coff.Symbol}
    {a : Coff.AuxSection} (hs : s.sectionNumber = j + 1) (hgi : GroupInfo o j a.selection a.number) :
    InGroup (i + 1) s a ↔ Belongs o d j := by
  unfold InGroup
  generalize a.selection = z at hgi
  generalize a.number = w at hgi
  cases hgi with
  | leader d' sel g1 g2 g3 =>
    have h5 : ¬ (z = 5) ∧ z ≠ 0 := by simp [selectionCode] at g3; omega
    rw [if_neg h5.1]
    constructor
    · rintro ⟨-, h⟩
      have : j = i := by omega
      exact .inl (this ▸ hl)
    · intro hb
      have := comdat_eq hg hdm g1 hb (.inl g2)
      subst this
      have := leads_eq hl g2
      exact ⟨h5.2, by omega⟩
  | member d' j' g1 g2 g3 g4 =>
    rw [if_pos rfl]
    constructor
    · intro h
      have : j' = i := by omega
      subst this
      have := comdat_eq hg hdm g1 (.inl hl) (.inl g3)
      subst this
      exact .inr g2
    · intro hb
      have := comdat_eq hg hdm g1 hb (.inr g2)
      subst this
      have := leads_eq hl g3
      omega
  | outside g1 =>
    constructor
    · intro h; simp at h
    · intro hb; exact absurd hb (g1 d hdm)

end Entries

end Obj.CoffV

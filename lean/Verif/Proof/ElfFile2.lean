import Verif.Proof.ElfFile
import Verif.Proof.ElfChain
import Verif.Props.ElfReloc

/-! Symbols, relocation sections and the whole file. -/

namespace Obj.ElfF
open Obj Obj.Elf Obj.Spec Obj.Spec.ElfF Obj.Props Obj.MachoF
open Obj.Spec.MachoF (num)
open Obj.Spec.ElfRelocS (IsReloc Applies)

/-! ## Symbols -/

theorem shndx_iff (c : Elf.Cfg) (data : List UInt8) (i : Nat) (l : List (Shdr × Nat)) (acc r : Nat × List Nat) :
    shndxLoop c data i l acc = .ok r ↔
    (∀ (k : Nat) p, l[k]? = some p → p.1.type = 18 ∧ p.1.link = i → ∃ d, p.1.dataAsArray data 4 = .ok d) ∧
    (((∀ (k : Nat) p, l[k]? = some p → ¬ (p.1.type = 18 ∧ p.1.link = i)) ∧ r = acc) ∨
      ∃ (k : Nat) (p : Shdr × Nat) (d : List (List UInt8)), l[k]? = some p ∧ (p.1.type = 18 ∧ p.1.link = i) ∧
        p.1.dataAsArray data 4 = .ok d ∧ r = (p.2, d.map (rd c.en)) ∧
        ∀ (k' : Nat) (p' : Shdr × Nat), k < k' → l[k']? = some p' → ¬ (p'.1.type = 18 ∧ p'.1.link = i)) := by
  induction l generalizing acc with
  | nil => simp [shndxLoop, eq_comm]
  | cons q l ih =>
    obtain ⟨s, n⟩ := q
    unfold shndxLoop
    by_cases he : s.type = 18 ∧ s.link = i
    · rw [if_pos he]
      cases hd : s.dataAsArray data 4 with
      | ok d =>
        simp only []
        rw [ih]
        constructor
        · rintro ⟨h1, h2⟩
          refine ⟨?_, ?_⟩
          · rintro (_ | k) p hp hE
            · simp at hp; subst hp; exact ⟨d, hd⟩
            · exact h1 k p (by simpa using hp) hE
          · right
            rcases h2 with ⟨h2, rfl⟩ | ⟨k, p, d', h3, h4, h5, h6, h7⟩
            · refine ⟨0, (s, n), d, rfl, he, hd, rfl, ?_⟩
              rintro (_ | k) p hk hp
              · omega
              · exact h2 k p (by simpa using hp)
            · refine ⟨k + 1, p, d', by simpa using h3, h4, h5, h6, ?_⟩
              rintro (_ | k') p' hk hp
              · omega
              · exact h7 k' p' (by omega) (by simpa using hp)
        · rintro ⟨h1, h2⟩
          refine ⟨fun k p hp hE => h1 (k + 1) p (by simpa using hp) hE, ?_⟩
          rcases h2 with ⟨h2, rfl⟩ | ⟨_ | k, p, d', h3, h4, h5, h6, h7⟩
          · exact absurd he (h2 0 (s, n) rfl)
          · left
            simp at h3; subst h3
            rw [hd] at h5; cases h5
            exact ⟨fun k p hp => h7 (k + 1) p (by omega) (by simpa using hp), h6⟩
          · right
            exact ⟨k, p, d', by simpa using h3, h4, h5, h6, fun k' p' hk hp => h7 (k' + 1) p' (by omega) (by simpa using hp)⟩
      | err =>
        constructor
        · intro h; cases h
        · rintro ⟨h1, -⟩
          obtain ⟨d, h⟩ := h1 0 (s, n) rfl he
          rw [hd] at h; cases h
      | panic =>
        constructor
        · intro h; cases h
        · rintro ⟨h1, -⟩
          obtain ⟨d, h⟩ := h1 0 (s, n) rfl he
          rw [hd] at h; cases h
    · rw [if_neg he, ih]
      constructor
      · rintro ⟨h1, h2⟩
        refine ⟨?_, ?_⟩
        · rintro (_ | k) p hp hE
          · simp at hp; subst hp; exact absurd hE he
          · exact h1 k p (by simpa using hp) hE
        · rcases h2 with ⟨h2, rfl⟩ | ⟨k, p, d', h3, h4, h5, h6, h7⟩
          · left
            refine ⟨?_, rfl⟩
            rintro (_ | k) p hp
            · simp at hp; subst hp; exact he
            · exact h2 k p (by simpa using hp)
          · right
            refine ⟨k + 1, p, d', by simpa using h3, h4, h5, h6, ?_⟩
            rintro (_ | k') p' hk hp
            · omega
            · exact h7 k' p' (by omega) (by simpa using hp)
      · rintro ⟨h1, h2⟩
        refine ⟨fun k p hp hE => h1 (k + 1) p (by simpa using hp) hE, ?_⟩
        rcases h2 with ⟨h2, rfl⟩ | ⟨_ | k, p, d', h3, h4, h5, h6, h7⟩
        · left
          exact ⟨fun k p hp => h2 (k + 1) p (by simpa using hp), rfl⟩
        · simp at h3; subst h3; exact absurd h4 he
        · right
          exact ⟨k, p, d', by simpa using h3, h4, h5, h6, fun k' p' hk hp => h7 (k' + 1) p' (by omega) (by simpa using hp)⟩

theorem zipIdx_get {α : Type} (l : List α) (k : Nat) (p : α × Nat) : l.zipIdx[k]? = some p ↔ l[k]? = some p.1 ∧ p.2 = k := by
  obtain ⟨a, n⟩ := p
  simp only [List.getElem?_zipIdx, Nat.zero_add, Option.map_eq_some_iff, Prod.mk.injEq]
  constructor
  · rintro ⟨a', h1, rfl, rfl⟩; exact ⟨h1, rfl⟩
  · rintro ⟨h1, rfl⟩; exact ⟨a, h1, rfl, rfl⟩

theorem rd_num (en : Endianness) (data : List UInt8) (o : Nat) : rd en (slice data o 4) = num en data o 4 := rfl

theorem sections_find (ss : List Shdr) (ty : Nat) (s : Shdr) (i : Nat) :
    (ss.zipIdx.find? fun p => p.1.type == ty) = some (s, i) ↔
    ss[i]? = some s ∧ s.type = ty ∧ ∀ (j : Nat) s', j < i → ss[j]? = some s' → s'.type ≠ ty := by
  rw [List.find?_eq_some_iff_getElem]
  constructor
  · rintro ⟨h1, k, hk, h2, h3⟩
    have h4 : ss.zipIdx[k]? = some (s, i) := by rw [List.getElem?_eq_getElem hk, h2]
    obtain ⟨h5, h6⟩ := (zipIdx_get ss k _).1 h4
    simp only at h5 h6
    subst h6
    refine ⟨h5, by simpa using h1, fun j s' hj hs' => ?_⟩
    have h7 := h3 j hj
    have h8 : ss.zipIdx[j]? = some (s', j) := (zipIdx_get ss j (s', j)).2 ⟨hs', rfl⟩
    have h9 := List.getElem?_eq_some_iff.1 h8
    obtain ⟨h9, h10⟩ := h9
    rw [h10] at h7
    simpa using h7
  · rintro ⟨h1, h2, h3⟩
    have h8 : ss.zipIdx[i]? = some (s, i) := (zipIdx_get ss i (s, i)).2 ⟨h1, rfl⟩
    obtain ⟨h9, h10⟩ := List.getElem?_eq_some_iff.1 h8
    refine ⟨by simpa using h2, i, h9, h10, fun j hj => ?_⟩
    have hl : j < ss.length := by simp at h9; omega
    simp only [List.getElem_zipIdx, Bool.not_eq_true', beq_eq_false_iff_ne]
    exact h3 j _ hj (List.getElem?_eq_getElem hl)

theorem sections_find_none (ss : List Shdr) (ty : Nat) :
    (ss.zipIdx.find? fun p => p.1.type == ty) = none ↔ ∀ s ∈ ss, s.type ≠ ty := by
  rw [List.find?_eq_none]
  constructor
  · intro h s hs
    obtain ⟨i, hi, rfl⟩ := List.getElem_of_mem hs
    have := h (ss[i], i) (List.mem_zipIdx_iff_getElem?.2 (by simp [hi]))
    simpa using this
  · rintro h ⟨s, i⟩ hp
    have := List.mem_zipIdx_iff_getElem?.1 hp
    simpa using h s (List.mem_of_getElem? this)

theorem symbols_iff (c : Elf.Cfg) (data : List UInt8) (hlen : data.length < 2 ^ 64) (t : SectionTable) (ty : Nat) (hty : ty = 2 ∨ ty = 11) (y : SymTab) :
    t.symbols c data ty = .ok y ↔ SymbolsOf c data t.sections ty y := by
  have hrec : ∀ (s : Shdr) xs, (∃ imgs, s.dataAsArray data 4 = .ok imgs ∧ xs = imgs.map (rd c.en)) ↔
      RecordsOf 4 (fun o => num c.en data o 4) data s xs :=
    fun s xs => records_iff s data hlen 4 (by decide) (rd c.en) (fun o => num c.en data o 4) (fun o _ => rd_num _ _ _) xs
  have hsym : ∀ (s : Shdr) xs, (∃ imgs, s.dataAsArray data c.symSize = .ok imgs ∧ xs = imgs.map (Sym.decode c)) ↔
      RecordsOf (symbolSize c.is64) (symbolAt c data) data s xs :=
    fun s xs => records_iff s data hlen (symbolSize c.is64) (symbolSize_pos _) (Sym.decode c) (symbolAt c data) (fun o _ => sym_decode _ _ _) xs
  unfold SectionTable.symbols SymbolsOf
  cases hf : t.sections.zipIdx.find? fun p => p.1.type == ty with
  | none =>
    have hn := (sections_find_none t.sections ty).1 hf
    simp only [Res.ok.injEq]
    constructor
    · rintro rfl; exact .inl ⟨hn, rfl⟩
    · rintro (⟨-, rfl⟩ | ⟨s, h1, h2, -⟩)
      · rfl
      · exact absurd h2 (hn s (List.mem_of_getElem? h1))
  | some p =>
    obtain ⟨s, i⟩ := p
    obtain ⟨f1, f2, f3⟩ := (sections_find t.sections ty s i).1 hf
    simp only []
    unfold SymTab.parse
    rw [if_neg (by omega)]
    simp only [Res.bind_eq, Res.bind_eq_ok, Res.ok.injEq]
    have hex : ∀ k x, Extends t.sections i k x ↔ t.sections.zipIdx[k]? = some (x, k) ∧ (x.type = 18 ∧ x.link = i) := by
      intro k x
      rw [zipIdx_get]; unfold Extends; simp
    constructor
    · rintro ⟨imgs, h1, st, h2, ⟨a, b⟩, h3, rfl⟩
      right
      rw [shndx_iff] at h3
      refine ⟨s, f1, f2, f3, (hsym s _).1 ⟨imgs, h1, rfl⟩, rfl, (strings_iff t _ _).1 h2, ?_, ?_⟩
      · intro j x hE
        obtain ⟨hz, hE⟩ := (hex j x).1 hE
        obtain ⟨d, hd⟩ := h3.1 j _ hz hE
        exact ⟨_, (hrec x _).1 ⟨d, hd, rfl⟩⟩
      · rcases h3.2 with ⟨h4, h5⟩ | ⟨k, p, d, h4, h5, h6, h7, h8⟩
        · cases h5
          exact .inr ⟨fun j x hE => h4 j _ ((hex j x).1 hE).1 ((hex j x).1 hE).2, rfl, rfl⟩
        · obtain ⟨x, n⟩ := p
          obtain ⟨h9, h10⟩ := (zipIdx_get _ _ _).1 h4
          simp only at h10
          subst h10
          cases h7
          refine .inl ⟨x, (hex n x).2 ⟨h4, h5⟩, (hrec x _).1 ⟨d, h6, rfl⟩, fun j x' hj hE => ?_⟩
          exact h8 j _ hj ((hex j x').1 hE).1 ((hex j x').1 hE).2
    · rintro (⟨hn, -⟩ | ⟨s', h1, h2, h3, h4, h5, h6, h7, h8⟩)
      · exact absurd f2 (hn s (List.mem_of_getElem? f1))
      · obtain ⟨sec, ssec, xsec, syms, strs, xs⟩ := y
        simp only at h1 h3 h4 h5 h6 h7 h8
        have hi : sec = i := by
          rcases Nat.lt_trichotomy sec i with h | h | h
          · exact absurd h2 (f3 sec s' h h1)
          · exact h
          · exact absurd f2 (h3 i s h f1)
        subst hi
        rw [f1] at h1; cases h1
        obtain ⟨imgs, g1, g2⟩ := (hsym s _).2 h4
        refine ⟨imgs, g1, strs, (strings_iff t _ _).2 h6, (xsec, xs), ?_, by rw [g2, h5]⟩
        rw [shndx_iff]
        constructor
        · rintro k ⟨x, n⟩ hz hE
          obtain ⟨-, hn⟩ := (zipIdx_get _ _ _).1 hz
          simp only at hn; subst hn
          obtain ⟨ys, hy⟩ := h7 n x ((hex n x).2 ⟨hz, hE⟩)
          obtain ⟨d, hd, -⟩ := (hrec x ys).2 hy
          exact ⟨d, hd⟩
        · rcases h8 with ⟨x, h9, h10, h11⟩ | ⟨h9, rfl, rfl⟩
          · right
            obtain ⟨d, hd, hxs⟩ := (hrec x _).2 h10
            obtain ⟨hz, hE⟩ := (hex xsec x).1 h9
            refine ⟨xsec, (x, xsec), d, hz, hE, hd, by rw [hxs], ?_⟩
            rintro k' ⟨x', n⟩ hk hz' hE'
            obtain ⟨-, hn⟩ := (zipIdx_get _ _ _).1 hz'
            simp only at hn; subst hn
            exact h11 n x' hk ((hex n x').2 ⟨hz', hE'⟩)
          · left
            refine ⟨?_, rfl⟩
            rintro k ⟨x, n⟩ hz hE
            obtain ⟨-, hn⟩ := (zipIdx_get _ _ _).1 hz
            simp only at hn; subst hn
            exact h9 n x ((hex n x).2 ⟨hz, hE⟩)

theorem symbols_no_panic (c : Elf.Cfg) (data : List UInt8) (t : SectionTable) (ty : Nat) (hty : ty = 2 ∨ ty = 11) : t.symbols c data ty ≠ .panic := by
  unfold SectionTable.symbols
  cases hf : t.sections.zipIdx.find? fun p => p.1.type == ty with
  | none => simp
  | some p =>
    obtain ⟨s, i⟩ := p
    obtain ⟨f1, f2, f3⟩ := (sections_find t.sections ty s i).1 hf
    simp only []
    unfold SymTab.parse
    rw [if_neg (by omega)]
    refine Res.bind_no_panic (dataAsArray_no_panic _ _ _) fun _ _ => Res.bind_no_panic (stringsAt_no_panic _ _) fun _ _ => Res.bind_no_panic ?_ fun _ _ => by simp
    generalize (0, ([] : List Nat)) = acc
    generalize t.sections.zipIdx = l
    induction l generalizing acc with
    | nil => simp [shndxLoop]
    | cons q l ih =>
      obtain ⟨s, n⟩ := q
      unfold shndxLoop
      split
      · have := dataAsArray_no_panic s data 4
        split
        · exact ih _
        · simp
        · rename_i h; exact absurd h this
      · exact ih _

/-! ## Relocation sections -/

open Obj.ElfChain in
theorem nx_next (ss : List Shdr) (sym t i j : Nat) (hi : i ≤ ss.length) : nx ss sym t i = j ↔ NextFor ss sym t i j := by
  have hb : ∀ k, Applies ss sym t k → k < ss.length := by
    rintro k ⟨s, hs, -⟩
    exact (List.getElem?_eq_some_iff.1 hs).1
  have key : ∀ n i, i + n = ss.length → (nx ss sym t i = j ↔ NextFor ss sym t i j) := by
    intro n
    induction n with
    | zero =>
      intro i hi
      have : nx ss sym t i = 0 := by unfold nx; rw [show ss.length - i = 0 by omega]; rfl
      rw [this]
      unfold NextFor
      constructor
      · rintro rfl
        exact .inr ⟨rfl, fun k hk ha => by have := hb k ha; omega⟩
      · rintro (⟨h1, h2, -⟩ | ⟨rfl, -⟩)
        · have := hb j h2; omega
        · rfl
    | succ n ih =>
      intro i hi
      rw [nx_step _ _ _ _ (by omega)]
      by_cases ha : Applies ss sym t i
      · rw [if_pos ha]
        unfold NextFor
        constructor
        · rintro rfl
          exact .inl ⟨Nat.le_refl _, ha, fun k h1 h2 => by omega⟩
        · rintro (⟨h1, h2, h3⟩ | ⟨rfl, h⟩)
          · by_cases hij : i = j
            · exact hij
            · exact absurd ha (h3 i (Nat.le_refl _) (by omega))
          · exact absurd ha (h i (Nat.le_refl _))
      · rw [if_neg ha, ih (i + 1) (by omega)]
        unfold NextFor
        constructor
        · rintro (⟨h1, h2, h3⟩ | ⟨rfl, h⟩)
          · refine .inl ⟨by omega, h2, fun k hk1 hk2 => ?_⟩
            by_cases hki : k = i
            · subst hki; exact ha
            · exact h3 k (by omega) hk2
          · refine .inr ⟨rfl, fun k hk => ?_⟩
            by_cases hki : k = i
            · subst hki; exact ha
            · exact h k (by omega)
        · rintro (⟨h1, h2, h3⟩ | ⟨rfl, h⟩)
          · refine .inl ⟨?_, h2, fun k hk1 hk2 => h3 k (by omega) hk2⟩
            by_cases hij : j = i
            · subst hij; exact absurd h2 ha
            · omega
          · exact .inr ⟨rfl, fun k hk => h k (by omega)⟩
  exact key (ss.length - i) i (by omega)

open Obj.ElfChain in
theorem links_iff (t : SectionTable) (sym : Nat) (R : List Nat) : relocationSections t sym = .ok R ↔ LinksOf t.sections sym R := by
  obtain ⟨h1, h2⟩ := loop_spec t sym t.sections.length _ (Nat.le_refl _) (inv_init t.sections sym)
  have inv_iff : ∀ R', (ElfChain.Inv t.sections sym 0 R' ↔ R'.length = t.sections.length ∧ ∀ (i : Nat) s j, t.sections[i]? = some s → R'[i]? = some j → LinkOf t.sections sym i j s) := by
    intro R'
    unfold ElfChain.Inv LinkOf
    constructor
    · rintro ⟨hl, hI⟩
      refine ⟨hl, fun i s j hs hj => ?_⟩
      have hi := (List.getElem?_eq_some_iff.1 hs).1
      obtain ⟨a, b, c⟩ := hI i s hs
      split
      · rename_i hr
        split
        · rename_i hc
          have := a hr (by omega) hc.1 hc.2
          rw [hj] at this
          exact (nx_next _ _ _ _ _ (by omega)).1 (Option.some.inj this).symm
        · rename_i hc
          have := b hr (by omega)
          rw [hj] at this; exact Option.some.inj this
      · rename_i hr
        have := c hr
        rw [hj] at this
        exact (nx_next _ _ _ _ _ (by omega)).1 (Option.some.inj this).symm
    · rintro ⟨hl, hL⟩
      refine ⟨hl, fun k s hs => ?_⟩
      have hi := (List.getElem?_eq_some_iff.1 hs).1
      have hg := List.getElem?_eq_getElem (l := R') (i := k) (by omega)
      have := hL k s _ hs hg
      generalize R'[k] = j at hg this
      rw [hg]
      refine ⟨fun h1 _ h3 h4 => ?_, fun h1 h2 => ?_, fun h1 => ?_⟩
      · rw [if_pos h1, if_pos ⟨h3, h4⟩] at this
        rw [(nx_next _ _ _ _ _ (by omega)).2 this]
      · rw [if_pos h1, if_neg (by omega)] at this
        rw [this]
      · rw [if_neg h1] at this
        rw [(nx_next _ _ _ _ _ (by omega)).2 this]
  have bad_iff : (¬ ∃ j, j < t.sections.length ∧ Bad t.sections sym j) ↔
      ∀ s ∈ t.sections, IsReloc s → s.link = sym → s.info ≠ 0 → ∃ s', t.sections[s.info]? = some s' ∧ ¬ IsReloc s' := by
    constructor
    · intro h s hs hr hl hi
      obtain ⟨j, hj, rfl⟩ := List.getElem_of_mem hs
      by_cases hlt : t.sections[j].info < t.sections.length
      · refine ⟨_, List.getElem?_eq_getElem hlt, fun hr' => h ⟨j, hj, _, List.getElem?_eq_getElem hj, hr, hl, hi, .inr ⟨_, List.getElem?_eq_getElem hlt, hr'⟩⟩⟩
      · exact absurd ⟨j, hj, _, List.getElem?_eq_getElem hj, hr, hl, hi, .inl (by omega)⟩ h
    · rintro h ⟨j, hj, s, hs, hr, hl, hi, hb⟩
      obtain ⟨s', h1, h2⟩ := h s (List.mem_of_getElem? hs) hr hl hi
      rcases hb with hb | ⟨s2, h3, h4⟩
      · have := (List.getElem?_eq_some_iff.1 h1).1; omega
      · rw [h1] at h3; cases h3; exact h2 h4
  unfold LinksOf
  rw [← bad_iff, ← inv_iff R]
  unfold relocationSections
  constructor
  · intro h
    by_cases hb : ∃ j, j < t.sections.length ∧ Bad t.sections sym j
    · rw [h1 hb] at h; cases h
    · obtain ⟨R', e1, e2⟩ := h2 hb
      rw [e1] at h; cases h
      exact ⟨hb, e2⟩
  · rintro ⟨hb, hI⟩
    obtain ⟨R', e1, e2⟩ := h2 hb
    rw [e1]
    congr 1
    have l1 := (inv_iff R').1 e2
    have l2 := (inv_iff R).1 hI
    apply List.ext_getElem?
    intro k
    by_cases hk : k < t.sections.length
    · have hs := List.getElem?_eq_getElem hk
      obtain ⟨a, b, cc⟩ := e2.2 k _ hs
      obtain ⟨a', b', cc'⟩ := hI.2 k _ hs
      generalize t.sections[k] = s at *
      by_cases hr : IsReloc s
      · by_cases hc : s.link = sym ∧ s.info ≠ 0
        · rw [a hr (by omega) hc.1 hc.2, a' hr (by omega) hc.1 hc.2]
        · rw [b hr (by omega), b' hr (by omega)]
      · rw [cc hr, cc' hr]
    · rw [List.getElem?_eq_none (by omega), List.getElem?_eq_none (by omega)]

/-! ## The file -/

theorem parse_image (is64 : Bool) (data : List UInt8) (hlen : data.length < 2 ^ 64) (f : File) :
    File.parse is64 data = .ok f ↔ Image is64 data f := by
  have hdr : ∀ c : Elf.Cfg, (headerIn c data).phnum < 65536 ∧ (headerIn c data).shnum < 65536 :=
    fun c => ⟨num_lt c.en data _ 2, num_lt c.en data _ 2⟩
  unfold File.parse
  simp only [Res.bind_eq, Res.bind_eq_ok, Res.ok.injEq]
  constructor
  · rintro ⟨⟨c, h⟩, h1, segs, h2, ss, h3, sy, h4, dy, h5, R, h6, rfl⟩
    obtain ⟨a1, a2, a3, rfl⟩ := (parseHeader_iff _ _ _ _).1 h1
    obtain ⟨b1, b2⟩ := (sectionTable_iff _ _ _ (hdr c).2 _).1 h3
    exact ⟨a1, a2, a3, rfl, (segments_iff _ _ _ (hdr c).1 _).1 h2, b1, b2, (symbols_iff _ _ hlen _ _ (.inl rfl) _).1 h4,
      (symbols_iff _ _ hlen _ _ (.inr rfl) _).1 h5, (links_iff _ _ _).1 h6⟩
  · rintro ⟨a1, a2, a3, a4, a5, a6, a7, a8, a9, a10⟩
    obtain ⟨c, h, segs, ss, sy, dy, R⟩ := f
    simp only at *
    subst a4
    exact ⟨(c, _), (parseHeader_iff _ _ _ _).2 ⟨a1, a2, a3, rfl⟩, segs, (segments_iff _ _ _ (hdr c).1 _).2 a5, ss,
      (sectionTable_iff _ _ _ (hdr c).2 _).2 ⟨a6, a7⟩, sy, (symbols_iff _ _ hlen _ _ (.inl rfl) _).2 a8, dy,
      (symbols_iff _ _ hlen _ _ (.inr rfl) _).2 a9, R, (links_iff _ _ _).2 a10, rfl⟩

theorem parse_no_panic (is64 : Bool) (data : List UInt8) (hlen : data.length < 2 ^ 64) : File.parse is64 data ≠ .panic := by
  have hz : Shdr := ⟨0, 0, 0, 0, 0, 0, 0, 0, 0, 0⟩
  have hp : Phdr := ⟨0, 0, 0, 0, 0, 0, 0, 0⟩
  have np := fun c h t => C42_no_panic c is64 h data t hz hp 0 0 0 hlen
  unfold File.parse
  refine Res.bind_no_panic (np ⟨is64, .little⟩ (headerIn ⟨is64, .little⟩ data) ⟨[], none⟩).1 fun p _ => ?_
  obtain ⟨c, h⟩ := p
  have n2 := np c h ⟨[], none⟩
  refine Res.bind_no_panic n2.2.2.1 fun _ _ => Res.bind_no_panic n2.2.2.2.1 fun t _ => ?_
  exact Res.bind_no_panic (symbols_no_panic _ _ _ _ (.inl rfl)) fun _ _ => Res.bind_no_panic (symbols_no_panic _ _ _ _ (.inr rfl)) fun _ _ =>
    Res.bind_no_panic (C23_parse _ _).1 fun _ _ => by simp

end Obj.ElfF

import Verif.Proof.BuildW8

/-! Writing with the ELF builder: the symbol tables that are read back. -/

namespace Obj.BuildW
open Obj Obj.Build Obj.BuildR Obj.Spec
open Obj.Spec.MachoF (Each num)
open Obj.Spec.ElfF (word headerSize segmentSize sectionSize symbolSize headerIn segmentAt sectionAt symbolAt SegmentsOf SectionsOf NamesIndex NamesOf SegmentCount SectionCount RecordsOf StringsOf Extends SymbolsOf DataOf)
open Obj.Spec.BuildW (live Place Ref localSym symbolOrder DynOrder IdsOk Sound KindOk SecOk SymOk tableHeader tableInfo isDef wordLimit phdrOf SymSame)
open Obj.Spec.BuildR (StrAt LinkOf SymSection SymbolOf)
open Obj.Build.Spec (Live NoOrphans)
open Obj.Spec.ElfS (wordMax ShdrFits PhdrFits SymFits HeaderFits)
open Obj.Elf (Shdr Phdr Ehdr SymTab StrTable)

section
variable {c : Full} {p : Plan} {l : Layout} {out : List UInt8} {ss : List Shdr}

/-- A symbol table that is read back. -/
structure TabSym (p : Plan) (out : List UInt8) (tab : TabOut) (k ks : SecData) (shndx : Nat) (syms : List Sym) (st : SymTab) (ws : List Elf.WSym) : Prop where
  sec : st.sec = p.idx k
  string : st.stringSection = p.idx ks
  shndxSec : st.shndxSection = shndx
  each : Each (SymW p tab) syms ws
  symbols : st.symbols = if p.idx k = 0 then [] else nullSym :: ws.map recOf
  strings : p.idx k ≠ 0 → ∃ off, st.strings = some (off, off + tab.data.length) ∧ Blk out off tab.data
  none : p.idx k = 0 → st.strings = none
  more : shndx ≠ 0 → st.shndx = 0 :: ws.map (moreOf p.cfg)

theorem Tab.shndx18 (t : Tab c p l out ss) {i j : Nat} {h : Shdr} : Extends ss i j h ↔ ss[j]? = some h ∧ p.idx .symbolSectionIndex ≠ 0 ∧
    j = p.idx .symbolSectionIndex ∧ i = p.idx .symbol := by
  unfold Extends
  constructor
  · rintro ⟨h1, h2, h3⟩
    obtain ⟨h4, h5⟩ := (t.own (k := .symbolSectionIndex) rfl h1).1 h2
    refine ⟨h1, h4, h5, ?_⟩
    obtain ⟨i', s, h', e1, e2, e3, e4, e5⟩ := t.kind h4
    rw [h5, e1, e4] at h1
    cases h1
    rw [← h3]
    exact (e5.hd.table 18 0 4 4 (some .symbol) (by rw [e3]; rfl)).2.2.2.2.1
  · rintro ⟨h1, h4, h5, h6⟩
    refine ⟨h1, (t.own (k := .symbolSectionIndex) rfl h1).2 ⟨h4, h5⟩, ?_⟩
    obtain ⟨i', s, h', e1, e2, e3, e4, e5⟩ := t.kind h4
    rw [h5, e1, e4] at h1
    cases h1
    rw [h6]
    exact (e5.hd.table 18 0 4 4 (some .symbol) (by rw [e3]; rfl)).2.2.2.2.1

theorem Tab.kinds_ne (t : Tab c p l out ss) {k k' : SecData} (hne : k ≠ k') (h : p.idx k ≠ 0) : p.idx k ≠ p.idx k' := by
  intro e
  obtain ⟨i, s, -, e1, e2, e3, -⟩ := t.kind h
  obtain ⟨i', s', -, f1, f2, f3, -⟩ := t.kind (e ▸ h)
  have : i = i' := by omega
  subst this
  rw [e2] at f2; cases f2
  exact hne (e3.symm.trans f3)

theorem Tab.sym_mem (t : Tab c p l out ss) {s : Sym} (hs : s ∈ p.syms) : SymOk c s ∧ ∀ i, s.section_ = some i → Live c.tables.sections i := by
  have x := t.ctx
  rw [x.plan.syms, (ordered_perm _).mem_iff, iter_eq] at hs
  have hm := List.mem_filter.1 hs
  have hd : s.delete = false := by have h9 : (!Item.deleted s) = true := hm.2; rw [Bool.not_eq_true'] at h9; exact h9
  exact ⟨x.sound.syms s hs, fun i hi => x.sound.noOrphans.syms s hm.1 hd i hi⟩

theorem Tab.dyn_mem (t : Tab c p l out ss) {s : Sym} (hs : s ∈ p.dyns.map (·.sym)) : SymOk c s ∧ (∀ i, s.section_ = some i → Live c.tables.sections i) ∧
    ∀ i j, s.section_ = some i → Place p.secs i j → j + 1 < 0xff00 := by
  have x := t.ctx
  rw [x.plan.dyns.1.mem_iff] at hs
  have hm := List.mem_filter.1 hs
  have hd : s.delete = false := by have h9 : (!Item.deleted s) = true := hm.2; rw [Bool.not_eq_true'] at h9; exact h9
  rw [x.secs]
  exact ⟨(x.sound.dynSyms s hs).1, fun i hi => x.sound.noOrphans.dynSyms s hm.1 hd i hi, (x.sound.dynSyms s hs).2⟩

theorem wr_dec (en : Endianness) (n : Nat) (h : n < 2 ^ 32) : rd en (wr en 4 n) = n := rd_wr en 4 n (by simpa using h)

theorem Tab.symtab (t : Tab c p l out ss) : ∃ st ws, SymbolsOf p.cfg out ss 2 st ∧
    TabSym p out p.strtab .symbol .string (p.idx .symbolSectionIndex) p.syms st ws := by
  have x := t.ctx
  obtain ⟨ws, h1, h2, h3⟩ := x.em.symbols
  obtain ⟨tb1, -, tb3, -⟩ := x.sound.tables
  have ha := (t.idx_has (k := .symbol) rfl)
  have hb := (t.idx_has (k := .string) rfl)
  have hc := (t.idx_has (k := .symbolSectionIndex) rfl)
  have hw : Each (SymW p p.strtab) p.syms ws := by
    have e := (mapR_each _ _ _).1 h1
    refine each_of_forall ?_ ?_
    · rw [each_length e, List.length_zip, each_length x.plan.symNames]; omega
    · intro i s w hs hwi
      obtain ⟨n, hn, hn2⟩ := each_get_left x.plan.symNames hs
      have hzz : (p.syms.zip p.symNames)[i]? = some (s, n) := List.getElem?_zip_eq_some.2 ⟨hs, hn⟩
      obtain ⟨w', hw', e2⟩ := each_get_left e hzz
      rw [hwi] at hw'; cases hw'
      exact symOut_ok hn2 e2
  have hwl := each_length hw
  have hwp : ∀ w ∈ ws, SymFits p.cfg.is64 (recOf w) ∧ moreOf p.cfg w < 2 ^ 32 := by
    intro w hw'
    obtain ⟨s, hs, e⟩ := each_mem hw hw'
    obtain ⟨a1, a2⟩ := t.sym_mem hs
    obtain ⟨k1, k2⟩ := t.symW e a1 a2
    refine ⟨k1, ?_⟩
    rcases k2 with ⟨-, -, -, h⟩ | ⟨i, j, -, hp, -, -, h⟩
    · omega
    · have := place_lt hp
      have := x.secNum
      rw [h]; split <;> omega
  by_cases h0 : p.idx .symbol = 0
  · have hx0 : p.idx .symbolSectionIndex = 0 := by
      by_cases h : p.idx .symbolSectionIndex = 0
      · exact h
      · exact absurd h0 (ha.2 (tb3 (hc.1 h)))
    have hs0 : p.idx .string = 0 := by
      by_cases h : p.idx .string = 0
      · exact h
      · exact absurd h0 (ha.2 (tb1.2 (hb.1 h)))
    refine ⟨{ sec := 0, stringSection := 0, shndxSection := 0, symbols := [], strings := none, shndx := [] }, ws, .inl ⟨t.absent (k := .symbol) rfl h0, rfl⟩,
      ⟨h0.symm, hs0.symm, hx0.symm, hw, by rw [if_pos h0], fun h => absurd h0 h, fun _ => rfl, fun h => absurd hx0 h⟩⟩
  · have hs0 : p.idx .string ≠ 0 := hb.2 (tb1.1 (ha.1 h0))
    obtain ⟨off, g1, g2⟩ := t.string hs0
    obtain ⟨i, s, h, e1, e2, e3, e4, e5⟩ := t.kind h0
    obtain ⟨a, ha', -⟩ := t.attr e2
    have hnum : p.symNum = 1 + ws.length := by
      rcases x.plan.symNum with ⟨h, -⟩ | ⟨-, h, -⟩
      · exact absurd h h0
      · omega
    have hz : h.size = (1 + ws.length) * p.cfg.symSize := by rw [e5.size, (x.lay.sizes i s a e2 ha').symbol e3, hnum]
    have hbl : Blk out h.offset (Elf.symtabBytes p.cfg ws) := by
      have := h2 h0
      have hi : p.idx .symbol - 1 = i := by omega
      rw [hi, ← e5.offset] at this
      exact this
    obtain ⟨k1, -, -, -, k5, -⟩ := e5.hd.table _ _ _ _ _ (by rw [e3]; rfl)
    have hrec := t.symRecords (fun w hw => (hwp w hw).1) hbl (by rw [k1]; decide) hz
    have hmore : p.idx .symbolSectionIndex ≠ 0 → ∃ h', ss[p.idx .symbolSectionIndex]? = some h' ∧
        RecordsOf 4 (fun o => num p.cfg.en out o 4) out h' (0 :: ws.map (moreOf p.cfg)) := by
      intro hx
      obtain ⟨i', s', h', f1, f2, f3, f4, f5⟩ := t.kind hx
      obtain ⟨a', ha'', -⟩ := t.attr f2
      refine ⟨h', by rw [f1]; exact f4, ?_⟩
      have hbl : Blk out h'.offset (shndxBytes p ws) := by
        have := h3 h0 hx
        have hi : p.idx .symbolSectionIndex - 1 = i' := by omega
        rw [hi, ← f5.offset] at this
        exact this
      refine recordsOf_blk (enc := wr p.cfg.en 4) (dec := rd p.cfg.en) (by decide) (fun o ho => ?_) (fun r _ => length_wr _ _ _) ?_ ?_ ?_ ?_
      · rfl
      · intro r hr
        refine wr_dec _ _ ?_
        rcases List.mem_cons.1 hr with rfl | hr
        · decide
        · obtain ⟨w, hw', rfl⟩ := List.mem_map.1 hr
          exact (hwp w hw').2
      · unfold shndxBytes at hbl
        rw [if_pos (x.plan.needShndx hx)] at hbl
        rw [List.flatMap_cons, List.flatMap_map]
        exact hbl
      · rw [(f5.hd.table 18 0 4 4 (some .symbol) (by rw [f3]; rfl)).1]; decide
      · rw [f5.size, (x.lay.sizes i' s' a' f2 ha'').shndx f3, hnum, List.length_cons, List.length_map]; omega
    refine ⟨{ sec := p.idx .symbol, stringSection := p.idx .string, shndxSection := p.idx .symbolSectionIndex, symbols := nullSym :: ws.map recOf, strings := some (off, off + p.strtab.data.length), shndx := if p.idx .symbolSectionIndex = 0 then [] else 0 :: ws.map (moreOf p.cfg) }, ws, ?_,
      ⟨rfl, rfl, rfl, hw, by rw [if_neg h0], fun _ => ⟨off, rfl, g2⟩, fun h => absurd h h0, fun h => by simp only; rw [if_neg h]⟩⟩
    refine .inr ⟨h, by show ss[p.idx .symbol]? = _; rw [e1]; exact e4, k1, t.first (k := .symbol) rfl, hrec, k5.symm, ?_, ?_, ?_⟩
    · rw [k5]; exact g1
    · intro j y hy
      obtain ⟨q1, q2, q3, -⟩ := t.shndx18.1 hy
      obtain ⟨h', r1, r2⟩ := hmore q2
      rw [q3, r1] at q1; cases q1
      exact ⟨_, r2⟩
    · by_cases hx : p.idx .symbolSectionIndex = 0
      · right
        refine ⟨fun j y hy => (t.shndx18.1 hy).2.1 hx, hx, ?_⟩
        simp only; rw [if_pos hx]
      · left
        obtain ⟨h', r1, r2⟩ := hmore hx
        refine ⟨h', t.shndx18.2 ⟨r1, hx, rfl, rfl⟩, ?_, ?_⟩
        · simp only; rw [if_neg hx]; exact r2
        · intro j y hj hy
          have := (t.shndx18.1 hy).2.2.1
          simp only at hj
          omega

theorem Tab.dynsymtab (t : Tab c p l out ss) : ∃ st ws, SymbolsOf p.cfg out ss 11 st ∧
    TabSym p out p.dynstr .dynamicSymbol .dynamicString 0 (p.dyns.map (·.sym)) st ws := by
  have x := t.ctx
  obtain ⟨-, tb1, -⟩ := x.sound.tables
  have ha := (t.idx_has (k := .dynamicSymbol) rfl)
  have hb := (t.idx_has (k := .dynamicString) rfl)
  have hext : ∀ j y, ¬ Extends ss (p.idx .dynamicSymbol) j y := by
    intro j y hy
    obtain ⟨q1, q2, q3, q4⟩ := t.shndx18.1 hy
    by_cases h0 : p.idx .dynamicSymbol = 0
    · obtain ⟨-, -, tb3, -⟩ := x.sound.tables
      have := (t.idx_has (k := .symbol) rfl).2 (tb3 ((t.idx_has (k := .symbolSectionIndex) rfl).1 q2))
      omega
    · exact t.kinds_ne (by simp) h0 q4
  by_cases h0 : p.idx .dynamicSymbol = 0
  · have hs0 : p.idx .dynamicString = 0 := by
      by_cases h : p.idx .dynamicString = 0
      · exact h
      · exact absurd h0 (ha.2 (tb1.2 (hb.1 h)))
    have hd : p.dyns = [] := by
      rcases x.plan.dynNum with ⟨-, h, -⟩ | ⟨h, -⟩
      · exact h
      · exact absurd h0 h
    refine ⟨{ sec := 0, stringSection := 0, shndxSection := 0, symbols := [], strings := none, shndx := [] }, [], .inl ⟨t.absent (k := .dynamicSymbol) rfl h0, rfl⟩,
      ⟨h0.symm, hs0.symm, rfl, by rw [hd]; exact .nil, by rw [if_pos h0], fun h => absurd h0 h, fun _ => rfl, fun h => absurd rfl h⟩⟩
  · have hs0 : p.idx .dynamicString ≠ 0 := hb.2 (tb1.1 (ha.1 h0))
    obtain ⟨off, g1, g2⟩ := t.dynamicString hs0
    obtain ⟨i, s, h, e1, e2, e3, e4, e5⟩ := t.kind h0
    obtain ⟨d, al, m1, m2, m3⟩ := t.allocOnly e2 (by rw [e3]; simp) (by simp [otherBytes, e3]) (by rw [e3]; simp) (by rw [e3]; simp) (by rw [e3]; simp) (by rw [e3]; simp) (by rw [e3]; simp)
    unfold allocBytes at m1
    unfold allocSize at m3
    simp only [e3] at m1 m3
    injection m3 with m3
    have hz0 : (l.lay.at i).2 = p.dynNum * p.cfg.symSize := (Prod.mk.inj m3).1.symm
    unfold dynsymBytes at m1
    rw [Res.bind_eq_ok] at m1
    obtain ⟨ws, w1, w2⟩ := m1
    cases w2
    have hw : Each (SymW p p.dynstr) (p.dyns.map (·.sym)) ws := by
      rw [each_map_left]
      refine each_imp ((mapR_each _ _ _).1 w1) (fun d hd w hwd => ?_)
      exact symOut_ok (x.plan.dynNames d hd) hwd
    have hwl := each_length hw
    rw [List.length_map] at hwl
    have hwp : ∀ w ∈ ws, SymFits p.cfg.is64 (recOf w) := by
      intro w hw'
      obtain ⟨s, hs, e⟩ := each_mem hw hw'
      obtain ⟨a1, a2, -⟩ := t.dyn_mem hs
      exact (t.symW e a1 a2).1
    have hnum : p.dynNum = 1 + ws.length := by
      rcases x.plan.dynNum with ⟨h, -⟩ | ⟨-, h, -⟩
      · exact absurd h h0
      · omega
    have hz : h.size = (1 + ws.length) * p.cfg.symSize := by rw [e5.size, hz0, hnum]
    obtain ⟨k1, -, -, -, k5, -⟩ := e5.hd.table _ _ _ _ _ (by rw [e3]; rfl)
    have hrec := t.symRecords hwp (by rw [e5.offset]; exact m2) (by rw [k1]; decide) hz
    refine ⟨{ sec := p.idx .dynamicSymbol, stringSection := p.idx .dynamicString, shndxSection := 0, symbols := nullSym :: ws.map recOf, strings := some (off, off + p.dynstr.data.length), shndx := [] }, ws, ?_,
      ⟨rfl, rfl, rfl, hw, by rw [if_neg h0], fun _ => ⟨off, rfl, g2⟩, fun h => absurd h h0, fun h => absurd rfl h⟩⟩
    refine .inr ⟨h, by show ss[p.idx .dynamicSymbol]? = _; rw [e1]; exact e4, k1, t.first (k := .dynamicSymbol) rfl, hrec, k5.symm, ?_, ?_, ?_⟩
    · rw [k5]; exact g1
    · intro j y hy; exact absurd hy (hext j y)
    · exact .inr ⟨hext, rfl, rfl⟩

/-! ## The symbols of the builder that is read -/

theorem zipIdx_drop_one {α : Type} (a : α) (xs : List α) : ((a :: xs).zipIdx).drop 1 = xs.zipIdx 1 := by simp [List.zipIdx_cons]

theorem TabSym.drop {tab : TabOut} {k ks : SecData} {n : Nat} {syms : List Sym} {st : SymTab} {ws : List Elf.WSym}
    (h : TabSym p out tab k ks n syms st ws) (he : p.idx k = 0 → syms = []) : st.symbols.zipIdx.drop 1 = (ws.map recOf).zipIdx 1 := by
  rw [h.symbols]
  by_cases h0 : p.idx k = 0
  · have := each_length h.each
    rw [he h0] at this
    rw [if_pos h0, List.length_eq_zero_iff.1 this]; rfl
  · rw [if_neg h0, zipIdx_drop_one]

theorem Tab.symbols (t : Tab c p l out ss) {st : SymTab} {ws : List Elf.WSym}
    (hs : TabSym p out p.strtab .symbol .string (p.idx .symbolSectionIndex) p.syms st ws) :
    ∃ ys, Each (SymbolOf out st ss.length) (st.symbols.zipIdx.drop 1) ys ∧ Each (fun s y => SymSame p.secs s y ∧ y.version = 0 ∧ y.versionHidden = false) p.syms ys ∧
      (∀ (i : Nat) y, ys[i]? = some y → y.id = i ∧ y.delete = false) := by
  have x := t.ctx
  have he : p.idx .symbol = 0 → p.syms = [] := by
    intro h
    rcases x.plan.symNum with ⟨-, h2, -⟩ | ⟨h2, -⟩
    · exact h2
    · exact absurd h h2
  have hl := each_length hs.each
  obtain ⟨ys, h1, h2⟩ := list_exists (P := fun i y => ∀ s w, p.syms[i]? = some s → ws[i]? = some w →
      SymbolOf out st ss.length (recOf w, i + 1) y ∧ SymSame p.secs s y ∧ y.version = 0 ∧ y.versionHidden = false ∧ y.id = i ∧ y.delete = false) p.syms.length (by
    intro i hi
    have hsi : p.syms[i]? = some p.syms[i] := List.getElem?_eq_getElem hi
    obtain ⟨w, hw, hww⟩ := each_get_left hs.each hsi
    obtain ⟨a1, a2⟩ := t.sym_mem (List.mem_of_getElem? hsi)
    have h0 : p.idx .symbol ≠ 0 := fun h => by have := he h; rw [this] at hi; simp at hi
    obtain ⟨off, g1, g2⟩ := hs.strings h0
    obtain ⟨y, hy⟩ := t.symbolOf (i := i) hww a1 a2 g1 g2 (by
      intro j k e hp hj
      have hx : p.idx .symbolSectionIndex ≠ 0 := by
        obtain ⟨-, key⟩ := t.symW hww a1 a2
        rcases key with ⟨h1, -⟩ | ⟨k', j', h1, hp', h2, -⟩
        · rw [e] at h1; cases h1
        · rw [e] at h1; cases h1
          refine x.plan.large _ (List.mem_of_getElem? hsi) _ _ e h2 ?_
          have : j' = j := by
            rcases x.plan.secIdx k (j' + 1) h2 with h | ⟨-, h⟩
            · omega
            · obtain ⟨q, hq, hq2⟩ := hp
              obtain ⟨r, hr, hr2⟩ := hp'
              have hn := ids_nodup (t := c.tables.sections) x.sound.ids.1
              rw [← x.plan.secs] at hn
              have hqm : (p.secs.map (·.id))[j]? = some k := by rw [List.getElem?_map, hq]; exact congrArg some hq2
              have hrm : (p.secs.map (·.id))[j']? = some k := by rw [List.getElem?_map, hr]; exact congrArg some hr2
              have := (List.getElem?_inj (List.getElem?_eq_some_iff.1 hqm).1 hn).1 (hqm.trans hrm.symm)
              exact this.symm
          omega
      rw [hs.more hx, List.getElem?_cons_succ, List.getElem?_map, hw]; rfl) 0 false
    refine ⟨y, fun s' w' e1 e2 => ?_⟩
    rw [hsi] at e1; rw [hw] at e2
    cases e1; cases e2
    exact hy)
  refine ⟨ys, ?_, ?_, ?_⟩
  · rw [hs.drop he]
    refine each_of_forall (by simp [h1, hl]) ?_
    intro i q y hq hy
    rw [List.getElem?_zipIdx, Option.map_eq_some_iff] at hq
    obtain ⟨r, hr, rfl⟩ := hq
    rw [List.getElem?_map, Option.map_eq_some_iff] at hr
    obtain ⟨w, hw, rfl⟩ := hr
    obtain ⟨s, hsi, -⟩ := each_get hs.each hw
    rw [Nat.add_comm 1 i]
    exact (h2 i y hy s w hsi hw).1
  · refine each_of_forall h1 ?_
    intro i s y hsi hy
    obtain ⟨w, hw, -⟩ := each_get_left hs.each hsi
    obtain ⟨-, r1, r2, r3, -⟩ := h2 i y hy s w hsi hw
    exact ⟨r1, r2, r3⟩
  · intro i y hy
    have hlt := (List.getElem?_eq_some_iff.1 hy).1
    have hsi : p.syms[i]? = some p.syms[i] := List.getElem?_eq_getElem (by omega)
    obtain ⟨w, hw, -⟩ := each_get_left hs.each hsi
    exact (h2 i y hy _ w hsi hw).2.2.2.2

/-- The dynamic symbols, with any versions. -/
theorem Tab.dynamicSymbols (t : Tab c p l out ss) {st : SymTab} {ws : List Elf.WSym}
    (hs : TabSym p out p.dynstr .dynamicSymbol .dynamicString 0 (p.dyns.map (·.sym)) st ws) (ver : Nat → Nat) (hid : Nat → Bool) :
    ∃ ys, Each (SymbolOf out st ss.length) (st.symbols.zipIdx.drop 1) ys ∧ Each (SymSame p.secs) (p.dyns.map (·.sym)) ys ∧
      (∀ (i : Nat) y, ys[i]? = some y → y.id = i ∧ y.delete = false ∧ y.version = ver i ∧ y.versionHidden = hid i) := by
  have x := t.ctx
  generalize hsy : p.dyns.map (·.sym) = syms at *
  have he : p.idx .dynamicSymbol = 0 → syms = [] := by
    intro h
    rcases x.plan.dynNum with ⟨-, h2, -⟩ | ⟨h2, -⟩
    · rw [h2] at hsy; exact hsy.symm
    · exact absurd h h2
  have hl := each_length hs.each
  obtain ⟨ys, h1, h2⟩ := list_exists (P := fun i y => ∀ s w, syms[i]? = some s → ws[i]? = some w →
      SymbolOf out st ss.length (recOf w, i + 1) y ∧ SymSame p.secs s y ∧ y.version = ver i ∧ y.versionHidden = hid i ∧ y.id = i ∧ y.delete = false) syms.length (by
    intro i hi
    have hsi : syms[i]? = some syms[i] := List.getElem?_eq_getElem hi
    obtain ⟨w, hw, hww⟩ := each_get_left hs.each hsi
    obtain ⟨a1, a2, a3⟩ := t.dyn_mem (by rw [hsy]; exact List.mem_of_getElem? hsi)
    have h0 : p.idx .dynamicSymbol ≠ 0 := fun h => by have := he h; rw [this] at hi; simp at hi
    obtain ⟨off, g1, g2⟩ := hs.strings h0
    obtain ⟨y, hy⟩ := t.symbolOf (i := i) hww a1 a2 g1 g2 (fun j k e hp hj => absurd (a3 _ _ e hp) hj) (ver i) (hid i)
    refine ⟨y, fun s' w' e1 e2 => ?_⟩
    rw [hsi] at e1; rw [hw] at e2
    cases e1; cases e2
    exact hy)
  refine ⟨ys, ?_, ?_, ?_⟩
  · rw [hs.drop he]
    refine each_of_forall (by simp [h1, hl]) ?_
    intro i q y hq hy
    rw [List.getElem?_zipIdx, Option.map_eq_some_iff] at hq
    obtain ⟨r, hr, rfl⟩ := hq
    rw [List.getElem?_map, Option.map_eq_some_iff] at hr
    obtain ⟨w, hw, rfl⟩ := hr
    obtain ⟨s, hsi, -⟩ := each_get hs.each hw
    rw [Nat.add_comm 1 i]
    exact (h2 i y hy s w hsi hw).1
  · refine each_of_forall h1 ?_
    intro i s y hsi hy
    obtain ⟨w, hw, -⟩ := each_get_left hs.each hsi
    exact (h2 i y hy s w hsi hw).2.1
  · intro i y hy
    have hlt := (List.getElem?_eq_some_iff.1 hy).1
    have hsi : syms[i]? = some syms[i] := List.getElem?_eq_getElem (by omega)
    obtain ⟨w, hw, -⟩ := each_get_left hs.each hsi
    obtain ⟨-, -, r1, r2, r3, r4⟩ := h2 i y hy _ w hsi hw
    exact ⟨r3, r4, r1, r2⟩

end
end Obj.BuildW

import Verif.Proof.BuildW12

/-! Writing with the ELF builder: the sections of the file. -/

namespace Obj.BuildW
open Obj Obj.Build Obj.BuildR Obj.Spec
open Obj.Spec.MachoF (Each num)
open Obj.Spec.ElfF (word headerSize segmentSize sectionSize symbolSize headerIn segmentAt sectionAt symbolAt SegmentsOf SectionsOf NamesIndex NamesOf SegmentCount SectionCount RecordsOf StringsOf Extends SymbolsOf DataOf)
open Obj.Spec.BuildW (live Place Ref localSym symbolOrder DynOrder IdsOk Sound KindOk SecOk SymOk RelOk DynOk LinksTo tableHeader tableInfo isDef wordLimit phdrOf SymSame RelSame DataSame SecSame KindLink dataSize SubSame)
open Obj.Spec.BuildR (StrAt LinkOf SymSection SymbolOf Tables RelocsOf RelocOf relocAt dynAt DynOf Contents DynamicRelocs StaticRelocs AttributesOf SectionOf)
open Obj.Build.Spec (Live NoOrphans)
open Obj.Elf (StrTable Shdr Phdr Ehdr SymTab)

section
variable {c : Full} {p : Plan} {l : Layout} {out : List UInt8} {ss : List Shdr} {T : Tables}

theorem isEmpty_live {α : Type} [Item α] (t : List α) : Build.isEmpty t = true ↔ live t = [] := by
  rw [isEmpty_iff, iter_eq]; rfl

theorem Tabs.uninitSize (t : Tabs c p l out ss T) {i : Nat} {s : Sec} {h : Shdr} (hs : p.secs[i]? = some s) (hh : HdrAt c p l i s h) {n : Nat}
    (hd : s.data = .uninit n) : h.size = n := by
  rw [hh.size]
  obtain ⟨a, ha, -⟩ := t.tab.attr hs
  have sz := t.tab.ctx.lay.sizes i s a hs ha
  cases hko : keepsOffset c s with
  | true =>
    rcases (sz.alloc hko).2 with ⟨len, e1, e2⟩ | ⟨e1, -⟩
    · rw [hd] at e1; cases e1; exact e2
    · exact absurd hd (e1 n)
  | false => exact sz.other hko n (by simp [otherSize, hd])

/-- The link in the builder. -/
def linkIn (link : Nat) : Option Nat := if link = 0 then none else some (link - 1)

theorem linkOf_in {count link : Nat} (h : link < count) : LinkOf count link (linkIn link) := by
  unfold LinkOf linkIn
  by_cases h0 : link = 0
  · exact .inl ⟨h0, by rw [if_pos h0]⟩
  · exact .inr ⟨by omega, h, by rw [if_neg h0]⟩

theorem linkVal_ref {secs : List Sec} {o : Option Nat} {r : Nat} (h : LinkVal secs 0 o r) : Ref secs o (linkIn r) := by
  rcases h with ⟨h1, h2⟩ | ⟨i, j, h1, h2, h3⟩
  · exact .inl ⟨h1, by rw [h2]; rfl⟩
  · exact .inr ⟨i, j, h1, by rw [h2]; simp [linkIn], h3⟩

theorem linkVal_lt {secs : List Sec} {o : Option Nat} {r : Nat} (h : LinkVal secs 0 o r) : r < 1 + secs.length := by
  rcases h with ⟨h1, h2⟩ | ⟨i, j, h1, h2, h3⟩
  · omega
  · have := place_lt h3; omega

theorem Tabs.sectionAt (t : Tabs c p l out ss T) {off : Nat} (hstr : T.strings = some (off, off + p.shstrtab.data.length)) (hb : Blk out off p.shstrtab.data)
    {i : Nat} {s : Sec} {h : Shdr} (hs : p.secs[i]? = some s) (hh : HdrAt c p l i s h) :
    ∃ x, SectionOf T out (h, i + 1) x ∧ SecSame c p.secs p.syms (p.dyns.map (·.sym)) s x ∧ x.id = i ∧ x.delete = false := by
  have x := t.tab.ctx
  obtain ⟨so, ko⟩ := x.sec_ok hs
  obtain ⟨d', hc, hsame⟩ := t.contents hs hh
  have hlen : T.sections.length = 1 + p.secs.length := by rw [t.sections, t.tab.len]
  have hname : StrAt out T.strings h.name s.name := by rw [hstr]; exact strAt_blk hb hh.name
  have hsize : ∀ n, dataSize s.data = some n → h.size = n := by
    intro n hn
    cases hd : s.data <;> simp only [hd, dataSize, reduceCtorEq, Option.some.injEq] at hn
    · rw [← hn]; exact (t.plainData hs hh (by rw [hd]; rfl) (.inl hd)).2
    · rw [← hn]; exact t.uninitSize hs hh hd
    · rw [← hn]; exact (t.plainData hs hh (by rw [hd]; rfl) (.inr hd)).2
  have hoff : live c.tables.segments ≠ [] → s.shFlags.testBit 1 = true → h.offset = s.shOffset := by
    intro h1 h2
    obtain ⟨a, ha, -⟩ := t.tab.attr hs
    have sz := x.lay.sizes i s a hs ha
    have hk : keepsOffset c s = true := by
      unfold keepsOffset isAlloc
      have hf := flag_test s.shFlags 1
      simp only [Nat.pow_one] at hf
      have he : Build.isEmpty c.tables.segments = false := by
        rw [Bool.eq_false_iff]
        intro h; exact h1 ((isEmpty_live _).1 h)
      rw [he, decide_eq_true (hf.2 h2)]; rfl
    rw [hh.offset]; exact (sz.alloc hk).1
  have main : ∀ info, LinkOf T.sections.length (if h.flags.testBit 6 then h.info else 0) info →
      h.link < T.sections.length →
      (match tableHeader c.is64 s.data with
        | none => h.type = s.shType ∧ h.flags = s.shFlags ∧ h.addralign = s.addralign ∧ h.entsize = s.entsize ∧
            Ref p.secs s.linkSection (linkIn h.link) ∧ Ref p.secs s.infoSection info ∧
            (s.infoSection = none → h.info = s.shInfo) ∧ ∀ i, s.infoSection = some i → ∃ j, Place p.secs i j ∧ h.info = j + 1
        | some k => h.type = k.1 ∧ h.flags = k.2.1 ∧ h.addralign = k.2.2.1 ∧ h.entsize = k.2.2.2.1 ∧ KindLink p.secs k.2.2.2.2 (linkIn h.link) ∧
            h.info = tableInfo c s.data ∧ info = none) →
      ∃ x, SectionOf T out (h, i + 1) x ∧ SecSame c p.secs p.syms (p.dyns.map (·.sym)) s x ∧ x.id = i ∧ x.delete = false := by
    intro info h1 h2 h3
    refine ⟨{ id := i, delete := false, name := s.name, shType := h.type, shFlags := h.flags, shAddr := h.addr, shOffset := h.offset, shSize := h.size, linkSection := linkIn h.link, shInfo := h.info, infoSection := info, addralign := h.addralign, entsize := h.entsize, data := d' }, ?_, ?_, rfl, rfl⟩
    · exact ⟨rfl, rfl, hname, rfl, rfl, rfl, rfl, rfl, linkOf_in h2, rfl, h1, rfl, rfl, hc⟩
    · exact ⟨rfl, hsame, hsize, hh.addr, hoff, h3⟩
  cases hn : tableHeader c.is64 s.data with
  | none =>
    obtain ⟨p1, p2, p3, p4, p5, p6⟩ := hh.hd.plain hn
    have hil := so.infoLink hn
    rw [hn] at main
    have hl : h.link < T.sections.length := by rw [hlen]; exact linkVal_lt p5
    by_cases hb6 : s.shFlags.testBit 6 = true
    · rw [if_pos hb6] at hil
      have p6' : LinkVal p.secs 0 s.infoSection h.info := by
        rcases p6 with ⟨a1, a2⟩ | a
        · rcases hil with hil | hil
          · exact absurd a1 hil
          · exact .inl ⟨a1, by rw [a2, hil]⟩
        · exact .inr a
      refine main (linkIn h.info) ?_ hl ⟨p1, p2, p3, p4, linkVal_ref p5, linkVal_ref p6', ?_, ?_⟩
      · rw [p2, if_pos hb6, hlen]; exact linkOf_in (linkVal_lt p6')
      · intro e
        rcases p6 with ⟨-, a2⟩ | ⟨i, j, a1, -⟩
        · exact a2
        · rw [e] at a1; cases a1
      · intro i e
        rcases p6 with ⟨a1, -⟩ | ⟨i', j, a1, a2, a3⟩
        · rw [e] at a1; cases a1
        · rw [e] at a1; cases a1; exact ⟨j, a3, a2⟩
    · rw [if_neg hb6] at hil
      refine main none ?_ hl ⟨p1, p2, p3, p4, linkVal_ref p5, .inl ⟨hil, rfl⟩, ?_, ?_⟩
      · rw [p2, if_neg hb6]; exact .inl ⟨rfl, rfl⟩
      · intro e
        rcases p6 with ⟨-, a2⟩ | ⟨i, j, a1, -⟩
        · exact a2
        · rw [e] at a1; cases a1
      · intro i e; rw [hil] at e; cases e
  | some k =>
    obtain ⟨A, F, B, E, K⟩ := k
    obtain ⟨p1, p2, p3, p4, p5, p6⟩ := hh.hd.table _ _ _ _ _ hn
    have hF : F.testBit 6 = false := by
      cases hd : s.data <;> simp only [hd, tableHeader, reduceCtorEq, Option.some.injEq, Prod.mk.injEq] at hn <;> rw [← hn.2.1] <;> decide
    have hK : ∀ k, K = some k → isMeta k = true := by
      intro k hk
      cases hd : s.data <;> simp only [hd, tableHeader, reduceCtorEq, Option.some.injEq, Prod.mk.injEq] at hn <;>
        rw [← hn.2.2.2.2] at hk <;> cases hk <;> rfl
    rw [hn] at main
    have hl : h.link < T.sections.length := by
      rw [hlen, p5]
      have := x.kindIdx_le K
      omega
    refine main none (by rw [p2, hF]; exact .inl ⟨rfl, rfl⟩) hl ⟨p1, p2, p3, p4, ?_, p6, rfl⟩
    rw [p5]
    show KindLink p.secs K (linkIn (kindIdx p K))
    cases K with
    | none => exact .inr ⟨rfl, by simp⟩
    | some k =>
      show KindLink p.secs (some k) (linkIn (p.idx k))
      by_cases h0 : p.idx k = 0
      · refine .inr ⟨by rw [h0]; rfl, ?_⟩
        intro s' hs' e
        injection e with e
        obtain ⟨m, hm⟩ := List.getElem?_of_mem hs'
        have := x.plan.idx.of m s' hm (by rw [← e]; exact hK k rfl)
        rw [← e] at this; omega
      · obtain ⟨-, s', e1, e2⟩ := x.plan.idx.at_ k h0
        exact .inl ⟨p.idx k - 1, s', by simp [linkIn, h0], e1, by rw [e2]⟩

/-- The sections that are read. -/
theorem Tabs.secs (t : Tabs c p l out ss T) {off : Nat} (hstr : T.strings = some (off, off + p.shstrtab.data.length)) (hb : Blk out off p.shstrtab.data) :
    ∃ xs, Each (SectionOf T out) (T.sections.zipIdx.drop 1) xs ∧ Each (SecSame c p.secs p.syms (p.dyns.map (·.sym))) p.secs xs ∧
      ∀ (i : Nat) x, xs[i]? = some x → x.id = i ∧ x.delete = false := by
  have key : ∀ i, i < p.secs.length → ∃ y : Sec, ∃ s h, p.secs[i]? = some s ∧ ss[i + 1]? = some h ∧ SectionOf T out (h, i + 1) y ∧
      SecSame c p.secs p.syms (p.dyns.map (·.sym)) s y ∧ y.id = i ∧ y.delete = false := by
    intro i hi
    have hs : p.secs[i]? = some p.secs[i] := List.getElem?_eq_getElem hi
    obtain ⟨h, e1, e2⟩ := t.tab.at_ i _ hs
    obtain ⟨y, y1, y2, y3, y4⟩ := t.sectionAt hstr hb hs e2
    exact ⟨y, _, h, hs, e1, y1, y2, y3, y4⟩
  obtain ⟨xs, hl, hx⟩ := list_exists p.secs.length key
  have hlen : (T.sections.zipIdx.drop 1).length = p.secs.length := by rw [t.sections]; simp [t.tab.len]
  refine ⟨xs, each_of_forall (by rw [hl, hlen]) ?_, each_of_forall hl ?_, ?_⟩
  · intro i a y ha hy
    obtain ⟨s, h, -, h2, h3, -⟩ := hx i y hy
    rw [List.getElem?_drop, t.sections, List.getElem?_zipIdx, Nat.add_comm 1 i, h2] at ha
    simp only [Option.map_some, Option.some.injEq] at ha
    rw [← ha]; simpa using h3
  · intro i a y ha hy
    obtain ⟨s, h, h1, -, -, h4, -⟩ := hx i y hy
    rw [h1] at ha; cases ha; exact h4
  · intro i y hy
    obtain ⟨s, h, -, -, -, -, h5⟩ := hx i y hy
    exact h5

end
end Obj.BuildW

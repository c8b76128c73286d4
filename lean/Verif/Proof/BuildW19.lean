import Verif.Proof.BuildW18

/-! Writing with the ELF builder: the file that is written can be read again. -/

namespace Obj.BuildW
open Obj Obj.Build Obj.BuildR Obj.Spec
open Obj.Spec.MachoF (Each num)
open Obj.Spec.ElfF (DataOf RecordsOf)
open Obj.Spec.BuildR (InFirst Defs Needs VersionsOf VersionOf SymVersions Tables StrAt DefOf NeedOf BaseOf indices isBase SymbolOf Image ImageOf paramOf segmentOf loadAlignOf)
open Obj.Spec.BuildW (live Place Ref Sound isDef needsFrom versionOrder VerOk VerSame VersionSame SymSame has Fresh IdsOk Same phdrOf symbolOrder localSym)
open Obj.Elf (Shdr WVerdef WVerneed WVernaux Verdef Verdaux Verneed Vernaux)

theorem versym_bits {n : Nat} (h : n < 0x8000) (b : Bool) :
    (if b then n % 65536 ||| 0x8000 else n % 65536) < 65536 ∧ (if b then n % 65536 ||| 0x8000 else n % 65536).testBit 15 = b ∧
    (if b then n % 65536 ||| 0x8000 else n % 65536) % 2 ^ 15 = n := by
  have e : n % 65536 = n := Nat.mod_eq_of_lt (by omega)
  rw [e]
  cases b with
  | false =>
    simp only [Bool.false_eq_true, if_false]
    exact ⟨by omega, Nat.testBit_lt_two_pow (by omega), Nat.mod_eq_of_lt (by omega)⟩
  | true =>
    simp only [if_true]
    have : n ||| 0x8000 = 2 ^ 15 * 1 + n := by rw [Nat.or_comm]; exact (Nat.two_pow_add_eq_or_of_lt (i := 15) (by omega) 1).symm
    rw [this]
    refine ⟨by omega, ?_, by omega⟩
    rw [Nat.testBit_eq_decide_div_mod_eq]
    have : (2 ^ 15 * 1 + n) / 2 ^ 15 = 1 := by omega
    rw [this]; rfl

section
variable {c : Full} {p : Plan} {l : Layout} {out : List UInt8} {ss : List Shdr} {T : Tables}

theorem sym_version (x : Ctx c p l out) {s : Sym} (hs : s ∈ p.dyns.map (·.sym)) :
    s.version < 0x8000 ∧ (s.version < 2 ∨ 2 ≤ s.version ∧ ∃ j, Place (versionOrder c.tables) (s.version - 2) j) := by
  have hl : s ∈ live c.tables.dynamicSymbols := x.plan.dyns.1.mem_iff.1 hs
  by_cases h : s.version < 2
  · exact ⟨by omega, .inl h⟩
  · obtain ⟨v, h1, h2⟩ := x.sound.versions.1 s hl (by omega)
    have hid : v.id = s.version - 2 := x.sound.ids.2.2.2.1 _ _ h1
    have hv : v ∈ live c.tables.versions := List.mem_filter.2 ⟨List.mem_of_getElem? h1, by simpa using h2⟩
    have := ver_id_lt x.plan x.sound hv
    have hlt := (List.getElem?_eq_some_iff.1 h1).1
    obtain ⟨t, -, ht, -⟩ := x.plan.ver
    have := (versions_defs ht).2
    obtain ⟨j, hj⟩ := List.getElem?_of_mem (mem_order x.sound hv)
    exact ⟨by omega, .inr ⟨by omega, j, v, hj, hid⟩⟩

theorem Tabs.dynSyms (t : Tabs c p l out ss T) {inds : List Nat} (hi : inds = (versionOrder c.tables).map fun v => v.id + 2) :
    ∃ ys, Each (SymbolOf out T.dynSymbols T.sections.length) (T.dynSymbols.symbols.zipIdx.drop 1) ys ∧ SymVersions T out inds ys ∧
      (∃ table, (table = true ↔ has c .gnuVersym) ∧
        Each (fun s y => SymSame p.secs s y ∧ VersionSame table (versionOrder c.tables) s y) (p.dyns.map (·.sym)) ys) ∧ Fresh ys := by
  have x := t.tab.ctx
  obtain ⟨wd, hwd⟩ := t.dynSymbols
  have hhas := t.tab.idx_has (k := .gnuVersym) rfl
  rw [t.sections]
  by_cases h0 : p.idx .gnuVersym = 0
  · obtain ⟨ys, y1, y2, y3⟩ := t.tab.dynamicSymbols hwd (fun _ => 0) (fun _ => false)
    refine ⟨ys, y1, .inl ⟨by rw [t.sections]; exact t.tab.absent rfl h0, ?_⟩, ⟨false, ?_, ?_⟩, ?_⟩
    · intro y hy
      obtain ⟨i, hi⟩ := List.getElem?_of_mem hy
      exact (y3 i y hi).2.2
    · rw [← hhas]; simp [h0]
    · have hl := each_length y2
      refine each_of_forall hl ?_
      intro i s y hs hy
      obtain ⟨y', e1, e2⟩ := each_get_left y2 hs
      rw [hy] at e1; cases e1
      exact ⟨e2, (y3 i y hy).2.2⟩
    · intro i y hy
      exact ⟨(y3 i y hy).1, (y3 i y hy).2.1⟩
  · have hdyn : p.idx .dynamicSymbol ≠ 0 := by
      obtain ⟨-, -, -, t4, -⟩ := x.sound.tables
      exact (t.tab.idx_has rfl).2 (t4 (hhas.1 h0))
    have hnum : p.dynNum = 1 + p.dyns.length := by
      rcases x.plan.dynNum with ⟨h, -⟩ | ⟨-, h, -⟩
      · exact absurd h hdyn
      · exact h
    -- The version of each symbol.
    let P : Nat → Nat → Prop := fun i k => ∀ s, (p.dyns.map (·.sym))[i]? = some s →
      s.version < 2 ∧ k = s.version ∨ 2 ≤ s.version ∧ ∃ j, Place (versionOrder c.tables) (s.version - 2) j ∧ k = j + 2
    obtain ⟨ks, hk1, hk2⟩ := list_exists (P := P) (p.dyns.map (·.sym)).length (by
      intro i hi
      have hs : (p.dyns.map (·.sym))[i]? = some _ := List.getElem?_eq_getElem hi
      rcases (sym_version x (List.mem_of_getElem? hs)).2 with h | ⟨h, j, hj⟩
      · refine ⟨((p.dyns.map fun d : DynOut => d.sym)[i]'hi).version, fun s e => .inl ?_⟩
        rw [hs] at e; cases e; exact ⟨h, rfl⟩
      · refine ⟨j + 2, fun s e => .inr ?_⟩
        rw [hs] at e; cases e; exact ⟨h, j, hj, rfl⟩)
    obtain ⟨ys, y1, y2, y3⟩ := t.tab.dynamicSymbols hwd (fun i => ks.getD i 0) (fun i => ((p.dyns.map (·.sym))[i]?.map (·.versionHidden)).getD false)
    have hl := each_length y2
    have hat : ∀ (i : Nat) s y, (p.dyns.map (·.sym))[i]? = some s → ys[i]? = some y → y.versionHidden = s.versionHidden ∧
        (s.version < 2 ∧ y.version = s.version ∨ 2 ≤ s.version ∧ ∃ j, Place (versionOrder c.tables) (s.version - 2) j ∧ y.version = j + 2) := by
      intro i s y hs hy
      obtain ⟨-, -, a, b⟩ := y3 i y hy
      have hlt := (List.getElem?_eq_some_iff.1 hs).1
      have hk : ks[i]? = some (ks.getD i 0) := by
        rw [List.getD_eq_getElem?_getD, List.getElem?_eq_getElem (by omega)]; rfl
      refine ⟨by rw [b, hs]; rfl, ?_⟩
      rw [a]
      exact hk2 i _ hk s hs
    refine ⟨ys, y1, .inr ?_, ⟨true, ?_, ?_⟩, ?_⟩
    · obtain ⟨i, s, h, e1, e2, e3, e4, e5⟩ := t.tab.kind h0
      obtain ⟨d, al, k1, k2, k3⟩ := t.tab.allocOnly e2 (by rw [e3]; simp) (by simp [otherBytes, e3]) (by rw [e3]; simp) (by rw [e3]; simp) (by rw [e3]; simp) (by rw [e3]; simp) (by rw [e3]; simp)
      unfold allocBytes at k1
      unfold allocSize at k3
      simp only [e3] at k1 k3
      injection k3 with k3
      have hz := (Prod.mk.inj k3).1
      injection k1 with k1
      obtain ⟨p1, p2, p3, p4, p5, p6⟩ := e5.hd.table _ _ _ _ _ (by rw [e3]; rfl)
      have hd : d = (0 :: (p.dyns.map (·.sym)).map versymOf).flatMap (wr p.cfg.en 2) := by
        rw [← k1]
        unfold versymBytes
        rw [List.flatMap_cons, List.map_map, List.flatMap_map]
        rfl
      have hb : ∀ n ∈ 0 :: (p.dyns.map (·.sym)).map versymOf, n < 65536 := by
        intro n hn
        rcases List.mem_cons.1 hn with rfl | hn
        · decide
        · obtain ⟨s, hs, rfl⟩ := List.mem_map.1 hn
          exact (versym_bits (sym_version x hs).1 s.versionHidden).1
      rw [t.sections, t.cfg]
      refine ⟨i + 1, h, 0 :: (p.dyns.map (·.sym)).map versymOf, e4, p1, by rw [← e1]; exact t.tab.first rfl, ?_, ?_, ?_, ?_⟩
      · rw [← e5.offset, hd] at k2
        refine recordsOf_blk (dec := rd p.cfg.en) (by decide) (fun o _ => rfl) (fun n _ => length_wr _ _ _) (fun n hn => rd_wr _ _ _ (by simpa using hb n hn)) k2
          (by rw [p1]; decide) ?_
        rw [e5.size, ← hz, hnum]
        simp; omega
      · rw [hwd.symbols, if_neg hdyn]
        have := each_length hwd.each
        simp at this ⊢; omega
      · rw [hwd.sec]; exact p5
      · show Each _ ((p.dyns.map (·.sym)).map versymOf) ys
        rw [each_map_left]
        refine each_of_forall hl ?_
        intro i s y hs hy
        obtain ⟨a, b⟩ := hat i s y hs hy
        have hv := versym_bits (sym_version x (List.mem_of_getElem? hs)).1 s.versionHidden
        refine ⟨?_, ?_⟩
        · rw [a]; exact hv.2.1.symm
        · have e : versymOf s % 2 ^ 15 = s.version := hv.2.2
          rw [e]
          rcases b with ⟨b1, b2⟩ | ⟨b1, j, ⟨v, b2, b3⟩, b4⟩
          · rw [b2]
            have : s.version = 0 ∨ s.version = 1 := by omega
            rcases this with h | h
            · exact .inl ⟨h, h⟩
            · exact .inr (.inl ⟨h, h⟩)
          · refine .inr (.inr ⟨j, ?_, b4⟩)
            rw [hi, List.getElem?_map, b2]
            have b3 : v.id = s.version - 2 := b3
            simp only [Option.map_some, Option.some.injEq]
            omega
    · rw [← hhas]; simp [h0]
    · refine each_of_forall hl ?_
      intro i s y hs hy
      obtain ⟨y', e1, e2⟩ := each_get_left y2 hs
      rw [hy] at e1; cases e1
      exact ⟨e2, hat i s y hs hy⟩
    · intro i y hy
      exact ⟨(y3 i y hy).1, (y3 i y hy).2.1⟩

/-- The whole file. -/
theorem Ctx.image (x : Ctx c p l out) : ∃ b, Image c.is64 out b ∧ Same c b := by
  obtain ⟨ss, tb⟩ := x.tab
  obtain ⟨st, ws, s1, s2⟩ := tb.symtab
  obtain ⟨dt, wd, d1, d2⟩ := tb.dynsymtab
  obtain ⟨off, n1, n2⟩ := tb.names
  obtain ⟨c1, c2, c3, c4, c5, c6⟩ := x.counts
  let T : Tables := { cfg := p.cfg, machine := c.header.eMachine, names := p.idx .sectionString, sections := ss, strings := some (off, off + p.shstrtab.data.length), symbols := st, dynSymbols := dt }
  have t : Tabs c p l out ss T := ⟨tb, rfl, rfl, rfl, rfl, ⟨ws, s2⟩, ⟨wd, d2⟩⟩
  obtain ⟨xs, x1, x2, x3⟩ := t.secs rfl n2
  obtain ⟨ys, y1, y2, y3⟩ := tb.symbols s2
  obtain ⟨defs, needs, vers, files, v1, v2, v3, v4, v5, v6, v7, v8⟩ := t.versions
  obtain ⟨zs, z1, z2, z3, z4⟩ := t.dynSyms v4
  have hsecs := x.secs
  have hsyms : p.syms = symbolOrder c.tables.symbols := by
    rw [x.plan.syms, ordered_eq]
  have hhash : (has c .hash → paramOf p.cfg.en out ss 5 0 = c.hashBuckets) ∧ (¬ has c .hash → paramOf p.cfg.en out ss 5 0 = 0) := by
    have hh := tb.idx_has (k := .hash) rfl
    unfold paramOf
    constructor
    · intro h
      have h0 := hh.2 h
      obtain ⟨i, s, h, e1, e2, e3, e4, e5⟩ := tb.kind h0
      rw [tb.last (k := .hash) rfl h0 (by rw [e1]; exact e4)]
      exact (tb.hash e2 e5 e3).2
    · intro h
      rw [tb.none_last (k := .hash) rfl (by by_cases h0 : p.idx .hash = 0; exact h0; exact absurd (hh.1 h0) h)]
  have hgnu : (has c .gnuHash → paramOf p.cfg.en out ss 0x6ffffff6 0 = c.gnuBuckets ∧ paramOf p.cfg.en out ss 0x6ffffff6 8 = c.bloomCount ∧
      paramOf p.cfg.en out ss 0x6ffffff6 12 = c.bloomShift) ∧ (¬ has c .gnuHash → ∀ o, paramOf p.cfg.en out ss 0x6ffffff6 o = 0) := by
    have hh := tb.idx_has (k := .gnuHash) rfl
    unfold paramOf
    constructor
    · intro h
      have h0 := hh.2 h
      obtain ⟨i, s, h, e1, e2, e3, e4, e5⟩ := tb.kind h0
      rw [tb.last (k := .gnuHash) rfl h0 (by rw [e1]; exact e4)]
      exact (tb.gnuHash e2 e5 e3).2
    · intro h o
      rw [tb.none_last (k := .gnuHash) rfl (by by_cases h0 : p.idx .gnuHash = 0; exact h0; exact absurd (hh.1 h0) h)]
  let ps := (live c.tables.segments).map phdrOf
  have hph : l.phoff = if live c.tables.segments = [] then 0 else c.header.ePhoff := by
    have hsn : l.segNum = (live c.tables.segments).length := by
      rw [x.lay.segNum.1, count_le, iter_eq]; simp [live]
    rcases x.lay.phoff with ⟨h, h'⟩ | ⟨h, h', -⟩
    · rw [if_pos (List.length_eq_zero_iff.1 (by omega)), h']
    · rw [if_neg (by intro e; rw [e] at hsn; exact h hsn), h']
  let b : Full := { endian := p.cfg.en, is64 := c.is64, loadAlign := loadAlignOf ps, header := ⟨c.header.osAbi, c.header.abiVersion, c.header.eType, c.header.eMachine, c.header.eEntry, c.header.eFlags, l.phoff⟩, versionBase := c.versionBase, hashBuckets := paramOf p.cfg.en out ss 5 0, gnuBuckets := paramOf p.cfg.en out ss 0x6ffffff6 0, bloomCount := paramOf p.cfg.en out ss 0x6ffffff6 8, bloomShift := paramOf p.cfg.en out ss 0x6ffffff6 12, tables := { segments := ps.zipIdx.map (segmentOf xs), sections := xs, symbols := ys, dynamicSymbols := zs, versions := vers, versionFiles := files } }
  have hhead : b.header = { c.header with ePhoff := if live c.tables.segments = [] then 0 else c.header.ePhoff } := by rw [← hph]
  refine ⟨b, ⟨T, headOf c p l, ps, ?_⟩, ?_⟩
  · exact {
      width := x.is64, size := by rw [← x.is64]; exact c2, ident := by rw [← x.is64]; exact c3, header := c1.symm, machine := rfl
      names := c6, segments := x.segs, sections := tb.of, strings := n1, symbols := s1, dynSymbols := d1, bEndian := rfl, bIs64 := rfl
      bLoadAlign := rfl, bHeader := rfl, bSegments := rfl, bSections := x1, bHash := rfl, bGnuHash := ⟨rfl, rfl, rfl⟩, bSymbols := y1
      bSymbolVersions := fun y hy => (each_mem y2 hy).elim fun _ h => h.2.2, bDynSymbols := z1, bVersions := ⟨defs, needs, v1, v2, v3, z2⟩ }
  · obtain ⟨table, z5, z6⟩ := z3
    exact {
      endian := x.en, is64 := rfl, loadAlign := rfl, header := hhead, versionBase := rfl
      hash := hhash.1, gnuHash := hgnu.1, noHash := hhash.2, noGnuHash := fun h => ⟨hgnu.2 h _, hgnu.2 h _, hgnu.2 h _⟩
      fresh := ⟨fresh_zipIdx _ _ fun _ _ => ⟨rfl, rfl⟩, x3, y3, z4, v7, v8⟩
      segments := rfl
      tables := ⟨p.dyns.map (·.sym), x.plan.dyns, by rw [← hsecs, ← hsyms]; exact x2, by rw [← hsecs, ← hsyms]; exact y2, table, z5, by rw [← hsecs]; exact z6⟩
      versions := v5, files := v6 }

end

theorem writeClean_ctx {c : Full} {out : List UInt8} (h : writeClean c = .ok out) (hs : Sound c) : ∃ p l, Ctx c p l out ∧ layout c p = .ok l ∧ plan c = .ok p := by
  unfold writeClean at h
  simp only [Res.bind_eq_ok] at h
  obtain ⟨p, h1, l, h2, h3⟩ := h
  have hp := plan_ok ⟨hs.ids.1, hs.ids.2.1, hs.ids.2.2.1⟩ h1
  have hl := layout_ok hp.idx h2
  have he : Emitted c p l out := by
    refine emit_ok h3 ?_ ?_
    · intro h
      rcases hp.symNum with ⟨-, h, -⟩ | ⟨h', -⟩
      · exact h
      · exact absurd h h'
    · intro h
      rcases hl.shoff with ⟨h1, -⟩ | ⟨-, h1, -⟩
      · rcases hp.secNum with ⟨h, -⟩ | ⟨-, h, -⟩
        · exact h
        · omega
      · have : 52 ≤ p.cfg.ehdrSize := by unfold Elf.Cfg.ehdrSize; split <;> omega
        omega
  exact ⟨p, l, ⟨hp, hl, he, hs, layout_off h2⟩, h2, h1⟩

/-- A file that is written can be read. -/
theorem writeClean_image {c : Full} {out : List UInt8} (h : writeClean c = .ok out) (hs : Sound c) : ∃ b, Image c.is64 out b ∧ Same c b ∧ out.length < 2 ^ 64 := by
  obtain ⟨p, l, x, -, -⟩ := writeClean_ctx h hs
  obtain ⟨b, b1, b2⟩ := x.image
  exact ⟨b, b1, b2, x.out64⟩

end Obj.BuildW

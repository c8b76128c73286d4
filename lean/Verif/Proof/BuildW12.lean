import Verif.Proof.BuildW11

/-! Writing with the ELF builder: the contents of sections. -/

namespace Obj.BuildW
open Obj Obj.Build Obj.BuildR Obj.Spec
open Obj.Spec.MachoF (Each num)
open Obj.Spec.ElfF (word headerSize segmentSize sectionSize symbolSize headerIn segmentAt sectionAt symbolAt SegmentsOf SectionsOf NamesIndex NamesOf SegmentCount SectionCount RecordsOf StringsOf Extends SymbolsOf DataOf)
open Obj.Spec.BuildW (live Place Ref localSym symbolOrder DynOrder IdsOk Sound KindOk SecOk SymOk RelOk DynOk LinksTo tableHeader tableInfo isDef wordLimit phdrOf SymSame RelSame DataSame SecSame KindLink dataSize SubSame)
open Obj.Spec.BuildR (StrAt LinkOf SymSection SymbolOf Tables RelocsOf RelocOf relocAt dynAt DynOf Contents DynamicRelocs StaticRelocs AttributesOf SectionOf)
open Obj.Build.Spec (Live NoOrphans)
open Obj.Elf (StrTable Shdr Phdr Ehdr SymTab)

section
variable {c : Full} {p : Plan} {l : Layout} {out : List UInt8} {ss : List Shdr}

theorem secs_nodup (x : Ctx c p l out) : (p.secs.map Item.id).Nodup := by
  rw [x.plan.secs]; exact ids_nodup x.sound.ids.1

/-- A place is unique. -/
theorem place_unique {α : Type} [Item α] {xs : List α} (h : (xs.map Item.id).Nodup) {i j j' : Nat} (h1 : Place xs i j) (h2 : Place xs i j') : j = j' := by
  obtain ⟨y, hy, he⟩ := h1
  obtain ⟨y', hy', he'⟩ := h2
  have a1 : (xs.map Item.id)[j]? = some i := by rw [List.getElem?_map, hy]; simp [he]
  have a2 : (xs.map Item.id)[j']? = some i := by rw [List.getElem?_map, hy']; simp [he']
  exact (List.getElem?_inj (List.getElem?_eq_some_iff.1 a1).1 h).1 (a1.trans a2.symm)

theorem Tab.linksTo (t : Tab c p l out ss) {s : Sec} {k : SecData} (hm : isMeta k = true) (hl : LinksTo p.secs s k) {r : Nat}
    (hv : LinkVal p.secs 0 s.linkSection r) : p.idx k ≠ 0 ∧ r = p.idx k := by
  obtain ⟨y, hy, e1, e2⟩ := hl
  obtain ⟨m, hm'⟩ := List.getElem?_of_mem hy
  have hi := t.ctx.plan.idx.of m y hm' (by rw [e1]; exact hm)
  rw [e1] at hi
  rcases hv with ⟨h1, -⟩ | ⟨i, j, h1, h2, h3⟩
  · rw [e2] at h1; cases h1
  · rw [e2] at h1
    cases h1
    have := place_unique (secs_nodup t.ctx) h3 ⟨y, hm', rfl⟩
    omega

theorem Tab.range (t : Tab c p l out ss) {i : Nat} {s : Sec} {h : Shdr} (hs : p.secs[i]? = some s) (hh : HdrAt c p l i s h)
    (hu : ∀ len, s.data ≠ .uninit len) : h.offset + h.size ≤ out.length := by
  rw [hh.offset, hh.size, t.ctx.em.len]
  rcases t.ctx.off i s hs with h | ⟨len, h, -⟩
  · exact h
  · exact absurd h (hu len)

/-- A 32-bit number in a block. -/
theorem blk_num {en : Endianness} {o v : Nat} (hv : v < 2 ^ 32) (h : Blk out o (wr en 4 v)) : num en out o 4 = v := by
  have h1 := h.1
  rw [length_wr] at h1
  show rd en (slice out o 4) = v
  rw [h1]
  exact wr_dec en v hv

/-- The parameters of the hash table. -/
theorem Tab.hash (t : Tab c p l out ss) {i : Nat} {s : Sec} {h : Shdr} (hs : p.secs[i]? = some s) (hh : HdrAt c p l i s h) (hd : s.data = .hash) :
    8 ≤ h.size ∧ num p.cfg.en out h.offset 4 = c.hashBuckets := by
  obtain ⟨d, al, k1, k2, k3⟩ := t.allocOnly hs (by rw [hd]; simp) (by simp [otherBytes, hd]) (by rw [hd]; simp) (by rw [hd]; simp) (by rw [hd]; simp) (by rw [hd]; simp) (by rw [hd]; simp)
  unfold allocBytes at k1
  unfold allocSize at k3
  simp only [hd] at k1 k3
  injection k3 with k3
  have hz := (Prod.mk.inj k3).1
  refine ⟨by rw [hh.size]; omega, ?_⟩
  unfold hashBytes at k1
  split at k1
  · cases k1
  · unfold Elf.hashTable at k1
    split at k1
    · cases k1
    · injection k1 with k1
      rw [← k1, ← hh.offset] at k2
      rw [show Elf.words p.cfg.en [c.hashBuckets, p.dynNum] = wr p.cfg.en 4 c.hashBuckets ++ wr p.cfg.en 4 p.dynNum by simp [Elf.words]] at k2
      exact blk_num t.ctx.sound.params.1 (blk_append.1 (blk_append.1 (blk_append.1 k2).1).1).1

theorem Tab.gnuHash (t : Tab c p l out ss) {i : Nat} {s : Sec} {h : Shdr} (hs : p.secs[i]? = some s) (hh : HdrAt c p l i s h) (hd : s.data = .gnuHash) :
    16 ≤ h.size ∧ num p.cfg.en out h.offset 4 = c.gnuBuckets ∧ num p.cfg.en out (h.offset + 8) 4 = c.bloomCount ∧
      num p.cfg.en out (h.offset + 12) 4 = c.bloomShift := by
  obtain ⟨d, al, k1, k2, k3⟩ := t.allocOnly hs (by rw [hd]; simp) (by simp [otherBytes, hd]) (by rw [hd]; simp) (by rw [hd]; simp) (by rw [hd]; simp) (by rw [hd]; simp) (by rw [hd]; simp)
  unfold allocBytes at k1
  unfold allocSize at k3
  simp only [hd] at k1 k3
  injection k3 with k3
  have hz := (Prod.mk.inj k3).1
  refine ⟨by rw [hh.size]; omega, ?_⟩
  unfold gnuHashBytes at k1
  split at k1
  · cases k1
  · split at k1
    · cases k1
    · rw [Res.bind_eq_ok] at k1
      obtain ⟨hs', -, k1⟩ := k1
      unfold Elf.gnuHashTable at k1
      split at k1
      · cases k1
      · replace k1 := Res.bind_eq_ok.1 k1
        obtain ⟨bs, -, k1⟩ := k1
        injection k1 with k1
        rw [← k1, ← hh.offset] at k2
        have k4 := (blk_append.1 (blk_append.1 (blk_append.1 k2).1).1).1
        rw [show ∀ a b e f : Nat, Elf.words p.cfg.en [a, b, e, f] = wr p.cfg.en 4 a ++ (wr p.cfg.en 4 b ++ (wr p.cfg.en 4 e ++ wr p.cfg.en 4 f)) by
          intro a b e f; simp [Elf.words]] at k4
        obtain ⟨q1, k4⟩ := blk_append.1 k4
        obtain ⟨-, k4⟩ := blk_append.1 k4
        obtain ⟨q3, q4⟩ := blk_append.1 k4
        simp only [length_wr] at q3 q4
        obtain ⟨-, p2, p3, p4⟩ := t.ctx.sound.params
        exact ⟨blk_num p2 q1, blk_num p3 (by simpa [Nat.add_assoc] using q3), blk_num p4 (by simpa [Nat.add_assoc] using q4)⟩

theorem dataOf_range {h : Shdr} (ht : h.type ≠ 8) (hr : h.offset + h.size ≤ out.length) : ∃ d, DataOf out h d ∧ d.length = h.size := by
  unfold DataOf
  by_cases h0 : h.size = 0
  · exact ⟨[], by rw [if_pos (.inr h0)], by simp [h0]⟩
  · have hn : ¬ (h.type = 8 ∨ h.size = 0) := by
      rintro (h | h)
      · exact ht h
      · exact h0 h
    refine ⟨_, by rw [if_neg hn]; exact ⟨hr, rfl⟩, ?_⟩
    simp [slice]; omega

/-- The tables of the file. -/
structure Tabs (c : Full) (p : Plan) (l : Layout) (out : List UInt8) (ss : List Shdr) (T : Tables) : Prop where
  tab : Tab c p l out ss
  cfg : T.cfg = p.cfg
  machine : T.machine = c.header.eMachine
  names : T.names = p.idx .sectionString
  sections : T.sections = ss
  symbols : ∃ ws, TabSym p out p.strtab .symbol .string (p.idx .symbolSectionIndex) p.syms T.symbols ws
  dynSymbols : ∃ ws, TabSym p out p.dynstr .dynamicSymbol .dynamicString 0 (p.dyns.map (·.sym)) T.dynSymbols ws

variable {T : Tables}

theorem Tabs.symLen (t : Tabs c p l out ss T) : T.symbols.symbols.length = if p.idx .symbol = 0 then 0 else 1 + p.syms.length := by
  obtain ⟨ws, hw⟩ := t.symbols
  rw [hw.symbols]
  split
  · rfl
  · have := each_length hw.each
    simp; omega

theorem Tabs.dynLen (t : Tabs c p l out ss T) : T.dynSymbols.symbols.length = if p.idx .dynamicSymbol = 0 then 0 else 1 + p.dyns.length := by
  obtain ⟨ws, hw⟩ := t.dynSymbols
  rw [hw.symbols]
  split
  · rfl
  · have := each_length hw.each
    simp at this ⊢; omega

theorem Tabs.metaIdx (t : Tabs c p l out ss T) {i : Nat} {s : Sec} (hs : p.secs[i]? = some s) (hm : isMeta s.data = true) : i + 1 = p.idx s.data :=
  (t.tab.ctx.plan.idx.of i s hs hm).symm

theorem Tabs.notKind (t : Tabs c p l out ss T) {i : Nat} {s : Sec} (hs : p.secs[i]? = some s) {k : SecData} (hk : s.data ≠ k) : i + 1 ≠ p.idx k := by
  intro e
  obtain ⟨-, s', h1, h2⟩ := t.tab.ctx.plan.idx.at_ k (by omega)
  rw [← e] at h1
  simp only [Nat.add_sub_cancel] at h1
  rw [hs] at h1
  cases h1
  exact hk h2

/-- Plain data of a section. -/
theorem Tabs.plainData (t : Tabs c p l out ss T) {i : Nat} {s : Sec} {h : Shdr} (hs : p.secs[i]? = some s) (hh : HdrAt c p l i s h)
    (hn : tableHeader c.is64 s.data = none) {d : List UInt8} (hd : s.data = .data d ∨ s.data = .note d) : DataOf out h d ∧ h.size = d.length := by
  obtain ⟨a, ha, -⟩ := t.tab.attr hs
  have hu : ∀ len, s.data ≠ .uninit len := by intro len e; rcases hd with h | h <;> rw [h] at e <;> cases e
  have h8 := kind_ne8 (t.tab.ctx.sec_ok hs).2 hu
  have ht : h.type ≠ 8 := by rw [(hh.hd.plain hn).1]; exact h8
  rcases t.tab.bytes hs ha hu with ⟨-, d', al, k1, k2, k3⟩ | ⟨-, ⟨d', k1, k2, k3⟩ | ⟨rs, d', k1, -⟩ | k | k | k | k⟩
  · unfold allocBytes at k1
    unfold allocSize at k3
    rcases hd with hd | hd
    all_goals
      simp only [hd] at k1 k3
      cases k1
      injection k3 with k3
      have hz := (Prod.mk.inj k3).1
      exact ⟨dataOf_blk (by rw [hh.offset]; exact k2) ht (by rw [hh.size, hz]), by rw [hh.size, hz]⟩
  · unfold otherBytes at k1
    rcases hd with hd | hd
    all_goals
      simp only [hd] at k1
      cases k1
      exact ⟨dataOf_blk (by rw [hh.offset]; exact k2) ht (by rw [hh.size, k3]), by rw [hh.size, k3]⟩
  all_goals
    exfalso
    rcases hd with hd | hd
    all_goals
      first
      | (rw [hd] at k1; cases k1)
      | (rw [hd] at k; cases k)

theorem Tabs.relocs (t : Tabs c p l out ss T) {i : Nat} {s : Sec} {h : Shdr} (hs : p.secs[i]? = some s) (hh : HdrAt c p l i s h) {rs : List Build.Rel}
    (hd : s.data = .relocs rs) : ∃ d', Contents T out (i + 1) h s.name d' ∧ DataSame p.secs p.syms (p.dyns.map (·.sym)) s.data d' := by
  have x := t.tab.ctx
  obtain ⟨a, ha, -⟩ := t.tab.attr hs
  have hk := (x.sec_ok hs).2
  unfold KindOk at hk
  simp only [hd] at hk
  obtain ⟨k49, kf, kl, kr, km⟩ := hk
  obtain ⟨p1, p2, -, -, p5, -⟩ := hh.hd.plain (by rw [hd]; rfl)
  obtain ⟨l1, l2⟩ := t.tab.linksTo (k := .symbol) rfl kl p5
  rcases t.tab.bytes hs ha (by rw [hd]; simp) with ⟨hko, -⟩ | ⟨-, ⟨d', q, -⟩ | ⟨rs', d, q1, q2, q3, q4⟩ | q | q | q | q⟩
  · exfalso
    have := (keeps_alloc hko).2
    unfold isAlloc at this
    have hf := flag_test s.shFlags 1
    simp only [Nat.pow_one] at hf
    have := hf.1 (of_decide_eq_true this)
    rw [kf] at this; cases this
  · unfold otherBytes at q; simp only [hd] at q; cases q
  · rw [hd] at q1
    cases q1
    have hlive : ∀ r ∈ rs, ∀ i, r.symbol = some i → i ∈ p.syms.map Item.id := by
      intro r hr j hj
      have hsec : s ∈ c.tables.sections ∧ s.delete = false := by
        have := List.mem_of_getElem? hs
        rw [x.secs] at this
        have h9 := List.mem_filter.1 this
        exact ⟨h9.1, by have h8 := h9.2; rw [Bool.not_eq_true'] at h8; exact h8⟩
      have hl := x.sound.noOrphans.rels s hsec.1 hsec.2 rs hd r hr j hj
      have hm := live_mem x.sound.ids.2.1 hl
      rw [x.plan.syms]
      have hp := (ordered_perm c.tables.symbols).map Item.id
      rw [iter_eq] at hp
      exact hp.mem_iff.2 hm
    have hsyms : p.syms = symbolOrder c.tables.symbols := by rw [x.plan.syms, ordered_eq]
    have hlen : p.syms.length < 2 ^ 32 - 1 := by
      rcases x.plan.symNum with ⟨h, -⟩ | ⟨-, h1, h2⟩
      · exact absurd h l1
      · omega
    obtain ⟨es, e1, e2⟩ := t.tab.relocs (h := h) x.plan.symIdx q2 (by rw [hh.offset]; exact q3) (by rw [hh.size]; exact q4) p1 k49 hlive
      (fun r hr => by
        have := kr r hr
        rw [← hsyms] at this
        exact ⟨this.offset, this.typ, this.sym, this.addend⟩) km hlen T ⟨t.cfg, t.machine⟩
    have hcount : T.symbols.symbols.length = 1 + p.syms.length := by rw [t.symLen, if_neg l1]
    obtain ⟨ys, y1, y2⟩ := relocs_read (count := T.symbols.symbols.length) e1 (fun r hr i j _ hp => by
      have := place_lt hp; omega)
    refine ⟨.relocs ys, .relocs ⟨?_, ?_, ?_, ?_⟩ (e2 _ _ y1), by rw [hd]; exact .relocs y2⟩
    · obtain ⟨ws, hw⟩ := t.dynSymbols
      rw [hw.sec, l2]
      exact t.tab.kinds_ne (by simp) l1
    · rw [l2]; exact l1
    · rw [p2]; exact kf
    · obtain ⟨ws, hw⟩ := t.symbols
      rw [hw.sec, l2]
  all_goals rw [hd] at q; cases q

theorem Tab.allocFlag (t : Tab c p l out ss) {i : Nat} {s : Sec} (hs : p.secs[i]? = some s) (hu : ∀ len, s.data ≠ .uninit len)
    (ho : ∀ a, otherBytes (s, a) = none) (h1 : ∀ rs, s.data ≠ .relocs rs) (h2 : s.data ≠ .symbol) (h3 : s.data ≠ .symbolSectionIndex)
    (h4 : s.data ≠ .string) (h5 : s.data ≠ .sectionString) : keepsOffset c s = true ∧ s.shFlags.testBit 1 = true := by
  obtain ⟨a, ha, -⟩ := t.attr hs
  rcases t.bytes hs ha hu with ⟨hko, -⟩ | ⟨-, ⟨d, q, -⟩ | ⟨rs, d, q, -⟩ | q | q | q | q⟩
  · have := (keeps_alloc hko).2
    unfold isAlloc at this
    have hf := flag_test s.shFlags 1
    simp only [Nat.pow_one] at hf
    exact ⟨hko, hf.1 (of_decide_eq_true this)⟩
  · rw [ho] at q; cases q
  · exact absurd q (h1 rs)
  · exact absurd q h2
  · exact absurd q h3
  · exact absurd q h4
  · exact absurd q h5

theorem Tabs.dynRelocs (t : Tabs c p l out ss T) {i : Nat} {s : Sec} {h : Shdr} (hs : p.secs[i]? = some s) (hh : HdrAt c p l i s h) {rs : List Build.Rel}
    (hd : s.data = .dynRelocs rs) : ∃ d', Contents T out (i + 1) h s.name d' ∧ DataSame p.secs p.syms (p.dyns.map (·.sym)) s.data d' := by
  have x := t.tab.ctx
  have hk := (x.sec_ok hs).2
  unfold KindOk at hk
  simp only [hd] at hk
  obtain ⟨k49, kl, kr, km⟩ := hk
  obtain ⟨p1, p2, -, -, p5, -⟩ := hh.hd.plain (by rw [hd]; rfl)
  have hflag := (t.tab.allocFlag hs (by rw [hd]; simp) (by simp [otherBytes, hd]) (by rw [hd]; simp) (by rw [hd]; simp) (by rw [hd]; simp) (by rw [hd]; simp) (by rw [hd]; simp)).2
  obtain ⟨d, al, k1, k2, k3⟩ := t.tab.allocOnly hs (by rw [hd]; simp) (by simp [otherBytes, hd]) (by rw [hd]; simp) (by rw [hd]; simp) (by rw [hd]; simp) (by rw [hd]; simp) (by rw [hd]; simp)
  unfold allocBytes at k1
  unfold allocSize at k3
  simp only [hd] at k1 k3
  injection k3 with k3
  have hz := (Prod.mk.inj k3).1
  have hidm : p.dyns.map (·.sym.id) = (p.dyns.map (·.sym)).map Item.id := by rw [List.map_map]; rfl
  have hlive : ∀ r ∈ rs, ∀ i, r.symbol = some i → i ∈ (p.dyns.map (·.sym)).map Item.id := by
    intro r hr j hj
    have hsec : s ∈ c.tables.sections ∧ s.delete = false := by
      have := List.mem_of_getElem? hs
      rw [x.secs] at this
      have h9 := List.mem_filter.1 this
      exact ⟨h9.1, by have h8 := h9.2; rw [Bool.not_eq_true'] at h8; exact h8⟩
    have hl := x.sound.noOrphans.dynRels s hsec.1 hsec.2 rs hd r hr j hj
    have hm := live_mem x.sound.ids.2.2.1 hl
    exact (x.plan.dyns.1.map Item.id).mem_iff.2 hm
  have hlen : (p.dyns.map (·.sym)).length < 2 ^ 32 - 1 := by
    rw [List.length_map]
    rcases x.plan.dynNum with ⟨-, h, -⟩ | ⟨-, h1, h2⟩
    · rw [h]; decide
    · omega
  have hidx : IndexOk p.dynIdx ((p.dyns.map (·.sym)).map Item.id) := by rw [← hidm]; exact x.plan.dynIdx
  obtain ⟨es, e1, e2⟩ := t.tab.relocs (h := h) hidx k1 (by rw [hh.offset]; exact k2) (by rw [hh.size]; exact hz.symm) p1 k49 hlive
    (fun r hr => by
      have := kr r hr _ x.plan.dyns
      exact ⟨this.offset, this.typ, this.sym, this.addend⟩) km hlen T ⟨t.cfg, t.machine⟩
  obtain ⟨ws, hw⟩ := t.dynSymbols
  by_cases hl : h.link = T.dynSymbols.sec
  · have hcount : ∀ r ∈ rs, ∀ i j, r.symbol = some i → Place (p.dyns.map (·.sym)) i j → j + 1 < T.dynSymbols.symbols.length := by
      intro r hr i j hi hp
      have := place_lt hp
      rw [List.length_map] at this
      rw [t.dynLen]
      split
      · next h0 =>
        rcases x.plan.dynNum with ⟨-, h, -⟩ | ⟨h1, -⟩
        · rw [h] at this; cases this
        · exact absurd h0 h1
      · omega
    obtain ⟨ys, y1, y2⟩ := relocs_read (count := T.dynSymbols.symbols.length) e1 hcount
    exact ⟨.dynRelocs ys, .dynRelocs (.inl ⟨hl, rfl⟩) (e2 _ _ y1), by rw [hd]; exact .dynRelocs y2⟩
  · have hnone : ∀ r ∈ rs, r.symbol = none := by
      rcases kl with kl | kl
      · exact absurd (by rw [hw.sec]; exact (t.tab.linksTo (k := .dynamicSymbol) rfl kl p5).2) hl
      · exact kl
    obtain ⟨ys, y1, y2⟩ := relocs_read (count := 0) e1 (fun r hr i j hi _ => by rw [hnone r hr] at hi; cases hi)
    exact ⟨.dynRelocs ys, .dynRelocs (.inr ⟨hl, .inr (by rw [p2]; exact hflag), rfl⟩) (e2 _ _ y1), by rw [hd]; exact .dynRelocs y2⟩

theorem Tabs.dynamic (t : Tabs c p l out ss T) {i : Nat} {s : Sec} {h : Shdr} (hs : p.secs[i]? = some s) (hh : HdrAt c p l i s h) {ds : List Build.Dyn}
    (hd : s.data = .dynamic ds) : Contents T out (i + 1) h s.name (.dynamic ds) := by
  have x := t.tab.ctx
  have hk := (x.sec_ok hs).2
  unfold KindOk at hk
  simp only [hd] at hk
  obtain ⟨k6, kd, kl⟩ := hk
  obtain ⟨p1, p2, -, -, p5, -⟩ := hh.hd.plain (by rw [hd]; rfl)
  obtain ⟨d, al, k1, k2, k3⟩ := t.tab.allocOnly hs (by rw [hd]; simp) (by simp [otherBytes, hd]) (by rw [hd]; simp) (by rw [hd]; simp) (by rw [hd]; simp) (by rw [hd]; simp) (by rw [hd]; simp)
  unfold allocBytes at k1
  unfold allocSize at k3
  simp only [hd] at k1 k3
  injection k3 with k3
  have hz := (Prod.mk.inj k3).1
  have hstrs : ∀ tag val, Build.Dyn.string tag val ∈ ds → ∀ o, strOffset p.dynstr.tab val = .ok o → StrIn p.dynstr o val := by
    intro tag val hm
    apply x.plan.dynStrings
    unfold dynStrings
    rw [List.mem_flatMap]
    refine ⟨s, List.mem_of_getElem? hs, ?_⟩
    simp only [hd]
    exact List.mem_filterMap.2 ⟨_, hm, rfl⟩
  have ht : h.type ≠ 8 := by rw [p1, k6]; decide
  rcases kl with kl | ⟨kl, kn⟩
  · obtain ⟨l1, l2⟩ := t.tab.linksTo (k := .dynamicString) rfl kl p5
    obtain ⟨off, o1, o2⟩ := t.tab.dynamicString l1
    obtain ⟨vs, v1, v2⟩ := t.tab.dynamic (hd := h) kd (strings := some (off, off + p.dynstr.data.length))
      (fun tag val hm => ⟨off, rfl, o2, hstrs tag val hm⟩) k1 (by rw [hh.offset]; exact k2) ht (by rw [hh.size]; exact hz.symm)
    refine .dynamic (by rw [p1]; exact k6) ?_ ?_ v2
    · rw [t.cfg]; exact v1
    · rw [t.sections, l2]; exact o1
  · obtain ⟨vs, v1, v2⟩ := t.tab.dynamic (hd := h) kd (strings := none)
      (fun tag val hm => absurd hm (kn tag val)) k1 (by rw [hh.offset]; exact k2) ht (by rw [hh.size]; exact hz.symm)
    refine .dynamic (by rw [p1]; exact k6) ?_ ?_ v2
    · rw [t.cfg]; exact v1
    · have h0 : h.link = 0 := by
        rcases p5 with ⟨-, h⟩ | ⟨i, j, h, -⟩
        · exact h
        · rw [kl] at h; cases h
      unfold StringsOf
      rw [if_pos h0]

theorem Tabs.attributes (t : Tabs c p l out ss T) {i : Nat} {s : Sec} {h : Shdr} (hs : p.secs[i]? = some s) (hh : HdrAt c p l i s h) {as : List AttrSub}
    (hd : s.data = .attributes as) : ∃ d', Contents T out (i + 1) h s.name d' ∧ DataSame p.secs p.syms (p.dyns.map (·.sym)) s.data d' := by
  have x := t.tab.ctx
  obtain ⟨a, ha, ha2⟩ := t.tab.attr hs
  have hk := (x.sec_ok hs).2
  have hu : ∀ len, s.data ≠ .uninit len := by rw [hd]; simp
  have h8 := kind_ne8 hk hu
  unfold KindOk at hk
  simp only [hd] at hk
  obtain ⟨kt, kv⟩ := hk
  have p1 := (hh.hd.plain (by rw [hd]; rfl)).1
  rcases t.tab.bytes hs ha hu with ⟨-, d', al, k1, -⟩ | ⟨-, ⟨d', k1, k2, k3⟩ | ⟨rs, d', k1, -⟩ | k | k | k | k⟩
  · unfold allocBytes at k1; simp only [hd] at k1; cases k1
  · unfold otherBytes at k1
    simp only [hd] at k1
    cases k1
    obtain ⟨l', a1, a2⟩ := attributes_ok x.plan.secIdx x.plan.symIdx (by have := x.secNum; omega) (fun hne => by
      rcases x.plan.symNum with ⟨-, h, -⟩ | ⟨-, h1, h2⟩
      · exact absurd h hne
      · omega) hd ha2 kv (n := T.symbols.symbols.length) (fun hne => by
        rw [t.symLen]
        rcases x.plan.symNum with ⟨-, h, -⟩ | ⟨h1, -⟩
        · exact absurd h hne
        · rw [if_neg h1])
    refine ⟨.attributes l', .attributes (by rw [p1, t.machine]; exact kt) (dataOf_blk (by rw [hh.offset]; exact k2) (by rw [p1]; exact h8) (by rw [hh.size, k3])) ?_, ?_⟩
    · rw [t.cfg, t.sections, t.tab.len, x.en]; exact a2
    · rw [hd]; exact .attributes a1
  · rw [hd] at k1; cases k1
  all_goals rw [hd] at k; cases k

theorem data_same {secs : List Sec} {syms dyns : List Build.Sym} {d : SecData} (h1 : ∀ l, d ≠ .relocs l) (h2 : ∀ l, d ≠ .dynRelocs l) (h3 : ∀ l, d ≠ .attributes l) :
    DataSame secs syms dyns d d := .other h1 h2 h3

/-- The contents of a section. -/
theorem Tabs.contents (t : Tabs c p l out ss T) {i : Nat} {s : Sec} {h : Shdr} (hs : p.secs[i]? = some s) (hh : HdrAt c p l i s h) :
    ∃ d', Contents T out (i + 1) h s.name d' ∧ DataSame p.secs p.syms (p.dyns.map (·.sym)) s.data d' := by
  have x := t.tab.ctx
  obtain ⟨ws, hw⟩ := t.symbols
  obtain ⟨wd, hwd⟩ := t.dynSymbols
  have hk := (x.sec_ok hs).2
  have hmi := t.metaIdx hs
  have hnk := @Tabs.notKind c p l out ss T t i s hs
  have other : ∀ d, s.data = d → (∀ l, d ≠ .relocs l) → (∀ l, d ≠ .dynRelocs l) → (∀ l, d ≠ .attributes l) → Contents T out (i + 1) h s.name d →
      ∃ d', Contents T out (i + 1) h s.name d' ∧ DataSame p.secs p.syms (p.dyns.map (·.sym)) s.data d' :=
    fun d e h1 h2 h3 hc => ⟨d, hc, by rw [e]; exact .other h1 h2 h3⟩
  cases hd : s.data with
  | data d =>
    rw [← hd]
    have p1 := (hh.hd.plain (by rw [hd]; rfl)).1
    obtain ⟨a1, -⟩ := t.plainData hs hh (by rw [hd]; rfl) (.inl hd)
    unfold KindOk at hk
    simp only [hd] at hk
    refine other _ hd (by simp) (by simp) (by simp) ?_
    rcases hk with hk | hk | ⟨hk, hn⟩
    · exact .plain (.inl (by rw [p1]; exact hk)) a1
    · exact .plain (.inr (by rw [p1, t.machine]; exact hk)) a1
    · exact .annobin (by rw [p1]; exact hk) (by rw [hw.string]; exact hnk (by rw [hd]; simp)) (by rw [hwd.string]; exact hnk (by rw [hd]; simp))
        (by rw [t.names]; exact hnk (by rw [hd]; simp)) hn a1
  | uninit n =>
    rw [← hd]
    unfold KindOk at hk
    simp only [hd] at hk
    have p1 := (hh.hd.plain (by rw [hd]; rfl)).1
    have hz : h.size = n := by
      rw [hh.size]
      obtain ⟨a, ha, -⟩ := t.tab.attr hs
      have sz := x.lay.sizes i s a hs ha
      cases hko : keepsOffset c s with
      | true =>
        rcases (sz.alloc hko).2 with ⟨len, e1, e2⟩ | ⟨e1, -⟩
        · rw [hd] at e1; cases e1; exact e2
        · exact absurd hd (e1 n)
      | false => exact sz.other hko n (by simp [otherSize, hd])
    refine other _ hd (by simp) (by simp) (by simp) ?_
    rw [← hz]
    exact .uninit (by rw [p1]; exact hk.1)
  | relocs rs => rw [← hd]; exact t.relocs hs hh hd
  | dynRelocs rs => rw [← hd]; exact t.dynRelocs hs hh hd
  | attributes rs => rw [← hd]; exact t.attributes hs hh hd
  | dynamic ds => rw [← hd]; exact other _ hd (by simp) (by simp) (by simp) (t.dynamic hs hh hd)
  | note d =>
    rw [← hd]
    have p1 := (hh.hd.plain (by rw [hd]; rfl)).1
    obtain ⟨a1, -⟩ := t.plainData hs hh (by rw [hd]; rfl) (.inr hd)
    unfold KindOk at hk
    simp only [hd] at hk
    exact other _ hd (by simp) (by simp) (by simp) (.note (by rw [p1]; exact hk) a1)
  | sectionString =>
    rw [← hd]
    have p1 := (hh.hd.table _ _ _ _ _ (by rw [hd]; rfl)).1
    refine other _ hd (by simp) (by simp) (by simp) (.sectionString p1 (by rw [hw.string]; exact hnk (by rw [hd]; simp)) (by rw [hwd.string]; exact hnk (by rw [hd]; simp)) ?_)
    rw [t.names, hmi (by rw [hd]; rfl), hd]
  | string =>
    rw [← hd]
    have p1 := (hh.hd.table _ _ _ _ _ (by rw [hd]; rfl)).1
    refine other _ hd (by simp) (by simp) (by simp) (.string p1 ?_)
    rw [hw.string, hmi (by rw [hd]; rfl), hd]
  | dynamicString =>
    rw [← hd]
    have p1 := (hh.hd.table _ _ _ _ _ (by rw [hd]; rfl)).1
    refine other _ hd (by simp) (by simp) (by simp) (.dynamicString p1 (by rw [hw.string]; exact hnk (by rw [hd]; simp)) ?_)
    rw [hwd.string, hmi (by rw [hd]; rfl), hd]
  | symbol =>
    rw [← hd]
    have p1 := (hh.hd.table _ _ _ _ _ (by rw [hd]; rfl)).1
    refine other _ hd (by simp) (by simp) (by simp) (.symbol p1 ?_)
    rw [hw.sec, hmi (by rw [hd]; rfl), hd]
  | symbolSectionIndex =>
    rw [← hd]
    have p1 := (hh.hd.table _ _ _ _ _ (by rw [hd]; rfl)).1
    refine other _ hd (by simp) (by simp) (by simp) (.symbolSectionIndex p1 ?_)
    rw [hw.shndxSec, hmi (by rw [hd]; rfl), hd]
  | dynamicSymbol =>
    rw [← hd]
    have p1 := (hh.hd.table _ _ _ _ _ (by rw [hd]; rfl)).1
    refine other _ hd (by simp) (by simp) (by simp) (.dynamicSymbol p1 ?_)
    rw [hwd.sec, hmi (by rw [hd]; rfl), hd]
  | hash =>
    rw [← hd]
    have p1 := (hh.hd.table _ _ _ _ _ (by rw [hd]; rfl)).1
    have hr := t.tab.range hs hh (by rw [hd]; simp)
    obtain ⟨d, d1, d2⟩ := dataOf_range (by rw [p1]; decide) hr
    have := (t.tab.hash hs hh hd).1
    exact other _ hd (by simp) (by simp) (by simp) (.hash p1 d1 (by omega))
  | gnuHash =>
    rw [← hd]
    have p1 := (hh.hd.table _ _ _ _ _ (by rw [hd]; rfl)).1
    have hr := t.tab.range hs hh (by rw [hd]; simp)
    obtain ⟨d, d1, d2⟩ := dataOf_range (by rw [p1]; decide) hr
    have := (t.tab.gnuHash hs hh hd).1
    exact other _ hd (by simp) (by simp) (by simp) (.gnuHash p1 d1 (by omega))
  | gnuVersym =>
    rw [← hd]
    exact other _ hd (by simp) (by simp) (by simp) (.gnuVersym (hh.hd.table _ _ _ _ _ (by rw [hd]; rfl)).1)
  | gnuVerdef =>
    rw [← hd]
    exact other _ hd (by simp) (by simp) (by simp) (.gnuVerdef (hh.hd.table _ _ _ _ _ (by rw [hd]; rfl)).1)
  | gnuVerneed =>
    rw [← hd]
    exact other _ hd (by simp) (by simp) (by simp) (.gnuVerneed (hh.hd.table _ _ _ _ _ (by rw [hd]; rfl)).1)

end
end Obj.BuildW

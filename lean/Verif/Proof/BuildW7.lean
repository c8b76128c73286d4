import Verif.Proof.BuildW6

/-! Writing with the ELF builder: the table of section headers that is read back. -/

namespace Obj.BuildW
open Obj Obj.Build Obj.BuildR Obj.Spec
open Obj.Spec.MachoF (Each num)
open Obj.Spec.ElfF (word headerSize segmentSize sectionSize symbolSize headerIn segmentAt sectionAt symbolAt SegmentsOf SectionsOf NamesIndex NamesOf SegmentCount SectionCount RecordsOf StringsOf Extends)
open Obj.Spec.BuildW (live Place Ref localSym symbolOrder DynOrder IdsOk Sound KindOk SecOk tableHeader tableInfo isDef wordLimit phdrOf)
open Obj.Spec.ElfS (wordMax ShdrFits PhdrFits SymFits HeaderFits)
open Obj.Elf (Shdr Phdr Ehdr)

section
variable {c : Full} {p : Plan} {l : Layout} {out : List UInt8}

theorem place_lt {α : Type} [Item α] {xs : List α} {i j : Nat} (h : Place xs i j) : j < xs.length := by
  obtain ⟨y, hy, -⟩ := h
  exact (List.getElem?_eq_some_iff.1 hy).1

theorem Ctx.idx_le (x : Ctx c p l out) (k : SecData) : p.idx k ≤ p.secs.length := by
  by_cases h : p.idx k = 0
  · omega
  · obtain ⟨-, s, hs, -⟩ := x.plan.idx.at_ _ h
    have := (List.getElem?_eq_some_iff.1 hs).1
    omega

theorem Ctx.kindIdx_le (x : Ctx c p l out) (k : Option SecData) : kindIdx p k ≤ p.secs.length := by
  cases k with
  | none => exact Nat.zero_le _
  | some k => exact x.idx_le k

theorem Ctx.sec_ok (x : Ctx c p l out) {i : Nat} {s : Sec} (hs : p.secs[i]? = some s) : SecOk c s ∧ KindOk c p.secs s := by
  rw [x.secs] at hs ⊢
  exact x.sound.secs s (List.mem_of_getElem? hs)

theorem local_count (x : Ctx c p l out) : ((live c.tables.symbols).filter localSym).length ≤ p.symNum := by
  have h1 : p.numLocal = ((live c.tables.symbols).filter localSym).length := by rw [x.plan.numLocal, iter_eq]; rfl
  have h2 : p.syms.length = (live c.tables.symbols).length := by
    rw [x.plan.syms]; have := (ordered_perm c.tables.symbols).length_eq; rw [this, iter_eq]; rfl
  have h3 := List.length_filter_le localSym (live c.tables.symbols)
  rcases x.plan.symNum with ⟨-, h, -⟩ | ⟨-, h, -⟩
  · rw [h] at h2; simp at h2; omega
  · omega

theorem sym_count (x : Ctx c p l out) : 1 + ((live c.tables.symbols).filter localSym).length < 2 ^ 32 := by
  have h2 : p.syms.length = (live c.tables.symbols).length := by
    rw [x.plan.syms]; have := (ordered_perm c.tables.symbols).length_eq; rw [this, iter_eq]; rfl
  have h3 := List.length_filter_le localSym (live c.tables.symbols)
  rcases x.plan.symNum with ⟨-, h, -⟩ | ⟨-, h, h4⟩
  · rw [h] at h2; simp at h2; omega
  · omega

theorem dyn_count (x : Ctx c p l out) : 1 + ((live c.tables.dynamicSymbols).filter localSym).length < 2 ^ 32 := by
  have h2 : p.dyns.length = (live c.tables.dynamicSymbols).length := by
    have := x.plan.dyns.1.length_eq; rw [List.length_map] at this; exact this
  have h3 := List.length_filter_le localSym (live c.tables.dynamicSymbols)
  rcases x.plan.dynNum with ⟨-, h, -⟩ | ⟨-, h, h4⟩
  · rw [h] at h2; simp at h2; omega
  · omega

theorem Ctx.info_fits (x : Ctx c p l out) (d : SecData) : tableInfo c d < 2 ^ 32 := by
  have hv : tableInfo c .gnuVerdef < 2 ^ 32 := by
    obtain ⟨t, -, ht, -⟩ := x.plan.ver
    have := (versions_defs ht).2
    have h3 := List.length_filter_le isDef (live c.tables.versions)
    have h4 : (live c.tables.versions).length ≤ c.tables.versions.length := List.length_filter_le _ _
    have h5 : c.versionBase.toList.length ≤ 1 := by cases c.versionBase <;> simp
    show c.versionBase.toList.length + ((live c.tables.versions).filter isDef).length < 2 ^ 32
    omega
  cases d <;> first | exact hv | exact sym_count x | exact dyn_count x | exact x.sound.files.1 | (show 0 < 2 ^ 32; decide)

theorem Ctx.hdFits (x : Ctx c p l out) {i : Nat} {s : Sec} {h : Shdr} (hs : p.secs[i]? = some s) (hh : HdrAt c p l i s h) : ShdrFits p.cfg.is64 h := by
  obtain ⟨so, ko⟩ := x.sec_ok hs
  have hw := wordMax_le p.cfg.is64
  have hlim : wordLimit c.is64 = wordMax p.cfg.is64 := by rw [x.is64]; rfl
  have hn := x.secNum
  have hlen := x.len
  have hr := x.off i s hs
  have tf : ∀ T F A E K, tableHeader c.is64 s.data = some (T, F, A, E, K) → T < 2 ^ 32 ∧ F < 2 ^ 32 ∧ A < 2 ^ 32 ∧ E < 2 ^ 32 := by
    intro T F A E K e
    cases hd : s.data <;> simp only [hd, tableHeader, reduceCtorEq, Option.some.injEq, Prod.mk.injEq] at e <;>
      obtain ⟨rfl, rfl, rfl, rfl, rfl⟩ := e <;> cases c.is64 <;> decide
  refine ⟨hh.name.2.1, ?_, ?_, ?_, ?_, ?_, ?_, ?_, ?_, ?_⟩
  · cases hn : tableHeader c.is64 s.data with
    | none => rw [(hh.hd.plain hn).1]; exact so.type
    | some v => obtain ⟨T, F, A, E, K⟩ := v; rw [(hh.hd.table _ _ _ _ _ hn).1]; exact (tf _ _ _ _ _ hn).1
  · cases hn : tableHeader c.is64 s.data with
    | none => rw [(hh.hd.plain hn).2.1, ← hlim]; exact so.flags
    | some v => obtain ⟨T, F, A, E, K⟩ := v; rw [(hh.hd.table _ _ _ _ _ hn).2.1]; exact Nat.lt_of_lt_of_le (tf _ _ _ _ _ hn).2.1 hw.2
  · rw [hh.addr]
    split
    · rw [← hlim]; exact so.addr
    · omega
  · rw [hh.offset]
    rcases hr with hr | ⟨len, h1, h2, h3 | h3⟩
    · omega
    · omega
    · rw [h3, ← hlim]; exact so.offset
  · rw [hh.size]
    rcases hr with hr | ⟨len, h1, h2, -⟩
    · omega
    · unfold KindOk at ko
      simp only [h1] at ko
      rw [h2, ← hlim]; exact ko.2
  · cases hn : tableHeader c.is64 s.data with
    | none =>
      rcases (hh.hd.plain hn).2.2.2.2.1 with ⟨-, h⟩ | ⟨a, b, -, h, hp⟩
      · rw [h]; decide
      · have := place_lt hp; omega
    | some v =>
      obtain ⟨T, F, A, E, K⟩ := v
      have := x.kindIdx_le K
      rw [(hh.hd.table _ _ _ _ _ hn).2.2.2.2.1]; omega
  · cases hn : tableHeader c.is64 s.data with
    | none =>
      rcases (hh.hd.plain hn).2.2.2.2.2 with ⟨-, h⟩ | ⟨a, b, -, h, hp⟩
      · rw [h]; exact so.info
      · have := place_lt hp; omega
    | some v =>
      obtain ⟨T, F, A, E, K⟩ := v
      rw [(hh.hd.table _ _ _ _ _ hn).2.2.2.2.2]; exact x.info_fits _
  · cases hn : tableHeader c.is64 s.data with
    | none => rw [(hh.hd.plain hn).2.2.1, ← hlim]; exact so.align
    | some v => obtain ⟨T, F, A, E, K⟩ := v; rw [(hh.hd.table _ _ _ _ _ hn).2.2.1]; exact Nat.lt_of_lt_of_le (tf _ _ _ _ _ hn).2.2.1 hw.2
  · cases hn : tableHeader c.is64 s.data with
    | none => rw [(hh.hd.plain hn).2.2.2.1, ← hlim]; exact so.entsize
    | some v => obtain ⟨T, F, A, E, K⟩ := v; rw [(hh.hd.table _ _ _ _ _ hn).2.2.2.1]; exact Nat.lt_of_lt_of_le (tf _ _ _ _ _ hn).2.2.2 hw.2

/-- The file with its section headers. -/
structure Tab (c : Full) (p : Plan) (l : Layout) (out : List UInt8) (ss : List Shdr) : Prop where
  ctx : Ctx c p l out
  len : ss.length = 1 + p.secs.length
  null : ss[0]? = some (nullOf p l)
  at_ : ∀ (i : Nat) s, p.secs[i]? = some s → ∃ h, ss[i + 1]? = some h ∧ HdrAt c p l i s h
  of : SectionsOf p.cfg (headOf c p l) out ss

theorem Ctx.tab (x : Ctx c p l out) : ∃ ss, Tab c p l out ss := by
  obtain ⟨hs, h1, h2, h3⟩ := x.headersEq
  have hat : ∀ (i : Nat) s, p.secs[i]? = some s → ∃ h, (nullOf p l :: hs)[i + 1]? = some h ∧ HdrAt c p l i s h := by
    intro i s e
    rw [List.getElem?_cons_succ]
    exact x.hdrs h1 e
  refine ⟨nullOf p l :: hs, x, by simp [h2]; omega, rfl, hat, ?_⟩
  obtain ⟨-, -, -, -, h5, -⟩ := x.counts
  have hso : (headOf c p l).shoff = l.shoff := rfl
  have := x.shoff.1
  have := x.ehdr_pos
  have hfit : ∀ h ∈ nullOf p l :: hs, ShdrFits p.cfg.is64 h := by
    intro h hm
    rcases List.mem_cons.1 hm with rfl | hm
    · exact x.nullFits
    · obtain ⟨i, hi⟩ := List.getElem?_of_mem hm
      have hlt := (List.getElem?_eq_some_iff.1 hi).1
      have hs' : p.secs[i]? = some p.secs[i] := List.getElem?_eq_getElem (by omega)
      obtain ⟨h', e1, e2⟩ := x.hdrs h1 hs'
      rw [hi] at e1; cases e1
      exact x.hdFits hs' e2
  have hl : ∀ h ∈ nullOf p l :: hs, (Elf.Shdr.encode p.cfg h).length = sectionSize p.cfg.is64 := fun h _ => Elf.Shdr.length_encode _ _
  have hn : (nullOf p l :: hs).length = p.secNum := by rw [x.secNum.1]; simp [h2]; omega
  unfold SectionsOf
  rw [hso, if_neg (by omega)]
  refine ⟨_, h5, .inr ⟨?_, ?_⟩, ?_⟩
  · have := x.secNum.1
    simp only [headOf]; rw [if_neg (by omega)]; rfl
  · have := h3.2
    rw [Elf.length_flatMap_const _ _ _ hl, hn, Nat.mul_comm] at this
    exact this
  · rw [← hn]
    exact blk_range (dec := Shdr.decode p.cfg) (fun o _ => (ElfF.shdr_decode p.cfg out o).symm) hl
      (fun g hg => (by have := Elf.Shdr.decode_encode p.cfg g (hfit g hg) []; rwa [List.append_nil] at this)) h3

variable {ss : List Shdr}

/-- The section of a header. -/
theorem Tab.inv (t : Tab c p l out ss) {j : Nat} {h : Shdr} (hj : ss[j]? = some h) :
    j = 0 ∧ h = nullOf p l ∨ ∃ i s, j = i + 1 ∧ p.secs[i]? = some s ∧ HdrAt c p l i s h := by
  cases j with
  | zero => rw [t.null] at hj; cases hj; exact .inl ⟨rfl, rfl⟩
  | succ i =>
    have hlt := (List.getElem?_eq_some_iff.1 hj).1
    have := t.len
    have hs' : p.secs[i]? = some p.secs[i] := List.getElem?_eq_getElem (by omega)
    obtain ⟨h', e1, e2⟩ := t.at_ i _ hs'
    rw [hj] at e1; cases e1
    exact .inr ⟨i, _, rfl, hs', e2⟩

/-- A section with the type of a table is that table. -/
theorem Tab.own (t : Tab c p l out ss) {k : SecData} {T : Nat} (hT : ownType k = some T) {j : Nat} {h : Shdr} (hj : ss[j]? = some h) :
    h.type = T ↔ p.idx k ≠ 0 ∧ j = p.idx k := by
  have hm : isMeta k = true := by cases k <;> simp_all [ownType, isMeta]
  rcases t.inv hj with ⟨rfl, rfl⟩ | ⟨i, s, rfl, hs, hh⟩
  · constructor
    · intro e
      cases k <;> simp only [ownType, reduceCtorEq, Option.some.injEq] at hT <;> subst hT <;> cases e
    · rintro ⟨h1, h2⟩; exact absurd h2.symm h1
  · rw [own_type (t.ctx.sec_ok hs).2 hh.hd hT]
    constructor
    · intro e
      have := t.ctx.plan.idx.of i s hs (by rw [e]; exact hm)
      rw [e] at this
      omega
    · rintro ⟨h1, h2⟩
      obtain ⟨-, s', hs', e⟩ := t.ctx.plan.idx.at_ k h1
      rw [← h2] at hs'
      simp only [Nat.add_sub_cancel] at hs'
      rw [hs] at hs'; cases hs'; exact e

/-- The table of a kind. -/
theorem Tab.kind (t : Tab c p l out ss) {k : SecData} (h0 : p.idx k ≠ 0) :
    ∃ i s h, p.idx k = i + 1 ∧ p.secs[i]? = some s ∧ s.data = k ∧ ss[i + 1]? = some h ∧ HdrAt c p l i s h := by
  obtain ⟨-, s, hs, e⟩ := t.ctx.plan.idx.at_ k h0
  obtain ⟨h, e1, e2⟩ := t.at_ _ s hs
  exact ⟨p.idx k - 1, s, h, by omega, hs, e, e1, e2⟩

theorem Tab.idx_has (t : Tab c p l out ss) {k : SecData} (hm : isMeta k = true) : p.idx k ≠ 0 ↔ Spec.BuildW.has c k := by
  unfold Spec.BuildW.has
  rw [← t.ctx.secs]
  constructor
  · intro h
    obtain ⟨i, s, -, -, h2, h3, -⟩ := t.kind h
    exact ⟨s, List.mem_of_getElem? h2, h3⟩
  · rintro ⟨s, h1, h2⟩
    obtain ⟨i, hi⟩ := List.getElem?_of_mem h1
    have := t.ctx.plan.idx.of i s hi (by rw [h2]; exact hm)
    rw [h2] at this
    omega

/-- Nothing has the type of a table that does not exist. -/
theorem Tab.absent (t : Tab c p l out ss) {k : SecData} {T : Nat} (hT : ownType k = some T) (h0 : p.idx k = 0) : ∀ s ∈ ss, s.type ≠ T := by
  intro s hs e
  obtain ⟨j, hj⟩ := List.getElem?_of_mem hs
  exact ((t.own hT hj).1 e).1 h0

theorem Tab.first (t : Tab c p l out ss) {k : SecData} {T : Nat} (hT : ownType k = some T) : ∀ (j : Nat) s', j < p.idx k → ss[j]? = some s' → s'.type ≠ T := by
  intro j s' hj hs e
  have := ((t.own hT hs).1 e).2
  omega

/-- The last section of a type. -/
theorem Tab.last (t : Tab c p l out ss) {k : SecData} {T : Nat} (hT : ownType k = some T) {h : Shdr} (h0 : p.idx k ≠ 0) (hh : ss[p.idx k]? = some h) :
    Spec.BuildR.lastOfType ss T = some h := by
  unfold Spec.BuildR.lastOfType
  have hlt := (List.getElem?_eq_some_iff.1 hh).1
  have e : ss.drop 1 = (ss.take (p.idx k)).drop 1 ++ h :: ss.drop (p.idx k + 1) := by
    have e0 : ss = ss.take (p.idx k) ++ h :: ss.drop (p.idx k + 1) := by
      rw [← (List.getElem?_eq_some_iff.1 hh).2, List.getElem_cons_drop, List.take_append_drop]
    conv => lhs; rw [e0]
    rw [List.drop_append_of_le_length]
    rw [List.length_take]; omega
  have hty : h.type = T := (t.own hT hh).2 ⟨h0, rfl⟩
  have f2 : (ss.drop (p.idx k + 1)).filter (fun s => decide (s.type = T)) = [] := by
    rw [List.filter_eq_nil_iff]
    intro s hs hty
    obtain ⟨j, hj⟩ := List.getElem?_of_mem hs
    rw [List.getElem?_drop] at hj
    have := ((t.own hT hj).1 (of_decide_eq_true hty)).2
    omega
  rw [e, List.filter_append, List.filter_cons_of_pos (by simpa using hty), f2]
  simp

theorem Tab.none_last (t : Tab c p l out ss) {k : SecData} {T : Nat} (hT : ownType k = some T) (h0 : p.idx k = 0) :
    Spec.BuildR.lastOfType ss T = none := by
  unfold Spec.BuildR.lastOfType
  rw [List.getLast?_eq_none_iff, List.filter_eq_nil_iff]
  intro s hs hty
  exact t.absent hT h0 s (List.mem_of_mem_drop hs) (of_decide_eq_true hty)

/-! ## Bytes of sections -/

theorem kind_ne8 {secs : List Sec} {s : Sec} (h : KindOk c secs s) (hu : ∀ len, s.data ≠ .uninit len) : s.shType ≠ 8 := by
  have hm : (c.header.eMachine, s.shType) ∈ Spec.BuildR.machineTypes → s.shType ≠ 8 := by
    intro h
    simp only [Spec.BuildR.machineTypes, List.mem_cons, Prod.mk.injEq, List.not_mem_nil, or_false] at h
    omega
  have ha : (c.header.eMachine, s.shType) ∈ Spec.BuildR.attributesTypes → s.shType ≠ 8 := by
    intro h
    simp only [Spec.BuildR.attributesTypes, List.mem_cons, Prod.mk.injEq, List.not_mem_nil, or_false] at h
    omega
  unfold KindOk at h
  cases hd : s.data <;> simp only [hd] at h
  case uninit n => exact absurd hd (hu n)
  case data =>
    rcases h with h | h | h
    · simp only [Spec.BuildR.plainTypes, List.mem_cons, List.not_mem_nil, or_false] at h; omega
    · exact hm h
    · omega
  case attributes =>
    rcases h.1 with h | h
    · omega
    · exact ha h
  all_goals first | exact h | omega

theorem Tab.attr (t : Tab c p l out ss) {i : Nat} {s : Sec} (hs : p.secs[i]? = some s) :
    ∃ a, p.attrs[i]? = some a ∧ attributesOf c.endian p.secIdx p.symIdx s = .ok a :=
  each_get_left t.ctx.plan.attrs hs

theorem keeps_alloc {b : Full} {s : Sec} (h : keepsOffset b s = true) : Build.isEmpty b.tables.segments = false ∧ isAlloc s = true := by
  unfold keepsOffset at h
  simp only [Bool.and_eq_true, Bool.not_eq_true'] at h
  exact h

/-- The bytes of an alloc section, or of another one. -/
theorem Tab.bytes (t : Tab c p l out ss) {i : Nat} {s : Sec} {a : List UInt8} (hs : p.secs[i]? = some s) (ha : p.attrs[i]? = some a)
    (hu : ∀ len, s.data ≠ .uninit len) :
    (keepsOffset c s = true ∧ ∃ d al, allocBytes c p l.lay.addr s = .ok d ∧ Blk out (l.lay.at i).1 d ∧ allocSize c p s = .ok ((l.lay.at i).2, al)) ∨
    (keepsOffset c s = false ∧ ((∃ d, otherBytes (s, a) = some d ∧ Blk out (l.lay.at i).1 d ∧ (l.lay.at i).2 = d.length) ∨
      (∃ rs d, s.data = .relocs rs ∧ relBytes p p.symIdx s rs = .ok d ∧ Blk out (l.lay.at i).1 d ∧ (l.lay.at i).2 = rs.length * p.cfg.relSize (s.shType == 4)) ∨
      s.data = .symbol ∨ s.data = .symbolSectionIndex ∨ s.data = .string ∨ s.data = .sectionString)) := by
  have x := t.ctx
  have sz := x.lay.sizes i s a hs ha
  have h8 := kind_ne8 (x.sec_ok hs).2 hu
  cases hk : keepsOffset c s with
  | true =>
    obtain ⟨k1, k2⟩ := keeps_alloc hk
    obtain ⟨d, e1, e2⟩ := x.em.alloc k1 (s, i) (allocOrder_mem.2 ⟨hs, k2⟩) h8
    obtain ⟨-, ⟨len, h, -⟩ | ⟨-, al, h⟩⟩ := sz.alloc hk
    · exact absurd h (hu len)
    · exact .inl ⟨rfl, d, al, e1, e2, h⟩
  | false =>
    refine .inr ⟨rfl, ?_⟩
    rcases sz.kind hk with h | ⟨rs, h⟩ | h
    · left
      obtain ⟨n, hn⟩ := Option.isSome_iff_exists.1 h
      have hz := sz.other hk n hn
      have ho : ∃ d, otherBytes (s, a) = some d ∧ n = d.length := by
        unfold otherSize at hn
        split at hn
        · next len e => exact absurd e (hu len)
        · obtain ⟨d, h1, h2⟩ := Option.map_eq_some_iff.1 hn
          exact ⟨d, h1, h2.symm⟩
      obtain ⟨d, h1, h2⟩ := ho
      refine ⟨d, h1, ?_, by omega⟩
      have hm : ((s, a), i) ∈ (p.secs.zip p.attrs).zipIdx := by
        rw [List.mem_zipIdx_iff_getElem?]
        exact List.getElem?_zip_eq_some.2 ⟨hs, ha⟩
      exact x.em.other _ hm hk d h1
    · right; left
      obtain ⟨d, h1, h2⟩ := x.em.relocs (s, i) (List.mem_zipIdx_iff_getElem?.2 hs) hk rs h
      exact ⟨rs, d, h, h1, h2, sz.relocs hk rs h⟩
    · exact .inr (.inr h)

end
end Obj.BuildW

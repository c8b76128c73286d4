import Verif.Proof.BuildW5

/-! Writing with the ELF builder: the section headers. -/

namespace Obj.BuildW
open Obj Obj.Build Obj.BuildR Obj.Spec
open Obj.Spec.MachoF (Each num)
open Obj.Spec.ElfF (word headerSize segmentSize sectionSize symbolSize headerIn segmentAt sectionAt symbolAt SegmentsOf SectionsOf NamesIndex NamesOf SegmentCount SectionCount RecordsOf StringsOf)
open Obj.Spec.BuildW (live Place Ref localSym symbolOrder DynOrder IdsOk Sound KindOk SecOk tableHeader tableInfo isDef wordLimit phdrOf)
open Obj.Spec.ElfS (wordMax ShdrFits PhdrFits SymFits HeaderFits)
open Obj.Elf (Shdr Phdr Ehdr)

section
variable {c : Full} {p : Plan} {l : Layout} {out : List UInt8}

theorem index_place {α : Type} [Item α] {v : List Nat} {xs : List α} (h : IndexOk v (xs.map Item.id)) {i m : Nat} (hm : v[i]? = some m) (h0 : m ≠ 0) :
    ∃ j, m = j + 1 ∧ Place xs i j := by
  rcases h i m hm with h | ⟨h1, h2⟩
  · exact absurd h.1 h0
  · rw [List.getElem?_map, Option.map_eq_some_iff] at h2
    obtain ⟨y, hy, he⟩ := h2
    exact ⟨m - 1, by omega, y, hy, he⟩

/-- A link in the file. -/
def LinkVal (secs : List Sec) (none_ : Nat) (o : Option Nat) (r : Nat) : Prop :=
  (o = none ∧ r = none_) ∨ ∃ i j, o = some i ∧ r = j + 1 ∧ Place secs i j

theorem linkOut_ok (hi : IndexOk p.secIdx (p.secs.map (·.id))) {z : Nat} {o : Option Nat} {r : Nat} (h : linkOut p.secIdx z o = .ok r) :
    LinkVal p.secs z o r := by
  cases o with
  | none => cases h; exact .inl ⟨rfl, rfl⟩
  | some i =>
    unfold linkOut look at h
    cases hv : p.secIdx[i]? with
    | none => simp only [hv] at h; cases h
    | some m =>
      simp only [hv, Res.ok_bind] at h
      split at h
      · cases h
      · next h0 =>
        cases h
        obtain ⟨j, hj, hp⟩ := index_place hi hv h0
        exact .inr ⟨i, j, rfl, hj, hp⟩

/-- The index of a linked kind. -/
def kindIdx (p : Plan) : Option SecData → Nat
  | none => 0
  | some k => p.idx k

/-- The header of a section apart from name, address, offset and size. -/
structure HdOk (c : Full) (p : Plan) (s : Sec) (h : Shdr) : Prop where
  plain : tableHeader c.is64 s.data = none → h.type = s.shType ∧ h.flags = s.shFlags ∧ h.addralign = s.addralign ∧ h.entsize = s.entsize ∧
    LinkVal p.secs 0 s.linkSection h.link ∧ LinkVal p.secs s.shInfo s.infoSection h.info
  table : ∀ T F A E K, tableHeader c.is64 s.data = some (T, F, A, E, K) → h.type = T ∧ h.flags = F ∧ h.addralign = A ∧ h.entsize = E ∧
    h.link = kindIdx p K ∧ h.info = tableInfo c s.data

theorem verStep_defs {base : Option (List UInt8)} {o o' : VerOut} {v : Ver} (h : verStep base o v = .ok o') :
    o'.defs = o.defs + (if isDef v then 1 else 0) := by
  unfold verStep at h
  unfold isDef
  cases hv : v.data with
  | def_ names flags =>
    simp only [hv] at h ⊢
    split at h
    · cases h; rfl
    · rw [Res.bind_eq_ok] at h
      obtain ⟨t, -, h2⟩ := h
      cases h2; rfl
  | need file name flags =>
    simp only [hv] at h ⊢
    rw [Res.bind_eq_ok] at h
    obtain ⟨t, -, h2⟩ := h
    split at h2
    · cases h2
    · cases h2; rfl

theorem verFold_defs {base : Option (List UInt8)} {vs : List Ver} {o o' : VerOut} (h : foldR (verStep base) o vs = .ok o') :
    o'.defs = o.defs + (vs.filter isDef).length := by
  induction vs generalizing o with
  | nil => cases h; rfl
  | cons v vs ih =>
    obtain ⟨u, h1, h2⟩ := foldR_cons.1 h
    rw [ih h2, verStep_defs h1, List.filter_cons]
    split <;> simp <;> omega

theorem versions_defs {b : Full} {t : StrTab} {o : VerOut} (h : versions b t = .ok o) :
    o.defs = b.versionBase.toList.length + ((live b.tables.versions).filter isDef).length ∧ b.tables.versions.length < 0x7fff := by
  unfold versions at h
  split at h
  · cases h
  · next hlt =>
    simp only [Res.bind_eq_ok] at h
    obtain ⟨o1, h1, o2, h2, t3, h3, h4⟩ := h
    split at h4
    · cases h4
    cases h4
    refine ⟨?_, by omega⟩
    show o2.defs = _
    rw [verFold_defs h2, iter_eq]
    have : o1.defs = b.versionBase.toList.length := by
      unfold verBase at h1
      split at h1
      · next e => cases h1; rw [e]; rfl
      · next e =>
        rw [Res.bind_eq_ok] at h1
        obtain ⟨r, -, h6⟩ := h1
        cases h6; rw [e]; rfl
    rw [this]; rfl

theorem headerOf_ok (x : Ctx c p l out) {s : Sec} {h : Shdr} (e : headerOf p s = .ok h) : HdOk c p s h := by
  have hw : p.cfg.w = if c.is64 then 8 else 4 := by unfold Elf.Cfg.w; rw [x.is64]
  have hz : p.cfg.symSize = if c.is64 then 24 else 16 := by unfold Elf.Cfg.symSize; rw [x.is64]
  have hver : p.ver.defs = tableInfo c .gnuVerdef := by
    obtain ⟨t, -, ht, -⟩ := x.plan.ver
    exact (versions_defs ht).1
  have hnl : p.numLocal = ((live c.tables.symbols).filter localSym).length := by rw [x.plan.numLocal, iter_eq]; rfl
  have hnd : p.numLocalDyn = ((live c.tables.dynamicSymbols).filter localSym).length := by rw [x.plan.numLocalDyn, iter_eq]; rfl
  have hvn : p.verneeds = (live c.tables.versionFiles).length := by rw [x.plan.verneeds, iter_eq]; rfl
  unfold headerOf at e
  cases hd : s.data <;> simp only [hd] at e
  any_goals
    simp only [Res.bind_eq_ok] at e
    obtain ⟨link, e1, info, e2, e3⟩ := e
    cases e3
    exact ⟨fun _ => ⟨rfl, rfl, rfl, rfl, linkOut_ok x.plan.secIdx e1, linkOut_ok x.plan.secIdx e2⟩, fun T F A E K hh => by rw [hd] at hh; cases hh⟩
  all_goals
    cases e
    refine ⟨fun hh => (by rw [hd] at hh; cases hh), fun T F A E K hh => ?_⟩
    rw [hd] at hh
    simp only [tableHeader] at hh
    injection hh with hh
    cases hh
    refine ⟨rfl, rfl, ?_, ?_, rfl, ?_⟩
    · first | rfl | exact hw
    · first | rfl | exact hz | (show (if p.cfg.is64 then 0 else 4) = _; rw [x.is64])
    · rw [hd]; first | rfl | exact hver | exact hvn | (show 1 + p.numLocal = _; rw [hnl]; rfl) | (show 1 + p.numLocalDyn = _; rw [hnd]; rfl)

/-- The header of section `i`. -/
structure HdrAt (c : Full) (p : Plan) (l : Layout) (i : Nat) (s : Sec) (h : Shdr) : Prop where
  hd : HdOk c p s h
  name : StrIn p.shstrtab h.name s.name
  offset : h.offset = (l.lay.at i).1
  size : h.size = (l.lay.at i).2
  addr : h.addr = if h.flags.testBit 1 then s.shAddr else 0

theorem Ctx.hdrs (x : Ctx c p l out) {hs : List Shdr} (h : mapR (sectionHeader p l.lay) (p.secs.zip p.names).zipIdx = .ok hs) {i : Nat} {s : Sec}
    (hsec : p.secs[i]? = some s) : ∃ h, hs[i]? = some h ∧ HdrAt c p l i s h := by
  obtain ⟨n, hn, hn2⟩ := each_get_left x.plan.names hsec
  have hz : (p.secs.zip p.names).zipIdx[i]? = some ((s, n), i) := by
    have hzz : (p.secs.zip p.names)[i]? = some (s, n) := List.getElem?_zip_eq_some.2 ⟨hsec, hn⟩
    rw [List.getElem?_zipIdx, hzz]; simp
  obtain ⟨h, hh, e⟩ := each_get_left ((mapR_each _ _ _).1 h) hz
  refine ⟨h, hh, ?_⟩
  unfold sectionHeader at e
  simp only [Res.bind_eq_ok] at e
  obtain ⟨hd, e1, nm, e2, e3⟩ := e
  have ho := headerOf_ok x e1
  cases e3
  refine ⟨⟨ho.plain, ho.table⟩, hn2 nm e2, rfl, rfl, ?_⟩
  show (if hd.flags &&& 2 ≠ 0 then s.shAddr else 0) = if hd.flags.testBit 1 then s.shAddr else 0
  have := flag_test hd.flags 1
  simp only [Nat.pow_one] at this
  by_cases hb : hd.flags.testBit 1 = true
  · rw [if_pos (this.2 hb), if_pos hb]
  · rw [if_neg (fun hh => hb (this.1 hh)), if_neg hb]

/-! ## Types -/

theorem kind_type {s : Sec} {secs : List Sec} (h : KindOk c secs s) (hn : tableHeader c.is64 s.data = none) :
    s.shType ∈ [1, 14, 15, 16, 19, 0x40000014, 0x6fff4c04, 0x70000001, 0x70000006, 0x7000001e, 3, 8, 7, 0x6ffffff5, 0x70000003, 4, 9, 6] := by
  unfold KindOk at h
  have hm : (c.header.eMachine, s.shType) ∈ Spec.BuildR.machineTypes → s.shType ∈ [0x70000001, 0x70000006, 0x7000001e] := by
    intro h
    simp only [Spec.BuildR.machineTypes, List.mem_cons, Prod.mk.injEq, List.not_mem_nil, or_false] at h ⊢
    omega
  have ha : (c.header.eMachine, s.shType) ∈ Spec.BuildR.attributesTypes → s.shType ∈ [0x70000001, 0x70000003] := by
    intro h
    simp only [Spec.BuildR.attributesTypes, List.mem_cons, Prod.mk.injEq, List.not_mem_nil, or_false] at h ⊢
    omega
  simp only [List.mem_cons, List.not_mem_nil, or_false] at hm ha ⊢
  cases hd : s.data <;> simp only [hd] at h hn
  case data =>
    rcases h with h | h | h
    · simp only [Spec.BuildR.plainTypes, List.mem_cons, List.not_mem_nil, or_false] at h; omega
    · have := hm h; omega
    · omega
  case attributes =>
    rcases h.1 with h | h
    · omega
    · have := ha h; omega
  all_goals first | omega | (cases hn)

/-- Tables whose type is their own. -/
def ownType : SecData → Option Nat
  | .symbol => some 2
  | .symbolSectionIndex => some 18
  | .dynamicSymbol => some 11
  | .hash => some 5
  | .gnuHash => some 0x6ffffff6
  | .gnuVersym => some 0x6fffffff
  | .gnuVerdef => some 0x6ffffffd
  | .gnuVerneed => some 0x6ffffffe
  | _ => none

theorem own_type {s : Sec} {secs : List Sec} {h : Shdr} (hk : KindOk c secs s) (hh : HdOk c p s h) {k : SecData} {T : Nat} (hT : ownType k = some T) :
    h.type = T ↔ s.data = k := by
  have key : ∀ T', h.type = T' → (∀ k', ownType k' = some T → s.data ≠ k' → T' ≠ T) → (s.data = k → T' = T) → (h.type = T ↔ s.data = k) := by
    intro T' e h1 h2
    constructor
    · intro e2
      by_cases hc : s.data = k
      · exact hc
      · exact absurd (e.symm.trans e2) (h1 k hT hc)
    · intro hc; rw [e]; exact h2 hc
  cases hn : tableHeader c.is64 s.data with
  | none =>
    have ht := kind_type hk hn
    refine key _ (hh.plain hn).1 ?_ ?_
    · intro k' hk' _
      rintro rfl
      cases k' <;> simp only [ownType, reduceCtorEq, Option.some.injEq] at hk' <;> rw [← hk'] at ht <;> simp at ht
    · intro e; subst e
      cases hd : s.data <;> simp only [hd, tableHeader, ownType, reduceCtorEq] at hn hT
  | some v =>
    obtain ⟨T', F, A, E, K⟩ := v
    refine key _ (hh.table _ _ _ _ _ hn).1 ?_ ?_
    · intro k' hk' hne
      cases hd : s.data <;> simp only [hd, tableHeader, reduceCtorEq, Option.some.injEq, Prod.mk.injEq] at hn <;>
        rw [← hn.1] <;> cases k' <;> simp only [ownType, reduceCtorEq, Option.some.injEq] at hk' <;> rw [← hk'] <;>
        first | (decide) | (exact absurd hd hne)
    · intro e; subst e
      cases hd : s.data <;> simp only [hd, tableHeader, ownType, reduceCtorEq, Option.some.injEq, Prod.mk.injEq] at hn hT <;>
        rw [← hn.1, hT]

end
end Obj.BuildW

import Verif.Proof.MachoBW2
import Verif.Proof.BuildW18

/-! Writing with the Mach-O builder: the order of sections and symbols. -/

namespace Obj.MachoB
open Obj Obj.MachoR
open Obj.BuildW (mapR mapR_each NameId Built)
open Obj.Spec.MachoF (Each)
open Obj.Spec.MachoB

theorem fetch_ok {α : Type} {t : List α} {i : Nat} {x : α} (h : fetch t i = .ok x) : t[i]? = some x := by
  unfold fetch at h
  split at h
  · next e => cases h; exact e
  · cases h

theorem segmentIds_eq (ks : List Cmd) : segmentIds ks = segmentsOf ks := by
  unfold segmentIds segmentsOf
  congr 1

/-! ## Positions -/

theorem lastIndex_eq {ids : List Nat} (hd : ids.Nodup) {i k : Nat} (h : ids[k]? = some i) : lastIndex ids i = some k := by
  unfold lastIndex
  have hk := (List.getElem?_eq_some_iff.1 h).1
  have hm : (i, k) ∈ ids.zipIdx.reverse := by
    rw [List.mem_reverse]
    exact List.mk_mem_zipIdx_iff_getElem?.2 h
  cases hf : ids.zipIdx.reverse.find? (fun x => x.1 == i) with
  | none =>
    have := List.find?_eq_none.1 hf _ hm
    simp at this
  | some x =>
    have h1 := List.find?_some hf
    have h2 := List.mem_of_find?_eq_some hf
    rw [List.mem_reverse] at h2
    obtain ⟨a, j⟩ := x
    have h2 := List.mk_mem_zipIdx_iff_getElem?.1 h2
    have h1 : a = i := by simpa using h1
    subst h1
    have h3 := (List.getElem?_eq_some_iff.1 h2).1
    have h4 : ids[k] = ids[j] := by
      have e1 := (List.getElem?_eq_some_iff.1 h).2
      have e2 := (List.getElem?_eq_some_iff.1 h2).2
      rw [e1, e2]
    have := (List.getElem_inj hd).1 h4
    simp [this]

theorem place_of_mem {ids : List Nat} {i : Nat} (hi : i ∈ ids) : ∃ k, Place ids i k := List.mem_iff_getElem?.1 hi

theorem place_lt {ids : List Nat} {i k : Nat} (h : Place ids i k) : k < ids.length := (List.getElem?_eq_some_iff.1 h).1

/-! ## Symbols -/

theorem and_e0 (n : Nat) (h : n < 256) : n &&& 0xe0 = 0 ↔ n / 32 = 0 := by
  have : ∀ n : Fin 256, (n.val &&& 0xe0 = 0 ↔ n.val / 32 = 0) := by decide +kernel
  exact this ⟨n, h⟩

theorem and_0e (n : Nat) (h : n < 256) : n &&& 0xe = 0 ↔ n / 2 % 8 = 0 := by
  have : ∀ n : Fin 256, (n.val &&& 0xe = 0 ↔ n.val / 2 % 8 = 0) := by decide +kernel
  exact this ⟨n, h⟩

theorem and_11 (n : Nat) (h : n < 256) : n &&& 0x11 = 1 ↔ n % 2 = 1 ∧ n / 16 % 2 = 0 := by
  have : ∀ n : Fin 256, (n.val &&& 0x11 = 1 ↔ n.val % 2 = 1 ∧ n.val / 16 % 2 = 0) := by decide +kernel
  exact this ⟨n, h⟩

theorem undef_iff {y : Sym} (h : y.ntype < 256) : y.isUndefined = true ↔ symGroup y = 2 := by
  unfold Sym.isUndefined symGroup
  rw [Bool.and_eq_true, decide_eq_true_iff, decide_eq_true_iff, and_e0 _ h, and_0e _ h]
  split
  · next e => exact ⟨fun _ => rfl, fun _ => e⟩
  · next e => refine ⟨fun x => absurd x e, fun x => ?_⟩; split at x <;> omega

theorem ext_iff {y : Sym} (h : y.ntype < 256) : (!y.isUndefined && y.isExtdef) = true ↔ symGroup y = 1 := by
  rw [Bool.and_eq_true, Bool.not_eq_true', ← Bool.not_eq_true, undef_iff h]
  unfold Sym.isExtdef symGroup
  rw [decide_eq_true_iff, and_11 _ h]
  by_cases h1 : y.ntype / 32 = 0 ∧ y.ntype / 2 % 8 = 0 <;> by_cases h2 : y.ntype % 2 = 1 ∧ y.ntype / 16 % 2 = 0 <;>
    simp only [h1, h2, and_self, if_true, if_false, not_true, not_false_eq_true] <;> decide

theorem local_iff {y : Sym} (h : y.ntype < 256) : (!y.isUndefined && !y.isExtdef) = true ↔ symGroup y = 0 := by
  rw [Bool.and_eq_true, Bool.not_eq_true', ← Bool.not_eq_true, undef_iff h]
  unfold Sym.isExtdef symGroup
  rw [Bool.not_eq_true', ← Bool.not_eq_true, decide_eq_true_iff, and_11 _ h]
  by_cases h1 : y.ntype / 32 = 0 ∧ y.ntype / 2 % 8 = 0 <;> by_cases h2 : y.ntype % 2 = 1 ∧ y.ntype / 16 % 2 = 0 <;>
    simp only [h1, h2, and_self, if_true, if_false, not_true, not_false_eq_true] <;> decide

theorem mem_insertSym (y : Sym) (l : List Sym) (z : Sym) : z ∈ insertSym y l ↔ z = y ∨ z ∈ l := by
  induction l with
  | nil => simp [insertSym]
  | cons x l ih =>
    unfold insertSym
    split
    · rw [List.mem_cons, ih, List.mem_cons]
      constructor
      · rintro (h | h | h)
        · exact .inr (.inl h)
        · exact .inl h
        · exact .inr (.inr h)
      · rintro (h | h | h)
        · exact .inr (.inl h)
        · exact .inl h
        · exact .inr (.inr h)
    · simp

theorem mem_sortSyms (l : List Sym) (z : Sym) : z ∈ sortSyms l ↔ z ∈ l := by
  induction l with
  | nil => simp [sortSyms]
  | cons x l ih => unfold sortSyms; rw [mem_insertSym, ih]; simp

def NameOrder (y z : Sym) : Prop := y.name < z.name ∨ y.name = z.name ∧ y.id < z.id

theorem pairwise_insertSym (y : Sym) (l : List Sym) (h : l.Pairwise NameOrder) (hi : ∀ z ∈ l, y.id < z.id) : (insertSym y l).Pairwise NameOrder := by
  induction l with
  | nil => simp [insertSym]
  | cons x l ih =>
    rw [List.pairwise_cons] at h
    unfold insertSym
    split
    · rename_i hlt
      refine List.Pairwise.cons (fun j hj => ?_) (ih h.2 (fun j hj => hi j (by simp [hj])))
      rcases (mem_insertSym y l j).1 hj with rfl | hj
      · exact .inl ((MachoW.bytesLt_iff _ _).1 hlt)
      · exact h.1 j hj
    · rename_i hlt
      have h1 : NameOrder y x := by
        rcases MachoW.bytesLt_total y.name x.name with h | h | h
        · exact .inl ((MachoW.bytesLt_iff _ _).1 h)
        · exact .inr ⟨h, hi x (by simp)⟩
        · exact absurd h hlt
      refine List.Pairwise.cons (fun j hj => ?_) (List.Pairwise.cons h.1 h.2)
      rcases List.mem_cons.1 hj with rfl | hj'
      · exact h1
      · rcases h.1 j hj' with h2 | ⟨h2, h3⟩
        · rcases h1 with h1 | ⟨h1, -⟩
          · rw [← MachoW.bytesLt_iff] at h1 h2
            exact .inl ((MachoW.bytesLt_iff _ _).1 (MachoW.bytesLt_trans _ _ _ h1 h2))
          · exact .inl (by rw [h1]; exact h2)
        · rcases h1 with h1 | ⟨h1, -⟩
          · exact .inl (by rw [← h2]; exact h1)
          · exact .inr ⟨by rw [h1, h2], hi j hj⟩

theorem pairwise_sortSyms (l : List Sym) (h : l.Pairwise fun y z => y.id < z.id) : (sortSyms l).Pairwise NameOrder := by
  induction l with
  | nil => exact .nil
  | cons x l ih =>
    rw [List.pairwise_cons] at h
    unfold sortSyms
    exact pairwise_insertSym x _ (ih h.2) (fun j hj => h.1 j ((mem_sortSyms l j).1 hj))

theorem numbered_sorted {α : Type} {f : α → Nat} {l : List α} (h : ∀ (i : Nat) (x : α), l[i]? = some x → f x = i) : l.Pairwise fun x y => f x < f y := by
  rw [List.pairwise_iff_getElem]
  intro i j hi hj hij
  rw [h i _ (List.getElem?_eq_getElem hi), h j _ (List.getElem?_eq_getElem hj)]
  exact hij

/-- The symbols in the order of the file. -/
theorem symbolOrder_ok {b : Builder} (hn : Numbered b) (hy : ∀ y ∈ b.symbols, y.delete = false → y.ntype < 256) :
    SymbolOrder b (localSyms b.symbols ++ (extSyms b.symbols ++ undefSyms b.symbols)) := by
  have hmem : ∀ y, y ∈ Build.iter b.symbols ↔ y ∈ b.symbols ∧ y.delete = false := by
    intro y
    rw [Build.iter_eq, List.mem_filter]
    simp [Build.Item.deleted]
  have hlt : ∀ y ∈ Build.iter b.symbols, y.ntype < 256 := fun y h => hy y ((hmem y).1 h).1 ((hmem y).1 h).2
  have hs : (Build.iter b.symbols).Pairwise fun y z => y.id < z.id := by
    rw [Build.iter_eq]
    exact (numbered_sorted hn.symbols).filter _
  have h0 : ∀ y, y ∈ localSyms b.symbols ↔ y ∈ Build.iter b.symbols ∧ symGroup y = 0 := by
    intro y
    unfold localSyms
    rw [List.mem_filter]
    exact ⟨fun h => ⟨h.1, (local_iff (hlt y h.1)).1 h.2⟩, fun h => ⟨h.1, (local_iff (hlt y h.1)).2 h.2⟩⟩
  have h1 : ∀ y, y ∈ extSyms b.symbols ↔ y ∈ Build.iter b.symbols ∧ symGroup y = 1 := by
    intro y
    unfold extSyms
    rw [mem_sortSyms, List.mem_filter]
    exact ⟨fun h => ⟨h.1, (ext_iff (hlt y h.1)).1 h.2⟩, fun h => ⟨h.1, (ext_iff (hlt y h.1)).2 h.2⟩⟩
  have h2 : ∀ y, y ∈ undefSyms b.symbols ↔ y ∈ Build.iter b.symbols ∧ symGroup y = 2 := by
    intro y
    unfold undefSyms
    rw [mem_sortSyms, List.mem_filter]
    exact ⟨fun h => ⟨h.1, (undef_iff (hlt y h.1)).1 h.2⟩, fun h => ⟨h.1, (undef_iff (hlt y h.1)).2 h.2⟩⟩
  refine ⟨fun y => ?_, ?_⟩
  · rw [List.mem_append, List.mem_append, h0, h1, h2, ← hmem]
    have : symGroup y = 0 ∨ symGroup y = 1 ∨ symGroup y = 2 := by unfold symGroup; split <;> (try split) <;> simp
    constructor
    · rintro (h | h | h) <;> exact h.1
    · intro h
      rcases this with e | e | e
      · exact .inl ⟨h, e⟩
      · exact .inr (.inl ⟨h, e⟩)
      · exact .inr (.inr ⟨h, e⟩)
  · have hname : ∀ (l : List Sym) (k : Nat), k ≠ 0 → (∀ y ∈ l, symGroup y = k) → l.Pairwise NameOrder → l.Pairwise Before := by
      intro l k hk hl h
      refine List.Pairwise.imp_of_mem ?_ h
      intro y z hy hz hyz
      refine .inr ⟨by rw [hl y hy, hl z hz], ?_⟩
      rw [hl y hy, if_neg hk]
      exact hyz
    rw [List.pairwise_append, List.pairwise_append]
    refine ⟨?_, ⟨hname _ 1 (by decide) (fun y h => ((h1 y).1 h).2) (pairwise_sortSyms _ (hs.filter _)),
      hname _ 2 (by decide) (fun y h => ((h2 y).1 h).2) (pairwise_sortSyms _ (hs.filter _)), ?_⟩, ?_⟩
    · refine List.Pairwise.imp_of_mem ?_ (hs.filter fun y => !y.isUndefined && !y.isExtdef)
      intro y z hy hz hyz
      have e1 := ((h0 y).1 hy).2
      have e2 := ((h0 z).1 hz).2
      refine .inr ⟨by rw [e1, e2], ?_⟩
      rw [e1, if_pos rfl]
      exact hyz
    · intro y hy z hz
      have e1 := ((h1 y).1 hy).2
      have e2 := ((h2 z).1 hz).2
      exact .inl (by omega)
    · intro y hy z hz
      have e1 := ((h0 y).1 hy).2
      rcases List.mem_append.1 hz with hz | hz
      · have e2 := ((h1 z).1 hz).2
        exact .inl (by omega)
      · have e2 := ((h2 z).1 hz).2
        exact .inl (by omega)

theorem before_ne {y z : Sym} (h : Before y z) : y.id ≠ z.id ∨ y ≠ z := by
  by_cases e : y = z
  · subst e
    exfalso
    rcases h with h | ⟨-, h⟩
    · omega
    · split at h
      · omega
      · rcases h with h | h
        · exact List.lt_irrefl _ h
        · omega
  · exact .inr e

/-- The ids of the symbols are different. -/
theorem order_nodup {b : Builder} (hn : Numbered b) {syms : List Sym} (h : SymbolOrder b syms) : (syms.map (·.id)).Nodup := by
  rw [List.Nodup, List.pairwise_map]
  refine List.Pairwise.imp_of_mem ?_ h.sorted
  intro y z hy hz hyz he
  obtain ⟨i, hi⟩ := List.mem_iff_getElem?.1 ((h.all y).1 hy).1
  obtain ⟨j, hj⟩ := List.mem_iff_getElem?.1 ((h.all z).1 hz).1
  have e1 := hn.symbols i y hi
  have e2 := hn.symbols j z hj
  have : i = j := by omega
  subst this
  rw [hi] at hj
  cases hj
  rcases before_ne hyz with h | h <;> exact h rfl

/-! ## Names -/

theorem addNames_ok {ys : List Sym} {t t' : StrTab} {ids : List (Option Nat)} (hb : Built t) (h : addNames t ys = .ok (ids, t')) :
    Built t' ∧ t.strings <+: t'.strings ∧ Each (fun y id => NameId t' y.name id) ys ids := by
  induction ys generalizing t ids with
  | nil => cases h; exact ⟨hb, List.prefix_refl _, .nil⟩
  | cons n ns ih =>
    rw [addNames, Res.bind_eq_ok] at h
    obtain ⟨⟨i, u⟩, h1, h⟩ := h
    rw [Res.bind_eq_ok] at h
    obtain ⟨⟨is, v⟩, h2, h3⟩ := h
    cases h3
    obtain ⟨a1, a2, a3⟩ := BuildW.addName_ok hb h1
    obtain ⟨b1, b2, b3⟩ := ih a1 h2
    exact ⟨b1, a2.trans b2, .cons (BuildW.nameId_mono a3 b2) b3⟩

/-! ## The order -/

/-- The facts about the order. -/
structure Ordered (b : Builder) (o : Order) : Prop where
  segs : Each (fun i (g : Segm × List Sec) => b.segments[i]? = some g.1 ∧ Each (fun j s => b.sections[j]? = some s) g.1.sections g.2)
    (segmentsOf b.commands) o.segs
  secs : o.secs = o.segs.flatMap (·.2)
  secs_le : o.secs.length ≤ 255
  syms : o.syms = localSyms b.symbols ++ (extSyms b.symbols ++ undefSyms b.symbols)
  syms_le : o.syms.length ≤ 2 ^ 24
  built : Built o.tab
  names : Each (fun y id => NameId o.tab y.name id) o.syms o.names
  allSegments : ∀ g ∈ b.segments, g.delete = false → g.id ∈ segmentsOf b.commands
  allSections : ∀ s ∈ b.sections, s.delete = false → s.id ∈ o.secs.map (·.id)
  symtab : o.syms = [] ∨ Cmd.symtab ∈ b.commands
  allLibraries : ∀ i d, b.dylibs[i]? = some d → d.delete = false → Cmd.dylib i ∈ b.commands

theorem order_ok {b : Builder} {o : Order} (h : order b = .ok o) : Ordered b o := by
  unfold order at h
  rw [Res.bind_eq_ok] at h
  obtain ⟨segs, h1, h⟩ := h
  split at h
  · cases h
  next hle =>
  simp only at h
  rw [Res.bind_eq_ok] at h
  obtain ⟨⟨names, t⟩, h2, h⟩ := h
  split at h
  · cases h
  next hle2 =>
  split at h
  · next href =>
    cases h
    obtain ⟨a1, -, a3⟩ := addNames_ok BuildW.built_new h2
    unfold referenced at href
    simp only [Bool.and_eq_true, List.all_eq_true, Bool.or_eq_true, List.isEmpty_iff] at href
    obtain ⟨⟨⟨r1, r2⟩, r3⟩, r4⟩ := href
    refine ⟨?_, rfl, by simpa using hle, rfl, by simpa using hle2, a1, a3, ?_, ?_, ?_, ?_⟩
    · have := (mapR_each _ _ _).1 h1
      rw [segmentIds_eq] at this
      refine each_imp this fun i g hg => ?_
      rw [Res.bind_eq_ok] at hg
      obtain ⟨g', e1, hg⟩ := hg
      rw [Res.bind_eq_ok] at hg
      obtain ⟨ss, e2, hg⟩ := hg
      cases hg
      exact ⟨fetch_ok e1, each_imp ((mapR_each _ _ _).1 e2) fun _ _ => fetch_ok⟩
    · intro g hg hd
      have := r1 g (by rw [Build.iter_eq, List.mem_filter]; exact ⟨hg, by simp [Build.Item.deleted, hd]⟩)
      rw [segmentIds_eq] at this
      simpa using this
    · intro g hg hd
      have := r2 g (by rw [Build.iter_eq, List.mem_filter]; exact ⟨hg, by simp [Build.Item.deleted, hd]⟩)
      simpa using this
    · rcases r3 with r3 | r3
      · exact .inl r3
      · exact .inr (by simpa using r3)
    · intro i d hi hd
      have := r4 (d, i) (List.mk_mem_zipIdx_iff_getElem?.2 hi)
      simpa [hd] using this
  · cases h

/-- The sections in the order of the file. -/
theorem sections_each {b : Builder} {o : Order} (h : Ordered b o) : Each (fun i s => b.sections[i]? = some s) (sectionOrder b) o.secs := by
  rw [h.secs]
  unfold sectionOrder
  refine BuildW.each_flatMap h.segs fun i _ g hg => ?_
  rw [hg.1]
  exact hg.2

theorem sections_ids {b : Builder} {o : Order} (hn : Numbered b) (h : Ordered b o) : o.secs.map (·.id) = sectionOrder b := by
  have := sections_each h
  generalize sectionOrder b = l at this
  generalize o.secs = ss at this
  induction this with
  | nil => rfl
  | cons h1 _ ih => rw [List.map_cons, ih, hn.sections _ _ h1]

end Obj.MachoB

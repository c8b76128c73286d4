import Verif.Proof.BuildW17

/-! Writing with the ELF builder: the versions that are read back. -/

namespace Obj.BuildW
open Obj Obj.Build Obj.BuildR Obj.Spec
open Obj.Spec.MachoF (Each num)
open Obj.Spec.ElfF (DataOf RecordsOf)
open Obj.Spec.BuildR (InFirst Defs Needs VersionsOf VersionOf SymVersions Tables StrAt DefOf NeedOf BaseOf indices isBase SymbolOf)
open Obj.Spec.BuildW (live Place Ref Sound isDef needsFrom versionOrder VerOk VerSame VersionSame SymSame has Fresh IdsOk)
open Obj.Elf (Shdr WVerdef WVerneed WVernaux Verdef Verdaux Verneed Vernaux)

theorem ver_id_lt {c : Full} {p : Plan} (hp : PlanOk c p) (hs : Sound c) {v : Ver} (hv : v ∈ live c.tables.versions) : v.id + 2 < 0x8001 := by
  obtain ⟨t, -, ht, -⟩ := hp.ver
  have := (versions_defs ht).2
  obtain ⟨i, hi⟩ := List.getElem?_of_mem (List.mem_filter.1 hv).1
  have h1 := hs.ids.2.2.2.1 _ _ hi
  have h2 := (List.getElem?_eq_some_iff.1 hi).1
  have h1 : v.id = i := h1
  omega

theorem each_swap {α β : Type} {P : α → β → Prop} {xs : List α} {ys : List β} (h : Each P xs ys) : Each (fun y x => P x y) ys xs := by
  induction h with
  | nil => exact .nil
  | cons h1 h2 ih => exact .cons h1 ih

theorem defRecs_map {o : TabOut} {vs : List Ver} {ws : List WVerdef} (h : Each (DefW o) vs ws) (hv : ∀ v ∈ vs, VerOk v.data) :
    Each (fun (v : Ver) (r : Verdef × List Verdaux) => r.1.ndx = (v.id + 2) % 65536 ∧ isBase r = false ∧
      ∃ names, v.data = .def_ names r.1.flags ∧ Each (fun (a : Verdaux) s => StrIn o a.name s) r.2 names) vs (defRecs ws) := by
  induction h with
  | nil => exact .nil
  | @cons v w vs ws h1 h2 ih =>
    obtain ⟨n, rest, flags, k1, k2, k3, k4, -⟩ := h1.names
    have hok := hv v (by simp)
    rw [k1] at hok
    refine .cons ⟨h1.index, ?_, n :: rest, ?_, ?_⟩ (ih fun x hx => hv x (by simp [hx]))
    · show w.flags.testBit 0 = false
      rw [k2]; exact hok.2
    · rw [k1]; show VerData.def_ (n :: rest) flags = .def_ (n :: rest) w.flags; rw [k2]
    · have e := auxRecs_names (w.name :: w.rest)
      have : Each (fun x s => StrIn o x s) ((auxRecs (w.name :: w.rest)).map (·.name)) (n :: rest) := by
        rw [e]
        exact .cons k3 (each_swap k4)
      rw [each_map_left] at this
      exact this

theorem needAuxs_map {o : TabOut} {xs : List (Nat × List UInt8 × Nat)} {as : List WVernaux} (h : Each (NeedW o) xs as) :
    Each (fun (x : Nat × List UInt8 × Nat) (a : Vernaux) => a.other = x.1 % 65536 ∧ a.flags = x.2.2 ∧ StrIn o a.name x.2.1) xs (needAuxs as) := by
  induction h with
  | nil => exact .nil
  | cons h1 h2 ih => exact .cons ⟨h1.index, h1.flags, h1.name⟩ ih

theorem needRecs_map {o : TabOut} {vs : List Ver} {fs : List VerFile} {ws : List WVerneed} (h : Each (FileW o vs) fs ws) :
    Each (fun (f : VerFile) (r : Verneed × List Vernaux) => StrIn o r.1.file f.name ∧
      Each (fun (x : Nat × List UInt8 × Nat) (a : Vernaux) => a.other = x.1 % 65536 ∧ a.flags = x.2.2 ∧ StrIn o a.name x.2.1)
        (vs.filterMap (needEntry f.id)) r.2) fs (needRecs ws) := by
  induction h with
  | nil => exact .nil
  | cons h1 h2 ih => exact .cons ⟨h1.file, needAuxs_map h1.auxs⟩ ih

theorem each_map_eq {α β γ : Type} {P : α → β → Prop} {xs : List α} {ys : List β} (f : α → γ) (g : β → γ) (h : Each P xs ys) (hi : ∀ x ∈ xs, ∀ y, P x y → g y = f x) :
    ys.map g = xs.map f := by
  induction h with
  | nil => rfl
  | cons h1 h2 ih => rw [List.map_cons, List.map_cons, hi _ (by simp) _ h1, ih fun x hx => hi x (by simp [hx])]

theorem each_flatMap_eq {α β γ : Type} {P : α → β → Prop} {xs : List α} {ys : List β} (f : α → List γ) (g : β → List γ) (h : Each P xs ys)
    (hi : ∀ x ∈ xs, ∀ y, P x y → g y = f x) : ys.flatMap g = xs.flatMap f := by
  induction h with
  | nil => rfl
  | cons h1 h2 ih => rw [List.flatMap_cons, List.flatMap_cons, hi _ (by simp) _ h1, ih fun x hx => hi x (by simp [hx])]

/-- The entries of a file in the order of the versions. -/
theorem needEntry_vers (vs : List Ver) (f : VerFile) : Each (fun (v : Ver) (x : Nat × List UInt8 × Nat) => v.data = .need f.id x.2.1 x.2.2)
    (vs.filter (needsFrom f)) (vs.filterMap (needEntry f.id)) := by
  induction vs with
  | nil => exact .nil
  | cons v vs ih =>
    cases hd : v.data with
    | def_ a b =>
      have e1 : needEntry f.id v = none := by simp [needEntry, hd]
      have e2 : needsFrom f v = false := by simp [needsFrom, hd]
      rw [List.filterMap_cons, e1, List.filter_cons_of_neg (by rw [e2]; simp)]
      exact ih
    | need file name flags =>
      by_cases hf : file = f.id
      · have e1 : needEntry f.id v = some (v.id + 2, name, flags) := by simp [needEntry, hd, hf]
        have e2 : needsFrom f v = true := by simp [needsFrom, hd, hf]
        rw [List.filterMap_cons, e1, List.filter_cons_of_pos e2]
        exact .cons (by rw [hd, hf]) ih
      · have e1 : needEntry f.id v = none := by simp [needEntry, hd, hf]
        have e2 : needsFrom f v = false := by simp [needsFrom, hd, hf]
        rw [List.filterMap_cons, e1, List.filter_cons_of_neg (by rw [e2]; simp)]
        exact ih

section
variable {c : Full} {p : Plan} {l : Layout} {out : List UInt8} {ss : List Shdr} {T : Tables}

theorem Tabs.versions (t : Tabs c p l out ss T) : ∃ defs needs vers files,
    InFirst T.sections 0x6ffffffd T.dynSymbols.stringSection out (Defs T.cfg.en) defs ∧
    InFirst T.sections 0x6ffffffe T.dynSymbols.stringSection out (Needs T.cfg.en) needs ∧
    VersionsOf out T.dynSymbols.strings defs needs c.versionBase vers files ∧
    indices defs needs = (versionOrder c.tables).map (fun v => v.id + 2) ∧
    Each (fun (v : Ver) y => VerSame (live c.tables.versionFiles) v.data y.data) (versionOrder c.tables) vers ∧
    Each (fun (f : VerFile) y => y.name = f.name) (live c.tables.versionFiles) files ∧ Fresh vers ∧ Fresh files := by
  have x := t.tab.ctx
  have hs := x.sound
  obtain ⟨bs, wd, d1, d2, d3⟩ := t.verdef
  obtain ⟨wn, n1, n2⟩ := t.verneed
  have D := defRecs_map d1 (fun v hv => hs.verOk v (List.mem_filter.1 hv).1)
  have N := needRecs_map n1
  -- Strings.
  obtain ⟨ws, hw⟩ := t.dynSymbols
  have hver : (p.idx .gnuVerdef ≠ 0 → p.idx .dynamicSymbol ≠ 0) ∧ (p.idx .gnuVerneed ≠ 0 → p.idx .dynamicSymbol ≠ 0) := by
    obtain ⟨-, -, -, -, t5, t6⟩ := hs.tables
    exact ⟨fun h => (t.tab.idx_has rfl).2 (t5 ((t.tab.idx_has rfl).1 h)), fun h => (t.tab.idx_has rfl).2 (t6 ((t.tab.idx_has rfl).1 h))⟩
  have hS : p.idx .dynamicSymbol ≠ 0 → ∀ {o : Nat} {s : List UInt8}, StrIn p.dynstr o s → StrAt out T.dynSymbols.strings o s := by
    intro h0 o s h
    obtain ⟨off, q1, q2⟩ := hw.strings h0
    rw [q1]; exact strAt_blk q2 h
  -- Definitions.
  have hbs : bs.filter (fun v => !isBase v) = [] ∧ bs.filter isBase = bs := by
    rcases d2 with ⟨-, rfl⟩ | ⟨n, v, a, -, rfl, e, -⟩
    · exact ⟨rfl, rfl⟩
    · have : isBase (v, [a]) = true := by show v.flags.testBit 0 = true; rw [e]; rfl
      simp [this]
  have hws : (defRecs wd).filter isBase = [] ∧ (defRecs wd).filter (fun v => !isBase v) = defRecs wd := by
    have : ∀ r ∈ defRecs wd, isBase r = false := by
      intro r hr
      obtain ⟨v, -, -, h, -⟩ := each_mem D hr
      exact h
    constructor
    · rw [List.filter_eq_nil_iff]; intro r hr; rw [this r hr]; simp
    · rw [List.filter_eq_self]; intro r hr; rw [this r hr]; rfl
  have hdf : (bs ++ defRecs wd).filter (fun v => !isBase v) = defRecs wd := by rw [List.filter_append, hbs.1, hws.2]; rfl
  have hbf : (bs ++ defRecs wd).filter isBase = bs := by rw [List.filter_append, hbs.2, hws.1, List.append_nil]
  have hidx : indices (bs ++ defRecs wd) (needRecs wn) = (versionOrder c.tables).map (fun v => v.id + 2) := by
    unfold indices versionOrder
    rw [hdf, List.map_append, List.map_flatMap]
    congr 1
    · refine each_map_eq _ _ D ?_
      intro v hv r hr
      rw [hr.1]
      have := ver_id_lt x.plan hs (List.mem_filter.1 hv).1
      omega
    · refine each_flatMap_eq _ _ N ?_
      intro f hf r hr
      rw [← needEntry_ids]
      refine each_map_eq _ _ hr.2 ?_
      intro e he a ha
      rw [ha.1]
      obtain ⟨v, hv, -, e2⟩ := needEntry_mem he
      have := ver_id_lt x.plan hs hv
      omega
  let ds : List VerData := ((live c.tables.versions).filter isDef).map (·.data)
  let ns : List VerData := (live c.tables.versionFiles).zipIdx.flatMap fun f =>
    ((live c.tables.versions).filterMap (needEntry f.1.id)).map fun e => .need f.2 e.2.1 e.2.2
  let names : List (List UInt8) := (live c.tables.versionFiles).map (·.name)
  -- The versions that are the same.
  have hsame : Each (fun (v : Ver) d => VerSame (live c.tables.versionFiles) v.data d) (versionOrder c.tables) (ds ++ ns) := by
    unfold versionOrder
    rw [each_append]
    refine ⟨ds, ns, rfl, ?_, ?_⟩
    · refine each_map_right _ (each_self _ ?_)
      intro v hv
      cases hd : v.data with
      | def_ a b => exact .def_
      | need a b e => have := (List.mem_filter.1 hv).2; simp [isDef, hd] at this
    · have e : (live c.tables.versionFiles).flatMap (fun f => (live c.tables.versions).filter (needsFrom f)) =
          (live c.tables.versionFiles).zipIdx.flatMap fun f => (live c.tables.versions).filter (needsFrom f.1) := by
        have : live c.tables.versionFiles = (live c.tables.versionFiles).zipIdx.map Prod.fst := by simp
        conv => lhs; rw [this]
        rw [List.flatMap_map]
      rw [e]
      refine each_flatMap (P := fun a b => a = b) (each_self _ fun _ _ => rfl) ?_
      rintro ⟨f, j⟩ hf _ rfl
      have hj := List.mem_zipIdx_iff_getElem?.1 hf
      refine each_map_right _ (each_imp (needEntry_vers _ f) ?_)
      intro v hv e he
      show VerSame _ v.data (.need j e.2.1 e.2.2)
      rw [he]
      exact .need ⟨f, hj, rfl⟩
  refine ⟨bs ++ defRecs wd, needRecs wn, (ds ++ ns).zipIdx.map fun x => { id := x.2, data := x.1, delete := false },
    names.zipIdx.map fun x => { id := x.2, delete := false, name := x.1 }, d3, n2, ?_, hidx, ?_, ?_, ?_, ?_⟩
  · -- The versions.
    have hstrD : ∀ {o : Nat} {s : List UInt8}, StrIn p.dynstr o s → p.idx .dynamicSymbol = 0 ∨ StrAt out T.dynSymbols.strings o s := by
      intro o s h
      by_cases h0 : p.idx .dynamicSymbol = 0
      · exact .inl h0
      · exact .inr (hS h0 h)
    have hempty : p.idx .dynamicSymbol = 0 → bs = [] ∧ defRecs wd = [] ∧ needRecs wn = [] ∧ c.versionBase = none := by
      intro h0
      have g1 : p.idx .gnuVerdef = 0 := by
        by_cases h : p.idx .gnuVerdef = 0
        · exact h
        · exact absurd h0 (hver.1 h)
      have g2 : p.idx .gnuVerneed = 0 := by
        by_cases h : p.idx .gnuVerneed = 0
        · exact h
        · exact absurd h0 (hver.2 h)
      rw [t.sections] at d3 n2
      have k1 : bs ++ defRecs wd = [] := by
        rcases d3 with ⟨-, h⟩ | ⟨i, s, d, q1, q2, -⟩
        · exact h
        · exact absurd q2 (t.tab.absent (k := .gnuVerdef) rfl g1 s (List.mem_of_getElem? q1))
      have k2 : needRecs wn = [] := by
        rcases n2 with ⟨-, h⟩ | ⟨i, s, d, q1, q2, -⟩
        · exact h
        · exact absurd q2 (t.tab.absent (k := .gnuVerneed) rfl g2 s (List.mem_of_getElem? q1))
      rw [List.append_eq_nil_iff] at k1
      refine ⟨k1.1, k1.2, k2, ?_⟩
      rcases d2 with ⟨h, -⟩ | ⟨n, v, a, -, h, -⟩
      · exact h
      · rw [k1.1] at h; cases h
    refine ⟨?_, ?_, ?_, ?_⟩
    · unfold BaseOf
      rw [hbf]
      rcases d2 with ⟨h1, h2⟩ | ⟨n, v, a, h1, h2, h3, h4, h5⟩
      · exact .inl ⟨h2, h1⟩
      · refine .inr ⟨v, a, n, h2, h3, h4, ?_, h1⟩
        rcases hstrD h5 with h | h
        · have := (hempty h).2.2.2
          rw [h1] at this; cases this
        · exact h
    · rw [hidx]
      refine ⟨order_ids hs, ?_, ?_⟩
      · simp
      · simp
    · refine ⟨ds, ns, ?_, ?_, rfl⟩
      · rw [hdf]
        by_cases h0 : p.idx .dynamicSymbol = 0
        · have e := (hempty h0).2.1
          have hl := each_length D
          rw [e] at hl ⊢
          have : ds = [] := List.length_eq_zero_iff.1 (by simp only [ds, List.length_map]; simpa using hl.symm)
          rw [this]; exact .nil
        · refine each_map_right _ (each_swap (each_imp D ?_))
          rintro v - r ⟨-, -, nm, k1, k2⟩
          exact ⟨nm, each_imp k2 fun a _ s h => hS h0 h, k1⟩
      · by_cases h0 : p.idx .dynamicSymbol = 0
        · have e := (hempty h0).2.2.1
          have hl := each_length N
          rw [e] at hl ⊢
          have hz : live c.tables.versionFiles = [] := List.length_eq_zero_iff.1 (by simpa using hl.symm)
          have : ns = [] := by simp only [ns, hz]; rfl
          rw [this]; exact .nil
        · refine each_flatMap (each_swap (each_zipIdx N 0)) ?_
          rintro ⟨r, j⟩ - ⟨f, j'⟩ ⟨⟨k1, k2⟩, k3⟩
          dsimp only at k3
          subst k3
          rw [each_map_left]
          refine each_map_right _ (each_swap (each_imp k2 ?_))
          rintro e - a ⟨m1, m2, m3⟩
          exact ⟨e.2.1, hS h0 m3, by show VerData.need _ _ _ = VerData.need _ _ a.flags; rw [m2]⟩
    · refine ⟨names, ?_, rfl⟩
      by_cases h0 : p.idx .dynamicSymbol = 0
      · have e := (hempty h0).2.2.1
        have hl := each_length N
        rw [e] at hl ⊢
        have hz : live c.tables.versionFiles = [] := List.length_eq_zero_iff.1 (by simpa using hl.symm)
        have : names = [] := by simp only [names, hz]; rfl
        rw [this]; exact .nil
      · refine each_map_right _ (each_swap (each_imp N ?_))
        rintro f - r ⟨k1, -⟩
        exact hS h0 k1
  · exact each_zipIdx_map _ _ hsame 0 (fun _ _ _ h => h)
  · exact each_zipIdx_map _ (fun (f : VerFile) n => n = f.name) (each_map_right _ (each_self _ fun _ _ => rfl)) 0 (fun _ _ _ h => h)
  · exact fresh_zipIdx _ _ fun _ _ => ⟨rfl, rfl⟩
  · exact fresh_zipIdx _ _ fun _ _ => ⟨rfl, rfl⟩

end
end Obj.BuildW

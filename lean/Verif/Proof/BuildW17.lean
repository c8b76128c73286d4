import Verif.Proof.BuildW16

/-! Writing with the ELF builder: the versions that are read back. -/

namespace Obj.BuildW
open Obj Obj.Build Obj.BuildR Obj.Spec
open Obj.Spec.MachoF (Each num)
open Obj.Spec.ElfF (DataOf RecordsOf)
open Obj.Spec.BuildR (InFirst Defs Needs VersionsOf VersionOf SymVersions Tables StrAt DefOf NeedOf BaseOf indices isBase SymbolOf)
open Obj.Spec.BuildW (live Place Ref Sound isDef needsFrom versionOrder VerOk VerSame VersionSame SymSame has Fresh IdsOk)
open Obj.Elf (Shdr WVerdef WVerneed WVernaux Verdef Verdaux Verneed Vernaux)

theorem each_flatMap {α β γ δ : Type} {P : α → β → Prop} {Q : γ → δ → Prop} {f : α → List γ} {g : β → List δ} {xs : List α} {ys : List β}
    (h : Each P xs ys) (hi : ∀ x ∈ xs, ∀ y, P x y → Each Q (f x) (g y)) : Each Q (xs.flatMap f) (ys.flatMap g) := by
  induction h with
  | nil => exact .nil
  | cons h1 h2 ih =>
    rw [List.flatMap_cons, List.flatMap_cons, each_append]
    exact ⟨_, _, rfl, hi _ (by simp) _ h1, ih fun x hx y => hi x (by simp [hx]) y⟩

theorem each_zipIdx {α β : Type} {P : α → β → Prop} {xs : List α} {ys : List β} (h : Each P xs ys) (k : Nat) :
    Each (fun x y => P x.1 y.1 ∧ x.2 = y.2) (xs.zipIdx k) (ys.zipIdx k) := by
  induction h generalizing k with
  | nil => exact .nil
  | cons h1 h2 ih => exact .cons ⟨h1, rfl⟩ (ih (k + 1))

theorem each_map_right {α β γ : Type} {P : α → β → Prop} {xs : List α} {ys : List γ} (f : γ → β) (h : Each (fun x y => P x (f y)) xs ys) :
    Each P xs (ys.map f) := by
  induction h with
  | nil => exact .nil
  | cons h1 h2 ih => exact .cons h1 ih

theorem each_self {α : Type} {P : α → α → Prop} (xs : List α) (h : ∀ x ∈ xs, P x x) : Each P xs xs := by
  induction xs with
  | nil => exact .nil
  | cons x xs ih => exact .cons (h x (by simp)) (ih fun y hy => h y (by simp [hy]))

theorem each_zipIdx_map {α β γ : Type} {P : α → γ → Prop} {xs : List α} {ys : List β} (f : β × Nat → γ) (Q : α → β → Prop) (h : Each Q xs ys) (k : Nat)
    (hi : ∀ x y i, Q x y → P x (f (y, i))) : Each P xs ((ys.zipIdx k).map f) := by
  induction h generalizing k with
  | nil => exact .nil
  | cons h1 h2 ih => exact .cons (hi _ _ _ h1) (ih (k + 1))

theorem fresh_zipIdx {α β : Type} [Item α] (ys : List β) (f : β × Nat → α) (h : ∀ y i, Item.id (f (y, i)) = i ∧ Item.deleted (f (y, i)) = false) :
    Fresh (ys.zipIdx.map f) := by
  intro i x hx
  rw [List.getElem?_map, List.getElem?_zipIdx] at hx
  cases hy : ys[i]? with
  | none => rw [hy] at hx; simp at hx
  | some y =>
    rw [hy] at hx
    simp at hx
    subst hx
    exact h y i

/-! ## Order of the versions -/

theorem live_inj {α : Type} [Item α] {t : List α} (h : IdsOk t) {x y : α} (hx : x ∈ live t) (hy : y ∈ live t) (e : Item.id x = Item.id y) : x = y := by
  obtain ⟨i, hi⟩ := List.getElem?_of_mem (List.mem_filter.1 hx).1
  obtain ⟨j, hj⟩ := List.getElem?_of_mem (List.mem_filter.1 hy).1
  have := h _ _ hi
  have := h _ _ hj
  have : i = j := by omega
  subst this
  rw [hi] at hj
  exact Option.some.inj hj

theorem live_nodup {α : Type} [Item α] {t : List α} (h : IdsOk t) : ((live t).map Item.id).Nodup := by
  have := ids_nodup h
  rwa [iter_eq] at this

theorem needEntry_ids (vs : List Ver) (f : VerFile) : (vs.filterMap (needEntry f.id)).map (·.1) = (vs.filter (needsFrom f)).map fun v => v.id + 2 := by
  induction vs with
  | nil => rfl
  | cons v vs ih =>
    cases hd : v.data with
    | def_ a b =>
      have e1 : needEntry f.id v = none := by simp [needEntry, hd]
      have e2 : needsFrom f v = false := by simp [needsFrom, hd]
      rw [List.filterMap_cons, e1, List.filter_cons_of_neg (by rw [e2]; simp)]
      exact ih
    | need file name flags =>
      by_cases hf : file = f.id
      · have e1 : needEntry f.id v = some (v.id + 2, name, flags) := by simp [needEntry, hd, hf]
        have e2 : needsFrom f v = true := by simp [needsFrom, hd, hf]
        rw [List.filterMap_cons, e1, List.filter_cons_of_pos e2, List.map_cons, List.map_cons, ← ih]
      · have e1 : needEntry f.id v = none := by simp [needEntry, hd, hf]
        have e2 : needsFrom f v = false := by simp [needsFrom, hd, hf]
        rw [List.filterMap_cons, e1, List.filter_cons_of_neg (by rw [e2]; simp)]
        exact ih

theorem needsFrom_iff {f : VerFile} {v : Ver} : needsFrom f v = true ↔ ∃ name flags, v.data = .need f.id name flags := by
  unfold needsFrom
  cases hd : v.data with
  | def_ a b => simp
  | need a b c => simp

theorem order_mem {t : Builder} {v : Ver} (h : v ∈ versionOrder t) : v ∈ live t.versions := by
  unfold versionOrder at h
  rcases List.mem_append.1 h with h | h
  · exact (List.mem_filter.1 h).1
  · obtain ⟨f, -, h⟩ := List.mem_flatMap.1 h
    exact (List.mem_filter.1 h).1

theorem mem_order {c : Full} (hs : Sound c) {v : Ver} (h : v ∈ live c.tables.versions) : v ∈ versionOrder c.tables := by
  unfold versionOrder
  rw [List.mem_append]
  cases hd : v.data with
  | def_ a b => exact .inl (List.mem_filter.2 ⟨h, by simp [isDef, hd]⟩)
  | need file name flags =>
    obtain ⟨f, hf1, hf2⟩ := hs.versions.2 v h file name flags hd
    have := hs.ids.2.2.2.2 _ _ hf1
    refine .inr (List.mem_flatMap.2 ⟨f, List.mem_filter.2 ⟨List.mem_of_getElem? hf1, by simpa using hf2⟩, List.mem_filter.2 ⟨h, ?_⟩⟩)
    refine needsFrom_iff.2 ⟨name, flags, ?_⟩
    rw [hd, ← this]; rfl

theorem order_nodup {c : Full} (hs : Sound c) : (versionOrder c.tables).Nodup := by
  have hv : (live c.tables.versions).Nodup := List.Pairwise.of_map Item.id (fun a b h e => h (by rw [e])) (live_nodup hs.ids.2.2.2.1)
  have hf : (live c.tables.versionFiles).Nodup := List.Pairwise.of_map Item.id (fun a b h e => h (by rw [e])) (live_nodup hs.ids.2.2.2.2)
  unfold versionOrder
  rw [List.nodup_append]
  refine ⟨hv.filter _, ?_, ?_⟩
  · unfold List.Nodup
    rw [List.pairwise_flatMap]
    refine ⟨fun f _ => hv.filter _, ?_⟩
    refine List.Pairwise.imp_of_mem ?_ hf
    intro f g hf hg hne x hx y hy e
    subst e
    obtain ⟨n1, g1, e1⟩ := needsFrom_iff.1 (List.mem_filter.1 hx).2
    obtain ⟨n2, g2, e2⟩ := needsFrom_iff.1 (List.mem_filter.1 hy).2
    rw [e1] at e2
    injection e2 with e2
    exact hne (live_inj hs.ids.2.2.2.2 hf hg e2)
  · intro a ha b hb e
    subst e
    obtain ⟨f, -, hb⟩ := List.mem_flatMap.1 hb
    obtain ⟨n1, g1, e1⟩ := needsFrom_iff.1 (List.mem_filter.1 hb).2
    have := (List.mem_filter.1 ha).2
    simp [isDef, e1] at this

theorem order_ids {c : Full} (hs : Sound c) : ((versionOrder c.tables).map fun v => v.id + 2).Nodup := by
  have h := order_nodup hs
  unfold List.Nodup at h ⊢
  rw [List.pairwise_map]
  refine List.Pairwise.imp_of_mem ?_ h
  intro a b ha hb hne e
  exact hne (live_inj hs.ids.2.2.2.1 (order_mem ha) (order_mem hb) (by show a.id = b.id; omega))

/-! ## Sections of versions -/

section
variable {c : Full} {p : Plan} {l : Layout} {out : List UInt8} {ss : List Shdr} {T : Tables}

theorem Tabs.verdef (t : Tabs c p l out ss T) : ∃ bs ws, Each (DefW p.dynstr) ((live c.tables.versions).filter isDef) ws ∧
    BaseW p.dynstr c.versionBase bs ∧ InFirst T.sections 0x6ffffffd T.dynSymbols.stringSection out (Defs T.cfg.en) (bs ++ defRecs ws) := by
  have x := t.tab.ctx
  obtain ⟨wd, hwd⟩ := t.dynSymbols
  rw [t.sections, t.cfg, hwd.string]
  by_cases h0 : p.idx .gnuVerdef = 0
  · obtain ⟨tt, ht1, ht2, ht3⟩ := x.plan.ver
    have i := (verInv ht1 ht2).1.defs
    rw [x.plan.verdef h0] at i
    have e1 : (live c.tables.versions).filter isDef = [] := List.length_eq_zero_iff.1 (by omega)
    have e2 : c.versionBase = none := by
      cases h : c.versionBase with
      | none => rfl
      | some n => rw [h] at i; simp at i; omega
    exact ⟨[], [], by rw [e1]; exact .nil, .inl ⟨e2, rfl⟩, .inl ⟨t.tab.absent rfl h0, rfl⟩⟩
  · obtain ⟨i, s, h, e1, e2, e3, e4, e5⟩ := t.tab.kind h0
    obtain ⟨d, al, k1, k2, k3⟩ := t.tab.allocOnly e2 (by rw [e3]; simp) (by simp [otherBytes, e3]) (by rw [e3]; simp) (by rw [e3]; simp) (by rw [e3]; simp) (by rw [e3]; simp) (by rw [e3]; simp)
    unfold allocBytes at k1
    unfold allocSize at k3
    simp only [e3] at k1 k3
    injection k3 with k3
    have hz := (Prod.mk.inj k3).1
    obtain ⟨q1, bs, ws, q2, q3, q4⟩ := verdef_ok x.plan x.sound.verOk k1
    obtain ⟨p1, p2, p3, p4, p5, p6⟩ := e5.hd.table _ _ _ _ _ (by rw [e3]; rfl)
    refine ⟨bs, ws, q2, q3, .inr ⟨i + 1, h, d, e4, p1, ?_, ?_, p5, q4⟩⟩
    · rw [← e1]; exact t.tab.first rfl
    · rw [← e5.offset] at k2
      exact dataOf_blk k2 (by rw [p1]; decide) (by rw [e5.size]; omega)

theorem Tabs.verneed (t : Tabs c p l out ss T) : ∃ ws, Each (FileW p.dynstr (live c.tables.versions)) (live c.tables.versionFiles) ws ∧
    InFirst T.sections 0x6ffffffe T.dynSymbols.stringSection out (Needs T.cfg.en) (needRecs ws) := by
  have x := t.tab.ctx
  obtain ⟨wd, hwd⟩ := t.dynSymbols
  rw [t.sections, t.cfg, hwd.string]
  by_cases h0 : p.idx .gnuVerneed = 0
  · have i := x.plan.verneeds
    rw [x.plan.verneed h0, iter_eq] at i
    have e1 : live c.tables.versionFiles = [] := List.length_eq_zero_iff.1 i.symm
    exact ⟨[], by rw [e1]; exact .nil, .inl ⟨t.tab.absent rfl h0, rfl⟩⟩
  · obtain ⟨i, s, h, e1, e2, e3, e4, e5⟩ := t.tab.kind h0
    obtain ⟨d, al, k1, k2, k3⟩ := t.tab.allocOnly e2 (by rw [e3]; simp) (by simp [otherBytes, e3]) (by rw [e3]; simp) (by rw [e3]; simp) (by rw [e3]; simp) (by rw [e3]; simp) (by rw [e3]; simp)
    unfold allocBytes at k1
    unfold allocSize at k3
    simp only [e3] at k1 k3
    injection k3 with k3
    have hz := (Prod.mk.inj k3).1
    obtain ⟨q1, ws, q2, q3⟩ := verneed_ok x.plan x.sound k1
    obtain ⟨p1, p2, p3, p4, p5, p6⟩ := e5.hd.table _ _ _ _ _ (by rw [e3]; rfl)
    refine ⟨ws, q2, .inr ⟨i + 1, h, d, e4, p1, ?_, ?_, p5, q3⟩⟩
    · rw [← e1]; exact t.tab.first rfl
    · rw [← e5.offset] at k2
      exact dataOf_blk k2 (by rw [p1]; decide) (by rw [e5.size]; omega)

end
end Obj.BuildW

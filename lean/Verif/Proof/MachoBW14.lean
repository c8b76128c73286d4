import Verif.Proof.MachoBW13

/-! The layout of files that the Mach-O builder writes: what the headers and load commands say. -/

namespace Obj.MachoB
open Obj Obj.MachoR
open Obj.BuildW (foldR mapR mapR_each Blk)
open Obj.Spec (roundUp)
open Obj.Spec.MachoF (Each num headerSize segmentIn sectionsIn Zerofill width)
open Obj.Spec.MachoB

section
variable {b : Builder} {o : Order} {l : Layout} {out : List UInt8} {ks : List (List UInt8)}

theorem Written.hdrs (x : Written b o l out) (h : Each (CmdOut b o l out) b.commands ks) :
    (ks.filter (isSegment b.endian)).map (fun k => (segmentIn b.cfg k, sectionsIn b.cfg k)) =
      (o.segs.zip l.ranges).map fun p => (segHdr b.cfg p.1 p.2, p.1.2.map (secHdr o l)) := by
  have hs := x.segs_cmds h
  refine BuildW.each_map_eq (P := fun p k => (segmentIn b.cfg k, sectionsIn b.cfg k) = (segHdr b.cfg p.1 p.2, p.1.2.map (secHdr o l))) _ _ ?_ fun _ _ _ e => e
  refine BuildW.each_of_forall ?_ fun i p bs hp hb => ?_
  · rw [BuildR.each_length hs, List.length_range, zip_length x.laid.ranges.1]
  · obtain ⟨j, hj, hc⟩ := BuildR.each_get hs hb
    have hji : j = i := by
      obtain ⟨hi, e⟩ := List.getElem?_eq_some_iff.1 hj
      simpa using e.symm
    subst hji
    obtain ⟨g, h1, -, -, -, -, ⟨r, h2, h3, h4⟩, -⟩ := x.segment_is hc
    rw [List.getElem?_zip_eq_some, h1, h2] at hp
    cases hp.1
    cases hp.2
    rw [h3, h4]

theorem flatMap_zip_fst {α β γ : Type} (f : α → List γ) {xs : List α} {ys : List β} (h : ys.length = xs.length) : (xs.zip ys).flatMap (fun p => f p.1) = xs.flatMap f := by
  induction xs generalizing ys with
  | nil => rfl
  | cons x xs ih =>
    cases ys with
    | nil => cases h
    | cons y ys => rw [List.zip_cons_cons, List.flatMap_cons, List.flatMap_cons, ih (by simpa using h)]

theorem Written.allSections (x : Written b o l out) (h : Each (CmdOut b o l out) b.commands ks) : allSections b.cfg ks = o.secs.map (secHdr o l) := by
  have := congrArg (fun z => z.flatMap fun p : Seg × List Sect => p.2) (x.hdrs h)
  simp only [List.flatMap_map] at this
  unfold Spec.MachoB.allSections
  refine this.trans ?_
  rw [flatMap_zip_fst (fun g : Segm × List Sec => g.2.map (secHdr o l)) x.laid.ranges.1, x.ord.secs, List.map_flatMap]

/-- Sections with their places. -/
theorem Written.zip_at (x : Written b o l out) {ns : List Nat} (hl : ns.length = o.secs.length) :
    o.secs.zip ns = o.secs.map fun s => (s, ns.getD (secPos o s.id) 0) := by
  apply List.ext_getElem?
  intro k
  rw [List.getElem?_map]
  by_cases hk : k < o.secs.length
  · have h1 := List.getElem?_eq_getElem hk
    have h2 := List.getElem?_eq_getElem (l := ns) (i := k) (by omega)
    have h3 : (o.secs.zip ns)[k]? = some (o.secs[k], ns[k]) := List.getElem?_zip_eq_some.2 ⟨h1, h2⟩
    rw [h3, h1, Option.map_some, x.sec_pos h1, List.getD_eq_getElem?_getD, h2]
    rfl
  · rw [List.getElem?_eq_none (by rw [zip_length hl]; omega), List.getElem?_eq_none (by omega)]; rfl

theorem filter_map_flat {α β : Type} (p : α → Bool) (q : α → β) (r : α → List β) (xs : List α) (h : ∀ x ∈ xs, r x = if p x then [q x] else []) :
    (xs.filter p).map q = xs.flatMap r := by
  induction xs with
  | nil => rfl
  | cons x xs ih =>
    rw [List.flatMap_cons, h x (by simp), List.filter_cons, ← ih fun y hy => h y (by simp [hy])]
    split
    · rw [List.map_cons]; rfl
    · rfl

theorem Written.zerofill (x : Written b o l out) {s : Sec} (hs : s ∈ o.secs) : (∃ n, s.data = .uninit n) ↔ Zerofill (secHdr o l s) := by
  obtain ⟨m1, m2⟩ := x.sec_mem hs
  have so := (x.sound.sections s m1 m2).data
  unfold Zerofill
  cases hc : s.data with
  | data d =>
    rw [hc] at so
    refine ⟨fun ⟨n, e⟩ => (by cases e), fun e => absurd e so⟩
  | uninit n =>
    rw [hc] at so
    exact ⟨fun _ => so.1, fun _ => ⟨n, rfl⟩⟩

theorem Written.off_lt (x : Written b o l out) {s : Sec} (hs : s ∈ o.secs) {d : List UInt8} (hd : s.data = .data d) : l.offs.getD (secPos o s.id) 0 < 2 ^ 32 := by
  obtain ⟨k, hk⟩ := List.mem_iff_getElem?.1 hs
  rw [x.sec_pos hk]
  exact (blk_lt (x.data_blk hk hd) x.lt).1

theorem Written.dataParts (x : Written b o l out) (h : Each (CmdOut b o l out) b.commands ks) :
    dataParts b.cfg ks = (o.secs.zip l.offs).flatMap dataPart := by
  unfold Spec.MachoB.dataParts
  rw [x.allSections h, x.zip_at x.laid.offs, List.filter_map, List.map_map, List.flatMap_map]
  refine filter_map_flat _ _ _ _ fun s hs => ?_
  have hz := x.zerofill hs
  unfold dataPart
  cases hc : s.data with
  | data d =>
    have hn : ¬ Zerofill (secHdr o l s) := fun e => by obtain ⟨n, e⟩ := hz.2 e; rw [hc] at e; cases e
    have hlt := x.off_lt hs hc
    simp only [Function.comp, hn, not_false_eq_true, decide_true, if_true]
    rw [secHdr, hc]
    simp only [Data.size]
    rw [Nat.mod_eq_of_lt hlt]
  | uninit n =>
    have hn : Zerofill (secHdr o l s) := hz.1 ⟨n, hc⟩
    simp [Function.comp, hn]

theorem Written.rel_lt (x : Written b o l out) {s : Sec} (hs : s ∈ o.secs) (hr : s.relocs ≠ []) : l.rels.getD (secPos o s.id) 0 < 2 ^ 32 := by
  have hz : (s, l.rels.getD (secPos o s.id) 0) ∈ o.secs.zip l.rels := by
    rw [x.zip_at x.laid.rels]
    exact List.mem_map.2 ⟨s, hs, rfl⟩
  obtain ⟨rs, -, h2⟩ := x.em.relocs _ hz hr
  exact (blk_lt h2 x.lt).1

theorem Written.relocParts (x : Written b o l out) (h : Each (CmdOut b o l out) b.commands ks) :
    relocParts b.cfg ks = (o.secs.zip l.rels).flatMap relPart := by
  unfold Spec.MachoB.relocParts
  rw [x.allSections h, x.zip_at x.laid.rels, List.filter_map, List.map_map, List.flatMap_map]
  refine filter_map_flat _ _ _ _ fun s hs => ?_
  unfold relPart
  simp only [Function.comp]
  by_cases hr : s.relocs = []
  · rw [if_pos hr, secHdr, hr]; rfl
  · have hlt := x.rel_lt hs hr
    have hn : s.relocs.length ≠ 0 := fun e => hr (List.length_eq_zero_iff.1 e)
    rw [if_neg hr, secHdr]
    simp only [ne_eq, hn, not_false_eq_true, decide_true, if_true]
    rw [Nat.mod_eq_of_lt hlt]

end

end Obj.MachoB

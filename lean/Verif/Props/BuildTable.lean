import Verif.Proof.Build

/-!
# C38: the tables of the ELF builder
-/

namespace Obj.Props

open Obj.Build Obj.Build.Spec

variable {α : Type} [Item α]

/-- **C38.** After any history of changes, the item found under an id is the item that has this id. -/
theorem C38_ids (os : List (TOp α)) (t : List α) (hv : ∀ o ∈ os, o.Valid) (h : run [] os = .ok t)
    (i : Nat) (x : α) : get t i = .ok x → Item.id x = i := by
  intro hx
  exact (run_ids hv h (by simp)).1 i x (get_ok.1 hx)

/-- **C38.** An id stays valid over any further history, refers to the item with this id, and to an
unchanged item if no change was made to this item. -/
theorem C38_stable (os os' : List (TOp α)) (t t' : List α) (hv : ∀ o ∈ os, o.Valid) (hv' : ∀ o ∈ os', o.Valid)
    (h : run [] os = .ok t) (h' : run t os' = .ok t') (i : Nat) (x : α) (hx : get t i = .ok x) :
    (∃ y, get t' i = .ok y ∧ Item.id y = Item.id x) ∧
      ((∀ o ∈ os', ¬ o.Touches i) → get t' i = .ok x) := by
  have h1 := (run_ids hv h (by simp)).1
  obtain ⟨h2, h3, h4⟩ := run_ids hv' h' h1
  have hi : i < t.length := get_lt.1 ⟨x, hx⟩
  refine ⟨?_, fun hn => get_ok.2 (h4 i x (get_ok.1 hx) hn)⟩
  obtain ⟨y, hy⟩ := get_lt.2 (Nat.lt_of_lt_of_le hi h3)
  exact ⟨y, hy, by rw [h2 i y (get_ok.1 hy), h1 i x (get_ok.1 hx)]⟩

/-- **C38.** A new item gets an id that was never in use before, and is found under it; looking up an id
that was never returned panics. -/
theorem C38_fresh (t : List α) (mk : Nat → α) :
    get t (nextId t) = .panic ∧ get (push t (mk (nextId t))) (nextId t) = .ok (mk (nextId t)) ∧
      (∀ i, i < nextId t → get (push t (mk (nextId t))) i = get t i) ∧
      ∀ i, nextId t ≤ i → get t i = .panic := by
  refine ⟨get_panic (Nat.le_refl _), ?_, ?_, fun i hi => get_panic hi⟩
  · rw [get_ok]; unfold push nextId; simp
  · intro i hi
    unfold Build.get push
    rw [List.getElem?_append_left hi]

/-- **C38.** Iteration yields exactly the items that are not deleted, in the order of their ids. -/
theorem C38_iter (os : List (TOp α)) (t : List α) (hv : ∀ o ∈ os, o.Valid) (h : run [] os = .ok t) :
    iter t = t.filter (fun x => !Item.deleted x) ∧
      ((iter t).map Item.id).Pairwise (· < ·) ∧
      ∀ x, x ∈ iter t ↔ get t (Item.id x) = .ok x ∧ Item.deleted x = false := by
  have h1 := (run_ids hv h (by simp)).1
  refine ⟨iter_eq t, ?_, ?_⟩
  · rw [iter_eq]
    have hall : (t.map Item.id).Pairwise (· < ·) := by
      rw [List.pairwise_iff_getElem]
      intro i j hi hj hij
      simp only [List.length_map] at hi hj
      simp only [List.getElem_map]
      rw [h1 i t[i] (List.getElem?_eq_getElem hi), h1 j t[j] (List.getElem?_eq_getElem hj)]
      exact hij
    exact hall.sublist (List.Sublist.map _ List.filter_sublist)
  · intro x
    rw [mem_iter]
    constructor
    · rintro ⟨hm, hd⟩
      obtain ⟨i, hi⟩ := List.getElem?_of_mem hm
      rw [h1 i x hi]
      exact ⟨get_ok.2 hi, hd⟩
    · rintro ⟨hg, hd⟩
      exact ⟨List.mem_of_getElem? (get_ok.1 hg), hd⟩

/-- **C38.** `count` and `is_empty` agree with iteration. -/
theorem C38_count (t : List α) :
    count t = (t.filter fun x => !Item.deleted x).length ∧ (isEmpty t = true ↔ iter t = []) := by
  refine ⟨by unfold count; rw [iter_eq], ?_⟩
  rw [iter_eq]
  unfold isEmpty
  rcases iterNext_eq t with ⟨h1, h2⟩ | ⟨x, r, h1, h2⟩ <;> rw [h1, h2] <;> simp

/-- **C38.** Deleting an item removes it, and nothing else, from iteration; all items stay available
under their ids. -/
theorem C38_delete (os : List (TOp α)) (t t' : List α) (hv : ∀ o ∈ os, o.Valid) (h : run [] os = .ok t)
    (i : Nat) (f : α → α) (hf : ∀ x, Item.deleted (f x) = true) (he : edit t i f = .ok t') :
    iter t' = (iter t).filter (fun x => decide (Item.id x ≠ i)) ∧ t'.length = t.length ∧
      ∀ j, j ≠ i → get t' j = get t j := by
  have h1 := (run_ids hv h (by simp)).1
  obtain ⟨x, hx, rfl⟩ := edit_ok he
  have hi : i < t.length := (List.getElem?_eq_some_iff.1 hx).1
  refine ⟨?_, by simp, ?_⟩
  · rw [iter_eq, iter_eq, List.filter_filter]
    have hsplit : t = t.take i ++ x :: t.drop (i + 1) := by
      have hxe : t[i] = x := (List.getElem?_eq_some_iff.1 hx).2
      rw [← hxe, ← List.drop_eq_getElem_cons hi, List.take_append_drop]
    have hset : t.set i (f x) = t.take i ++ f x :: t.drop (i + 1) := List.set_eq_take_append_cons_drop ▸ by rw [if_pos hi]
    have keep : ∀ l : List α, (∀ y ∈ l, Item.id y ≠ i) →
        l.filter (fun y => !Item.deleted y) = l.filter (fun a => decide (Item.id a ≠ i) && !Item.deleted a) := by
      intro l hl
      apply List.filter_congr
      intro y hy
      simp [hl y hy]
    have k1 : ∀ y ∈ t.take i, Item.id y ≠ i := by
      intro y hy
      obtain ⟨j, hj⟩ := List.getElem?_of_mem hy
      rw [List.getElem?_take] at hj
      split at hj
      · rename_i hlt; rw [h1 j y hj]; omega
      · cases hj
    have k2 : ∀ y ∈ t.drop (i + 1), Item.id y ≠ i := by
      intro y hy
      obtain ⟨j, hj⟩ := List.getElem?_of_mem hy
      rw [List.getElem?_drop] at hj
      rw [h1 _ y hj]; omega
    rw [hset]
    conv => rhs; rw [hsplit]
    rw [List.filter_append, List.filter_append, List.filter_cons, List.filter_cons, keep _ k1, keep _ k2]
    have hid := h1 i x hx
    simp [hf, hid]
  · intro j hj
    unfold Build.get
    rw [List.getElem?_set_ne (Ne.symm hj)]

/-- **C38.** A `for item in &mut table` loop changes exactly the items that are not deleted, and keeps the
positions of all. -/
theorem C38_loop (f : α → α) (t : List α) :
    ∃ t', step t (.editAll f) = .ok t' ∧ t'.length = t.length ∧
      ∀ i x, get t i = .ok x → get t' i = .ok (if Item.deleted x then x else f x) := by
  refine ⟨mapLive f t, by simp only [step, forMut_pure, Res.ok_bind], by simp [mapLive], ?_⟩
  intro i x hx
  rw [get_ok] at hx ⊢
  unfold mapLive
  rw [List.getElem?_map, hx]
  rfl

/-- **C38.** The `add` functions of segments, sections, symbols, version files and versions return a fresh
id under which a new item that is not deleted is found; all other ids refer to what they did before. -/
theorem C38_add (segs : List Seg) (secs : List Sec) (syms : List Sym) (files : List VerFile) (vers : List Ver)
    (name : List UInt8) (d : VerData) :
    (∃ x, get (addSeg segs).2 (addSeg segs).1 = .ok x ∧ x.id = (addSeg segs).1 ∧ x.delete = false ∧
      x.sections = []) ∧
    (∃ x, get (addSec secs).2 (addSec secs).1 = .ok x ∧ x.id = (addSec secs).1 ∧ x.delete = false ∧
      x.data = .data []) ∧
    (∃ x, get (addSym syms).2 (addSym syms).1 = .ok x ∧ x.id = (addSym syms).1 ∧ x.delete = false ∧
      x.section_ = none ∧ x.version = 0) ∧
    (∃ x, get (addFile files name).2 (addFile files name).1 = .ok x ∧ x.id = (addFile files name).1 ∧
      x.delete = false ∧ x.name = name) ∧
    (∃ x, getVer (addVer vers d).2 (addVer vers d).1 = .ok x ∧ x.id + 2 = (addVer vers d).1 ∧
      x.delete = false ∧ x.data = d) ∧
    (∀ i, i < segs.length → get (addSeg segs).2 i = get segs i) ∧
    (∀ i, i < secs.length → get (addSec secs).2 i = get secs i) ∧
    (∀ i, i < syms.length → get (addSym syms).2 i = get syms i) ∧
    (∀ i, i < files.length → get (addFile files name).2 i = get files i) ∧
    (∀ v, v < 2 + vers.length → getVer (addVer vers d).2 v = getVer vers v) := by
  have fresh : ∀ {β : Type} [Item β] (t : List β) (x : β), get (t ++ [x]) t.length = .ok x := by
    intro β _ t x
    rw [get_ok]; simp
  have old : ∀ {β : Type} [Item β] (t : List β) (x : β) (i : Nat), i < t.length → get (t ++ [x]) i = get t i := by
    intro β _ t x i hi
    unfold Build.get
    rw [List.getElem?_append_left hi]
  refine ⟨⟨_, fresh _ _, rfl, rfl, rfl⟩, ⟨_, fresh _ _, rfl, rfl, rfl⟩, ⟨_, fresh _ _, rfl, rfl, rfl, rfl⟩,
    ⟨_, fresh _ _, rfl, rfl, rfl⟩, ?_, fun i hi => old _ _ i hi, fun i hi => old _ _ i hi,
    fun i hi => old _ _ i hi, fun i hi => old _ _ i hi, ?_⟩
  · refine ⟨{ id := nextId vers, data := d, delete := false }, ?_, ?_, rfl, rfl⟩
    · unfold getVer addVer
      simp only
      rw [if_neg (by omega)]
      have : 2 + nextId vers - 2 = vers.length := by unfold nextId; omega
      rw [this]
      exact fresh _ _
    · show nextId vers + 2 = 2 + nextId vers
      omega
  · intro v hv
    unfold getVer
    split
    · rfl
    · exact old _ _ _ (by omega)

/-- **C38.** Copying a section adds a section that is not deleted, with a fresh id and the contents of the
original but file offset zero. -/
theorem C38_copy (t t' : List Sec) (i j : Nat) (h : copySec t i = .ok (j, t')) :
    ∃ c, get t i = .ok c ∧ j = t.length ∧
      t' = t ++ [{ c with id := j, delete := false, shOffset := 0 }] := by
  unfold copySec at h
  cases hc : get t i with
  | err => rw [hc] at h; cases h
  | panic => rw [hc] at h; cases h
  | ok c => rw [hc] at h; cases h; exact ⟨c, rfl, rfl, rfl⟩

/-! ## A concrete history -/

private def hist : List (TOp Sym) :=
  [.add fun i => ⟨i, false, [97], none, 0, 0, 1, 0, 0, 0, false⟩,
   .add fun i => ⟨i, false, [98], none, 0, 0, 0, 0, 0, 0, false⟩,
   .edit 0 fun s => { s with delete := true },
   .editAll fun s => { s with value := 7 },
   .add fun i => ⟨i, false, [99], none, 0, 0, 1, 0, 0, 0, false⟩]

example : ∀ o ∈ hist, o.Valid := by
  intro o ho
  simp only [hist, List.mem_cons, List.not_mem_nil, or_false] at ho
  obtain rfl | rfl | rfl | rfl | rfl := ho <;> intro x <;> rfl

example : ((run [] hist).map' fun t => t.map fun s => (s.id, s.delete, s.value)) =
    .ok [(0, true, 0), (1, false, 7), (2, false, 0)] := by decide

end Obj.Props

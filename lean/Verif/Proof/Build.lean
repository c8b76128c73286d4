import Verif.Spec.Build
import Verif.Proof.Bytes

namespace Obj.Build

open Obj Obj.Build.Spec

variable {α : Type} [Item α]

theorem iterNext_eq (l : List α) :
    (iterNext l = none ∧ l.filter (fun x => !Item.deleted x) = []) ∨
    (∃ x r, iterNext l = some (x, r) ∧
      l.filter (fun x => !Item.deleted x) = x :: r.filter (fun x => !Item.deleted x)) := by
  induction l with
  | nil => exact .inl ⟨rfl, rfl⟩
  | cons y ys ih =>
    simp only [iterNext, List.filter_cons]
    by_cases h : Item.deleted y = true
    · simp only [h, if_true, Bool.not_true, Bool.false_eq_true, if_false]
      exact ih
    · simp only [h, if_false, Bool.not_false, if_true]
      exact .inr ⟨y, ys, by simp, by simp [h]⟩

theorem iter_eq (l : List α) : iter l = l.filter (fun x => !Item.deleted x) := by
  generalize hn : l.length = n
  induction n using Nat.strongRecOn generalizing l with
  | ind n ih =>
    rcases iterNext_eq l with ⟨h1, h2⟩ | ⟨x, r, h1, h2⟩
    · rw [h2, iter.eq_def]
      split
      · rfl
      · rename_i h; rw [h1] at h; cases h
    · rw [h2, iter.eq_def]
      split
      · rename_i h; rw [h1] at h; cases h
      · rename_i x' r' h
        rw [h1] at h; cases h
        rw [ih _ (by rw [← hn]; exact iterNext_lt _ _ _ h1) _ rfl]

theorem mem_iter (l : List α) (x : α) : x ∈ iter l ↔ x ∈ l ∧ Item.deleted x = false := by
  rw [iter_eq, List.mem_filter]; simp

/-- The pure form of a loop. -/
def mapLive (f : α → α) (l : List α) : List α := l.map fun x => if Item.deleted x then x else f x

theorem forMut_pure (f : α → α) (l : List α) :
    forMut (fun (_ : Unit) x => .ok ((), f x)) () l = .ok ((), mapLive f l) := by
  induction l with
  | nil => rfl
  | cons x xs ih =>
    simp only [forMut, mapLive, List.map_cons, ih, Res.ok_bind]
    split <;> rfl

/-- A loop without state that succeeds changes each item that is not deleted by its body. -/
theorem forMut_ok {body : Unit → α → Res (Unit × α)} {l l' : List α} {u : Unit}
    (h : forMut body () l = .ok (u, l')) :
    l'.length = l.length ∧ ∀ (i : Nat) x, l[i]? = some x → ∃ y, l'[i]? = some y ∧
      (Item.deleted x = true → y = x) ∧ (Item.deleted x = false → body () x = .ok ((), y)) := by
  induction l generalizing l' u with
  | nil => cases h; exact ⟨rfl, by simp⟩
  | cons a as ih =>
    simp only [forMut] at h
    split at h
    · rename_i hd
      cases hr : forMut body () as with
      | err => rw [hr] at h; cases h
      | panic => rw [hr] at h; cases h
      | ok r =>
        rw [hr] at h
        cases h
        obtain ⟨h1, h2⟩ := ih (l' := r.2) (u := r.1) hr
        refine ⟨by simp [h1], ?_⟩
        intro i x hx
        cases i with
        | zero =>
          simp only [List.getElem?_cons_zero, Option.some.injEq] at hx
          subst hx
          exact ⟨a, rfl, fun _ => rfl, fun hf => by rw [hd] at hf; cases hf⟩
        | succ i => simpa using h2 i x (by simpa using hx)
    · rename_i hd
      cases hb : body () a with
      | err => rw [hb] at h; cases h
      | panic => rw [hb] at h; cases h
      | ok b =>
        rw [hb] at h
        simp only [Res.ok_bind] at h
        cases hr : forMut body b.1 as with
        | err => rw [hr] at h; cases h
        | panic => rw [hr] at h; cases h
        | ok r =>
          rw [hr] at h
          cases h
          obtain ⟨h1, h2⟩ := ih (l' := r.2) (u := r.1) hr
          refine ⟨by simp [h1], ?_⟩
          intro i x hx
          cases i with
          | zero =>
            simp only [List.getElem?_cons_zero, Option.some.injEq] at hx
            subst hx
            exact ⟨b.2, rfl, fun ht => absurd ht hd, fun _ => hb⟩
          | succ i => simpa using h2 i x (by simpa using hx)

theorem forMut_of {body : Unit → α → Res (Unit × α)} {l : List α}
    (h : ∀ x ∈ l, Item.deleted x = false → ∃ y, body () x = .ok ((), y)) :
    ∃ l', forMut body () l = .ok ((), l') := by
  induction l with
  | nil => exact ⟨_, rfl⟩
  | cons a as ih =>
    obtain ⟨l', hl⟩ := ih (fun x hx => h x (List.mem_cons_of_mem _ hx))
    simp only [forMut]
    split
    · rw [hl]; exact ⟨_, rfl⟩
    · rename_i hd
      obtain ⟨y, hy⟩ := h a (by simp) (by simpa using hd)
      rw [hy, Res.ok_bind, hl]
      exact ⟨_, rfl⟩

theorem retain_ok {β : Type} {p : β → Res Bool} {l l' : List β} (h : retain p l = .ok l') :
    (∀ x ∈ l, ∃ b, p x = .ok b) ∧ l' = l.filter (fun x => decide (p x = .ok true)) := by
  induction l generalizing l' with
  | nil => cases h; exact ⟨by simp, rfl⟩
  | cons a as ih =>
    simp only [retain] at h
    cases hp : p a with
    | err => rw [hp] at h; cases h
    | panic => rw [hp] at h; cases h
    | ok b =>
      rw [hp, Res.ok_bind] at h
      cases hr : retain p as with
      | err => rw [hr] at h; cases h
      | panic => rw [hr] at h; cases h
      | ok r =>
        rw [hr] at h
        cases h
        obtain ⟨h1, h2⟩ := ih hr
        refine ⟨?_, ?_⟩
        · intro x hx
          rcases List.mem_cons.1 hx with rfl | hx
          · exact ⟨b, hp⟩
          · exact h1 x hx
        · rw [List.filter_cons, hp, h2]
          cases b <;> simp

theorem retain_of {β : Type} {p : β → Res Bool} {l : List β} (h : ∀ x ∈ l, ∃ b, p x = .ok b) :
    ∃ l', retain p l = .ok l' := by
  induction l with
  | nil => exact ⟨_, rfl⟩
  | cons a as ih =>
    obtain ⟨l', hl⟩ := ih (fun x hx => h x (List.mem_cons_of_mem _ hx))
    obtain ⟨b, hb⟩ := h a (by simp)
    exact ⟨_, by simp only [retain, hb, Res.ok_bind, hl]; rfl⟩

theorem get_ok {t : List α} {i : Nat} {x : α} : get t i = .ok x ↔ t[i]? = some x := by
  unfold get
  split <;> simp_all

theorem get_lt {t : List α} {i : Nat} : (∃ x, get t i = .ok x) ↔ i < t.length := by
  constructor
  · rintro ⟨x, h⟩
    rw [get_ok] at h
    exact (List.getElem?_eq_some_iff.1 h).1
  · intro h
    exact ⟨t[i], get_ok.2 (List.getElem?_eq_getElem h)⟩

theorem get_panic {t : List α} {i : Nat} (h : t.length ≤ i) : get t i = .panic := by
  unfold get
  rw [List.getElem?_eq_none h]

theorem edit_ok {t t' : List α} {i : Nat} {f : α → α} (h : edit t i f = .ok t') :
    ∃ x, t[i]? = some x ∧ t' = t.set i (f x) := by
  unfold edit at h
  split at h
  · rename_i x hx; cases h; exact ⟨x, hx, rfl⟩
  · cases h

/-- Steps keep the ids. -/
theorem step_ids {t t' : List α} {o : TOp α} (hv : o.Valid) (h : step t o = .ok t')
    (ht : ∀ (i : Nat) x, t[i]? = some x → Item.id x = i) :
    (∀ (i : Nat) x, t'[i]? = some x → Item.id x = i) ∧ t.length ≤ t'.length ∧
      ∀ (i : Nat) x, t[i]? = some x → ¬ o.Touches i → t'[i]? = some x := by
  cases o with
  | add mk =>
    cases h
    refine ⟨?_, by simp [push], ?_⟩
    · intro i x hx
      unfold push at hx
      rw [List.getElem?_append] at hx
      split at hx
      · exact ht i x hx
      · rename_i hi
        rw [List.getElem?_singleton] at hx
        split at hx
        · cases hx
          rw [hv]; unfold nextId; omega
        · cases hx
    · intro i x hx _
      unfold push
      rw [List.getElem?_append_left (List.getElem?_eq_some_iff.1 hx).1]
      exact hx
  | edit j f =>
    obtain ⟨y, hy, rfl⟩ := edit_ok h
    refine ⟨?_, by simp, ?_⟩
    · intro i x hx
      rw [List.getElem?_set] at hx
      split at hx
      · rename_i hji
        subst hji
        split at hx
        · cases hx
          rw [hv]; exact ht _ _ hy
        · cases hx
      · exact ht i x hx
    · intro i x hx hn
      rw [List.getElem?_set_ne hn]
      exact hx
  | editAll f =>
    simp only [step, forMut_pure, Res.ok_bind, Res.ok.injEq] at h
    subst h
    refine ⟨?_, by simp [mapLive], fun i x hx hn => absurd trivial hn⟩
    intro i x hx
    unfold mapLive at hx
    rw [List.getElem?_map, Option.map_eq_some_iff] at hx
    obtain ⟨y, hy, rfl⟩ := hx
    split
    · exact ht _ _ hy
    · rw [hv]; exact ht _ _ hy

theorem run_ids {t t' : List α} {os : List (TOp α)} (hv : ∀ o ∈ os, o.Valid) (h : run t os = .ok t')
    (ht : ∀ (i : Nat) x, t[i]? = some x → Item.id x = i) :
    (∀ (i : Nat) x, t'[i]? = some x → Item.id x = i) ∧ t.length ≤ t'.length ∧
      ∀ (i : Nat) x, t[i]? = some x → (∀ o ∈ os, ¬ o.Touches i) → t'[i]? = some x := by
  induction os generalizing t with
  | nil => cases h; exact ⟨ht, Nat.le_refl _, fun _ _ hx _ => hx⟩
  | cons o os ih =>
    simp only [run] at h
    cases hs : step t o with
    | err => rw [hs] at h; cases h
    | panic => rw [hs] at h; cases h
    | ok t1 =>
      rw [hs, Res.ok_bind] at h
      obtain ⟨a1, a2, a3⟩ := step_ids (hv o (by simp)) hs ht
      obtain ⟨b1, b2, b3⟩ := ih (fun o ho => hv o (List.mem_cons_of_mem _ ho)) h a1
      exact ⟨b1, Nat.le_trans a2 b2, fun i x hx hn =>
        b3 i x (a3 i x hx (hn o (by simp))) (fun o ho => hn o (List.mem_cons_of_mem _ ho))⟩

end Obj.Build

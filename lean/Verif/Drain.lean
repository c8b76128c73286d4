import Verif.Base

/-!
# Draining an iterator that goes on after errors
-/

namespace Obj

/-- `Drains next s xs`: calling `next` from state `s` until it returns `None` gives exactly the results `xs`.  Errors do not stop
the caller; a panic does. -/
inductive Drains {σ α : Type} (next : σ → Res (Option α) × σ) : σ → List (Res α) → Prop where
  | done {s s' : σ} : next s = (.ok none, s') → Drains next s []
  | item {s s' : σ} {x : α} {xs : List (Res α)} : next s = (.ok (some x), s') → Drains next s' xs → Drains next s (.ok x :: xs)
  | err {s s' : σ} {xs : List (Res α)} : next s = (.err, s') → Drains next s' xs → Drains next s (.err :: xs)
  | panic {s s' : σ} : next s = (.panic, s') → Drains next s [.panic]

/-- Draining is deterministic. -/
theorem Drains.unique {σ α : Type} {next : σ → Res (Option α) × σ} {s : σ} {xs ys : List (Res α)} (h : Drains next s xs)
    (h' : Drains next s ys) : xs = ys := by
  induction h generalizing ys with
  | done h1 => cases h' with
    | done => rfl
    | item h2 => rw [h1] at h2; simp at h2
    | err h2 => rw [h1] at h2; simp at h2
    | panic h2 => rw [h1] at h2; simp at h2
  | item h1 _ ih => cases h' with
    | done h2 => rw [h1] at h2; simp at h2
    | item h2 h3 => rw [h1] at h2; simp at h2; obtain ⟨rfl, rfl⟩ := h2; rw [ih h3]
    | err h2 => rw [h1] at h2; simp at h2
    | panic h2 => rw [h1] at h2; simp at h2
  | err h1 _ ih => cases h' with
    | done h2 => rw [h1] at h2; simp at h2
    | item h2 => rw [h1] at h2; simp at h2
    | err h2 h3 => rw [h1] at h2; simp at h2; subst h2; rw [ih h3]
    | panic h2 => rw [h1] at h2; simp at h2
  | panic h1 => cases h' with
    | done h2 => rw [h1] at h2; simp at h2
    | item h2 => rw [h1] at h2; simp at h2
    | err h2 => rw [h1] at h2; simp at h2
    | panic => rfl

/-- Equal steps give equal results. -/
theorem Drains.congr {σ α : Type} {next : σ → Res (Option α) × σ} {s s' : σ} {xs : List (Res α)} (h : next s = next s')
    (hr : Drains next s' xs) : Drains next s xs := by
  cases hr with
  | done h1 => exact .done (h.trans h1)
  | err h1 h2 => exact .err (h.trans h1) h2
  | panic h1 => exact .panic (h.trans h1)
  | item h1 h2 => exact .item (h.trans h1) h2

end Obj

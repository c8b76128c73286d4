/-!
# Shared conventions

Conventions used by every model file (see DESIGN.md):
* data is `List UInt8`;
* machine integers are `Nat` with explicit bounds;
* `Res` has an explicit `panic` outcome.
-/

namespace Obj

/-- Outcome of a fallible Rust call: `Ok(a)`, `Err(_)` (message dropped), or a panic
(debug-build arithmetic overflow, failed assertion, out-of-bounds index, `unwrap` on `None`). -/
inductive Res (α : Type) where
  | ok (a : α)
  | err
  | panic
  deriving DecidableEq, Repr

namespace Res

/-- The `?` operator. -/
def bind {α β : Type} (x : Res α) (f : α → Res β) : Res β :=
  match x with
  | ok a => f a
  | err => err
  | panic => panic

instance : Monad Res where
  pure := ok
  bind := bind

def map' {α β : Type} (f : α → β) (x : Res α) : Res β := x.bind fun a => ok (f a)

@[simp] theorem pure_eq {α : Type} (a : α) : (pure a : Res α) = ok a := rfl
@[simp] theorem bind_eq {α β : Type} (x : Res α) (f : α → Res β) : (x >>= f) = x.bind f := rfl
@[simp] theorem ok_bind {α β : Type} (a : α) (f : α → Res β) : (ok a).bind f = f a := rfl
@[simp] theorem err_bind {α β : Type} (f : α → Res β) : (err : Res α).bind f = err := rfl
@[simp] theorem panic_bind {α β : Type} (f : α → Res β) : (panic : Res α).bind f = panic := rfl

/-- `Option::ok_or`. -/
def ofOption {α : Type} : Option α → Res α
  | some a => ok a
  | none => err

@[simp] theorem ofOption_some {α : Type} (a : α) : ofOption (some a) = ok a := rfl
@[simp] theorem ofOption_none {α : Type} : ofOption (none : Option α) = err := rfl

/-- The call did not panic. -/
def NoPanic {α : Type} (x : Res α) : Prop := x ≠ panic

end Res

/-- `2^64`, the modulus of `u64`/`usize`. -/
notation "U64" => (18446744073709551616 : Nat)
/-- `2^32`, the modulus of `u32`. -/
notation "U32" => (4294967296 : Nat)
/-- `2^16`, the modulus of `u16`. -/
notation "U16" => (65536 : Nat)

/-- A value of a two's-complement `i64` from its bit pattern. -/
def toI64 (n : Nat) : Int := if n < 9223372036854775808 then (n : Int) else (n : Int) - 18446744073709551616

/-- The sub-list `l[start..start+len]` (no bounds check). -/
def slice (l : List UInt8) (start len : Nat) : List UInt8 := (l.drop start).take len

/-! ## Iterators

A Rust iterator `Iterator<Item = Result<T>>` (or a fallible `next() -> Result<Option<T>>`) is a
function `σ → Res (Option α) × σ`.  -/

/-- How draining an iterator ended. -/
inductive End where
  | done
  | err
  | panic
  deriving DecidableEq, Repr

/-- `Runs next s xs e`: calling `next` repeatedly from state `s`, stopping at the first `None`, error
or panic, yields exactly the items `xs` and stops with `e`. -/
inductive Runs {σ α : Type} (next : σ → Res (Option α) × σ) : σ → List α → End → Prop where
  | done {s s' : σ} : next s = (.ok none, s') → Runs next s [] .done
  | err {s s' : σ} : next s = (.err, s') → Runs next s [] .err
  | panic {s s' : σ} : next s = (.panic, s') → Runs next s [] .panic
  | item {s s' : σ} {x : α} {xs : List α} {e : End} :
      next s = (.ok (some x), s') → Runs next s' xs e → Runs next s (x :: xs) e

/-- Draining is deterministic. -/
theorem Runs.unique {σ α : Type} {next : σ → Res (Option α) × σ} {s : σ} {xs ys : List α} {e f : End}
    (h : Runs next s xs e) (h' : Runs next s ys f) : xs = ys ∧ e = f := by
  induction h generalizing ys f with
  | done h1 => cases h' with
    | done h2 => exact ⟨rfl, rfl⟩
    | err h2 => rw [h1] at h2; simp at h2
    | panic h2 => rw [h1] at h2; simp at h2
    | item h2 _ => rw [h1] at h2; simp at h2
  | err h1 => cases h' with
    | done h2 => rw [h1] at h2; simp at h2
    | err h2 => exact ⟨rfl, rfl⟩
    | panic h2 => rw [h1] at h2; simp at h2
    | item h2 _ => rw [h1] at h2; simp at h2
  | panic h1 => cases h' with
    | done h2 => rw [h1] at h2; simp at h2
    | err h2 => rw [h1] at h2; simp at h2
    | panic h2 => exact ⟨rfl, rfl⟩
    | item h2 _ => rw [h1] at h2; simp at h2
  | item h1 _ ih => cases h' with
    | done h2 => rw [h1] at h2; simp at h2
    | err h2 => rw [h1] at h2; simp at h2
    | panic h2 => rw [h1] at h2; simp at h2
    | item h2 h3 =>
      rw [h1] at h2
      simp only [Prod.mk.injEq, Res.ok.injEq, Option.some.injEq] at h2
      obtain ⟨rfl, rfl⟩ := h2
      obtain ⟨rfl, rfl⟩ := ih h3
      exact ⟨rfl, rfl⟩

/-- If every yielded item strictly decreases a measure, draining terminates and yields at most
`measure s` items. -/
theorem Runs.exists_of_measure {σ α : Type} {next : σ → Res (Option α) × σ} (inv : σ → Prop)
    (μ : σ → Nat)
    (hstep : ∀ s x s', inv s → next s = (.ok (some x), s') → inv s' ∧ μ s' < μ s)
    (s : σ) (hs : inv s) : ∃ xs e, Runs next s xs e ∧ xs.length ≤ μ s := by
  generalize hn : μ s = n
  induction n using Nat.strongRecOn generalizing s with
  | _ n ih =>
    match hnx : next s with
    | (.ok none, s') => exact ⟨[], .done, .done hnx, by simp⟩
    | (.err, s') => exact ⟨[], .err, .err hnx, by simp⟩
    | (.panic, s') => exact ⟨[], .panic, .panic hnx, by simp⟩
    | (.ok (some x), s') =>
      obtain ⟨hi, hlt⟩ := hstep s x s' hs hnx
      obtain ⟨xs, e, hr, hl⟩ := ih (μ s') (by omega) s' hi rfl
      exact ⟨x :: xs, e, .item hnx hr, by simp; omega⟩

/-- If `next` never panics on states satisfying an invariant preserved by items, draining never
panics. -/
theorem Runs.no_panic {σ α : Type} {next : σ → Res (Option α) × σ} (inv : σ → Prop)
    (hstep : ∀ s x s', inv s → next s = (.ok (some x), s') → inv s')
    (hnp : ∀ s, inv s → (next s).1 ≠ .panic)
    {s : σ} {xs : List α} {e : End} (hs : inv s) (h : Runs next s xs e) : e ≠ .panic := by
  induction h with
  | done _ => simp
  | err _ => simp
  | panic h1 => exact absurd (by rw [h1]) (hnp _ hs)
  | item h1 _ ih => exact ih (hstep _ _ _ hs h1)

end Obj

import Verif.Proof.Reserve
import Verif.Proof.StrTab

/-! Laying out and emitting a sequence of aligned parts. -/

namespace Obj.Parts
open Obj Obj.Spec Obj.Reserve

/-- End of a sequence of `(alignment, size)` parts placed from `n`. -/
def endOf : Nat → List (Nat × Nat) → Nat
  | n, [] => n
  | n, (a, s) :: ps => endOf (up n a + s) ps

/-- An upper bound of the space the parts take. -/
def cost : List (Nat × Nat) → Nat
  | [] => 0
  | (a, s) :: ps => a + s + cost ps

theorem endOf_le : ∀ (ps : List (Nat × Nat)) (n : Nat), endOf n ps ≤ n + cost ps
  | [], n => by simp [endOf, cost]
  | (a, s) :: ps, n => by
    have := endOf_le ps (up n a + s)
    have := up_le n a
    simp only [endOf, cost]; omega

theorem le_endOf : ∀ (ps : List (Nat × Nat)) (n : Nat), n ≤ endOf n ps
  | [], n => by simp [endOf]
  | (a, s) :: ps, n => by
    have := le_endOf ps (up n a + s)
    have := le_up n a
    simp only [endOf]; omega

theorem endOf_append : ∀ (ps qs : List (Nat × Nat)) (n : Nat), endOf n (ps ++ qs) = endOf (endOf n ps) qs
  | [], _, _ => rfl
  | (a, s) :: ps, qs, n => by simp only [List.cons_append, endOf]; exact endOf_append ps qs _

theorem cost_append : ∀ (ps qs : List (Nat × Nat)), cost (ps ++ qs) = cost ps + cost qs
  | [], _ => by simp [cost]
  | (a, s) :: ps, qs => by simp only [List.cons_append, cost, cost_append ps qs]; omega

/-- Zero padding to an alignment. -/
def pad (out : List UInt8) (a : Nat) : List UInt8 := out ++ List.replicate (up out.length a - out.length) 0

theorem length_pad (out : List UInt8) (a : Nat) : (pad out a).length = up out.length a := by
  have := le_up out.length a
  simp [pad]; omega

/-- The parts written one after the other. -/
def emit : List UInt8 → List (Nat × List UInt8) → List UInt8
  | out, [] => out
  | out, (a, b) :: ps => emit (pad out a ++ b) ps

/-- The alignments and sizes of parts. -/
def sizes (ps : List (Nat × List UInt8)) : List (Nat × Nat) := ps.map fun p => (p.1, p.2.length)

theorem sizes_append (ps qs : List (Nat × List UInt8)) : sizes (ps ++ qs) = sizes ps ++ sizes qs := by simp [sizes]

theorem length_emit : ∀ (ps : List (Nat × List UInt8)) (out : List UInt8),
    (emit out ps).length = endOf out.length (sizes ps)
  | [], _ => rfl
  | (a, b) :: ps, out => by
    simp only [emit, sizes, List.map_cons, endOf]
    rw [length_emit ps, List.length_append, length_pad]; rfl

theorem emit_append : ∀ (ps qs : List (Nat × List UInt8)) (out : List UInt8), emit out (ps ++ qs) = emit (emit out ps) qs
  | [], _, _ => rfl
  | (a, b) :: ps, qs, out => by simp only [List.cons_append, emit]; exact emit_append ps qs _

theorem emit_prefix : ∀ (ps : List (Nat × List UInt8)) (out : List UInt8), ∃ tl, emit out ps = out ++ tl
  | [], out => ⟨[], by simp [emit]⟩
  | (a, b) :: ps, out => by
    obtain ⟨tl, h⟩ := emit_prefix ps (pad out a ++ b)
    exact ⟨List.replicate (up out.length a - out.length) 0 ++ b ++ tl, by simp only [emit]; rw [h]; simp [pad]⟩

theorem at_mid (x b y : List UInt8) : At (x ++ b ++ y) x.length b := by
  unfold At slice
  rw [List.append_assoc, List.drop_left, List.take_left]

/-- Each part is found at its aligned position. -/
theorem at_emit (pre post : List (Nat × List UInt8)) (a : Nat) (b out : List UInt8) :
    At (emit out (pre ++ (a, b) :: post)) (up (endOf out.length (sizes pre)) a) b := by
  rw [emit_append]
  simp only [emit]
  obtain ⟨tl, h⟩ := emit_prefix post (pad (emit out pre) a ++ b)
  rw [h, ← length_emit, ← length_pad]
  exact at_mid _ _ _

theorem bufAlign_eq (out : List UInt8) (a : Nat) (ha : AlignOk a) (h1 : 1 < a) (h : out.length + a < U64) :
    bufAlign out a = .ok (pad out a) := by
  unfold bufAlign
  have h2 := up_le out.length a
  have h3 : align64 out.length a = .ok (up out.length a) := by
    have := alignIf_eq (n := out.length) ha (by omega) h
    unfold alignIf at this; rw [if_pos h1] at this; exact this
  rw [h3]
  have h4 := le_up out.length a
  simp only [Res.bind_eq, Res.ok_bind]
  rw [if_neg (by omega)]; rfl

theorem pad_of_le_one (out : List UInt8) (a : Nat) (h : ¬ 1 < a) : pad out a = out := by
  unfold pad up; rw [if_neg h]; simp

theorem bufBytes_eq (out b : List UInt8) (h : out.length + b.length < U64) : bufBytes out b = .ok (out ++ b) := by
  unfold bufBytes; rw [if_neg (by omega)]

theorem elf_eq {len size align : Nat} (ha : AlignOk align) (h : len + align + size < U64) :
    Reserve.elf len size align = .ok (up len align, up len align + size) := by
  have h1 := up_le len align
  unfold Reserve.elf
  rw [alignIf_eq ha (by omega) (by omega)]
  simp only [Res.bind_eq, Res.ok_bind]
  unfold addU64
  rw [if_pos (by omega)]; rfl

theorem alignOk_w (c : Elf.Cfg) : AlignOk c.w := by
  unfold Elf.Cfg.w; cases c.is64
  · exact .inr ⟨2, by decide, by decide⟩
  · exact .inr ⟨3, by decide, by decide⟩

theorem alignOk_1 : AlignOk 1 := .inr ⟨0, by decide, by decide⟩
theorem alignOk_4 : AlignOk 4 := .inr ⟨2, by decide, by decide⟩

end Obj.Parts

namespace Obj.Res

/-- Not a panic; an error only if `E`; if it succeeds the result satisfies `P`. -/
def Sat {α : Type} (E : Prop) (r : Res α) (P : α → Prop) : Prop :=
  match r with
  | .ok a => P a
  | .err => E
  | .panic => False

theorem Sat.bind {α β : Type} {E : Prop} {r : Res α} {f : α → Res β} {P : α → Prop} {Q : β → Prop} (h : Sat E r P)
    (hf : ∀ a, P a → Sat E (f a) Q) : Sat E (r.bind f) Q := by
  cases r with
  | ok a => exact hf a h
  | err => exact h
  | panic => exact h

theorem Sat.of_eq {α : Type} {E : Prop} {r : Res α} {a : α} {P : α → Prop} (h : r = .ok a) (hp : P a) : Sat E r P := by
  subst h; exact hp

theorem Sat.mono {α : Type} {E F : Prop} {r : Res α} {P Q : α → Prop} (h : Sat E r P) (he : E → F)
    (hq : ∀ a, P a → Q a) : Sat F r Q := by
  cases r with
  | ok a => exact hq a h
  | err => exact he h
  | panic => exact h

theorem Sat.no_panic {α : Type} {E : Prop} {r : Res α} {P : α → Prop} (h : Sat E r P) : r ≠ .panic := by
  intro e; rw [e] at h; exact h

theorem Sat.ok {α : Type} {E : Prop} {r : Res α} {P : α → Prop} (h : Sat E r P) {a : α} (e : r = .ok a) : P a := by
  rw [e] at h; exact h

theorem Sat.err {α : Type} {E : Prop} {r : Res α} {P : α → Prop} (h : Sat E r P) (e : r = .err) : E := by
  rw [e] at h; exact h

end Obj.Res

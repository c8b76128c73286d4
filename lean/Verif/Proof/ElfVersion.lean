import Verif.Spec.ElfVersion
import Verif.Proof.Elf
import Verif.Proof.Iter

/-! # Lemmas about ELF symbol versions -/

namespace Obj.Elf
open Obj Obj.Spec.ElfVersionS

@[simp] theorem length_verdef (en : Endianness) (v : Verdef) : (v.encode en).length = 20 := by simp [Verdef.encode, Obj.encode]
@[simp] theorem length_verdaux (en : Endianness) (v : Verdaux) : (v.encode en).length = 8 := by simp [Verdaux.encode, Obj.encode]
@[simp] theorem length_verneed (en : Endianness) (v : Verneed) : (v.encode en).length = 16 := by simp [Verneed.encode, Obj.encode]
@[simp] theorem length_vernaux (en : Endianness) (v : Vernaux) : (v.encode en).length = 16 := by simp [Vernaux.encode, Obj.encode]

theorem Verdef.decode_encode (en : Endianness) (v : Verdef) (h1 : v.version < 2 ^ 16) (h2 : v.flags < 2 ^ 16)
    (h3 : v.ndx < 2 ^ 16) (h4 : v.cnt < 2 ^ 16) (h5 : v.hash < 2 ^ 32) (h6 : v.aux < 2 ^ 32) (h7 : v.next < 2 ^ 32) (tl : List UInt8) :
    Verdef.decode en (v.encode en ++ tl) = v := by
  unfold Verdef.decode Verdef.encode
  simp only [field_encode_succ, field_encode_zero, Nat.le_refl, Nat.reduceLeDiff, Nat.reduceSub, Nat.sub_self]
  rw [field_encode_zero _ _ _ _ _ (by simpa using h1), field_encode_zero _ _ _ _ _ (by simpa using h2),
    field_encode_zero _ _ _ _ _ (by simpa using h3), field_encode_zero _ _ _ _ _ (by simpa using h4),
    field_encode_zero _ _ _ _ _ (by simpa using h5), field_encode_zero _ _ _ _ _ (by simpa using h6),
    field_encode_zero _ _ _ _ _ (by simpa using h7)]

theorem Verdaux.decode_encode (en : Endianness) (v : Verdaux) (h1 : v.name < 2 ^ 32) (h2 : v.next < 2 ^ 32) (tl : List UInt8) :
    Verdaux.decode en (v.encode en ++ tl) = v := by
  unfold Verdaux.decode Verdaux.encode
  simp only [field_encode_succ, Nat.le_refl, Nat.sub_self]
  rw [field_encode_zero _ _ _ _ _ (by simpa using h1), field_encode_zero _ _ _ _ _ (by simpa using h2)]

theorem Verneed.decode_encode (en : Endianness) (v : Verneed) (h1 : v.version < 2 ^ 16) (h2 : v.cnt < 2 ^ 16)
    (h3 : v.file < 2 ^ 32) (h4 : v.aux < 2 ^ 32) (h5 : v.next < 2 ^ 32) (tl : List UInt8) :
    Verneed.decode en (v.encode en ++ tl) = v := by
  unfold Verneed.decode Verneed.encode
  simp only [field_encode_succ, Nat.le_refl, Nat.reduceLeDiff, Nat.reduceSub, Nat.sub_self]
  rw [field_encode_zero _ _ _ _ _ (by simpa using h1), field_encode_zero _ _ _ _ _ (by simpa using h2),
    field_encode_zero _ _ _ _ _ (by simpa using h3), field_encode_zero _ _ _ _ _ (by simpa using h4),
    field_encode_zero _ _ _ _ _ (by simpa using h5)]

theorem Vernaux.decode_encode (en : Endianness) (v : Vernaux) (h1 : v.hash < 2 ^ 32) (h2 : v.flags < 2 ^ 16)
    (h3 : v.other < 2 ^ 16) (h4 : v.name < 2 ^ 32) (h5 : v.next < 2 ^ 32) (tl : List UInt8) :
    Vernaux.decode en (v.encode en ++ tl) = v := by
  unfold Vernaux.decode Vernaux.encode
  simp only [field_encode_succ, Nat.le_refl, Nat.reduceLeDiff, Nat.reduceSub, Nat.sub_self]
  rw [field_encode_zero _ _ _ _ _ (by simpa using h1), field_encode_zero _ _ _ _ _ (by simpa using h2),
    field_encode_zero _ _ _ _ _ (by simpa using h3), field_encode_zero _ _ _ _ _ (by simpa using h4),
    field_encode_zero _ _ _ _ _ (by simpa using h5)]

/-! ## Auxiliary records -/

theorem readAt_append (img tl : List UInt8) (n : Nat) (h : img.length = n) : Bytes.readAt (img ++ tl) 0 n = .ok img := by
  rw [bytes_readAt_eq, if_pos (by simp; omega), List.drop_zero, List.take_left' h]

theorem skip_eq (d : List UInt8) (n : Nat) : Bytes.skip d n = if n ≤ d.length then (.ok (), d.drop n) else (.err, []) := rfl

/-- Each record but the last points to the record after it; the last points inside itself or to its end. -/
def ChainOk {α : Type} (next : α → Nat) (size : Nat) : List α → Prop
  | [] => True
  | [r] => next r ≤ size
  | r :: r' :: rs => next r = size ∧ ChainOk next size (r' :: rs)

theorem aux_runs {α : Type} (size : Nat) (dec : List UInt8 → α) (next : α → Nat) (enc : α → List UInt8) (rs : List α)
    (hl : ∀ r ∈ rs, (enc r).length = size) (hd : ∀ r ∈ rs, dec (enc r) = r) (hc : ChainOk next size rs) (tl : List UInt8) :
    Runs (auxNext size dec next) (rs.flatMap enc ++ tl, rs.length) rs .done := by
  induction rs with
  | nil => exact .done (s' := (tl, 0)) (by simp [auxNext])
  | cons r rs ih =>
    have hr : Bytes.readAt (List.flatMap enc (r :: rs) ++ tl) 0 size = .ok (enc r) := by
      simp only [List.flatMap_cons, List.append_assoc]
      exact readAt_append _ _ _ (hl r (by simp))
    have hlen := hl r (by simp)
    have hn : next r ≤ size := by
      cases rs with
      | nil => exact hc
      | cons => exact Nat.le_of_eq hc.1
    have hp : auxParse size dec next (List.flatMap enc (r :: rs) ++ tl) =
        (.ok r, (List.flatMap enc (r :: rs) ++ tl).drop (next r)) := by
      unfold auxParse
      rw [hr]
      simp only [hd r (by simp)]
      rw [skip_eq, if_pos (by simp [hlen]; omega)]
    refine .item (x := r) (s' := ((List.flatMap enc (r :: rs) ++ tl).drop (next r), rs.length)) ?_ ?_
    · unfold auxNext
      rw [if_neg (by simp)]
      simp only [hp]
      simp
    · cases rs with
      | nil => exact .done (s' := ((List.flatMap enc [r] ++ tl).drop (next r), 0)) (by simp [auxNext])
      | cons r' rs =>
        have : (List.flatMap enc (r :: r' :: rs) ++ tl).drop (next r) = List.flatMap enc (r' :: rs) ++ tl := by
          rw [hc.1, List.flatMap_cons, List.append_assoc, List.drop_left' hlen]
        rw [this]
        exact ih (fun x hx => hl x (by simp [hx])) (fun x hx => hd x (by simp [hx])) hc.2

/-! ## No panics and termination -/

theorem auxParse_no_panic {α : Type} (size : Nat) (dec : List UInt8 → α) (next : α → Nat) (d : List UInt8) :
    (auxParse size dec next d).1 ≠ .panic := by
  unfold auxParse
  rw [bytes_readAt_eq]
  split
  · rename_i h
    split at h
    · simp only [skip_eq]
      split <;> rename_i heq <;> split at heq <;> simp at heq <;> simp
    · simp at h
  · simp
  · rename_i h
    split at h <;> simp at h

theorem auxNext_no_panic {α : Type} (size : Nat) (dec : List UInt8 → α) (next : α → Nat) (s : AuxIter) :
    (auxNext size dec next s).1 ≠ .panic := by
  have := auxParse_no_panic size dec next s.1
  unfold auxNext
  split
  · simp
  · split
    · simp
    · simp
    · rename_i h; rw [h] at this; simp at this

theorem auxNext_item {α : Type} {size : Nat} {dec : List UInt8 → α} {next : α → Nat} {s s' : AuxIter} {x : α}
    (h : auxNext size dec next s = (.ok (some x), s')) : s.2 ≠ 0 ∧ s'.2 = s.2 - 1 := by
  unfold auxNext at h
  split at h
  · simp at h
  · rename_i h0
    refine ⟨h0, ?_⟩
    split at h <;> simp at h
    rw [← h.2]

theorem aux_terminates {α : Type} (size : Nat) (dec : List UInt8 → α) (next : α → Nat) (s : AuxIter) :
    ∃ xs e, Runs (auxNext size dec next) s xs e ∧ xs.length ≤ s.2 ∧ e ≠ .panic := by
  obtain ⟨xs, e, h1, h2⟩ := Runs.exists_of_measure (next := auxNext size dec next) (fun _ => True) Prod.snd
    (fun s x s' _ h => ⟨trivial, by have := auxNext_item h; omega⟩) s trivial
  exact ⟨xs, e, h1, h2, Runs.no_panic (fun _ => True) (fun _ _ _ _ _ => trivial) (fun s _ => auxNext_no_panic _ _ _ s) trivial h1⟩

theorem verParse_cases {α : Type} (size : Nat) (hs : 0 < size) (dec : List UInt8 → α) (aux cnt next : α → Nat) (d : List UInt8) :
    (verParse size dec aux cnt next d).1 ≠ .panic ∧
    ∀ x d', verParse size dec aux cnt next d = (.ok x, d') → d'.length < d.length := by
  unfold verParse
  rw [bytes_readAt_eq]
  by_cases h : 0 + size ≤ d.length
  · rw [if_pos h]
    simp only [skip_eq]
    by_cases h1 : aux (dec (List.take size (List.drop 0 d))) ≤ d.length
    · rw [if_pos h1]
      dsimp only
      by_cases h2 : next (dec (List.take size (List.drop 0 d))) ≠ 0
      · rw [if_pos h2]
        by_cases h3 : next (dec (List.take size (List.drop 0 d))) ≤ d.length
        · rw [if_pos h3]
          refine ⟨by simp, ?_⟩
          intro x d' hx
          simp only [Prod.mk.injEq, Res.ok.injEq] at hx
          rw [← hx.2, List.length_drop]
          omega
        · rw [if_neg h3]; simp
      · rw [if_neg h2]
        refine ⟨by simp, ?_⟩
        intro x d' hx
        simp only [Prod.mk.injEq, Res.ok.injEq] at hx
        rw [← hx.2]
        simp only [List.length_nil]
        omega
    · rw [if_neg h1]; simp
  · rw [if_neg h]; simp

/-! ## Draining -/

theorem drain_runs {σ α : Type} {next : σ → Res (Option α) × σ} {s : σ} {xs : List α} {e : End} (h : Runs next s xs e)
    (fuel : Nat) (hf : xs.length < fuel) :
    drain next fuel s = match e with | .done => .ok xs | .err => .err | .panic => .panic := by
  induction h generalizing fuel with
  | done h =>
    cases fuel with
    | zero => simp at hf
    | succ n => simp [drain, h]
  | err h =>
    cases fuel with
    | zero => simp at hf
    | succ n => simp [drain, h]
  | panic h =>
    cases fuel with
    | zero => simp at hf
    | succ n => simp [drain, h]
  | @item s s' x xs e h _ ih =>
    cases fuel with
    | zero => simp at hf
    | succ n =>
      simp only [drain, h]
      rw [ih n (by simpa using hf)]
      cases e <;> rfl

theorem drain_no_panic {σ α : Type} {next : σ → Res (Option α) × σ} {s : σ} {fuel : Nat}
    (h : ∃ xs e, Runs next s xs e ∧ xs.length < fuel ∧ e ≠ .panic) : drain next fuel s ≠ .panic := by
  obtain ⟨xs, e, h1, h2, h3⟩ := h
  rw [drain_runs h1 fuel h2]
  cases e <;> simp at h3 ⊢

end Obj.Elf

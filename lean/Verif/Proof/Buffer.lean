import Verif.Proof.Bytes
import Verif.Spec.Buffer

namespace Obj
open Spec

theorem length_le_outOp (out : List UInt8) (o : WOp) : out.length ≤ (outOp out o).length := by
  cases o <;> simp [outOp]

theorem counting_op_sim {β : Type} (w : WBuf β) (R : β → List UInt8 → Prop) (L : Nat)
    (hL : L ≤ U64)
    (hB : ∀ b out val, R b out → (out ++ val).length < L → ∃ b', w.writeBytes b val = .ok b' ∧ R b' (out ++ val))
    (hZ : ∀ b out n, R b out → (out ++ List.replicate n 0).length < L →
      ∃ b', w.writeZeros b n = .ok b' ∧ R b' (out ++ List.replicate n 0))
    (b : β) (out : List UInt8) (o : WOp) (hR : R b out) (hok : okOp out.length o)
    (hl : (outOp out o).length < L) :
    ∃ b', Counting.op w { buffer := b, count := out.length } o
      = .ok { buffer := b', count := (outOp out o).length } ∧ R b' (outOp out o) := by
  have hzeros : ∀ n, (out ++ List.replicate n 0).length < L →
      ∃ b', (countingBuf w).writeZeros { buffer := b, count := out.length } n
        = .ok { buffer := b', count := (out ++ List.replicate n 0).length } ∧
        R b' (out ++ List.replicate n 0) := by
    intro n h
    obtain ⟨b', h1, h2⟩ := hZ b out n hR h
    refine ⟨b', ?_, h2⟩
    simp only [List.length_append, List.length_replicate] at h
    simp only [countingBuf, h1, List.length_append, List.length_replicate]
    rw [if_neg (by omega)]
  cases o with
  | bytes val =>
    obtain ⟨b', h1, h2⟩ := hB b out val hR hl
    refine ⟨b', ?_, h2⟩
    simp only [outOp, List.length_append] at hl
    simp only [Counting.op, countingBuf, h1, outOp, List.length_append]
    rw [if_neg (by omega)]
  | zeros n => exact hzeros n hl
  | resize n =>
    simp only [okOp] at hok
    obtain ⟨b', h1, h2⟩ := hzeros (n - out.length) hl
    refine ⟨b', ?_, h2⟩
    simp only [Counting.op, Counting.resize]
    rw [if_neg (by omega)]
    exact h1
  | align p =>
    obtain ⟨k, hk, rfl⟩ := hok
    obtain ⟨b', h1, h2⟩ := hzeros (roundUp out.length (2 ^ k) - out.length) hl
    refine ⟨b', ?_, h2⟩
    have hp := Nat.two_pow_pos k
    obtain ⟨e1, e2, e3⟩ := roundUp_spec out.length (2 ^ k) hp
    simp only [outOp, List.length_append, List.length_replicate, roundUp] at hl
    have hlt : out.length + (2 ^ k - 1) < 2 ^ 64 := by
      -- the rounded length fits, and 2^64 is a multiple of 2^k
      have hd : (2 : Nat) ^ 64 = 2 ^ (64 - k) * 2 ^ k := by rw [← Nat.pow_add]; congr 1; omega
      have hlt : (out.length + (2 ^ k - 1)) / 2 ^ k * 2 ^ k < 2 ^ (64 - k) * 2 ^ k := by
        rw [← hd]
        have : (2:Nat)^64 = U64 := by decide
        omega
      have := Nat.lt_of_mul_lt_mul_right hlt
      have h3 : ((out.length + (2 ^ k - 1)) / 2 ^ k + 1) * 2 ^ k ≤ 2 ^ (64 - k) * 2 ^ k :=
        Nat.mul_le_mul_right _ this
      rw [Nat.add_mul, Nat.one_mul, ← hd] at h3
      omega
    simp only [Counting.op, Counting.writeAlign, align64_eq hk hlt, Counting.resize]
    rw [if_neg (by omega)]
    exact h1

theorem counting_ops_sim {β : Type} (w : WBuf β) (R : β → List UInt8 → Prop) (L : Nat)
    (hL : L ≤ U64)
    (hB : ∀ b out val, R b out → (out ++ val).length < L → ∃ b', w.writeBytes b val = .ok b' ∧ R b' (out ++ val))
    (hZ : ∀ b out n, R b out → (out ++ List.replicate n 0).length < L →
      ∃ b', w.writeZeros b n = .ok b' ∧ R b' (out ++ List.replicate n 0))
    (ops : List WOp) : ∀ (b : β) (out : List UInt8), R b out → okOps L out ops →
    ∃ b', Counting.ops w { buffer := b, count := out.length } ops
      = .ok { buffer := b', count := (outOps out ops).length } ∧ R b' (outOps out ops) := by
  induction ops with
  | nil => intro b out hR _; exact ⟨b, rfl, hR⟩
  | cons o os ih =>
    intro b out hR hok
    obtain ⟨h1, h2, h3⟩ := hok
    obtain ⟨b', hb', hR'⟩ := counting_op_sim w R L hL hB hZ b out o hR h1 h2
    obtain ⟨b'', hb'', hR''⟩ := ih b' (outOp out o) hR' h3
    exact ⟨b'', by simp only [Counting.ops, hb', hb'', outOps, List.foldl_cons], hR''⟩

/-! ## chunked zero writing -/

theorem defaultWriteZeros_eq {β : Type} (wb : β → List UInt8 → Res β) (b : β) (n : Nat) :
    defaultWriteZeros wb b n = if 0 < n then
      (match wb b (List.replicate (min n 1024) 0) with
      | .ok b' => defaultWriteZeros wb b' (n - min n 1024)
      | .err => .err
      | .panic => .panic) else .ok b := by
  rw [defaultWriteZeros]
  have : (List.replicate 1024 (0 : UInt8)).take (min n 1024) = List.replicate (min n 1024) 0 := by
    rw [List.take_replicate, show min (min n 1024) 1024 = min n 1024 by omega]
  simp only [this]
  rfl

/-- If `writeBytes` always succeeds and preserves `R`, so does the default `write_zeros`. -/
theorem defaultWriteZeros_sim {β : Type} (wb : β → List UInt8 → Res β) (R : β → List UInt8 → Prop)
    (hB : ∀ b out val, R b out → ∃ b', wb b val = .ok b' ∧ R b' (out ++ val)) :
    ∀ (n : Nat) (b : β) (out : List UInt8), R b out →
      ∃ b', defaultWriteZeros wb b n = .ok b' ∧ R b' (out ++ List.replicate n 0) := by
  intro n
  induction n using Nat.strongRecOn with
  | _ n ih =>
    intro b out hR
    rw [defaultWriteZeros_eq]
    by_cases h : 0 < n
    · rw [if_pos h]
      obtain ⟨b', h1, h2⟩ := hB b out (List.replicate (min n 1024) 0) hR
      obtain ⟨b'', h3, h4⟩ := ih (n - min n 1024) (by omega) b' _ h2
      refine ⟨b'', by rw [h1]; exact h3, ?_⟩
      rw [List.append_assoc, List.replicate_append_replicate] at h4
      rwa [show min n 1024 + (n - min n 1024) = n by omega] at h4
    · rw [if_neg h]
      have : n = 0 := by omega
      subst this
      exact ⟨b, rfl, by simpa using hR⟩

end Obj

import Verif.Proof.BuildSegment
import Verif.Proof.MachoReloc
import Verif.Proof.Elf
import Verif.Spec.Reserve

namespace Obj.Reserve
open Obj Obj.Spec Obj.Build

theorem addU64_ok {a b r : Nat} (h : addU64 a b = .ok r) : r = a + b ∧ a + b < U64 := add64_ok h

theorem addU32_ok {a b r : Nat} (h : addU32 a b = .ok r) : r = a + b ∧ a + b < U32 := by
  unfold addU32 at h; split at h <;> simp_all

theorem mulU64_ok {a b r : Nat} (h : mulU64 a b = .ok r) : r = a * b ∧ a * b < U64 := by
  unfold mulU64 at h; split at h <;> simp_all

theorem le_roundUp' (n p : Nat) (hp : 0 < p) : n ≤ roundUp n p ∧ roundUp n p % p = 0 ∧ roundUp n p < n + p := by
  obtain ⟨h1, h2, h3⟩ := roundUp_spec n p hp
  exact ⟨h2, h1, h3⟩

/-- The aligned length. -/
def up (n a : Nat) : Nat := if 1 < a then roundUp n a else n

theorem le_up (n a : Nat) : n ≤ up n a := by
  unfold up; split
  · exact (le_roundUp' n a (by omega)).1
  · omega

theorem up_lt (n a : Nat) (ha : 1 < a) : up n a < n + a := by
  unfold up; rw [if_pos ha]; exact (le_roundUp' n a (by omega)).2.2

theorem up_le (n a : Nat) : up n a ≤ n + a := by
  unfold up; split
  · exact Nat.le_of_lt (le_roundUp' n a (by omega)).2.2
  · omega

theorem up_mod (n a : Nat) (ha : a ≠ 0) : up n a % a = 0 := by
  unfold up; split
  · exact (le_roundUp' n a (by omega)).2.1
  · have : a = 1 := by omega
    subst this; exact Nat.mod_one n

theorem up_one (n : Nat) : up n 1 = n := rfl

theorem alignIf_ok {n a r : Nat} (ha : AlignOk a) (h : alignIf n a = .ok r) : r = up n a := by
  unfold alignIf at h
  unfold up
  split at h
  · rename_i h1
    rw [if_pos h1]
    rcases ha with rfl | ⟨k, hk, ha⟩
    · omega
    · exact (align64_ok hk ha h).1
  · rename_i h1
    rw [if_neg h1]; simp at h; exact h.symm

theorem alignIf_eq {n a : Nat} (ha : AlignOk a) (h : up n a < U64) (hn : n + a < U64) : alignIf n a = .ok (up n a) := by
  unfold alignIf up at *
  by_cases h1 : 1 < a
  · rw [if_pos h1] at h ⊢
    rw [if_pos h1]
    rcases ha with rfl | ⟨k, hk, rfl⟩
    · omega
    · rw [align64_eq hk (by omega)]; rfl
  · rw [if_neg h1, if_neg h1]

theorem elf_ok {len size align offset len' : Nat} (ha : AlignOk align) (h : elf len size align = .ok (offset, len')) :
    offset = up len align ∧ len' = offset + size ∧ len' < U64 := by
  unfold elf at h
  rw [Res.bind_eq, Res.bind_eq_ok] at h
  obtain ⟨o, h1, h⟩ := h
  rw [Res.bind_eq, Res.bind_eq_ok] at h
  obtain ⟨l, h2, h⟩ := h
  simp only [Res.ok.injEq, Prod.mk.injEq] at h
  obtain ⟨rfl, rfl⟩ := h
  obtain ⟨h3, h4⟩ := addU64_ok h2
  exact ⟨alignIf_ok ha h1, h3, by omega⟩

theorem coff_ok {len size align offset len' : Nat} (ha : AlignOk align) (h : coff len size align = .ok (offset, len')) :
    offset = up len align % U32 ∧ len' = up len align + size ∧ len' < U64 := by
  unfold coff at h
  rw [Res.bind_eq, Res.bind_eq_ok] at h
  obtain ⟨o, h1, h⟩ := h
  rw [Res.bind_eq, Res.bind_eq_ok] at h
  obtain ⟨l, h2, h⟩ := h
  simp only [Res.ok.injEq, Prod.mk.injEq] at h
  obtain ⟨rfl, rfl⟩ := h
  obtain ⟨h3, h4⟩ := addU64_ok h2
  rw [alignIf_ok ha h1] at *
  exact ⟨rfl, h3, by omega⟩

theorem elfUntil_ok {len o r : Nat} (h : elfUntil len o = .ok r) : r = o ∧ len ≤ o := by
  unfold elfUntil at h; split at h
  · simp at h
  · simp at h; exact ⟨h.symm, by omega⟩

theorem laidOut_nil {start stop : Nat} : LaidOut start stop [] :=
  ⟨by simp, by simp, List.Pairwise.nil⟩

theorem laidOut_cons {start mid stop : Nat} {r : Range} {rs : List Range} (h : LaidOut mid stop rs)
    (h1 : start ≤ r.offset) (h2 : r.offset + r.size ≤ mid) (h3 : mid ≤ stop) (h4 : r.align ≠ 0 → r.offset % r.align = 0) :
    LaidOut start stop (r :: rs) := by
  obtain ⟨a, b, c⟩ := h
  refine ⟨?_, ?_, ?_⟩
  · intro x hx
    rcases List.mem_cons.1 hx with rfl | hx
    · exact ⟨h1, by omega⟩
    · have := a x hx; exact ⟨by omega, this.2⟩
  · intro x hx
    rcases List.mem_cons.1 hx with rfl | hx
    · exact h4
    · exact b x hx
  · exact List.Pairwise.cons (fun x hx => by have := a x hx; omega) c

theorem laidOut_mono {start start' stop : Nat} {rs : List Range} (h : LaidOut start' stop rs) (h1 : start ≤ start') :
    LaidOut start stop rs := by
  obtain ⟨a, b, c⟩ := h
  exact ⟨fun r hr => ⟨by have := a r hr; omega, (a r hr).2⟩, b, c⟩

end Obj.Reserve

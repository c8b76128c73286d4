import Verif.Proof.EmitParts
import Verif.Proof.PeFile
import Verif.Proof.BuildSegment
import Verif.Spec.PeWriter
import Verif.Props.PeReloc

/-! Reservations of `write::pe::Writer`: single calls. -/

namespace Obj.PeW
open Obj Obj.Pe Obj.Reserve Obj.Spec Obj.Spec.PeFile Obj.Spec.PeW

theorem roundUp_one (n : Nat) : roundUp n 1 = n := by simp [roundUp]

theorem roundUp_zero {a : Nat} (ha : 0 < a) : roundUp 0 a = 0 := by
  unfold roundUp; rw [Nat.zero_add, Nat.div_eq_of_lt (by omega), Nat.zero_mul]

theorem _root_.Obj.Spec.PeW.Pow2.pos {a : Nat} (h : Pow2 a) : 0 < a := by
  obtain ⟨k, -, rfl⟩ := h; exact Nat.two_pow_pos _

theorem _root_.Obj.Spec.PeW.Pow2.lt {a : Nat} (h : Pow2 a) : a ≤ 2 ^ 31 := by
  obtain ⟨k, hk, rfl⟩ := h; exact Nat.pow_le_pow_right (by decide) (by omega)

theorem pow2_one : Pow2 1 := ⟨0, by decide, rfl⟩
theorem pow2_eight : Pow2 8 := ⟨3, by decide, rfl⟩

theorem le_ru (n : Nat) {a : Nat} (h : Pow2 a) : n ≤ roundUp n a := (le_roundUp' n a h.pos).1
theorem ru_mod (n : Nat) {a : Nat} (h : Pow2 a) : roundUp n a % a = 0 := (le_roundUp' n a h.pos).2.1
theorem ru_lt (n : Nat) {a : Nat} (h : Pow2 a) : roundUp n a < n + a := (le_roundUp' n a h.pos).2.2

theorem a64_ok {n a r : Nat} (ha : Pow2 a) (h : align64 n a = .ok r) : r = roundUp n a := by
  obtain ⟨k, hk, e⟩ := ha
  exact (Build.align64_ok (by omega) e h).1

theorem a64_eq {n a : Nat} (ha : Pow2 a) (h : n + a < U64) : align64 n a = .ok (roundUp n a) := by
  obtain ⟨k, hk, rfl⟩ := ha
  have := Nat.two_pow_pos k
  exact align64_eq (by omega) (by simp only [Nat.reducePow] at *; omega)

theorem a32_ok {n a r : Nat} (ha : Pow2 a) (h : align32 n a = .ok r) : r = roundUp n a ∧ r < U32 := by
  obtain ⟨k, hk, rfl⟩ := ha
  have hp := Nat.two_pow_pos k
  by_cases hn : n + (2 ^ k - 1) < 2 ^ 32
  · rw [align32_eq hk hn] at h
    cases h
    refine ⟨rfl, ?_⟩
    have := (le_roundUp' n (2 ^ k) hp).2.2
    show roundUp n (2 ^ k) < U32
    omega
  · have hn' : U32 ≤ n + (2 ^ k - 1) := by simpa using hn
    unfold align32 at h
    rw [if_neg (by omega), if_pos hn'] at h
    cases h

theorem a32_eq {n a : Nat} (ha : Pow2 a) (h : n + a < U32) : align32 n a = .ok (roundUp n a) := by
  obtain ⟨k, hk, rfl⟩ := ha
  have := Nat.two_pow_pos k
  exact align32_eq hk (by simp only [Nat.reducePow] at *; omega)

theorem pe_ok {len size a o l : Nat} (ha : Pow2 a) (hs : size ≠ 0) (h : Reserve.pe len size a = .ok (o, l)) :
    l = roundUp len a + size ∧ o = roundUp len a % U32 := by
  unfold Reserve.pe at h
  rw [if_neg hs] at h
  simp only [Res.bind_eq, Res.bind_eq_ok] at h
  obtain ⟨x, hx, z, hz, h⟩ := h
  simp only [Res.ok.injEq, Prod.mk.injEq] at h
  obtain ⟨rfl, rfl⟩ := h
  rw [← a64_ok ha hx]
  exact ⟨(addU64_ok hz).1, rfl⟩

theorem pe_ok1 {len size o l : Nat} (h : Reserve.pe len size 1 = .ok (o, l)) : l = len + size := by
  by_cases hs : size = 0
  · unfold Reserve.pe at h
    rw [if_pos hs] at h
    simp only [Res.ok.injEq, Prod.mk.injEq] at h
    omega
  · have := (pe_ok pow2_one hs h).1
    rwa [roundUp_one] at this

theorem reserve_ok {w w' : State} {size a o : Nat} (ha : Pow2 a) (hs : size ≠ 0) (h : w.reserve size a = .ok (o, w')) :
    w' = { w with lay := { w.lay with len := roundUp w.lay.len a + size } } ∧ o = roundUp w.lay.len a % U32 := by
  unfold State.reserve at h
  simp only [Res.bind_eq, Res.bind_eq_ok] at h
  obtain ⟨⟨x, l⟩, hx, h⟩ := h
  simp only [Res.ok.injEq, Prod.mk.injEq] at h
  obtain ⟨rfl, rfl⟩ := h
  obtain ⟨rfl, rfl⟩ := pe_ok ha hs hx
  exact ⟨rfl, rfl⟩

theorem reserve_ok1 {w w' : State} {size o : Nat} (h : w.reserve size 1 = .ok (o, w')) :
    w' = { w with lay := { w.lay with len := w.lay.len + size } } := by
  unfold State.reserve at h
  simp only [Res.bind_eq, Res.bind_eq_ok] at h
  obtain ⟨⟨x, l⟩, hx, h⟩ := h
  simp only [Res.ok.injEq, Prod.mk.injEq] at h
  obtain ⟨rfl, rfl⟩ := h
  rw [pe_ok1 hx]

theorem reserveDos_ok {w w' : State} {d : Dos} (h : w.reserveDos d = .ok w') :
    w.lay.len = 0 ∧ w' = { w with lay := { w.lay with len := 64 + (dosParts d).2.length } } := by
  have h1 : ∀ w' : State, w.reserveDosHeader = .ok w' → w.lay.len = 0 ∧ w' = { w with lay := { w.lay with len := 64 } } := by
    intro w' h
    unfold State.reserveDosHeader at h
    by_cases h0 : w.lay.len = 0
    · rw [if_neg (by simp [h0])] at h
      simp only [Res.bind_eq, Res.bind_eq_ok] at h
      obtain ⟨⟨o, w1⟩, h1, h⟩ := h
      simp only [Res.ok.injEq] at h
      subst h
      rw [reserve_ok1 h1, h0]
      exact ⟨rfl, rfl⟩
    · rw [if_pos h0] at h; simp at h
  cases d with
  | standard =>
    unfold State.reserveDos State.reserveDosHeaderAndStub at h
    simp only [Res.bind_eq, Res.bind_eq_ok] at h
    obtain ⟨w1, e1, ⟨o, w2⟩, e2, h⟩ := h
    simp only [Res.ok.injEq] at h
    subst h
    obtain ⟨k1, rfl⟩ := h1 _ e1
    exact ⟨k1, reserve_ok1 e2⟩
  | empty => exact h1 _ h
  | custom _ => exact h1 _ h

theorem reserveExtra_ok : ∀ {xs : List (Nat × List UInt8)} {w w' : State}, (∀ x ∈ xs, Pow2 x.1 ∧ x.2 ≠ []) → w.reserveExtra xs = .ok w' →
    w' = { w with lay := { w.lay with len := after w.lay.len xs } }
  | [], w, w', _, h => by
    simp only [State.reserveExtra, Res.ok.injEq] at h
    exact h.symm
  | (a, b) :: tl, w, w', hx, h => by
    simp only [State.reserveExtra, Res.bind_eq, Res.bind_eq_ok] at h
    obtain ⟨⟨o, w1⟩, h1, h⟩ := h
    have hb := hx (a, b) (by simp)
    obtain ⟨rfl, -⟩ := reserve_ok hb.1 (by simpa using hb.2) h1
    have := reserveExtra_ok (fun x hm => hx x (by simp [hm])) h
    rw [this]
    rfl

theorem mulU32_ok {a b r : Nat} (h : mulU32 a b = .ok r) : r = a * b ∧ a * b < U32 := by
  unfold mulU32 at h; split at h
  · simp only [Res.ok.injEq] at h; exact ⟨h.symm, by assumption⟩
  · simp at h

theorem reserveNt_ok {w w' : State} {n : Nat} (hn : n < U32) (h : w.reserveNtHeaders n = .ok w') :
    w.ntOffset = 0 ∧ w' = { w with ntOffset := roundUp w.lay.len 8 % U32, dirs := List.replicate n ⟨0, 0⟩, lay := { w.lay with len := roundUp w.lay.len 8 + 24 + optSize w.is64 + 8 * n } } := by
  unfold State.reserveNtHeaders at h
  by_cases h0 : w.ntOffset = 0
  · rw [if_neg (by simp [h0])] at h
    simp only [Res.bind_eq, Res.bind_eq_ok] at h
    obtain ⟨⟨o, w1⟩, h1, sz, h2, ⟨o2, w2⟩, h3, h⟩ := h
    simp only [Res.ok.injEq] at h
    subst h
    obtain ⟨rfl, rfl⟩ := reserve_ok pow2_eight (by unfold optSize; split <;> omega) h1
    have hw := reserve_ok1 h3
    refine ⟨h0, ?_⟩
    rw [hw]
    have := (mulU32_ok h2).1
    rw [Nat.mod_eq_of_lt hn] at this
    subst this
    simp only [State.mk.injEq, PeState.mk.injEq, true_and, and_true]
    omega
  · rw [if_pos h0] at h; simp at h

theorem setDirs_ok : ∀ {xs : List (Nat × DataDir)} {w w' : State}, w.setDirs xs = .ok w' →
    w' = { w with dirs := setAll w.dirs xs }
  | [], w, w', h => by
    simp only [State.setDirs, Res.ok.injEq] at h
    exact h.symm
  | (i, d) :: tl, w, w', h => by
    simp only [State.setDirs, Res.bind_eq, Res.bind_eq_ok] at h
    obtain ⟨w1, h1, h⟩ := h
    unfold State.setDir at h1
    split at h1
    · simp only [Res.ok.injEq] at h1
      subst h1
      have := setDirs_ok h
      rw [this]; rfl
    · simp at h1

theorem peVirtual_ok {sa v n o l : Nat} (ha : Pow2 sa) (h : peVirtual sa v n = .ok (o, l)) : o = v ∧ l = roundUp (v + n) sa ∧ l < U32 ∧ v + n < U32 := by
  unfold peVirtual at h
  simp only [Res.bind_eq, Res.bind_eq_ok] at h
  obtain ⟨x, hx, y, hy, h⟩ := h
  simp only [Res.ok.injEq, Prod.mk.injEq] at h
  obtain ⟨rfl, rfl⟩ := h
  obtain ⟨rfl, h2⟩ := addU32_ok hx
  obtain ⟨rfl, h1⟩ := a32_ok ha hy
  exact ⟨rfl, rfl, h1, h2⟩

theorem reserveHeaders_ok {w w' : State} {n : Nat} (hs : Pow2 w.lay.sectionAlign) (hf : Pow2 w.lay.fileAlign)
    (h : w.reserveSectionHeaders n = .ok w') :
    w' = { w with headerNum := n, headersLen := roundUp (w.lay.len + 40 * n) w.lay.fileAlign % U32, lay := { w.lay with len := roundUp (w.lay.len + 40 * n) w.lay.fileAlign, vlen := roundUp (w.lay.vlen + roundUp (w.lay.len + 40 * n) w.lay.fileAlign % U32) w.lay.sectionAlign } } ∧
    w'.lay.vlen < U32 := by
  unfold State.reserveSectionHeaders at h
  by_cases h0 : w.headerNum = 0
  · rw [if_neg (by simp [h0])] at h
    simp only [Res.bind_eq, Res.bind_eq_ok] at h
    obtain ⟨⟨o, w1⟩, h1, len, h2, ⟨o2, vl⟩, h3, h⟩ := h
    simp only [Res.ok.injEq] at h
    subst h
    have hw := reserve_ok1 h1
    subst hw
    have hl := a64_ok hf h2
    subst hl
    obtain ⟨-, h4, h5, -⟩ := peVirtual_ok hs h3
    subst h4
    have e : n * 40 = 40 * n := Nat.mul_comm _ _
    simp only [e] at *
    exact ⟨trivial, h5⟩
  · rw [if_pos h0] at h; simp at h

end Obj.PeW

import Verif.Spec.Pod

/-! # Lemmas for C105 -/

namespace Obj.Pod

theorem fromBytes_iff (t : Ty) (d : Bs) (a : Nat) (tail : Bs) :
    fromBytes t d = .ok (a, tail) ↔
      t.size ≤ d.len ∧ t.align ∣ d.addr ∧ a = d.addr ∧ tail = ⟨d.addr + t.size, d.len - t.size⟩ := by
  simp only [fromBytes, getFrom]
  by_cases h : t.size ≤ d.len
  · by_cases h2 : d.addr % t.align = 0
    · simp [h, h2, Nat.dvd_iff_mod_eq_zero, eq_comm]
    · simp [h, h2, Nat.dvd_iff_mod_eq_zero]
  · simp [h]

theorem fromBytesMut_eq (t : Ty) (d : Bs) : fromBytesMut t d = fromBytes t d := by
  simp only [fromBytesMut, fromBytes, getFrom, splitAtMut]
  by_cases h : t.size ≤ d.len
  · simp [h, Nat.not_lt.2 h]
  · simp [h, Nat.lt_of_not_le h]

theorem sliceFromBytes_iff (t : Ty) (d : Bs) (n : Nat) (v : Ts) (tail : Bs) (hd : d.Valid) :
    sliceFromBytes t d n = .ok (v, tail) ↔
      n * t.size ≤ d.len ∧ t.align ∣ d.addr ∧ v = ⟨d.addr, n⟩ ∧ tail = ⟨d.addr + n * t.size, d.len - n * t.size⟩ := by
  simp only [Bs.Valid] at hd
  simp only [sliceFromBytes, checkedMul, getFrom]
  generalize n * t.size = s
  by_cases h : s ≤ d.len
  · have h1 : s < 2 ^ 64 := by omega
    by_cases h2 : d.addr % t.align = 0
    · simp [h, h1, h2, Nat.dvd_iff_mod_eq_zero, eq_comm]
    · simp [h, h1, h2, Nat.dvd_iff_mod_eq_zero]
  · by_cases h1 : s < 2 ^ 64
    · simp [h, h1]
    · simp [h, h1]

theorem sliceFromBytesMut_eq (t : Ty) (d : Bs) (n : Nat) : sliceFromBytesMut t d n = sliceFromBytes t d n := by
  simp only [sliceFromBytesMut, sliceFromBytes, checkedMul, getFrom, splitAtMut]
  generalize n * t.size = s
  by_cases h1 : s < 2 ^ 64
  · by_cases h : s ≤ d.len
    · simp [h, h1, Nat.not_lt.2 h]
    · simp [h, h1, Nat.lt_of_not_le h]
  · simp [h1]

theorem sliceFromBytes_panic (t : Ty) (d : Bs) (n : Nat) : sliceFromBytes t d n ≠ .panic := by
  simp only [sliceFromBytes, checkedMul, getFrom]
  generalize n * t.size = s
  by_cases h1 : s < 2 ^ 64 <;> by_cases h : s ≤ d.len <;> by_cases h2 : d.addr % t.align = 0 <;> simp [h1, h, h2]

theorem fromBytes_panic (t : Ty) (d : Bs) : fromBytes t d ≠ .panic := by
  simp only [fromBytes, getFrom]
  by_cases h : t.size ≤ d.len <;> by_cases h2 : d.addr % t.align = 0 <;> simp [h, h2]

theorem sliceAllMut_eq (t : Ty) (d : Bs) : sliceFromAllBytesMut t d = sliceFromAllBytes t d := by
  simp only [sliceFromAllBytesMut, sliceFromAllBytes, sliceFromBytesMut_eq]

theorem sliceAll_iff (t : Ty) (d : Bs) (v : Ts) (hd : d.Valid) :
    sliceFromAllBytes t d = .ok v ↔ t.size ∣ d.len ∧ t.align ∣ d.addr ∧ v = ⟨d.addr, d.len / t.size⟩ := by
  have hdm : d.len / t.size * t.size + d.len % t.size = d.len := by
    rw [Nat.mul_comm]; exact Nat.div_add_mod _ _
  simp only [sliceFromAllBytes]
  cases h : sliceFromBytes t d (d.len / t.size) with
  | panic => exact absurd h (sliceFromBytes_panic _ _ _)
  | err =>
    simp only [reduceCtorEq, false_iff]
    rintro ⟨h1, h2, _⟩
    have := (sliceFromBytes_iff t d (d.len / t.size) _ _ hd).2 ⟨by omega, h2, rfl, rfl⟩
    rw [h] at this
    cases this
  | ok r =>
    obtain ⟨w, tail⟩ := r
    obtain ⟨h1, h2, h3, h4⟩ := (sliceFromBytes_iff t d _ _ _ hd).1 h
    subst h3 h4
    dsimp only
    generalize d.len / t.size * t.size = s at hdm h1
    rw [Nat.dvd_iff_mod_eq_zero]
    by_cases h0 : d.len % t.size = 0
    · have : d.len - s = 0 := by omega
      simp [this, h0, h2, eq_comm]
    · have : d.len - s ≠ 0 := by omega
      simp [this, h0]

theorem safe (t : Ty) (ht : t.Layout) (d : Bs) (n : Nat) (hn : n * t.size ≤ d.len) (ha : t.align ∣ d.addr) :
    Safe t d ⟨d.addr, n⟩ ⟨d.addr + n * t.size, d.len - n * t.size⟩ := by
  have le : ∀ k l : Nat, k < l → k * t.size + t.size ≤ l * t.size := by
    intro k l h
    have := Nat.mul_le_mul_right t.size (Nat.succ_le_of_lt h)
    rw [Nat.succ_mul] at this
    exact this
  constructor
  · intro k _
    exact Nat.dvd_add ha (Nat.dvd_trans ht.2 (Nat.dvd_mul_left ..))
  · intro x
    simp only [Bs.Holds, Ts.elem]
    constructor
    · rintro ⟨h1, h2⟩
      by_cases hx : x < d.addr + n * t.size
      · left
        have hs : 0 < t.size := by
          apply Nat.pos_of_ne_zero
          intro h0
          rw [h0] at hx
          omega
        have hq := Nat.div_add_mod (x - d.addr) t.size
        have hm := Nat.mod_lt (x - d.addr) hs
        rw [Nat.mul_comm] at hq
        refine ⟨(x - d.addr) / t.size, ?_, ?_, ?_⟩
        · exact Nat.div_lt_of_lt_mul (by rw [Nat.mul_comm]; omega)
        · omega
        · omega
      · right
        omega
    · rintro (⟨k, hk, h1, h2⟩ | ⟨h1, h2⟩)
      · have := le k n hk
        omega
      · omega
  · intro k _ l _ hkl x h1 h2
    simp only [Bs.Holds, Ts.elem] at h1 h2
    rcases Nat.lt_or_gt_of_ne hkl with h | h
    · have := le k l h
      omega
    · have := le l k h
      omega
  · intro k hk x h1 h2
    simp only [Bs.Holds, Ts.elem] at h1 h2
    have := le k n hk
    omega

theorem read_length (m : Mem) (d : Bs) : (read m d).length = d.len := by simp [read]

theorem read_split (m : Mem) (a x y : Nat) : read m ⟨a, x + y⟩ = read m ⟨a, x⟩ ++ read m ⟨a + x, y⟩ := by
  apply List.ext_getElem
  · simp [read]
  · intro i h1 h2
    simp only [read_length] at h1
    by_cases h : i < x
    · rw [List.getElem_append_left (by simpa [read] using h)]
      simp [read]
    · rw [List.getElem_append_right (by simpa [read] using h)]
      simp only [read, List.getElem_map, List.getElem_range, List.length_map, List.length_range]
      congr 1
      omega

theorem read_elems (m : Mem) (t : Ty) (a n : Nat) :
    read m ⟨a, n * t.size⟩ = ((List.range n).map (fun k => read m ((⟨a, n⟩ : Ts).elem t k))).flatten := by
  induction n with
  | zero => simp [read]
  | succ n ih =>
    rw [Nat.succ_mul, read_split, ih, List.range_succ]
    simp [Ts.elem]

theorem read_store_apart (m : Mem) (a : Nat) (bytes : List UInt8) (d : Bs)
    (h : ∀ x, (⟨a, bytes.length⟩ : Bs).Holds x → ¬ d.Holds x) : read (store m a bytes) d = read m d := by
  simp only [read]
  apply List.map_congr_left
  intro i hi
  have hi' := List.mem_range.1 hi
  simp only [store]
  rw [dif_neg]
  rintro ⟨h1, h2⟩
  exact h (d.addr + i) ⟨h1, by simp only; omega⟩ ⟨by omega, by omega⟩

theorem read_store_same (m : Mem) (a : Nat) (bytes : List UInt8) : read (store m a bytes) ⟨a, bytes.length⟩ = bytes := by
  apply List.ext_getElem
  · simp [read]
  · intro i h1 h2
    simp only [read, List.getElem_map, List.getElem_range, store]
    have : a ≤ a + i ∧ a + i - a < bytes.length := ⟨by omega, by omega⟩
    rw [dif_pos this]
    congr 1
    omega

end Obj.Pod

import Verif.Proof.Pod

/-! # C105: typed views of bytes -/

namespace Obj.Props
open Obj.Pod

/-- A reference to one value. -/
theorem C105_one (t : Ty) (ht : t.Layout) (d : Bs) :
    fromBytesMut t d = fromBytes t d ∧ fromBytes t d ≠ .panic ∧
    ∀ a tail, (fromBytes t d = .ok (a, tail) ↔
        t.size ≤ d.len ∧ t.align ∣ d.addr ∧ a = d.addr ∧ tail = ⟨d.addr + t.size, d.len - t.size⟩) ∧
      (fromBytes t d = .ok (a, tail) → Safe t d ⟨a, 1⟩ tail ∧
        ∀ m, read m d = read m (bytesOf t a) ++ read m tail) := by
  refine ⟨fromBytesMut_eq t d, fromBytes_panic t d, fun a tail => ⟨fromBytes_iff t d a tail, fun h => ?_⟩⟩
  obtain ⟨h1, h2, rfl, rfl⟩ := (fromBytes_iff t d a tail).1 h
  have hs := safe t ht d 1 (by omega) h2
  rw [Nat.one_mul] at hs
  refine ⟨hs, fun m => ?_⟩
  obtain ⟨x, n⟩ := d
  simp only [bytesOf, ← read_split]
  congr 2
  simp only at h1
  omega

/-- A slice of values. -/
theorem C105_slice (t : Ty) (ht : t.Layout) (d : Bs) (hd : d.Valid) (n : Nat) :
    sliceFromBytesMut t d n = sliceFromBytes t d n ∧ sliceFromBytes t d n ≠ .panic ∧
    ∀ v tail, (sliceFromBytes t d n = .ok (v, tail) ↔
        n * t.size ≤ d.len ∧ t.align ∣ d.addr ∧ v = ⟨d.addr, n⟩ ∧ tail = ⟨d.addr + n * t.size, d.len - n * t.size⟩) ∧
      (sliceFromBytes t d n = .ok (v, tail) → Safe t d v tail ∧ v.Valid t ∧
        ∀ m, read m d = ((List.range n).map (fun k => read m (v.elem t k))).flatten ++ read m tail) := by
  refine ⟨sliceFromBytesMut_eq t d n, sliceFromBytes_panic t d n, fun v tail => ⟨sliceFromBytes_iff t d n v tail hd, fun h => ?_⟩⟩
  obtain ⟨h1, h2, rfl, rfl⟩ := (sliceFromBytes_iff t d n v tail hd).1 h
  refine ⟨safe t ht d n h1 h2, ⟨h2, Nat.lt_of_le_of_lt h1 hd⟩, fun m => ?_⟩
  obtain ⟨x, len⟩ := d
  rw [← read_elems, ← read_split]
  congr 2
  simp only at h1 ⊢
  omega

/-- All of the bytes as a slice of values. -/
theorem C105_all (t : Ty) (ht : t.Layout) (d : Bs) (hd : d.Valid) :
    sliceFromAllBytesMut t d = sliceFromAllBytes t d ∧ sliceFromAllBytes t d ≠ .panic ∧
    ∀ v, (sliceFromAllBytes t d = .ok v ↔ t.size ∣ d.len ∧ t.align ∣ d.addr ∧ v = ⟨d.addr, d.len / t.size⟩) ∧
      (sliceFromAllBytes t d = .ok v → Safe t d v ⟨d.addr + d.len, 0⟩ ∧ bytesOfSlice t v = d) := by
  refine ⟨sliceAllMut_eq t d, ?_, fun v => ⟨sliceAll_iff t d v hd, fun h => ?_⟩⟩
  · simp only [sliceFromAllBytes]
    cases h : sliceFromBytes t d (d.len / t.size) with
    | panic => exact absurd h (sliceFromBytes_panic _ _ _)
    | err => simp
    | ok r =>
      dsimp only
      split <;> simp
  · obtain ⟨h1, h2, rfl⟩ := (sliceAll_iff t d v hd).1 h
    have hm := Nat.div_mul_cancel h1
    have hs := safe t ht d (d.len / t.size) (by omega) h2
    rw [hm, Nat.sub_self] at hs
    refine ⟨hs, ?_⟩
    simp only [bytesOfSlice, hm]
    rw [Nat.mod_eq_of_lt hd]

/-- The bytes of a slice of values are those of its elements, and give the slice again. -/
theorem C105_bytes_of_slice (t : Ty) (v : Ts) (hv : v.Valid t) :
    (∀ m, read m (bytesOfSlice t v) = ((List.range v.count).map (fun k => read m (v.elem t k))).flatten) ∧
    (0 < t.size → sliceFromAllBytes t (bytesOfSlice t v) = .ok v) := by
  have h : bytesOfSlice t v = ⟨v.addr, v.count * t.size⟩ := by
    simp only [bytesOfSlice]
    rw [Nat.mod_eq_of_lt hv.2]
  refine ⟨fun m => by rw [h]; exact read_elems m t v.addr v.count, fun hs => ?_⟩
  rw [h, sliceAll_iff t ⟨v.addr, v.count * t.size⟩ v hv.2]
  refine ⟨Nat.dvd_mul_left .., hv.1, ?_⟩
  simp only [Nat.mul_div_cancel _ hs]

/-- The same for one value. -/
theorem C105_bytes_of (t : Ty) (a : Nat) (ha : t.align ∣ a) : fromBytes t (bytesOf t a) = .ok (a, ⟨a + t.size, 0⟩) := by
  rw [fromBytes_iff]
  exact ⟨Nat.le_refl _, ha, rfl, by simp [bytesOf]⟩

/-- A store to an element of a mutable slice changes this element only: the other elements, the tail and everything outside of the bytes
keep their content. -/
theorem C105_store (t : Ty) (ht : t.Layout) (d : Bs) (hd : d.Valid) (n : Nat) (v : Ts) (tail : Bs)
    (h : sliceFromBytesMut t d n = .ok (v, tail)) (k : Nat) (hk : k < n) (value : List UInt8) (hl : value.length = t.size) (m : Mem) :
    read (store m (v.elem t k).addr value) (v.elem t k) = value ∧
    (∀ l < n, l ≠ k → read (store m (v.elem t k).addr value) (v.elem t l) = read m (v.elem t l)) ∧
    read (store m (v.elem t k).addr value) tail = read m tail ∧
    ∀ e : Bs, (∀ x, d.Holds x → ¬ e.Holds x) → read (store m (v.elem t k).addr value) e = read m e := by
  rw [sliceFromBytesMut_eq] at h
  obtain ⟨h1, h2, rfl, rfl⟩ := (sliceFromBytes_iff t d n v tail hd).1 h
  have hs := safe t ht d n h1 h2
  have e : (⟨((⟨d.addr, n⟩ : Ts).elem t k).addr, value.length⟩ : Bs) = (⟨d.addr, n⟩ : Ts).elem t k := by rw [hl]; rfl
  refine ⟨?_, fun l hln hlk => ?_, ?_, fun o ho => ?_⟩
  · have := read_store_same m ((⟨d.addr, n⟩ : Ts).elem t k).addr value
    rw [e] at this
    exact this
  · apply read_store_apart
    rw [e]
    exact hs.once k hk l hln (fun x => hlk x.symm)
  · apply read_store_apart
    rw [e]
    exact hs.tailApart k hk
  · apply read_store_apart
    rw [e]
    exact fun x hx => ho x ((hs.inside x).2 (Or.inl ⟨k, hk, hx⟩))

/-! ## Examples -/

private def u32 : Ty := ⟨4, 4⟩
private theorem u32_layout : u32.Layout := ⟨by decide, ⟨1, rfl⟩⟩

example : sliceFromBytes u32 ⟨0x1000, 11⟩ 2 = .ok (⟨0x1000, 2⟩, ⟨0x1008, 3⟩) := by decide
example : sliceFromBytes u32 ⟨0x1002, 11⟩ 2 = .err := by decide
example : sliceFromBytes u32 ⟨0x1000, 11⟩ (2 ^ 62) = .err := by decide
example (k : Nat) (hk : k < 2) (value : List UInt8) (hl : value.length = u32.size) (m : Mem) :=
  C105_store u32 u32_layout ⟨0x1000, 11⟩ (by simp only [Bs.Valid]; decide) 2 ⟨0x1000, 2⟩ ⟨0x1008, 3⟩ (by decide) k hk value hl m
example := C105_bytes_of_slice u32 ⟨0x1000, 2⟩ ⟨by decide, by decide⟩

end Obj.Props

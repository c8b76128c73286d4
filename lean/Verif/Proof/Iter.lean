import Verif.Model.Iter
import Verif.Proof.Leb
import Verif.Proof.Bytes

namespace Obj
open Obj.Spec

section fuse
variable {α : Type} {parse : List UInt8 → Res α × List UInt8}

theorem fuseNext_nil : fuseNext parse [] = (.ok none, []) := by simp [fuseNext]

theorem fuseNext_item {data d : List UInt8} {x : α} (hne : data ≠ []) (h : parse data = (.ok x, d)) :
    fuseNext parse data = (.ok (some x), d) := by
  unfold fuseNext; rw [if_neg hne, h]

theorem fuseNext_some_iff {data d : List UInt8} {x : α} :
    fuseNext parse data = (.ok (some x), d) ↔ data ≠ [] ∧ parse data = (.ok x, d) := by
  unfold fuseNext
  by_cases h : data = []
  · rw [if_pos h]; simp [h]
  · rw [if_neg h]
    match hp : parse data with
    | (.ok y, d') => simp [h]
    | (.err, d') => simp
    | (.panic, d') => simp

theorem fuseNext_err {data d : List UInt8} (h : fuseNext parse data = (.err, d)) :
    d = [] ∧ data ≠ [] ∧ (parse data).1 = .err := by
  unfold fuseNext at h
  by_cases hd : data = []
  · rw [if_pos hd] at h; simp at h
  · rw [if_neg hd] at h
    match hp : parse data with
    | (.ok y, d') => rw [hp] at h; simp at h
    | (.err, d') => rw [hp] at h; simp at h; exact ⟨h.symm ▸ rfl, hd, rfl⟩
    | (.panic, d') => rw [hp] at h; simp at h

/-- An error ends the iteration. -/
theorem fuseNext_fused {data d : List UInt8} (h : fuseNext parse data = (.err, d)) :
    fuseNext parse d = (.ok none, []) := by
  rw [(fuseNext_err h).1]; exact fuseNext_nil

theorem fuseNext_none {data d : List UInt8} (h : fuseNext parse data = (.ok none, d)) : data = [] ∧ d = [] := by
  unfold fuseNext at h
  by_cases hd : data = []
  · subst hd; simp at h; exact ⟨rfl, h⟩
  · rw [if_neg hd] at h
    match hp : parse data with
    | (.ok y, d') => rw [hp] at h; simp at h
    | (.err, d') => rw [hp] at h; simp at h
    | (.panic, d') => rw [hp] at h; simp at h

theorem fuse_no_panic (hp : ∀ d, (parse d).1 ≠ .panic) (d : List UInt8) : (fuseNext parse d).1 ≠ .panic := by
  unfold fuseNext
  split
  · simp
  · have := hp d
    match h : parse d with
    | (.ok y, d') => simp
    | (.err, d') => simp
    | (.panic, d') => rw [h] at this; exact absurd rfl this

/-- Termination: if `parse` always consumes something, draining ends, with at most as many items as
bytes, and never panics if `parse` does not. -/
theorem fuse_runs (hc : ∀ d x d', parse d = (.ok x, d') → d'.length < d.length)
    (hp : ∀ d, (parse d).1 ≠ .panic) (data : List UInt8) :
    ∃ xs e, Runs (fuseNext parse) data xs e ∧ xs.length ≤ data.length ∧ e ≠ .panic := by
  obtain ⟨xs, e, h1, h2⟩ := Runs.exists_of_measure (next := fuseNext parse) (fun _ => True) List.length
    (fun s x s' _ h => ⟨trivial, hc s x s' (fuseNext_some_iff.1 h).2⟩) data trivial
  exact ⟨xs, e, h1, h2, Runs.no_panic (fun _ => True) (fun _ _ _ _ _ => trivial)
    (fun s _ => fuse_no_panic hp s) trivial h1⟩

/-- Draining a concatenation of encodings gives the items back. -/
theorem fuse_round_trip {β : Type} (enc : β → List UInt8) (val : β → α) (xs : List β)
    (hne : ∀ b ∈ xs, enc b ≠ [])
    (h : ∀ b ∈ xs, ∀ tl, parse (enc b ++ tl) = (.ok (val b), tl)) :
    Runs (fuseNext parse) (xs.flatMap enc) (xs.map val) .done := by
  induction xs with
  | nil => exact .done fuseNext_nil
  | cons x xs ih =>
    rw [List.flatMap_cons, List.map_cons]
    refine .item (fuseNext_item ?_ (h x (by simp) _)) (ih (fun b hb => hne b (by simp [hb])) (fun b hb => h b (by simp [hb])))
    simp [hne x (by simp)]

end fuse

/-! ## LEB128 facts in the form used by iterators -/

theorem readUleb_ok_iff (bs : List UInt8) (v : Nat) (rest : List UInt8) :
    Bytes.readUleb bs = (.ok v, rest) ↔
      ∃ g, bs = g ++ rest ∧ LebGroup g ∧ g.length ≤ 10 ∧ ulebValue g = v ∧ v < U64 := by
  rw [Bytes.readUleb, show (0 : Nat) = 7 * 0 from rfl,
    readUlebLoop_ok_iff bs (7 * 0) 0 v rest (by omega) (by simp)]
  constructor
  · rintro ⟨g, h1, h2, h3, h4, h5⟩
    exact ⟨g, h1, h2, by omega, by simp at h4; omega, by omega⟩
  · rintro ⟨g, h1, h2, h3, h4, h5⟩
    exact ⟨g, h1, h2, by omega, by simp [h4], by omega⟩

theorem readUleb_no_panic (bs : List UInt8) : (Bytes.readUleb bs).1 ≠ .panic :=
  readUlebLoop_no_panic bs 0 0 (by omega)

theorem readUleb_consumes {bs rest : List UInt8} {v : Nat} (h : Bytes.readUleb bs = (.ok v, rest)) :
    rest.length < bs.length := by
  obtain ⟨g, rfl, hG, _⟩ := (readUleb_ok_iff ..).1 h
  have := List.length_pos_iff.2 (LebGroup.ne_nil hG)
  simp; omega

theorem readUleb_lt {bs rest : List UInt8} {v : Nat} (h : Bytes.readUleb bs = (.ok v, rest)) : v < U64 := by
  obtain ⟨g, _, _, _, _, h5⟩ := (readUleb_ok_iff ..).1 h
  exact h5

theorem readSleb_ok_iff (bs : List UInt8) (v : Int) (rest : List UInt8) :
    Bytes.readSleb bs = (.ok v, rest) ↔
      ∃ g, bs = g ++ rest ∧ LebGroup g ∧ g.length ≤ 10 ∧ slebValue g = v ∧
        -9223372036854775808 ≤ v ∧ v < 9223372036854775808 := by
  rw [Bytes.readSleb, show (0 : Nat) = 7 * 0 from rfl,
    readSlebLoop_ok_iff bs (7 * 0) 0 v rest (by omega) (by simp)]
  constructor
  · rintro ⟨g, h1, h2, h3, h4, h5⟩
    exact ⟨g, h1, h2, by omega, by simp at h4; omega, by simpa using h5⟩
  · rintro ⟨g, h1, h2, h3, h4, h5⟩
    exact ⟨g, h1, h2, by omega, by simp [h4], by simpa using h5⟩

theorem readSleb_no_panic (bs : List UInt8) : (Bytes.readSleb bs).1 ≠ .panic :=
  readSlebLoop_no_panic bs 0 0 (by omega)

theorem readSleb_consumes {bs rest : List UInt8} {v : Int} (h : Bytes.readSleb bs = (.ok v, rest)) :
    rest.length < bs.length := by
  obtain ⟨g, rfl, hG, _⟩ := (readSleb_ok_iff ..).1 h
  have := List.length_pos_iff.2 (LebGroup.ne_nil hG)
  simp; omega

/-- The bytes `write_uleb128` emits. -/
def uleb (v : Nat) : List UInt8 := (writeUleb [] v).1

/-- The bytes `write_sleb128` emits. -/
def sleb (v : Int) : List UInt8 := (writeSleb [] v).1

theorem uleb_spec (v : Nat) (hv : v < U64) : LebGroup (uleb v) ∧ (uleb v).length ≤ 10 ∧ ulebValue (uleb v) = v := by
  obtain ⟨g, hw, hG, hval, hl⟩ := writeUlebLoop_spec 9 [] 0 v (by simp; omega)
  have : uleb v = g := by simp [uleb, writeUleb, hw]
  rw [this]; exact ⟨hG, by omega, hval⟩

theorem readUleb_uleb (v : Nat) (hv : v < U64) (tl : List UInt8) : Bytes.readUleb (uleb v ++ tl) = (.ok v, tl) := by
  obtain ⟨h1, h2, h3⟩ := uleb_spec v hv
  exact (readUleb_ok_iff ..).2 ⟨_, rfl, h1, h2, h3, hv⟩

theorem readSleb_sleb (v : Int) (h1 : -9223372036854775808 ≤ v) (h2 : v < 9223372036854775808) (tl : List UInt8) :
    Bytes.readSleb (sleb v ++ tl) = (.ok v, tl) := by
  obtain ⟨g, hw, hG, hval, hl⟩ := writeSlebLoop_spec 9 [] 0 v (by simp; omega) (by simp; omega)
  have : sleb v = g := by simp [sleb, writeSleb, hw]
  rw [this]
  exact (readSleb_ok_iff ..).2 ⟨g, rfl, hG, by omega, hval, h1, h2⟩

end Obj

namespace Obj

theorem bytes_readBytesAt_eq (data : List UInt8) (off n : Nat) :
    Bytes.readBytesAt data off n = if off + n ≤ data.length then .ok ((data.drop off).take n) else .err := by
  unfold Bytes.readBytesAt Bytes.skip Bytes.readBytes
  by_cases h1 : off ≤ data.length
  · simp only [if_pos h1, List.length_drop]
    by_cases h2 : n ≤ data.length - off
    · rw [if_pos h2, if_pos (by omega)]
    · rw [if_neg h2, if_neg (by omega)]
  · simp only [if_neg h1]
    rw [if_neg (by omega)]

theorem bytes_readAt_eq (data : List UInt8) (off n : Nat) :
    Bytes.readAt data off n = if off + n ≤ data.length then .ok ((data.drop off).take n) else .err :=
  bytes_readBytesAt_eq data off n

theorem alignUsize_eq {offset k : Nat} (hk : k < 64) (h : offset + (2 ^ k - 1) < U64) :
    alignUsize offset (2 ^ k) = .ok ((offset + (2 ^ k - 1)) / 2 ^ k * 2 ^ k) := by
  have hp := Nat.two_pow_pos k
  have := and_mask_eq (x := offset + (2 ^ k - 1)) (k := k) (n := 64) (by omega) (by simpa using h)
  simp only [alignUsize]
  rw [if_neg (by omega), if_neg (by omega)]
  congr 1

theorem alignUsize_4_8 {offset align : Nat} (ha : align = 4 ∨ align = 8) (h : offset + 7 < U64) :
    alignUsize offset align = .ok ((offset + (align - 1)) / align * align) := by
  rcases ha with rfl | rfl
  · exact alignUsize_eq (k := 2) (by omega) (by omega)
  · exact alignUsize_eq (k := 3) (by omega) (by omega)

end Obj

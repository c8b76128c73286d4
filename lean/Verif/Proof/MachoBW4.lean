import Verif.Proof.MachoBW3

/-! Writing with the Mach-O builder: fields of records, and the load commands other than segments. -/

namespace Obj.MachoB
open Obj Obj.MachoR
open Obj.BuildW (mapR mapR_each Blk)
open Obj.Spec.MachoF (Each num headerSize headerIn IsCommand)
open Obj.Spec.MachoB
open Obj.Spec.MachoI (PartIs)
open Obj.Spec.Pe (CStrAt)

/-! ## Fields -/

theorem slice_right (a b : List UInt8) (o n : Nat) : slice (a ++ b) (a.length + o) n = slice b o n := by
  unfold slice
  rw [← List.drop_drop, List.drop_left]

theorem slice_left (a b : List UInt8) (o n : Nat) (h : o + n ≤ a.length) : slice (a ++ b) o n = slice a o n := by
  unfold slice
  rw [List.drop_append_of_le_length (by omega), List.take_append_of_le_length (by rw [List.length_drop]; omega)]

theorem num_right (en : Endianness) (a b : List UInt8) (o w : Nat) : num en (a ++ b) (a.length + o) w = num en b o w := by
  unfold num
  rw [slice_right]

theorem num_left (en : Endianness) (a b : List UInt8) (o w : Nat) (h : o + w ≤ a.length) : num en (a ++ b) o w = num en a o w := by
  unfold num
  rw [slice_left _ _ _ _ h]

theorem num_wr (en : Endianness) (w v : Nat) (tl : List UInt8) : num en (wr en w v ++ tl) 0 w = v % 256 ^ w := by
  unfold num slice
  rw [List.drop_zero]
  have : (wr en w v ++ tl).take w = wr en w v := by
    have := List.take_left (l₁ := wr en w v) (l₂ := tl)
    rwa [length_wr] at this
  rw [this, rd_wr_mod]

theorem num_encode (en : Endianness) (fs : List (Nat × Nat)) (tl : List UInt8) (i w v : Nat) (h : fs[i]? = some (w, v)) :
    num en (Obj.encode en fs ++ tl) ((fs.take i).map (·.1)).sum w = v % 256 ^ w := by
  induction fs generalizing i with
  | nil => simp at h
  | cons f fs ih =>
    obtain ⟨w', v'⟩ := f
    have e : Obj.encode en ((w', v') :: fs) ++ tl = wr en w' v' ++ (Obj.encode en fs ++ tl) := by
      rw [← List.append_assoc]; rfl
    cases i with
    | zero =>
      simp at h
      obtain ⟨rfl, rfl⟩ := h
      rw [e]
      exact num_wr ..
    | succ i =>
      have h : fs[i]? = some (w, v) := by simpa using h
      rw [e, List.take_succ_cons, List.map_cons, List.sum_cons]
      have := num_right en (wr en w' v') (Obj.encode en fs ++ tl) ((fs.take i).map (·.1)).sum w
      rw [length_wr] at this
      rw [this, ih i h]

theorem num_encode0 (en : Endianness) (fs : List (Nat × Nat)) (i w v : Nat) (h : fs[i]? = some (w, v)) :
    num en (Obj.encode en fs) ((fs.take i).map (·.1)).sum w = v % 256 ^ w := by
  have := num_encode en fs [] i w v h
  rwa [List.append_nil] at this

theorem slice_item {α : Type} (f : α → List UInt8) (n : Nat) : ∀ (xs : List α) (i : Nat) (x : α), (∀ x ∈ xs, (f x).length = n) → xs[i]? = some x →
    slice (xs.flatMap f) (n * i) n = f x ∧ n * i + n ≤ (xs.flatMap f).length
  | [], i, x, _, h => by simp at h
  | y :: ys, 0, x, hf, h => by
    simp at h
    subst h
    have := hf y (by simp)
    rw [List.flatMap_cons, Nat.mul_zero]
    unfold slice
    rw [List.drop_zero, ← this, List.take_left]
    exact ⟨rfl, by rw [List.length_append]; omega⟩
  | y :: ys, i + 1, x, hf, h => by
    have h : ys[i]? = some x := by simpa using h
    obtain ⟨h1, h2⟩ := slice_item f n ys i x (fun x hx => hf x (by simp [hx])) h
    have hy := hf y (by simp)
    rw [List.flatMap_cons, Nat.mul_succ, Nat.add_comm (n * i) n]
    refine ⟨?_, by rw [List.length_append]; omega⟩
    conv => lhs; rw [← hy]
    have := slice_right (f y) (ys.flatMap f) ((f y).length * i) (f y).length
    rw [this, hy, h1]

theorem blk_item {α : Type} {out : List UInt8} {off : Nat} {xs : List α} {f : α → List UInt8} {n : Nat} (hb : Blk out off (xs.flatMap f))
    (hf : ∀ x ∈ xs, (f x).length = n) {i : Nat} {x : α} (hx : xs[i]? = some x) : slice out (off + n * i) n = f x ∧ off + n * i + n ≤ out.length := by
  obtain ⟨h1, h2⟩ := slice_item f n xs i x hf hx
  obtain ⟨b1, b2⟩ := hb
  refine ⟨?_, by omega⟩
  rw [← slice_slice out off (xs.flatMap f).length (n * i) n h2, b1, h1]

theorem blk_num {α : Type} {out : List UInt8} {off : Nat} {xs : List α} {f : α → List UInt8} {n : Nat} (hb : Blk out off (xs.flatMap f))
    (hf : ∀ x ∈ xs, (f x).length = n) {i : Nat} {x : α} (hx : xs[i]? = some x) (en : Endianness) (o w : Nat) (h : o + w ≤ n) :
    num en out (off + n * i + o) w = num en (f x) o w := by
  obtain ⟨h1, -⟩ := blk_item hb hf hx
  rw [← MachoF.num_slice en out (off + n * i) n o w h, h1]

theorem length_flat {α : Type} (f : α → List UInt8) (n : Nat) (xs : List α) (hf : ∀ x ∈ xs, (f x).length = n) : (xs.flatMap f).length = n * xs.length := by
  induction xs with
  | nil => simp
  | cons x xs ih =>
    rw [List.flatMap_cons, List.length_append, hf x (by simp), ih fun x hx => hf x (by simp [hx]), List.length_cons, Nat.mul_succ, Nat.add_comm]

/-! ## Parts -/

theorem blk_part {out : List UInt8} {off : Nat} {d : List UInt8} (h : Blk out off d) : PartIs out off d.length d := .inr ⟨h.2, h.1.symm⟩

theorem blk_lt {out : List UInt8} {off : Nat} {d : List UInt8} (h : Blk out off d) {n : Nat} (hl : out.length < n) : off < n ∧ d.length < n := by
  have := h.2
  omega

/-- The parts of `LC_DYLD_INFO_ONLY`. -/
theorem partsOf_ok {out : List UInt8} : ∀ (xs : List (List UInt8)) (os : List Nat) (ps : List (Nat × Nat)), partsOf xs os = .ok ps →
    (∀ p ∈ (xs.filter fun x => x ≠ []).zip os, Blk out p.2 p.1) → Each (fun x (p : Nat × Nat) => p.2 = x.length ∧ (x = [] ∧ p = (0, 0) ∨ Blk out p.1 x)) xs ps
  | [], os, ps, h, _ => by cases h; exact .nil
  | x :: xs, os, ps, h, hb => by
    unfold partsOf at h
    split at h
    · next hx =>
      rw [Res.bind_eq_ok] at h
      obtain ⟨r, h1, h2⟩ := h
      cases h2
      subst hx
      refine .cons ⟨rfl, .inl ⟨rfl, rfl⟩⟩ (partsOf_ok xs os r h1 fun p hp => hb p ?_)
      simpa using hp
    · next hx =>
      split at h
      · next o os' =>
        rw [Res.bind_eq_ok] at h
        obtain ⟨r, h1, h2⟩ := h
        cases h2
        have e : (x :: xs).filter (fun x => x ≠ []) = x :: xs.filter (fun x => x ≠ []) := by rw [List.filter_cons, if_pos (by simpa using hx)]
        rw [e] at hb
        exact .cons ⟨rfl, .inr (hb (x, o) (by simp))⟩ (partsOf_ok xs os' r h1 fun p hp => hb p (List.mem_cons_of_mem _ hp))
      · cases h

theorem part_of {out : List UInt8} {x : List UInt8} {p : Nat × Nat} (hl : out.length < 2 ^ 32) (h : p.2 = x.length ∧ (x = [] ∧ p = (0, 0) ∨ Blk out p.1 x)) :
    PartIs out (p.1 % 256 ^ 4) (p.2 % 256 ^ 4) x := by
  obtain ⟨h1, h2⟩ := h
  rcases h2 with ⟨rfl, rfl⟩ | h2
  · exact .inl ⟨rfl, rfl⟩
  · obtain ⟨a, b⟩ := blk_lt h2 hl
    rw [h1, Nat.mod_eq_of_lt (show p.1 < 256 ^ 4 by omega), Nat.mod_eq_of_lt (show x.length < 256 ^ 4 by omega)]
    exact blk_part h2

/-! ## Libraries -/

theorem mod_lt4 {n : Nat} (h : n < 2 ^ 32) : n % 256 ^ 4 = n := Nat.mod_eq_of_lt h

theorem dylib_ok {c : Cfg} {d : Dylib} {bs : List UInt8} {cmds : List Nat} (h : dylibBytes c d = .ok bs) (hc : ∀ n ∈ cmds, n < 2 ^ 32) (hd : LibOk cmds d)
    (hl : bs.length < 2 ^ 32) :
    dylibSize c d.name = .ok bs.length ∧ number c.en bs = d.cmd ∧ num c.en bs 4 4 = bs.length ∧ LibraryIs c.en bs d := by
  unfold dylibBytes at h
  rw [Res.bind_eq_ok] at h
  obtain ⟨n, h1, h2⟩ := h
  have hn : 24 + d.name.length + 1 ≤ n := BuildW.align64_ge h1
  have hlen : bs.length = n := by
    cases h2
    rw [List.length_append, length_encode, List.length_append, List.length_replicate]
    simp only [List.map_cons, List.map_nil, List.sum_cons, List.sum_nil]
    omega
  rw [h1, hlen]
  cases h2
  have e (i w v : Nat) (hi : [(4, d.cmd), (4, n), (4, 24), (4, d.timestamp), (4, d.current), (4, d.compat)][i]? = some (w, v)) := num_encode c.en
    [(4, d.cmd), (4, n), (4, 24), (4, d.timestamp), (4, d.current), (4, d.compat)] (d.name ++ List.replicate (n - (24 + d.name.length)) 0) i w v hi
  refine ⟨rfl, ?_, ?_, ?_, hd.delete, ?_, ?_, ?_, ?_, ?_⟩
  · exact (e 0 4 d.cmd rfl).trans (mod_lt4 (hc _ hd.cmd))
  · exact (e 1 4 n rfl).trans (mod_lt4 (by omega))
  · omega
  · exact ((e 0 4 d.cmd rfl).trans (mod_lt4 (hc _ hd.cmd))).symm
  · have : num c.en (Obj.encode c.en [(4, d.cmd), (4, n), (4, 24), (4, d.timestamp), (4, d.current), (4, d.compat)] ++
      (d.name ++ List.replicate (n - (24 + d.name.length)) 0)) 8 4 = 24 := (e 2 4 24 rfl).trans (by decide)
    rw [this]
    refine ⟨Obj.encode c.en [(4, d.cmd), (4, n), (4, 24), (4, d.timestamp), (4, d.current), (4, d.compat)],
      List.replicate (n - (24 + d.name.length) - 1) 0, ?_, ?_, hd.name⟩
    · rw [show n - (24 + d.name.length) = (n - (24 + d.name.length) - 1) + 1 by omega, List.replicate_succ, List.append_assoc, Nat.add_sub_cancel]
    · rw [length_encode]; rfl
  · exact ((e 3 4 d.timestamp rfl).trans (mod_lt4 hd.timestamp)).symm
  · exact ((e 4 4 d.current rfl).trans (mod_lt4 hd.current)).symm
  · exact ((e 5 4 d.compat rfl).trans (mod_lt4 hd.compat)).symm

end Obj.MachoB

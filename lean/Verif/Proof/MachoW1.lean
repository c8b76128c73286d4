import Verif.Proof.ElfW1
import Verif.Proof.CoffW2
import Verif.Proof.EmitParts
import Verif.Spec.MachoWrite

/-! The layout phase of `macho_write`. -/

namespace Obj.MachoW
open Obj Obj.Reserve Obj.Parts Obj.Spec Obj.Spec.MachoO Obj.MachoR
open Obj.ElfW (check tabAdd check_ok addU32_eq addU64_eq mulU64_eq length_of_getElem?)

theorem align64_eq' {n a : Nat} (ha : ∃ k < 64, a = 2 ^ k) (h : n + a < U64) : align64 n a = .ok (up n a) := by
  obtain ⟨k, hk, rfl⟩ := ha
  by_cases h1 : 1 < 2 ^ k
  · have := alignIf_eq (n := n) (a := 2 ^ k) (.inr ⟨k, hk, rfl⟩) (by have := up_le n (2 ^ k); omega) h
    unfold alignIf at this
    rw [if_pos h1] at this
    exact this
  · have h2 : 2 ^ k = 1 := by have := Nat.one_le_two_pow (n := k); omega
    rw [h2] at h ⊢
    unfold align64
    rw [if_neg (by decide), if_neg (by omega)]
    have h3 : n % 2 ^ 64 = n := Nat.mod_eq_of_lt (by show n < 18446744073709551616; omega)
    show Res.ok ((n + 0) &&& 18446744073709551615) = .ok n
    rw [show (18446744073709551615 : Nat) = 2 ^ 64 - 1 from rfl, Nat.and_two_pow_sub_one_eq_mod, Nat.add_zero, h3]

theorem reserve_eq {n size a : Nat} (ha : ∃ k < 64, a = 2 ^ k) (h : n + a + size < U64) :
    reserve n size a = .ok (up n a, up n a + size) := by
  have := up_le n a
  unfold reserve
  rw [align64_eq' ha (by omega)]
  simp only [Res.bind_eq, Res.ok_bind]
  rw [addU64_eq (by omega)]
  rfl

theorem pow_one : ∃ k < 64, (1 : Nat) = 2 ^ k := ⟨0, by decide, rfl⟩

theorem pow_w (c : Cfg) : ∃ k < 64, c.w = 2 ^ k := by
  unfold Elf.Cfg.w; cases c.is64
  · exact ⟨2, by decide, by decide⟩
  · exact ⟨3, by decide, by decide⟩

theorem reserve_one {n size : Nat} (h : n + 1 + size < U64) : reserve n size 1 = .ok (n, n + size) := by
  rw [reserve_eq pow_one h, up_one]

/-! ## Load commands -/

/-- Size of the build version command. -/
def verSize (v : Option Version) : Nat := match v with
  | none => 0
  | some _ => 24

/-- The offset of the build version command. -/
def verOffset (v : Option Version) (n : Nat) : Nat := match v with
  | none => 0
  | some _ => n

/-- Number of load commands. -/
def cmdCount (v : Option Version) : Nat := match v with
  | none => 3
  | some _ => 4

/-- The load commands as planned. -/
def cmdsOf (c : Cfg) (n : Nat) (v : Option Version) : Cmds :=
  let a := hdrSize c + (segSize c + n * sectSize c)
  ⟨hdrSize c, verOffset v a, a + verSize v, a + verSize v + 24, cmdCount v, a + verSize v + 24 + 80⟩

theorem hdrSize_le (c : Cfg) : 28 ≤ hdrSize c ∧ hdrSize c ≤ 32 := by unfold hdrSize; cases c.is64 <;> decide
theorem segSize_le (c : Cfg) : 56 ≤ segSize c ∧ segSize c ≤ 72 := by unfold segSize; cases c.is64 <;> decide
theorem sectSize_le (c : Cfg) : 68 ≤ sectSize c ∧ sectSize c ≤ 80 := by unfold sectSize; cases c.is64 <;> decide
theorem nlistSize_le (c : Cfg) : 12 ≤ nlistSize c ∧ nlistSize c ≤ 16 := by unfold nlistSize; cases c.is64 <;> decide
theorem w_le (c : Cfg) : 4 ≤ c.w ∧ c.w ≤ 8 := by unfold Elf.Cfg.w; cases c.is64 <;> decide

theorem mul_sect_le (c : Cfg) (n : Nat) : n * sectSize c ≤ 80 * n := by
  rw [Nat.mul_comm]
  exact Nat.mul_le_mul_right _ (sectSize_le c).2

theorem stop_le (c : Cfg) (n : Nat) (v : Option Version) : (cmdsOf c n v).stop ≤ 232 + 80 * n := by
  have h1 := (hdrSize_le c).2
  have h2 := (segSize_le c).2
  have h3 := mul_sect_le c n
  have h4 : verSize v ≤ 24 := by cases v <;> simp [verSize]
  show hdrSize c + (segSize c + n * sectSize c) + verSize v + 24 + 80 ≤ _
  omega

theorem planCmds_eq (c : Cfg) {n : Nat} (v : Option Version) (hn : n ≤ 255) : planCmds c n v = .ok (cmdsOf c n v) := by
  have h1 := hdrSize_le c
  have h2 := segSize_le c
  have h3 := mul_sect_le c n
  have hu : (1000000 : Nat) < U64 := by decide
  unfold planCmds
  rw [reserve_one (by omega)]
  simp only [Res.bind_eq, Res.ok_bind]
  have e : ∀ a, a < 100000 → planVersion v a = .ok (verOffset v a, cmdCount v - 2, a + verSize v) := by
    intro a ha
    cases v with
    | none => rfl
    | some v =>
      unfold planVersion
      simp only
      rw [reserve_one (by omega)]
      rfl
  have h4 : verSize v ≤ 24 := by cases v <;> simp [verSize]
  rw [e _ (by omega)]
  simp only [Res.ok_bind]
  rw [reserve_one (by omega)]
  simp only [Res.ok_bind]
  rw [reserve_one (by omega)]
  simp only [Res.ok_bind]
  have h5 : cmdCount v - 2 + 2 = cmdCount v := by cases v <;> rfl
  rw [h5]
  rfl

/-! ## Sections -/

/-- Alignments and sizes of the sections with contents. -/
def dataSizes (ss : List W.Section) : List (Nat × Nat) := (ss.filter fun s => !s.kind.isBss).map fun s => (s.align, s.size)
/-- Alignments and sizes of the sections without contents. -/
def bssSizes (ss : List W.Section) : List (Nat × Nat) := (ss.filter fun s => s.kind.isBss).map fun s => (s.align, s.size)

/-- The places of the sections with contents. -/
def dataPlaces (base : Nat) : Nat → List W.Section → List (Nat × Nat)
  | _, [] => []
  | a, s :: ss =>
    if s.kind.isBss then (0, 0) :: dataPlaces base a ss
    else (up a s.align, base + up a s.align) :: dataPlaces base (up a s.align + s.size) ss

/-- All places. -/
def allPlaces : Nat → List (W.Section × (Nat × Nat)) → List (Nat × Nat)
  | _, [] => []
  | a, (s, p) :: ss =>
    if s.kind.isBss then (up a s.align, p.2) :: allPlaces (up a s.align + s.size) ss
    else p :: allPlaces a ss

theorem cost_sizes (ss : List W.Section) : cost (dataSizes ss) + cost (bssSizes ss) = (ss.map fun s => s.align + s.size).sum := by
  induction ss with
  | nil => rfl
  | cons s ss ih =>
    unfold dataSizes bssSizes at *
    rw [List.filter_cons, List.filter_cons, List.map_cons, List.sum_cons, ← ih]
    cases h : s.kind.isBss <;> simp [cost] <;> omega

theorem dataSizes_cons (s : W.Section) (ss : List W.Section) :
    dataSizes (s :: ss) = if s.kind.isBss then dataSizes ss else (s.align, s.size) :: dataSizes ss := by
  unfold dataSizes; rw [List.filter_cons]; cases s.kind.isBss <;> rfl

theorem bssSizes_cons (s : W.Section) (ss : List W.Section) :
    bssSizes (s :: ss) = if s.kind.isBss then (s.align, s.size) :: bssSizes ss else bssSizes ss := by
  unfold bssSizes; rw [List.filter_cons]; cases s.kind.isBss <;> rfl

theorem placeData_eq (base : Nat) : ∀ (ss : List W.Section) (a : Nat), (∀ s ∈ ss, ∃ k < 64, s.align = 2 ^ k) →
    base + a + cost (dataSizes ss) < U64 → placeData base a ss = .ok (dataPlaces base a ss, endOf a (dataSizes ss))
  | [], a, _, _ => rfl
  | s :: ss, a, ha, h => by
    rw [dataSizes_cons] at h ⊢
    unfold placeData dataPlaces
    by_cases hb : s.kind.isBss
    · simp only [if_pos hb] at h ⊢
      rw [placeData_eq base ss a (fun x hx => ha x (by simp [hx])) h]
      rfl
    · simp only [if_neg hb] at h ⊢
      simp only [cost] at h
      have h1 := up_le a s.align
      rw [align64_eq' (ha s (by simp)) (by omega)]
      simp only [Res.bind_eq, Res.ok_bind]
      rw [addU64_eq (by omega)]
      simp only [Res.ok_bind]
      rw [addU64_eq (by omega)]
      simp only [Res.ok_bind]
      rw [placeData_eq base ss _ (fun x hx => ha x (by simp [hx])) (by omega)]
      rfl

theorem length_dataPlaces (base : Nat) : ∀ (ss : List W.Section) (a : Nat), (dataPlaces base a ss).length = ss.length
  | [], _ => rfl
  | s :: ss, a => by
    unfold dataPlaces
    split <;> simp [length_dataPlaces base ss]

theorem placeBss_eq : ∀ (ss : List W.Section) (ps : List (Nat × Nat)) (a : Nat), ss.length = ps.length →
    (∀ s ∈ ss, ∃ k < 64, s.align = 2 ^ k) → (∀ s ∈ ss, s.kind.isBss = true → s.data = []) →
    a + cost (bssSizes ss) < U64 → placeBss a (ss.zip ps) = .ok (allPlaces a (ss.zip ps), endOf a (bssSizes ss))
  | [], _, a, _, _, _, _ => rfl
  | s :: ss, [], a, hl, _, _, _ => by simp at hl
  | s :: ss, p :: ps, a, hl, ha, hd, h => by
    have hl' : ss.length = ps.length := by simpa using hl
    rw [bssSizes_cons] at h ⊢
    rw [List.zip_cons_cons]
    unfold placeBss allPlaces
    by_cases hb : s.kind.isBss
    · simp only [if_pos hb] at h ⊢
      simp only [cost] at h
      have h1 := up_le a s.align
      rw [check_ok (hd s (by simp) hb)]
      simp only [Res.bind_eq, Res.ok_bind]
      rw [align64_eq' (ha s (by simp)) (by omega)]
      simp only [Res.ok_bind]
      rw [addU64_eq (by omega)]
      simp only [Res.ok_bind]
      rw [placeBss_eq ss ps _ hl' (fun x hx => ha x (by simp [hx])) (fun x hx => hd x (by simp [hx])) (by omega)]
      rfl
    · simp only [if_neg hb] at h ⊢
      rw [placeBss_eq ss ps a hl' (fun x hx => ha x (by simp [hx])) (fun x hx => hd x (by simp [hx])) h]
      rfl

/-- The places of all sections. -/
def placesOf (base : Nat) (ss : List W.Section) : List (Nat × Nat) :=
  allPlaces (endOf 0 (dataSizes ss)) (ss.zip (dataPlaces base 0 ss))

/-- Size of the segment in the file. -/
def fileSizeOf (ss : List W.Section) : Nat := endOf 0 (dataSizes ss)
/-- Size of the segment in memory. -/
def vmSizeOf (ss : List W.Section) : Nat := endOf (fileSizeOf ss) (bssSizes ss)

theorem fileSize_le (o : W.Object) : fileSizeOf o.sections ≤ vmSizeOf o.sections ∧ vmSizeOf o.sections ≤ memory o := by
  have h1 := endOf_le (dataSizes o.sections) 0
  have h2 := endOf_le (bssSizes o.sections) (fileSizeOf o.sections)
  have h3 := cost_sizes o.sections
  have h4 : fileSizeOf o.sections = endOf 0 (dataSizes o.sections) := rfl
  have h5 : memory o = (o.sections.map fun s => s.align + s.size).sum := rfl
  refine ⟨le_endOf _ _, ?_⟩
  unfold vmSizeOf
  omega

theorem planSections_sat (c : Cfg) (o : W.Object) (hv : Valid o) (base : Nat) (hb : base < 2 ^ 40) :
    Res.Sat (c.is64 = false ∧ 2 ^ 32 ≤ memory o) (planSections c o base) fun r =>
      r = (placesOf base o.sections, fileSizeOf o.sections, vmSizeOf o.sections, base + fileSizeOf o.sections) ∧
      (c.is64 = false → vmSizeOf o.sections < U32) := by
  have h1 := hv.memory
  have h2 := cost_sizes o.sections
  have h3 : memory o = (o.sections.map fun s => s.align + s.size).sum := rfl
  have h4 := fileSize_le o
  have hu : (2 : Nat) ^ 62 + 2 ^ 40 + 1 < U64 := by decide
  have h5 : fileSizeOf o.sections = endOf 0 (dataSizes o.sections) := rfl
  have h6 := endOf_le (dataSizes o.sections) 0
  unfold planSections
  rw [placeData_eq base o.sections 0 hv.align (by omega)]
  simp only [Res.bind_eq, Res.ok_bind]
  rw [← h5, reserve_one (by omega)]
  simp only [Res.ok_bind]
  rw [placeBss_eq o.sections _ _ (length_dataPlaces _ _ _).symm hv.align hv.bss (by omega)]
  simp only [Res.ok_bind]
  have h7 : vmSizeOf o.sections = endOf (fileSizeOf o.sections) (bssSizes o.sections) := rfl
  rw [← h7]
  have hU : U32 = 2 ^ 32 := by decide
  by_cases hc : c.is64 = false ∧ U32 - 1 < vmSizeOf o.sections
  · rw [if_pos hc]
    exact ⟨hc.1, by omega⟩
  · rw [if_neg hc]
    refine ⟨rfl, fun h => ?_⟩
    have : ¬ U32 - 1 < vmSizeOf o.sections := fun h' => hc ⟨h, h'⟩
    omega

/-! Facts about the places. -/

theorem length_allPlaces : ∀ (ss : List (W.Section × (Nat × Nat))) (a : Nat), (allPlaces a ss).length = ss.length
  | [], _ => rfl
  | (s, p) :: ss, a => by
    unfold allPlaces
    split <;> simp [length_allPlaces ss]

theorem length_placesOf (base : Nat) (ss : List W.Section) : (placesOf base ss).length = ss.length := by
  unfold placesOf
  rw [length_allPlaces, List.length_zip, length_dataPlaces, Nat.min_self]

/-- A section with contents is placed. -/
theorem dataPlaces_get (base : Nat) : ∀ (ss : List W.Section) (a i : Nat) (s : W.Section), ss[i]? = some s → s.kind.isBss = false →
    s.align ≠ 0 → ∃ p, (dataPlaces base a ss)[i]? = some (p, base + p) ∧ p % s.align = 0 ∧ a ≤ p ∧ p + s.size ≤ endOf a (dataSizes ss)
  | [], _, _, _, h, _, _ => by simp at h
  | x :: ss, a, 0, s, h, hb, h0 => by
    simp only [List.getElem?_cons_zero, Option.some.injEq] at h
    subst h
    unfold dataPlaces
    rw [dataSizes_cons, hb]
    refine ⟨up a x.align, rfl, up_mod _ _ h0, le_up _ _, ?_⟩
    simp only [Bool.false_eq_true, if_false, endOf]
    exact le_endOf _ _
  | x :: ss, a, i + 1, s, h, hb, h0 => by
    simp only [List.getElem?_cons_succ] at h
    unfold dataPlaces
    rw [dataSizes_cons]
    by_cases hx : x.kind.isBss
    · simp only [if_pos hx, List.getElem?_cons_succ]
      exact dataPlaces_get base ss a i s h hb h0
    · simp only [if_neg hx, List.getElem?_cons_succ, endOf]
      obtain ⟨p, h1, h2, h3, h4⟩ := dataPlaces_get base ss (up a x.align + x.size) i s h hb h0
      have := le_up a x.align
      exact ⟨p, h1, h2, by omega, h4⟩

theorem dataPlaces_lt (base : Nat) : ∀ (ss : List W.Section) (a i j : Nat) (s t : W.Section) (p q : Nat × Nat), ss[i]? = some s →
    ss[j]? = some t → s.kind.isBss = false → t.kind.isBss = false → s.align ≠ 0 → t.align ≠ 0 → i < j →
    (dataPlaces base a ss)[i]? = some p → (dataPlaces base a ss)[j]? = some q → p.1 + s.size ≤ q.1
  | [], _, _, _, _, _, _, _, h, _, _, _, _, _, _, _, _ => by simp at h
  | x :: ss, a, i, 0, s, t, p, q, _, _, _, _, _, _, hij, _, _ => by omega
  | x :: ss, a, 0, j + 1, s, t, p, q, hi, hj, hs, ht, s0, t0, _, hp, hq => by
    simp only [List.getElem?_cons_zero, Option.some.injEq] at hi
    simp only [List.getElem?_cons_succ] at hj
    subst hi
    unfold dataPlaces at hp hq
    rw [hs] at hp hq
    simp only [Bool.false_eq_true, if_false, List.getElem?_cons_zero, Option.some.injEq, List.getElem?_cons_succ] at hp hq
    obtain ⟨p', h1, -, h3, -⟩ := dataPlaces_get base ss (up a x.align + x.size) j t hj ht t0
    rw [h1] at hq
    simp only [Option.some.injEq] at hq
    subst hp; subst hq
    exact h3
  | x :: ss, a, i + 1, j + 1, s, t, p, q, hi, hj, hs, ht, s0, t0, hij, hp, hq => by
    simp only [List.getElem?_cons_succ] at hi hj
    unfold dataPlaces at hp hq
    by_cases hx : x.kind.isBss
    · simp only [if_pos hx, List.getElem?_cons_succ] at hp hq
      exact dataPlaces_lt base ss a i j s t p q hi hj hs ht s0 t0 (by omega) hp hq
    · simp only [if_neg hx, List.getElem?_cons_succ] at hp hq
      exact dataPlaces_lt base ss _ i j s t p q hi hj hs ht s0 t0 (by omega) hp hq

/-- The second loop leaves the places of sections with contents. -/
theorem allPlaces_data : ∀ (ss : List W.Section) (ps : List (Nat × Nat)) (a i : Nat) (s : W.Section) (p : Nat × Nat), ss[i]? = some s →
    ps[i]? = some p → s.kind.isBss = false → (allPlaces a (ss.zip ps))[i]? = some p
  | [], _, _, _, _, _, h, _, _ => by simp at h
  | _ :: _, [], _, _, _, _, _, h, _ => by simp at h
  | x :: ss, y :: ps, a, 0, s, p, h, hp, hb => by
    simp only [List.getElem?_cons_zero, Option.some.injEq] at h hp
    subst h; subst hp
    rw [List.zip_cons_cons]
    unfold allPlaces
    rw [hb]; rfl
  | x :: ss, y :: ps, a, i + 1, s, p, h, hp, hb => by
    simp only [List.getElem?_cons_succ] at h hp
    rw [List.zip_cons_cons]
    unfold allPlaces
    split <;> simp only [List.getElem?_cons_succ] <;> exact allPlaces_data ss ps _ i s p h hp hb

theorem allPlaces_bss : ∀ (ss : List W.Section) (ps : List (Nat × Nat)) (a i : Nat) (s : W.Section), ss[i]? = some s →
    ss.length = ps.length → s.kind.isBss = true → s.align ≠ 0 →
    ∃ p, (allPlaces a (ss.zip ps))[i]? = some p ∧ p.1 % s.align = 0 ∧ a ≤ p.1 ∧ p.1 + s.size ≤ endOf a (bssSizes ss)
  | [], _, _, _, _, h, _, _, _ => by simp at h
  | _ :: _, [], _, _, _, _, h, _, _ => by simp at h
  | x :: ss, y :: ps, a, 0, s, h, hl, hb, h0 => by
    simp only [List.getElem?_cons_zero, Option.some.injEq] at h
    subst h
    rw [List.zip_cons_cons, bssSizes_cons]
    unfold allPlaces
    rw [hb]
    refine ⟨_, rfl, up_mod _ _ h0, le_up _ _, ?_⟩
    simp only [if_true, endOf]
    exact le_endOf _ _
  | x :: ss, y :: ps, a, i + 1, s, h, hl, hb, h0 => by
    simp only [List.getElem?_cons_succ] at h
    have hl' : ss.length = ps.length := by simpa using hl
    rw [List.zip_cons_cons, bssSizes_cons]
    unfold allPlaces
    by_cases hx : x.kind.isBss
    · simp only [if_pos hx, List.getElem?_cons_succ, endOf]
      obtain ⟨p, h1, h2, h3, h4⟩ := allPlaces_bss ss ps (up a x.align + x.size) i s h hl' hb h0
      have := le_up a x.align
      exact ⟨p, h1, h2, by omega, h4⟩
    · simp only [if_neg hx, List.getElem?_cons_succ]
      exact allPlaces_bss ss ps a i s h hl' hb h0

theorem allPlaces_lt : ∀ (ss : List W.Section) (ps : List (Nat × Nat)) (a i j : Nat) (s t : W.Section) (p q : Nat × Nat), ss[i]? = some s →
    ss[j]? = some t → ss.length = ps.length → s.kind.isBss = true → t.kind.isBss = true → s.align ≠ 0 → t.align ≠ 0 → i < j →
    (allPlaces a (ss.zip ps))[i]? = some p → (allPlaces a (ss.zip ps))[j]? = some q → p.1 + s.size ≤ q.1
  | [], _, _, _, _, _, _, _, _, h, _, _, _, _, _, _, _, _, _ => by simp at h
  | _ :: _, [], _, _, _, _, _, _, _, _, _, h, _, _, _, _, _, _, _ => by simp at h
  | x :: ss, _ :: _, a, i, 0, s, t, p, q, _, _, _, _, _, _, _, hij, _, _ => by omega
  | x :: ss, y :: ps, a, 0, j + 1, s, t, p, q, hi, hj, hl, hs, ht, s0, t0, _, hp, hq => by
    have hl' : ss.length = ps.length := by simpa using hl
    simp only [List.getElem?_cons_zero, Option.some.injEq] at hi
    simp only [List.getElem?_cons_succ] at hj
    subst hi
    rw [List.zip_cons_cons] at hp hq
    unfold allPlaces at hp hq
    rw [hs] at hp hq
    simp only [if_true, List.getElem?_cons_zero, Option.some.injEq, List.getElem?_cons_succ] at hp hq
    obtain ⟨p', h1, -, h3, -⟩ := allPlaces_bss ss ps (up a x.align + x.size) j t hj hl' ht t0
    rw [h1] at hq
    simp only [Option.some.injEq] at hq
    subst hp; subst hq
    exact h3
  | x :: ss, y :: ps, a, i + 1, j + 1, s, t, p, q, hi, hj, hl, hs, ht, s0, t0, hij, hp, hq => by
    have hl' : ss.length = ps.length := by simpa using hl
    simp only [List.getElem?_cons_succ] at hi hj
    rw [List.zip_cons_cons] at hp hq
    unfold allPlaces at hp hq
    by_cases hx : x.kind.isBss
    · simp only [if_pos hx, List.getElem?_cons_succ] at hp hq
      exact allPlaces_lt ss ps _ i j s t p q hi hj hl' hs ht s0 t0 (by omega) hp hq
    · simp only [if_neg hx, List.getElem?_cons_succ] at hp hq
      exact allPlaces_lt ss ps a i j s t p q hi hj hl' hs ht s0 t0 (by omega) hp hq

theorem dataPlaces_bss (base : Nat) : ∀ (ss : List W.Section) (a i : Nat) (s : W.Section), ss[i]? = some s → s.kind.isBss = true →
    (dataPlaces base a ss)[i]? = some (0, 0)
  | [], _, _, _, h, _ => by simp at h
  | x :: ss, a, 0, s, h, hb => by
    simp only [List.getElem?_cons_zero, Option.some.injEq] at h
    subst h
    unfold dataPlaces; rw [hb]; rfl
  | x :: ss, a, i + 1, s, h, hb => by
    simp only [List.getElem?_cons_succ] at h
    unfold dataPlaces
    split <;> simp only [List.getElem?_cons_succ] <;> exact dataPlaces_bss base ss _ i s h hb

theorem allPlaces_snd : ∀ (ss : List W.Section) (ps : List (Nat × Nat)) (a : Nat), ss.length = ps.length →
    (allPlaces a (ss.zip ps)).map (·.2) = ps.map (·.2)
  | [], ps, a, h => by
    have : ps = [] := List.length_eq_zero_iff.1 h.symm
    subst this; rfl
  | _ :: _, [], _, h => by simp at h
  | x :: ss, y :: ps, a, h => by
    have hl' : ss.length = ps.length := by simpa using h
    rw [List.zip_cons_cons]
    unfold allPlaces
    split <;> simp [allPlaces_snd ss ps _ hl']

/-- Where section `i` is. -/
theorem placesOf_get (base : Nat) (ss : List W.Section) (i : Nat) (s : W.Section) (h : ss[i]? = some s) (h0 : s.align ≠ 0) :
    ∃ p, (placesOf base ss)[i]? = some p ∧ p.1 % s.align = 0 ∧ p.1 + s.size ≤ vmSizeOf ss ∧
      (s.kind.isBss = false → p.2 = base + p.1 ∧ p.1 + s.size ≤ fileSizeOf ss) ∧
      (s.kind.isBss = true → p.2 = 0 ∧ fileSizeOf ss ≤ p.1) := by
  have hl := (length_dataPlaces base ss 0).symm
  have hle : fileSizeOf ss ≤ vmSizeOf ss := le_endOf _ _
  by_cases hb : s.kind.isBss = true
  · obtain ⟨p, h1, h2, h3, h4⟩ := allPlaces_bss ss (dataPlaces base 0 ss) (endOf 0 (dataSizes ss)) i s h hl hb h0
    refine ⟨p, h1, h2, h4, by simp [hb], fun _ => ⟨?_, h3⟩⟩
    have g1 := congrArg (fun l => l[i]?) (allPlaces_snd ss (dataPlaces base 0 ss) (endOf 0 (dataSizes ss)) hl)
    simp only [List.getElem?_map, h1, dataPlaces_bss base ss 0 i s h hb, Option.map_some, Option.some.injEq] at g1
    exact g1
  · have hb : s.kind.isBss = false := by simpa using hb
    obtain ⟨p, h1, h2, h3, h4⟩ := dataPlaces_get base ss 0 i s h hb h0
    refine ⟨(p, base + p), allPlaces_data ss _ _ i s _ h h1 hb, h2, ?_, fun _ => ⟨rfl, h4⟩, by simp [hb]⟩
    have : endOf 0 (dataSizes ss) = fileSizeOf ss := rfl
    show p + s.size ≤ _
    omega

theorem places_disjoint (base : Nat) (ss : List W.Section) (h0 : ∀ s ∈ ss, s.align ≠ 0) (i j : Nat) (s t : W.Section) (p q : Nat × Nat)
    (hi : ss[i]? = some s) (hj : ss[j]? = some t) (hne : i < j) (hp : (placesOf base ss)[i]? = some p) (hq : (placesOf base ss)[j]? = some q) :
    p.1 + s.size ≤ q.1 ∨ q.1 + t.size ≤ p.1 := by
  have hl := (length_dataPlaces base ss 0).symm
  have s0 := h0 s (List.mem_of_getElem? hi)
  have t0 := h0 t (List.mem_of_getElem? hj)
  obtain ⟨p', e1, -, -, a1, b1⟩ := placesOf_get base ss i s hi s0
  obtain ⟨q', e2, -, -, a2, b2⟩ := placesOf_get base ss j t hj t0
  rw [hp] at e1; rw [hq] at e2
  simp only [Option.some.injEq] at e1 e2
  subst e1; subst e2
  cases hs : s.kind.isBss <;> cases ht : t.kind.isBss
  · left
    obtain ⟨p', h1, -⟩ := dataPlaces_get base ss 0 i s hi hs s0
    obtain ⟨q', h2, -⟩ := dataPlaces_get base ss 0 j t hj ht t0
    have e1 := allPlaces_data ss _ (endOf 0 (dataSizes ss)) i s _ hi h1 hs
    have e2 := allPlaces_data ss _ (endOf 0 (dataSizes ss)) j t _ hj h2 ht
    unfold placesOf at hp hq
    rw [hp] at e1; rw [hq] at e2
    simp only [Option.some.injEq] at e1 e2
    exact dataPlaces_lt base ss 0 i j s t p q hi hj hs ht s0 t0 hne (by rw [h1, e1]) (by rw [h2, e2])
  · left; have := (a1 hs).2; have := (b2 ht).2; omega
  · right; have := (a2 ht).2; have := (b1 hs).2; omega
  · left
    exact allPlaces_lt ss _ _ i j s t p q hi hj hl hs ht s0 t0 hne hp hq

end Obj.MachoW

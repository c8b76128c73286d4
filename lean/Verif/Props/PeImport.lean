import Verif.Proof.PeImport2

/-! # C58: PE imports -/

namespace Obj.Props
open Obj Obj.Pe Obj.Spec.Pe

private theorem runs_iff {α : Type} {size : Nat} (hs : 0 < size) {parse : List UInt8 → α} {isNull : α → Bool} {P : α → Prop}
    (hP : ∀ x, isNull x = true ↔ P x) (d : List UInt8) (xs : List α) (e : End) :
    Runs (recNext size parse isNull) ⟨d, false⟩ xs e ↔ NullTerm size parse P d xs e := by
  constructor
  · intro h
    obtain ⟨ys, e', hy⟩ := nullTerm_exists hs parse P d
    obtain ⟨rfl, rfl⟩ := h.unique (recNext_runs hP hy)
    exact hy
  · exact recNext_runs hP

private theorem fused {α : Type} (size : Nat) (parse : List UInt8 → α) (isNull : α → Bool) (it it' : RecIter) (r : Res (Option α))
    (h : recNext size parse isNull it = (r, it')) (hr : r = .ok none ∨ r = .err) : recNext size parse isNull it' = (.ok none, it') := by
  obtain ⟨d, n⟩ := it
  cases n with
  | true => rw [recNext_end] at h; cases h; exact recNext_end _ _ _ _
  | false =>
    rcases Nat.lt_or_ge d.length size with hl | hl
    · rw [recNext_missing hl] at h; cases h; exact recNext_end _ _ _ _
    · have hd := (List.take_append_drop size d).symm
      have hl : (d.take size).length = size := by rw [List.length_take]; omega
      rw [hd] at h
      cases hc : isNull (parse (d.take size)) with
      | true => rw [recNext_null hl hc] at h; cases h; exact recNext_end _ _ _ _
      | false => rw [recNext_item hl hc] at h; cases h; simp at hr

/-- C58: the import descriptors are the records before the null record; without a null record there is an error at the end.  The same
holds for delay-load descriptors, and for the thunks of a library, which end with a thunk whose low 31 bits are zero. -/
theorem C58_lists (d : List UInt8) :
    (∀ xs e, Runs (recNext 20 ImportDesc.parse ImportDesc.isNull) ⟨d, false⟩ xs e ↔ ImportDescs d xs e) ∧
    (∀ xs e, Runs (recNext 32 DelayDesc.parse DelayDesc.isNull) ⟨d, false⟩ xs e ↔ DelayDescs d xs e) ∧
    (∀ w xs e, w = 4 ∨ w = 8 → (Runs (thunkNext w) ⟨d, false⟩ xs e ↔ Thunks w d xs e)) := by
  refine ⟨fun xs e => runs_iff (by decide) importDesc_null d xs e, fun xs e => runs_iff (by decide) delayDesc_null d xs e,
    fun w xs e hw => ?_⟩
  have hP : ∀ v, decide (thunkAddress v = 0) = true ↔ v % 2 ^ 31 = 0 := by
    intro v; rw [decide_eq_true_eq, thunkAddress_eq]
  exact runs_iff (size := w) (by omega) hP d xs e

example : ImportDescs (([1, 0, 0, 0] ++ List.replicate 16 0) ++ (List.replicate 20 0 ++ [9, 9])) [⟨1, 0, 0, 0, 0⟩] .done :=
  NullTerm.item (i := [1, 0, 0, 0] ++ List.replicate 16 0) (tl := List.replicate 20 0 ++ [9, 9]) (by decide) (by decide)
    (NullTerm.null (i := List.replicate 20 0) (tl := [9, 9]) (by decide) (by decide))
/-! An import by ordinal 0 ends the list. -/
example : Thunks 4 [5, 0, 0, 0x80, 0, 0, 0, 0x80, 1, 1, 1, 1] [0x80000005] .done :=
  NullTerm.item (i := [5, 0, 0, 0x80]) (by decide) (by decide) (NullTerm.null (i := [0, 0, 0, 0x80]) (by decide) (by decide))
example : Thunks 4 [5, 0, 0, 0x80, 1, 0, 0] [0x80000005] .err :=
  NullTerm.item (i := [5, 0, 0, 0x80]) (by decide) (by decide) (NullTerm.missing (by decide))

/-- C58: once one of these iterators has returned `None` or an error, it returns `None`. -/
theorem C58_lists_fused (it : RecIter) :
    (∀ r it', recNext 20 ImportDesc.parse ImportDesc.isNull it = (r, it') → r = .ok none ∨ r = .err →
      recNext 20 ImportDesc.parse ImportDesc.isNull it' = (.ok none, it')) ∧
    (∀ r it', recNext 32 DelayDesc.parse DelayDesc.isNull it = (r, it') → r = .ok none ∨ r = .err →
      recNext 32 DelayDesc.parse DelayDesc.isNull it' = (.ok none, it')) ∧
    (∀ w r it', thunkNext w it = (r, it') → r = .ok none ∨ r = .err → thunkNext w it' = (.ok none, it')) :=
  ⟨fun r it' => fused _ _ _ it it' r, fun r it' => fused _ _ _ it it' r, fun _ r it' => fused _ _ _ it it' r⟩

example : thunkNext 4 ⟨[0, 0, 0, 0, 7, 0, 0, 0], false⟩ = (.ok none, ⟨[7, 0, 0, 0], true⟩) ∧
    thunkNext 4 ⟨[7, 0, 0, 0], true⟩ = (.ok none, ⟨[7, 0, 0, 0], true⟩) := by decide +kernel

/-- C58: the thunk with index `i` is the number at `w * i`; it does not depend on the null thunk. -/
theorem C58_thunk_get (w : Nat) (it : RecIter) (hl : it.data.length < 2 ^ 64) (i : Nat) :
    (∀ v, thunkGet w it i = .ok v ↔ w * i + w ≤ it.data.length ∧ v = rd .little (slice it.data (w * i) w)) ∧
    thunkGet w it i ≠ .panic := by
  have hc : i * w = w * i := Nat.mul_comm _ _
  unfold thunkGet
  rw [hc]
  generalize w * i = o
  by_cases h : U64 ≤ o
  · rw [if_pos h]
    refine ⟨fun v => ⟨fun h => by simp at h, ?_⟩, by simp⟩
    rintro ⟨h1, -⟩
    have : (2 : Nat) ^ 64 ≤ o := h
    omega
  · rw [if_neg h]
    have hr := bytes_readBytesAt_eq it.data o w
    unfold Bytes.readAt
    rw [hr]
    split
    · rename_i h1
      refine ⟨fun v => ?_, by simp⟩
      simp only [Res.ok_bind, Res.ok.injEq]
      exact ⟨fun h => ⟨h1, h.symm⟩, fun h => h.2.symm⟩
    · rename_i h1
      refine ⟨fun v => ⟨fun h => by simp at h, fun h => absurd h.1 h1⟩, by simp⟩

example : thunkGet 4 ⟨[1, 0, 0, 0, 2, 0, 0, 0x80], false⟩ 1 = .ok 0x80000002 ∧
    thunkGet 4 ⟨[1, 0, 0, 0, 2, 0, 0], false⟩ 1 = .err := by decide +kernel

/-- C58: parsing a thunk: with the highest bit it is an import by ordinal, otherwise the hint and the name are at the address given by
the low 31 bits. -/
theorem C58_import (w : Nat) (hw : w = 4 ∨ w = 8) (data : List UInt8) (va v : Nat) (hva : va < 2 ^ 32) (hv : v < 256 ^ w) :
    (∀ x, importOf w data va v = .ok x ↔ ImportOf w data va v x) ∧ importOf w data va v ≠ .panic :=
  ⟨importOf_iff w hw data va v hva hv, importOf_no_panic w data va v⟩

example : ImportOf 8 [] 0 0x8000000000012345 (.ordinal 0x2345) := .ordinal (by decide)
example : ImportOf 4 [9, 9, 7, 0, 102, 0] 0x1000 0x1002 (.name 7 [102]) :=
  .name (by decide) ⟨2, ⟨by decide, by decide⟩, by decide, by decide, ⟨[9, 9, 7, 0], [], rfl, rfl, by decide⟩, by decide⟩

/-- C58: the lookup of hint and name. -/
theorem C58_hint_name (data : List UInt8) (va a : Nat) (ha : a < 2 ^ 32) (hva : va < 2 ^ 32) :
    (∀ h s, hintName data va a = .ok (h, s) ↔ HintNameAt data va a h s) ∧ hintName data va a ≠ .panic :=
  ⟨hintName_iff data va a ha hva, hintName_no_panic data va a⟩

example : HintNameAt [9, 9, 7, 1, 102, 0] 0x1000 0x1002 0x107 [102] :=
  ⟨2, ⟨by decide, by decide⟩, by decide, by decide, ⟨[9, 9, 7, 1], [], rfl, rfl, by decide⟩, by decide⟩

/-- C58: the import table for an address. -/
theorem C58_from_sections (data : List UInt8) (ss : List Coff.Section) (a : Nat) (ha : a < 2 ^ 32) :
    (∀ t, ImportTable.fromSections data ss a = .ok t ↔ ImportTableOf ss data a t) ∧
    (ImportTable.fromSections data ss a = .err ↔ ∀ x va, ¬ DataOf ss data a x va) ∧
    ImportTable.fromSections data ss a ≠ .panic :=
  ⟨fromSections_iff data ss a ha, fromSections_err data ss a ha, fromSections_no_panic data ss a ha⟩

/-! A file with descriptors and thunks in the first section, and names in the second one. -/
private def descs : List UInt8 :=
  [0x28, 0x10, 0, 0, 0, 0, 0, 0, 0, 0, 0, 0, 0, 0x20, 0, 0, 0x28, 0x10, 0, 0] ++ List.replicate 20 0 ++
  [5, 0, 0, 0x80, 2, 0x20, 0, 0, 0, 0, 0, 0]
private def names : List UInt8 := [97, 0, 7, 0, 102, 0]
private def sec1 : Coff.Section := ⟨[], 0x1000, 0x1000, 52, 0, 0, 0, 0, 0, 0⟩
private def sec2 : Coff.Section := ⟨[], 0x1000, 0x2000, 6, 52, 0, 0, 0, 0, 0⟩
private def dirs : List DataDir := [⟨0, 0⟩, ⟨0x1000, 0⟩]

example : ImportTable.fromSections (descs ++ names) [sec1, sec2] 0x1000 = .ok ⟨0x1000, descs, 0x1000, names, 0x2000⟩ := by decide +kernel
example : ImportTable.fromSections (descs ++ names) [sec1, sec2] 0x1034 = .err := by decide +kernel

/-- C58: `imports()` fails if a present import directory or delay-load import directory is not in the file data of a section, and
otherwise gives, for each library of the import table and then of the delay-load import table in order, its imports; what cannot be
read is an error in its place. -/
theorem C58_imports (w : Nat) (hw : w = 4 ∨ w = 8) (dirs : List DataDir) (data : List UInt8) (ss : List Coff.Section)
    (hd : ∀ d ∈ dirs, d.virtualAddress < 2 ^ 32) (hs : ∀ s ∈ ss, s.virtualAddress < 2 ^ 32) :
    (∀ it, ImpIter.new w dirs data ss = .ok it → ∃ o1 o2 rs1 rs2,
      TableIn dirs 1 (ImportTableOf ss data) o1 ∧ TableIn dirs 13 (DelayTableOf ss data) o2 ∧
      Opt (Imports w) o1 rs1 ∧ Opt (DelayImports w) o2 rs2 ∧ Drains ImpIter.next it (rs1 ++ rs2)) ∧
    (ImpIter.new w dirs data ss = .err ↔ BadDir dirs 1 ss data ∨ BadDir dirs 13 ss data) ∧
    ImpIter.new w dirs data ss ≠ .panic := by
  have hf : AddrFits dirs ss := ⟨hd, hs⟩
  obtain ⟨h1, h2, h3⟩ := start dirs data ss hf (fun t d t' d' => (⟨w, t, d, t', d', none, []⟩ : ImpIter)) _ rfl
  refine ⟨fun it h => ?_, h2, h3⟩
  obtain ⟨o1, d1, o2, d2, i1, e1, i2, e2, rfl⟩ := h1 it h
  obtain ⟨rs1, rs2, g1, g2, g3⟩ := imp_drains hw (optDescs_import hf i1).1 (optDescs_delay hf i2).1 e1 e2
  exact ⟨o1, o2, rs1, rs2, i1, i2, g1, g2, g3⟩

private def steps {σ α : Type} (next : σ → Res (Option α) × σ) : Nat → σ → List (Res (Option α))
  | 0, _ => []
  | n + 1, s => (next s).1 :: steps next n (next s).2

example : ((ImpIter.new 4 dirs (descs ++ names) [sec1, sec2]).bind fun it => .ok (steps ImpIter.next 3 it)) =
    .ok [.ok (some ⟨[97], .ordinal 5, false⟩), .ok (some ⟨[97], .name [102], false⟩), .ok none] := by decide +kernel
/-! The same tables as delay-load tables: the descriptor is not null but does not have the flag for relative addresses. -/
example : ((ImpIter.new 4 (List.replicate 13 ⟨0, 0⟩ ++ [⟨0x1000, 0⟩]) (descs ++ names) [sec1, sec2]).bind
    fun it => .ok (steps ImpIter.next 1 it)) = .ok [.err] := by decide +kernel
/-! A delay-load table with one library. -/
example : ((ImpIter.new 4 (List.replicate 13 ⟨0, 0⟩ ++ [⟨0x1000, 0⟩])
    ([1, 0, 0, 0, 0x4c, 0x10, 0, 0, 0, 0, 0, 0, 0, 0, 0, 0, 0x40, 0x10, 0, 0] ++ List.replicate 44 0 ++
      [9, 0, 0, 0x80, 0x4c, 0x10, 0, 0, 0, 0, 0, 0] ++ [120, 121, 122, 0])
    [⟨[], 0x1000, 0x1000, 80, 0, 0, 0, 0, 0, 0⟩]).bind fun it => .ok (steps ImpIter.next 3 it)) =
    .ok [.ok (some ⟨[120, 121, 122], .ordinal 9, true⟩), .ok (some ⟨[120, 121, 122], .name [122], true⟩), .ok none] := by decide +kernel

/-- C58: `import_libraries()`. -/
theorem C58_libraries (dirs : List DataDir) (data : List UInt8) (ss : List Coff.Section)
    (hd : ∀ d ∈ dirs, d.virtualAddress < 2 ^ 32) (hs : ∀ s ∈ ss, s.virtualAddress < 2 ^ 32) :
    (∀ it, LibIter.new dirs data ss = .ok it → ∃ o1 o2 rs1 rs2,
      TableIn dirs 1 (ImportTableOf ss data) o1 ∧ TableIn dirs 13 (DelayTableOf ss data) o2 ∧
      Opt Libraries o1 rs1 ∧ Opt DelayLibraries o2 rs2 ∧ Drains LibIter.next it (rs1 ++ rs2)) ∧
    (LibIter.new dirs data ss = .err ↔ BadDir dirs 1 ss data ∨ BadDir dirs 13 ss data) ∧
    LibIter.new dirs data ss ≠ .panic := by
  have hf : AddrFits dirs ss := ⟨hd, hs⟩
  obtain ⟨h1, h2, h3⟩ := start dirs data ss hf (fun t d t' d' => (⟨t, d, t', d'⟩ : LibIter)) _ rfl
  refine ⟨fun it h => ?_, h2, h3⟩
  obtain ⟨o1, d1, o2, d2, i1, e1, i2, e2, rfl⟩ := h1 it h
  obtain ⟨rs1, rs2, g1, g2, g3⟩ := lib_drains (optDescs_import hf i1).1 (optDescs_delay hf i2).1 e1 e2
  exact ⟨o1, o2, rs1, rs2, i1, i2, g1, g2, g3⟩

example : ((LibIter.new dirs (descs ++ names) [sec1, sec2]).bind fun it => .ok (steps LibIter.next 2 it)) =
    .ok [.ok (some ⟨[97], false⟩), .ok none] := by decide +kernel

/-- C58: once `imports()` or `import_libraries()` has returned `None`, it returns `None`. -/
theorem C58_fused :
    (∀ it it', ImpIter.next it = (.ok none, it') → ImpIter.next it' = (.ok none, it')) ∧
    (∀ it it', LibIter.next it = (.ok none, it') → LibIter.next it' = (.ok none, it')) := by
  have e1 : ∀ it : ImpIter, it.table = none → it.delay = none → ImpIter.next it = (.ok none, it) := by
    intro it h1 h2
    unfold ImpIter.next ImpIter.nextDelay
    rw [h1]
    simp only
    rw [h2]
  have e2 : ∀ it : LibIter, it.table = none → it.delay = none → LibIter.next it = (.ok none, it) := by
    intro it h1 h2
    unfold LibIter.next LibIter.nextDelay
    rw [h1]
    simp only
    rw [h2]
  have b1 : ∀ (r : Res GImport), (r.bind fun x => .ok (some x)) ≠ .ok none := by
    intro r
    cases r <;> simp
  have b2 : ∀ (r : Res (List UInt8)) b, (r.bind fun n => .ok (some (⟨n, b⟩ : GLibrary))) ≠ .ok none := by
    intro r
    cases r <;> simp
  have d1 : ∀ it it' : ImpIter, it.table = none → ImpIter.nextDelay it = (.ok none, it') → it'.table = none ∧ it'.delay = none := by
    intro it it' ht h
    unfold ImpIter.nextDelay at h
    split at h
    · rename_i h0
      cases h; exact ⟨ht, h0⟩
    · simp only at h
      split at h
      · exact absurd (Prod.mk.inj h).1 (b1 _)
      · cases h; exact ⟨ht, rfl⟩
  have d2 : ∀ it it' : LibIter, it.table = none → LibIter.nextDelay it = (.ok none, it') → it'.table = none ∧ it'.delay = none := by
    intro it it' ht h
    unfold LibIter.nextDelay at h
    split at h
    · rename_i h0
      cases h; exact ⟨ht, h0⟩
    · split at h
      · cases h; exact ⟨ht, rfl⟩
      · split at h
        · exact absurd (Prod.mk.inj h).1 (b2 _ _)
        · cases h; exact ⟨ht, rfl⟩
        · cases h
        · cases h
  refine ⟨fun it it' h => ?_, fun it it' h => ?_⟩
  · have : it'.table = none ∧ it'.delay = none := by
      unfold ImpIter.next at h
      split at h
      · rename_i h0
        exact d1 _ _ h0 h
      · simp only at h
        split at h
        · exact absurd (Prod.mk.inj h).1 (b1 _)
        · exact d1 _ _ rfl h
    exact e1 it' this.1 this.2
  · have : it'.table = none ∧ it'.delay = none := by
      unfold LibIter.next at h
      split at h
      · rename_i h0
        exact d2 _ _ h0 h
      · split at h
        · exact d2 _ _ rfl h
        · split at h
          · exact absurd (Prod.mk.inj h).1 (b2 _ _)
          · exact d2 _ _ rfl h
          · cases h
          · cases h
    exact e2 it' this.1 this.2

example : LibIter.next ⟨none, none, none, none⟩ = (.ok none, ⟨none, none, none, none⟩) := by decide +kernel

end Obj.Props

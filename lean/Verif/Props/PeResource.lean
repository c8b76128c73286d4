import Verif.Proof.PeResource

/-! # C59: PE resources -/

namespace Obj.Props
open Obj Obj.Pe Obj.Spec.Pe

/-- C59: the root table is the one at the start of the resource data, and is found exactly if its header and all of its entries are in
the data.  No panic. -/
theorem C59_root (data : List UInt8) :
    (∀ t, resRoot data = .ok t ↔ ResTableAt data 0 t) ∧ resRoot data ≠ .panic :=
  ⟨resTable_iff data 0 (by decide), resTable_no_panic data 0⟩

/-- A table with one named entry (a subtable) and one entry with an id (data), a name, and the table at offset 40 without entries. -/
private def rsrc : List UInt8 :=
  [0, 0, 0, 0, 0, 0, 0, 0, 4, 0, 0, 0, 1, 0, 1, 0,  32, 0, 0, 0x80, 40, 0, 0, 0x80,  5, 0, 0xff, 0, 40, 0, 0, 0] ++
  [2, 0, 65, 0, 0x3d, 0xd8, 0, 0] ++ [1, 0, 0, 0, 2, 0, 0, 0, 3, 0, 0, 0, 0, 0, 0, 0]

example : ResTableAt rsrc 0 ⟨⟨0, 0, 4, 0, 1, 1⟩, [⟨0x80000020, 0x80000028⟩, ⟨0xff0005, 40⟩]⟩ := by
  refine ⟨?_, ?_, ?_⟩ <;> decide +kernel
example : resRoot (rsrc.take 31) = .err := by decide +kernel

/-- C59: the name or id of an entry: the highest bit selects a name at the offset given by the other bits, otherwise the low 16 bits are
an id. -/
theorem C59_name_or_id (e : ResEntry) (he : e.nameOrId < 2 ^ 32) :
    e.nameOrIdOf = if 2 ^ 31 ≤ e.nameOrId then .name (e.nameOrId - 2 ^ 31) else .id (e.nameOrId % 2 ^ 16) := by
  obtain ⟨h1, h2⟩ := high_bit _ he
  have h3 : e.nameOrId &&& 0xffff = e.nameOrId % 2 ^ 16 := Nat.and_two_pow_sub_one_eq_mod _ 16
  unfold ResEntry.nameOrIdOf ResEntry.hasName
  rw [h2, h3]
  by_cases hb : 2 ^ 31 ≤ e.nameOrId
  · rw [if_pos hb, if_pos (by rw [decide_eq_true_eq]; exact h1.2 hb)]
    have e1 : e.nameOrId % 2 ^ 31 = e.nameOrId - 2 ^ 31 := by omega
    rw [e1]
  · rw [if_neg hb, if_neg (by rw [decide_eq_true_eq]; exact fun h => hb (h1.1 h)), Nat.mod_mod]

example : ResEntry.nameOrIdOf ⟨0x80000020, 0⟩ = .name 32 ∧ ResEntry.nameOrIdOf ⟨0xff0005, 0⟩ = .id 5 := by decide +kernel

/-- C59: what an entry refers to, exactly if it is in the data.  No panic. -/
theorem C59_entry_data (e : ResEntry) (he : e.offsetToDataOrDirectory < 2 ^ 32) (data : List UInt8) :
    (∀ x, e.data data = .ok x ↔ ResNodeOf data e.offsetToDataOrDirectory x) ∧ e.data data ≠ .panic :=
  ⟨resEntry_iff e he data, resEntry_no_panic e data⟩

example : ResNodeOf rsrc 40 (.data ⟨1, 2, 3, 0⟩) := .data (by decide) (by decide)
example : ResEntry.data ⟨0, 0x80000028⟩ rsrc = .ok (.table ⟨⟨1, 2, 3, 0, 0, 0⟩, []⟩) := by decide +kernel
example : ResEntry.data ⟨0, 41⟩ rsrc = .err := by decide +kernel

/-- C59: the units of a name are found exactly if all of them are in the data; the raw bytes are the same units.  No panic. -/
theorem C59_name_data (o : Nat) (ho : o < 2 ^ 32) (data : List UInt8) :
    (∀ us, resNameData o data = .ok us ↔ ResNameAt data o us) ∧
    (∀ b, resNameRaw o data = .ok b ↔ o + 2 + 2 * u16At data o ≤ data.length ∧ b = slice data (o + 2) (2 * u16At data o)) ∧
    resNameData o data ≠ .panic ∧ resNameRaw o data ≠ .panic := by
  rw [resNameData_eq, resNameRaw_eq, nameUnits_eq o ho]
  unfold ResNameAt
  by_cases h : o + 2 + 2 * u16At data o ≤ data.length
  · rw [if_pos h, Res.ok_bind, Res.ok_bind, slice_two _ _ _ h, List.map_map]
    refine ⟨fun us => ?_, fun b => ?_, by simp, by simp⟩
    · rw [Res.ok.injEq]
      exact ⟨fun e => ⟨h, e.symm⟩, fun e => e.2.symm⟩
    · rw [Res.ok.injEq]
      exact ⟨fun e => ⟨h, e.symm⟩, fun e => e.2.symm⟩
  · rw [if_neg h, Res.err_bind, Res.err_bind]
    refine ⟨fun us => ⟨fun e => by simp at e, fun e => absurd e.1 h⟩, fun b => ⟨fun e => by simp at e, fun e => absurd e.1 h⟩,
      by simp, by simp⟩

example : ResNameAt rsrc 32 [65, 0xd83d] := by constructor <;> decide +kernel
example : resNameRaw 32 rsrc = .ok [65, 0, 0x3d, 0xd8] := by decide +kernel

/-- C59: a name as a string: the UTF-16 text, where what is not UTF-16 is replaced by U+FFFD. -/
theorem C59_name_string (o : Nat) (ho : o < 2 ^ 32) (data : List UInt8) :
    (∀ cs, resNameString o data = .ok cs ↔ ∃ us, ResNameAt data o us ∧ Lossy us cs) ∧ resNameString o data ≠ .panic := by
  obtain ⟨h1, -, h3, -⟩ := C59_name_data o ho data
  unfold resNameString
  refine ⟨fun cs => ?_, Res.bind_no_panic h3 fun _ _ => by simp⟩
  have hu : ∀ us, ResNameAt data o us → ∀ u ∈ us, u < 2 ^ 16 := by
    rintro us ⟨-, rfl⟩ u h
    obtain ⟨i, -, rfl⟩ := List.mem_map.1 h
    exact u16_lt _ _
  constructor
  · intro h
    cases hn : resNameData o data with
    | err => rw [hn] at h; simp at h
    | panic => exact absurd hn h3
    | ok us =>
      rw [hn, Res.ok_bind, Res.ok.injEq] at h
      have ha := (h1 us).1 hn
      refine ⟨us, ha, ?_⟩
      rw [← h]
      exact decode_lossy us (hu us ha)
  · rintro ⟨us, ha, hl⟩
    rw [(h1 us).2 ha, Res.ok_bind, lossy_decode hl (hu us ha)]

/-- C59: a name that is the UTF-16 encoding of a text is read as that text. -/
theorem C59_name_text (o : Nat) (ho : o < 2 ^ 32) (data : List UInt8) (cs : List Nat) (hc : ∀ c ∈ cs, Scalar c)
    (h : ResNameAt data o (cs.flatMap utf16)) : resNameString o data = .ok cs := by
  refine ((C59_name_string o ho data).1 cs).2 ⟨_, h, ?_⟩
  clear h
  induction cs with
  | nil => exact .nil
  | cons c cs ih => exact .char (hc c (List.mem_cons_self ..)) (ih fun c h => hc c (List.mem_cons_of_mem _ h))

example : resNameString 32 rsrc = .ok [65, 0xfffd] := by decide +kernel
example : ResNameAt [2, 0, 0x3d, 0xd8, 0, 0xde] 0 ([0x1f600].flatMap utf16) := by constructor <;> decide +kernel
example : resNameString 0 [2, 0, 0x3d, 0xd8, 0, 0xde] = .ok [0x1f600] := by decide +kernel

/-- C59: the resource directory of a file is the data of the data directory with index 2, if its address is not zero. -/
theorem C59_directory (dirs : List DataDir) (data : List UInt8) (ss : List Coff.Section) :
    (resourceDirectory dirs data ss = .ok none ↔ ∀ d, dirs[2]? = some d → d.virtualAddress = 0) ∧
    (∀ b, resourceDirectory dirs data ss = .ok (some b) ↔ ∃ d s o k, dirs[2]? = some d ∧ d.virtualAddress ≠ 0 ∧
      First (fun s => ∃ o n, Maps s d.virtualAddress o n ∧ o + n ≤ data.length) ss s ∧ Maps s d.virtualAddress o k ∧
      o + k ≤ data.length ∧ d.size ≤ k ∧ b = slice data o d.size) ∧
    resourceDirectory dirs data ss ≠ .panic := by
  unfold resourceDirectory
  cases hg : getDir dirs 2 with
  | none =>
    have hz : ∀ d, dirs[2]? = some d → d.virtualAddress = 0 := by
      intro d h
      rcases Nat.eq_zero_or_pos d.virtualAddress with h0 | h0
      · exact h0
      · rw [(getDir_iff ..).2 ⟨h, by omega⟩] at hg; simp at hg
    refine ⟨⟨fun _ => hz, fun _ => rfl⟩, fun b => ⟨fun h => by simp at h, ?_⟩, by simp⟩
    rintro ⟨d, s, o, k, h1, h2, -⟩
    exact absurd (hz d h1) h2
  | some d =>
    obtain ⟨h1, h2⟩ := (getDir_iff ..).1 hg
    obtain ⟨-, hb, -, hnp⟩ := C30_directory_data d ss data
    simp only
    refine ⟨⟨fun h => ?_, fun h => absurd (h d h1) h2⟩, fun b => ?_, Res.bind_no_panic hnp fun _ _ => by simp⟩
    · cases hd : d.data data ss with
      | err => rw [hd] at h; simp at h
      | panic => rw [hd] at h; simp at h
      | ok b => rw [hd, Res.ok_bind] at h; simp at h
    · have e : (d.data data ss).bind (fun b => .ok (some b)) = .ok (some b) ↔ d.data data ss = .ok b := by
        cases d.data data ss <;> simp
      rw [e, hb b]
      constructor
      · rintro ⟨s, o, k, h⟩; exact ⟨d, s, o, k, h1, h2, h⟩
      · rintro ⟨d', s, o, k, h3, -, h⟩
        rw [h1] at h3
        obtain rfl := Option.some.inj h3
        exact ⟨s, o, k, h⟩

example : resourceDirectory [⟨0, 0⟩, ⟨0, 0⟩, ⟨0x1000, 2⟩] [9, 9, 7, 8, 9] [⟨[], 3, 0x1000, 3, 2, 0, 0, 0, 0, 0⟩] = .ok (some [7, 8]) := by
  decide +kernel

end Obj.Props

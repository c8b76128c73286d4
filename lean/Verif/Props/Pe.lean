import Verif.Proof.Pe

/-! # C30: PE address mapping, C57: PE exports -/

namespace Obj.Props
open Obj Obj.Pe Obj.Spec.Pe

/-- Two sections for the examples: the first one has 0x20 bytes in memory but 0x10 in the file; the second one starts in the rest
of the first one. -/
private def s1 : Coff.Section := ⟨[46, 116, 0, 0, 0, 0, 0, 0], 0x20, 0x1000, 0x10, 8, 0, 0, 0, 0, 0⟩
private def s2 : Coff.Section := ⟨[46, 100, 0, 0, 0, 0, 0, 0], 0x20, 0x1008, 0x40, 0xfffffff0, 0, 0, 0, 0, 0⟩

/-- C30: an address is mapped by the first section whose file data contains it; the result is the offset in the file and the size
up to the end of the section's data.  There is none exactly if no section has file data for the address. -/
theorem C30_file_range_at (ss : List Coff.Section) (va : Nat) :
    (∀ o n, fileRangeAt ss va = some (o, n) ↔ ∃ s, First (fun s => ∃ o n, Maps s va o n) ss s ∧ Maps s va o n) ∧
    (fileRangeAt ss va = none ↔ ∀ s ∈ ss, ∀ o n, ¬ Maps s va o n) := by
  refine ⟨fun o n => ?_, ?_⟩
  · unfold fileRangeAt First
    rw [findSome_first]
    constructor
    · rintro ⟨pre, s, post, h1, h2, h3⟩
      have hm := (fileRangeAt1_iff ..).1 h2
      exact ⟨s, ⟨pre, post, h1, ⟨o, n, hm⟩, fun t ht ⟨o', n', h⟩ => (fileRangeAt1_none ..).1 (h3 t ht) _ _ h⟩, hm⟩
    · rintro ⟨s, ⟨pre, post, h1, -, h3⟩, hm⟩
      exact ⟨pre, s, post, h1, (fileRangeAt1_iff ..).2 hm, fun t ht => (fileRangeAt1_none ..).2 fun o n h => h3 t ht ⟨o, n, h⟩⟩
  · unfold fileRangeAt
    rw [findSome_none]
    exact ⟨fun h s hs => (fileRangeAt1_none ..).1 (h s hs), fun h s hs => (fileRangeAt1_none ..).2 (h s hs)⟩

/-! The last byte of the first section's data; then the second one's data; an offset that does not fit into 32 bits. -/
example : Maps s1 0x100f 23 1 ∧ fileRangeAt [s1, s2] 0x100f = some (23, 1) := by
  refine ⟨by unfold Maps; decide, by decide +kernel⟩
example : fileRangeAt [s1, s2] 0x1010 = some (0xfffffff8, 0x18) := by decide +kernel
example : fileRangeAt [s1, s2] 0x1018 = none := by decide +kernel

/-- C30: the data at an address is the file data up to the end of the section's data, for the first section that has file data for
the address and whose data is in the file. -/
theorem C30_data_at (ss : List Coff.Section) (data : List UInt8) (va : Nat) :
    (∀ d, dataAt ss data va = some d ↔ ∃ s o n, First (fun s => ∃ o n, Maps s va o n ∧ o + n ≤ data.length) ss s ∧ Maps s va o n ∧
      o + n ≤ data.length ∧ d = slice data o n) ∧
    (dataAt ss data va = none ↔ ∀ s ∈ ss, ∀ o n, Maps s va o n → data.length < o + n) := by
  refine ⟨fun d => ?_, ?_⟩
  · unfold dataAt First
    rw [findSome_first]
    constructor
    · rintro ⟨pre, s, post, h1, h2, h3⟩
      obtain ⟨o, n, hm, hl, hd⟩ := (dataAt1_iff ..).1 h2
      refine ⟨s, o, n, ⟨pre, post, h1, ⟨o, n, hm, hl⟩, fun t ht ⟨o', n', h, hl'⟩ => ?_⟩, hm, hl, hd⟩
      have := (dataAt1_none ..).1 (h3 t ht) _ _ h
      omega
    · rintro ⟨s, o, n, ⟨pre, post, h1, -, h3⟩, hm, hl, hd⟩
      refine ⟨pre, s, post, h1, (dataAt1_iff ..).2 ⟨o, n, hm, hl, hd⟩, fun t ht => (dataAt1_none ..).2 fun o n h => ?_⟩
      rcases Nat.lt_or_ge data.length (o + n) with hlt | hge
      · exact hlt
      · exact absurd ⟨o, n, h, hge⟩ (h3 t ht)
  · unfold dataAt
    rw [findSome_none]
    exact ⟨fun h s hs => (dataAt1_none ..).1 (h s hs), fun h s hs => (dataAt1_none ..).2 (h s hs)⟩

/-! The first section's data is not in the file, so the second one is used. -/
example : dataAt [s2, s1] (List.replicate 22 0 ++ [1, 2]) 0x100e = some [1, 2] := by decide +kernel
example : dataAt [s1, s2] (List.replicate 22 0 ++ [1]) 0x100e = none := by decide +kernel

/-- C30: the data of the section containing an address is all of its file data, together with its address. -/
theorem C30_data_containing (ss : List Coff.Section) (data : List UInt8) (va : Nat) (d : List UInt8) (a : Nat) :
    dataContaining ss data va = some (d, a) ↔ ∃ s, First (fun s => s.virtualAddress ≤ va ∧
        va < s.virtualAddress + min s.virtualSize s.sizeOfRawData ∧
        s.pointerToRawData + min s.virtualSize s.sizeOfRawData ≤ data.length) ss s ∧
      a = s.virtualAddress ∧ d = slice data s.pointerToRawData (min s.virtualSize s.sizeOfRawData) := by
  have key : ∀ s d a, dataContaining1 s data va = some (d, a) ↔ (s.virtualAddress ≤ va ∧
        va < s.virtualAddress + min s.virtualSize s.sizeOfRawData ∧
        s.pointerToRawData + min s.virtualSize s.sizeOfRawData ≤ data.length) ∧
      a = s.virtualAddress ∧ d = slice data s.pointerToRawData (min s.virtualSize s.sizeOfRawData) := by
    intro s d a
    unfold dataContaining1 fileRange
    by_cases h1 : va < s.virtualAddress
    · rw [if_pos h1]
      simp only [reduceCtorEq, false_iff]
      rintro ⟨⟨h2, -⟩, -⟩
      omega
    · rw [if_neg h1]
      simp only
      generalize min s.virtualSize s.sizeOfRawData = z
      by_cases h2 : va - s.virtualAddress < z
      · rw [if_pos h2]
        cases hr : okOpt (ReadRef.readBytesAt data s.pointerToRawData z) with
        | none =>
          rw [okOpt_read_none _ _ _ (by omega)] at hr
          simp only [reduceCtorEq, false_iff]
          rintro ⟨⟨-, -, h3⟩, -⟩
          omega
        | some d' =>
          rw [okOpt_read _ _ _ (by omega)] at hr
          obtain ⟨h3, rfl⟩ := hr
          simp only [Option.some.injEq, Prod.mk.injEq]
          constructor
          · rintro ⟨rfl, rfl⟩; exact ⟨⟨by omega, by omega, h3⟩, rfl, rfl⟩
          · rintro ⟨-, rfl, rfl⟩; exact ⟨rfl, rfl⟩
      · rw [if_neg h2]
        simp only [reduceCtorEq, false_iff]
        rintro ⟨⟨-, h3, -⟩, -⟩
        omega
  unfold dataContaining First
  rw [findSome_first]
  constructor
  · rintro ⟨pre, s, post, h1, h2, h3⟩
    obtain ⟨hP, h4⟩ := (key ..).1 h2
    refine ⟨s, ⟨pre, post, h1, hP, fun t ht hc => ?_⟩, h4⟩
    have := h3 t ht
    rw [(key t _ _).2 ⟨hc, rfl, rfl⟩] at this
    simp at this
  · rintro ⟨s, ⟨pre, post, h1, hP, h3⟩, h4⟩
    refine ⟨pre, s, post, h1, (key ..).2 ⟨hP, h4⟩, fun t ht => ?_⟩
    cases hc : dataContaining1 t data va with
    | none => rfl
    | some p => exact absurd ((key t p.1 p.2).1 hc).1 (h3 t ht)

example : dataContaining [s2, s1] (List.replicate 8 0 ++ List.replicate 16 7) 0x100e = some (List.replicate 16 7, 0x1000) := by
  decide +kernel

/-- C30: the section containing an address is the first one whose virtual range contains it. -/
theorem C30_section_containing (ss : List Coff.Section) (va : Nat) :
    (∀ s, sectionContaining ss va = some s ↔ First (fun s => s.virtualAddress ≤ va ∧ va < s.virtualAddress + s.virtualSize) ss s) ∧
    (sectionContaining ss va = none ↔ ∀ s ∈ ss, ¬ (s.virtualAddress ≤ va ∧ va < s.virtualAddress + s.virtualSize)) := by
  have key : ∀ s, containsRva s va = true ↔ s.virtualAddress ≤ va ∧ va < s.virtualAddress + s.virtualSize := by
    intro s
    unfold containsRva
    by_cases h : va < s.virtualAddress
    · rw [if_pos h]; simp; intro h2; omega
    · rw [if_neg h, decide_eq_true_eq]; omega
  unfold sectionContaining First
  refine ⟨fun s => ?_, ?_⟩
  · rw [List.find?_eq_some_iff_append]
    constructor
    · rintro ⟨h1, pre, post, h2, h3⟩
      refine ⟨pre, post, h2, (key s).1 h1, fun t ht hc => ?_⟩
      have := h3 t ht
      rw [(key t).2 hc] at this
      simp at this
    · rintro ⟨pre, post, h1, h2, h3⟩
      refine ⟨(key s).2 h2, pre, post, h1, fun t ht => ?_⟩
      cases hc : containsRva t va with
      | false => rfl
      | true => exact absurd ((key t).1 hc) (h3 t ht)
  · rw [List.find?_eq_none]
    exact ⟨fun h s hs hc => h s hs ((key s).2 hc), fun h s hs hc => h s hs ((key s).1 hc)⟩

example : sectionContaining [s1, s2] 0x1018 = some s1 ∧ sectionContaining [s1, s2] 0x1020 = some s2 ∧
    sectionContaining [s1, s2] 0x1028 = none := by decide +kernel

/-- C30: the data directories are the `number` pairs at the start of the data, if they fit; the lookup ignores entries with address 0. -/
theorem C30_directories (data : List UInt8) (number : Nat) (hn : number < 2 ^ 32) :
    (∀ ds, parseDirs data number = .ok ds ↔ 8 * number ≤ data.length ∧
      ds = (List.range number).map fun i => ⟨rd .little (slice data (8 * i) 4), rd .little (slice data (8 * i + 4) 4)⟩) ∧
    parseDirs data number ≠ .panic ∧
    ∀ (dirs : List DataDir) i d, getDir dirs i = some d ↔ dirs[i]? = some d ∧ d.virtualAddress ≠ 0 := by
  have hs : ∀ i, (slice (slice data (0 + 8 * i) 8) 0 4) = slice data (8 * i) 4 ∧
      (slice (slice data (0 + 8 * i) 8) 4 4) = slice data (8 * i + 4) 4 := by
    intro i
    rw [slice_slice _ _ _ _ _ (by omega), slice_slice _ _ _ _ _ (by omega)]
    exact ⟨by rw [Nat.zero_add, Nat.add_zero], by rw [Nat.zero_add]⟩
  refine ⟨fun ds => ?_, ?_, fun dirs i d => ?_⟩
  · unfold parseDirs
    constructor
    · intro h
      cases hr : Elf.readSliceAt data 0 8 number with
      | err => rw [hr] at h; simp at h
      | panic => rw [hr] at h; simp at h
      | ok l =>
        rw [hr] at h
        simp only [Res.ok_bind, Res.ok.injEq] at h
        obtain ⟨h1, h2⟩ := (readSliceAt_iff _ _ _ _ (by omega) _).1 hr
        refine ⟨by omega, ?_⟩
        rw [← h, h2, List.map_map]
        apply List.map_congr_left
        intro i _
        show (⟨rd .little (slice (slice data (0 + 8 * i) 8) 0 4), rd .little (slice (slice data (0 + 8 * i) 8) 4 4)⟩ : DataDir) = _
        rw [(hs i).1, (hs i).2]
    · rintro ⟨h1, h2⟩
      rw [(readSliceAt_iff _ _ _ _ (by omega) _).2 ⟨.inr (by omega), rfl⟩]
      simp only [Res.ok_bind, Res.ok.injEq]
      rw [h2, List.map_map]
      apply List.map_congr_left
      intro i _
      show (⟨rd .little (slice (slice data (0 + 8 * i) 8) 0 4), rd .little (slice (slice data (0 + 8 * i) 8) 4 4)⟩ : DataDir) = _
      rw [(hs i).1, (hs i).2]
  · exact Res.bind_no_panic (readSliceAt_no_panic _ _ _ _) fun _ _ => by simp
  · unfold getDir
    cases h : dirs[i]? with
    | none => simp
    | some e =>
      simp only [Option.some.injEq]
      by_cases h0 : e.virtualAddress = 0
      · rw [if_neg (by simpa using h0)]
        simp only [reduceCtorEq, false_iff]
        rintro ⟨rfl, h1⟩
        exact h1 h0
      · rw [if_pos h0]
        constructor
        · intro h; obtain rfl := Option.some.inj h; exact ⟨rfl, h0⟩
        · rintro ⟨rfl, -⟩; rfl

example : parseDirs [0, 16, 0, 0, 4, 0, 0, 0, 0, 0, 0, 0, 7, 0, 0, 0, 1] 2 = .ok [⟨0x1000, 4⟩, ⟨0, 7⟩] := by decide +kernel
example : getDir [⟨0x1000, 4⟩, ⟨0, 7⟩] 0 = some ⟨0x1000, 4⟩ ∧ getDir [⟨0x1000, 4⟩, ⟨0, 7⟩] 1 = none := by decide

/-- C30: a data directory's file range and data are exactly its size, taken at its address, and lie in one section; it is an error
if that is not possible.  No panic. -/
theorem C30_directory_data (d : DataDir) (ss : List Coff.Section) (data : List UInt8) :
    (∀ o n, d.fileRange ss = .ok (o, n) ↔
      n = d.size ∧ ∃ s k, First (fun s => ∃ o n, Maps s d.virtualAddress o n) ss s ∧ Maps s d.virtualAddress o k ∧ d.size ≤ k) ∧
    (∀ b, d.data data ss = .ok b ↔ ∃ s o k,
      First (fun s => ∃ o n, Maps s d.virtualAddress o n ∧ o + n ≤ data.length) ss s ∧ Maps s d.virtualAddress o k ∧
      o + k ≤ data.length ∧ d.size ≤ k ∧ b = slice data o d.size) ∧
    d.fileRange ss ≠ .panic ∧ d.data data ss ≠ .panic := by
  refine ⟨fun o n => ?_, fun b => ?_, ?_, ?_⟩
  · unfold DataDir.fileRange
    cases h : fileRangeAt ss d.virtualAddress with
    | none =>
      simp only [reduceCtorEq, false_iff]
      rintro ⟨-, s, k, h1, h2, -⟩
      have := ((C30_file_range_at ss d.virtualAddress).1 o k).2 ⟨s, h1, h2⟩
      rw [h] at this; simp at this
    | some p =>
      obtain ⟨o', k⟩ := p
      simp only
      obtain ⟨s, h1, h2⟩ := ((C30_file_range_at ss d.virtualAddress).1 o' k).1 h
      have huniq : ∀ s' k', First (fun s => ∃ o n, Maps s d.virtualAddress o n) ss s' → Maps s' d.virtualAddress o k' → o = o' ∧ k' = k := by
        intro s' k' h3 h4
        have := ((C30_file_range_at ss d.virtualAddress).1 o k').2 ⟨s', h3, h4⟩
        rw [h] at this
        simp only [Option.some.injEq, Prod.mk.injEq] at this
        exact ⟨this.1.symm, this.2.symm⟩
      by_cases hk : k < d.size
      · rw [if_pos hk]
        simp only [reduceCtorEq, false_iff]
        rintro ⟨-, s', k', h3, h4, h5⟩
        obtain ⟨-, rfl⟩ := huniq s' k' h3 h4
        omega
      · rw [if_neg hk]
        simp only [Res.ok.injEq, Prod.mk.injEq]
        constructor
        · rintro ⟨rfl, rfl⟩; exact ⟨rfl, s, k, h1, h2, by omega⟩
        · rintro ⟨rfl, s', k', h3, h4, h5⟩
          exact ⟨(huniq s' k' h3 h4).1.symm, rfl⟩
  · unfold DataDir.data
    cases h : dataAt ss data d.virtualAddress with
    | none =>
      simp only [reduceCtorEq, false_iff]
      rintro ⟨s, o, k, h1, h2, h3, -⟩
      have := ((C30_data_at ss data d.virtualAddress).1 _).2 ⟨s, o, k, h1, h2, h3, rfl⟩
      rw [h] at this; simp at this
    | some bytes =>
      simp only
      obtain ⟨s, o, k, h1, h2, h3, h4⟩ := ((C30_data_at ss data d.virtualAddress).1 bytes).1 h
      have hlen : bytes.length = k := by rw [h4]; exact length_slice_of (.inr h3)
      have huniq : ∀ s' o' k', First (fun s => ∃ o n, Maps s d.virtualAddress o n ∧ o + n ≤ data.length) ss s' →
          Maps s' d.virtualAddress o' k' → o' + k' ≤ data.length → bytes = slice data o' k' ∧ k' = k := by
        intro s' o' k' g1 g2 g3
        have := ((C30_data_at ss data d.virtualAddress).1 _).2 ⟨s', o', k', g1, g2, g3, rfl⟩
        rw [h] at this
        have := Option.some.inj this
        refine ⟨this, ?_⟩
        rw [← hlen, this]; exact (length_slice_of (.inr g3)).symm
      by_cases hk : bytes.length < d.size
      · rw [if_pos hk]
        simp only [reduceCtorEq, false_iff]
        rintro ⟨s', o', k', g1, g2, g3, g4, -⟩
        obtain ⟨-, rfl⟩ := huniq s' o' k' g1 g2 g3
        omega
      · rw [if_neg hk]
        have htake : ∀ o' k', d.size ≤ k' → (slice data o' k').take d.size = slice data o' d.size := by
          intro o' k' hle
          simp [slice, List.take_take, Nat.min_eq_left hle]
        simp only [Res.ok.injEq]
        constructor
        · rintro rfl
          exact ⟨s, o, k, h1, h2, h3, by omega, by rw [h4, htake _ _ (by omega)]⟩
        · rintro ⟨s', o', k', g1, g2, g3, g4, rfl⟩
          rw [(huniq s' o' k' g1 g2 g3).1, htake _ _ g4]
  · unfold DataDir.fileRange
    split
    · simp
    · split <;> simp
  · unfold DataDir.data
    split
    · simp
    · split <;> simp

example : DataDir.data ⟨0x100c, 3⟩ (List.replicate 20 0 ++ [1, 2, 3, 4]) [s1] = .ok [1, 2, 3] := by decide +kernel
example : DataDir.fileRange ⟨0x100c, 5⟩ [s1] = .err ∧ DataDir.fileRange ⟨0x100c, 4⟩ [s1] = .ok (20, 4) := by decide +kernel

/-! ## Exports -/

/-- An export directory at address 0x1000 with base 5: four addresses (a code address, a forwarder by name, a forwarder by ordinal
and an unused one) and one name, for the second one. -/
private def edata : List UInt8 :=
  [0, 0, 0, 0, 0, 0, 0, 0, 0, 0, 0, 0, 0, 0, 0, 0,
   5, 0, 0, 0, 4, 0, 0, 0, 1, 0, 0, 0, 0x28, 16, 0, 0, 0x38, 16, 0, 0, 0x3c, 16, 0, 0] ++
  [0, 0x20, 0, 0, 0x40, 16, 0, 0, 0x46, 16, 0, 0, 0, 0, 0, 0] ++
  [0x4b, 16, 0, 0] ++ [1, 0, 0, 0] ++
  [97, 46, 98, 46, 99, 0, 97, 46, 35, 55, 0, 110, 0]

private def etab : ExportTable := ⟨edata, 0x1000, 5, [0x2000, 0x1040, 0x1046, 0], [0x104b], [1]⟩

/-- C57: parsing the export table succeeds exactly if the directory is complete, the ordinals are 16-bit numbers and the tables lie
in the data (tables are absent if their address is 0; a name table needs an ordinal table).  The tables hold exactly the numbers
stored there.  No panic. -/
theorem C57_parse (data : List UInt8) (va : Nat) (hva : va < 2 ^ 32) :
    (∀ t, ExportTable.parse data va = .ok t ↔
      40 ≤ data.length ∧ t.data = data ∧ t.virtualAddress = va ∧ t.ordinalBase = rd .little (slice data 16 4) ∧
      t.ordinalBase < 2 ^ 16 ∧
      (rd .little (slice data 28 4) ≠ 0 → t.ordinalBase + rd .little (slice data 20 4) ≤ 2 ^ 16) ∧
      TableAt data va 4 (rd .little (slice data 28 4)) (rd .little (slice data 20 4)) t.addresses ∧
      (rd .little (slice data 32 4) ≠ 0 → rd .little (slice data 36 4) ≠ 0) ∧
      TableAt data va 4 (rd .little (slice data 32 4)) (rd .little (slice data 24 4)) t.names ∧
      TableAt data va 2 (if rd .little (slice data 32 4) = 0 then 0 else rd .little (slice data 36 4))
        (rd .little (slice data 24 4)) t.nameOrdinals) ∧
    ExportTable.parse data va ≠ .panic :=
  ⟨fun t => parse_iff data va hva t, parse_no_panic data va⟩

example : ExportTable.parse edata 0x1000 = .ok etab := by decide +kernel

/-- C57: the export table of a file is that of the export directory, and there is none if there is no directory. -/
theorem C57_export_table (dirs : List DataDir) (data : List UInt8) (ss : List Coff.Section) :
    (∀ t, exportTable dirs data ss = .ok (some t) ↔ ∃ d b, dirs[0]? = some d ∧ d.virtualAddress ≠ 0 ∧ d.data data ss = .ok b ∧
      ExportTable.parse b d.virtualAddress = .ok t) ∧
    (exportTable dirs data ss = .ok none ↔ ∀ d, dirs[0]? = some d → d.virtualAddress = 0) ∧
    exportTable dirs data ss ≠ .panic := by
  have hg := (C30_directories [] 0 (by decide)).2.2
  unfold exportTable
  cases h : getDir dirs 0 with
  | none =>
    have h' : ∀ d, dirs[0]? = some d → d.virtualAddress = 0 := by
      intro d hd
      rcases Nat.eq_zero_or_pos d.virtualAddress with h0 | h0
      · exact h0
      · rw [(hg dirs 0 d).2 ⟨hd, by omega⟩] at h; simp at h
    refine ⟨fun t => ?_, ?_, by simp⟩
    · simp only [Res.ok.injEq, reduceCtorEq, false_iff]
      rintro ⟨d, b, h1, h2, -⟩
      exact h2 (h' d h1)
    · simpa using h'
  | some d =>
    obtain ⟨hd, h0⟩ := (hg dirs 0 d).1 h
    simp only
    refine ⟨fun t => ?_, ?_, Res.bind_no_panic (C30_directory_data d ss data).2.2.2 fun b _ =>
      Res.bind_no_panic (parse_no_panic _ _) fun _ _ => by simp⟩
    · constructor
      · intro hr
        cases hb : d.data data ss with
        | err => rw [hb] at hr; simp at hr
        | panic => rw [hb] at hr; simp at hr
        | ok b =>
          rw [hb] at hr
          simp only [Res.ok_bind] at hr
          cases hp : ExportTable.parse b d.virtualAddress with
          | err => rw [hp] at hr; simp at hr
          | panic => rw [hp] at hr; simp at hr
          | ok t' =>
            rw [hp] at hr
            simp only [Res.ok_bind, Res.ok.injEq, Option.some.injEq] at hr
            exact ⟨d, b, hd, h0, hb, by rw [hp, hr]⟩
      · rintro ⟨d', b, h1, -, h3, h4⟩
        rw [hd] at h1
        obtain rfl := Option.some.inj h1
        rw [h3]
        simp only [Res.ok_bind]
        rw [h4]; rfl
    · constructor
      · intro hr
        cases hb : d.data data ss with
        | err => rw [hb] at hr; simp at hr
        | panic => rw [hb] at hr; simp at hr
        | ok b =>
          rw [hb] at hr
          simp only [Res.ok_bind] at hr
          cases hp : ExportTable.parse b d.virtualAddress with
          | err => rw [hp] at hr; simp at hr
          | panic => rw [hp] at hr; simp at hr
          | ok t' => rw [hp] at hr; simp at hr
      · intro hall; exact absurd (hall d hd) h0

example : exportTable [⟨0x1000, edata.length⟩] (List.replicate 8 0 ++ edata)
    [{ s1 with virtualSize := 0x100, sizeOfRawData := edata.length }] = .ok (some etab) := by decide +kernel

/-- C57: ordinals and indices of a parsed table correspond one to one; out of range ones are errors; no panic. -/
theorem C57_ordinals {data : List UInt8} {va : Nat} (hva : va < 2 ^ 32) {t : ExportTable} (h : ExportTable.parse data va = .ok t) :
    (∀ i, i < t.addresses.length → t.ordinalFromIndex i = .ok (t.ordinalBase + i)) ∧
    (∀ i, t.addresses.length ≤ i → t.ordinalFromIndex i = .err) ∧
    (∀ o i, o < 2 ^ 16 → (t.indexFromOrdinal o = .ok i ↔ i < t.addresses.length ∧ o = t.ordinalBase + i)) ∧
    (∀ o a, o < 2 ^ 16 → (t.addressByOrdinal o = .ok a ↔ ∃ i, o = t.ordinalBase + i ∧ t.addresses[i]? = some a)) ∧
    (∀ i a, t.addressByIndex i = .ok a ↔ t.addresses[i]? = some a) ∧
    ∀ o, t.indexFromOrdinal o ≠ .panic ∧ t.addressByOrdinal o ≠ .panic ∧ t.addressByIndex o ≠ .panic := by
  have wf := parse_wf hva h
  have hw := wf.ords
  have hb := wf.base
  have hidx : ∀ o i, o < 2 ^ 16 → (t.indexFromOrdinal o = .ok i ↔ i < t.addresses.length ∧ o = t.ordinalBase + i) := by
    intro o i ho
    unfold ExportTable.indexFromOrdinal
    simp only
    by_cases hc : t.addresses.length ≤ (o + U16 - t.ordinalBase) % U16
    · rw [if_pos hc]
      simp only [reduceCtorEq, false_iff]
      rintro ⟨h1, h2⟩
      omega
    · rw [if_neg hc]
      simp only [Res.ok.injEq]
      constructor
      · intro hi; omega
      · rintro ⟨h1, h2⟩; omega
  have hby : ∀ i a, t.addressByIndex i = .ok a ↔ t.addresses[i]? = some a := by
    intro i a
    unfold ExportTable.addressByIndex
    cases t.addresses[i]? <;> simp
  have hnp : ∀ o, t.indexFromOrdinal o ≠ .panic := by
    intro o
    unfold ExportTable.indexFromOrdinal
    simp only
    split <;> simp
  have hnp2 : ∀ o, t.addressByIndex o ≠ .panic := by
    intro o
    unfold ExportTable.addressByIndex
    cases t.addresses[o]? <;> simp
  refine ⟨fun i hi => by rw [ordinalFromIndex_eq wf, if_pos hi], fun i hi => by rw [ordinalFromIndex_eq wf, if_neg (by omega)], hidx,
    fun o a ho => ?_, hby, fun o => ⟨hnp o, Res.bind_no_panic (hnp o) fun _ _ => hnp2 _, hnp2 o⟩⟩
  unfold ExportTable.addressByOrdinal
  constructor
  · intro hr
    cases hi : t.indexFromOrdinal o with
    | err => rw [hi] at hr; simp at hr
    | panic => rw [hi] at hr; simp at hr
    | ok i =>
      rw [hi] at hr
      exact ⟨i, ((hidx o i ho).1 hi).2, (hby i a).1 hr⟩
  · rintro ⟨i, h1, h2⟩
    rw [(hidx o i ho).2 ⟨(List.getElem?_eq_some_iff.1 h2).1, h1⟩]
    exact (hby i a).2 h2

example : etab.ordinalFromIndex 3 = .ok 8 ∧ etab.indexFromOrdinal 8 = .ok 3 ∧ etab.indexFromOrdinal 4 = .err ∧
    etab.addressByOrdinal 6 = .ok 0x1040 := by decide +kernel

/-- C57: the target of an address in the table is the address if it is outside of the export data, otherwise the forwarder there;
it is an error if there is no valid forwarder.  No panic. -/
theorem C57_target (t : ExportTable) (a : Nat) (ha : a < 2 ^ 32) (hva : t.virtualAddress < 2 ^ 32) :
    (∀ x, t.targetFromAddress a = .ok x ↔ TargetOf t.data t.virtualAddress a x) ∧ t.targetFromAddress a ≠ .panic ∧
    (∀ i x, t.targetByIndex i = .ok x ↔ ∃ b, t.addresses[i]? = some b ∧ t.targetFromAddress b = .ok x) ∧
    ∀ s, t.nameFromPointer a = .ok s ↔ NameAt t.data t.virtualAddress a s := by
  refine ⟨target_iff t a ha hva, target_no_panic t a, fun i x => ?_, nameFromPointer_iff t a ha hva⟩
  unfold ExportTable.targetByIndex ExportTable.addressByIndex
  cases t.addresses[i]? with
  | none => simp
  | some b =>
    rw [Res.ofOption_some, Res.ok_bind]
    constructor
    · intro h; exact ⟨b, rfl, h⟩
    · rintro ⟨c, hc, h⟩
      obtain rfl := Option.some.inj hc
      exact h

example : etab.targetFromAddress 0x2000 = .ok (.address 0x2000) ∧
    etab.targetFromAddress 0x1040 = .ok (.forwardByName [97, 46, 98] [99]) ∧
    etab.targetFromAddress 0x1046 = .ok (.forwardByOrdinal [97] 7) := by decide +kernel

/-- C57: `exports` returns one entry per address, in order, with its ordinal, its target and its name (the last one if there are
several); it is an error if some name, target or name index is not valid.  No panic. -/
theorem C57_exports {data : List UInt8} {va : Nat} (hva : va < 2 ^ 32) {t : ExportTable} (h : ExportTable.parse data va = .ok t) :
    (∀ es, t.exports = .ok es ↔ ∃ ns : List (List UInt8), ns.length = t.names.length ∧
      (∀ (j : Nat) p n, t.names[j]? = some p → ns[j]? = some n → NameAt t.data t.virtualAddress p n) ∧
      (∀ i ∈ t.nameOrdinals, i < t.addresses.length) ∧
      es.length = t.addresses.length ∧
      ∀ (i : Nat) a, t.addresses[i]? = some a → ∃ x, TargetOf t.data t.virtualAddress a x ∧
        es[i]? = some ⟨t.ordinalBase + i, lastName t.nameOrdinals ns i, x⟩) ∧
    t.exports ≠ .panic := by
  have wf := parse_wf hva h
  have hz : ∀ q ∈ t.names.zip t.nameOrdinals, q.1 < 2 ^ 32 := fun q hq => wf.names _ (List.of_mem_zip hq).1
  have hl := exportsLoop_iff t wf.va 0 t.addresses wf.addr (by simpa using wf.ords)
  have hmap : (t.names.zip t.nameOrdinals).map (·.2) = t.nameOrdinals := by
    rw [show (fun q : Nat × Nat => q.2) = Prod.snd from rfl, List.map_snd_zip (by rw [wf.len]; exact Nat.le_refl _)]
  refine ⟨fun es => ?_, Res.bind_no_panic (exportsLoop_no_panic _ _ _ (by simpa using wf.ords)) fun _ _ => namesLoop_no_panic _ _ _⟩
  unfold ExportTable.exports
  constructor
  · intro hr
    cases he : t.exportsLoop 0 t.addresses with
    | err => rw [he] at hr; simp at hr
    | panic => rw [he] at hr; simp at hr
    | ok es0 =>
      rw [he, Res.ok_bind] at hr
      obtain ⟨h1, h2⟩ := (hl es0).1 he
      obtain ⟨ns, h3, h4, h5⟩ := (namesLoop_iff t wf.va _ hz es0 es).1 hr
      rw [List.length_zip, wf.len, Nat.min_self] at h3
      have hjz : ∀ (j : Nat) p o, t.names[j]? = some p → t.nameOrdinals[j]? = some o → (t.names.zip t.nameOrdinals)[j]? = some (p, o) := by
        intro j p o hp ho
        rw [List.getElem?_zip_eq_some]; exact ⟨hp, ho⟩
      refine ⟨ns, by rw [h3, wf.len], fun j p n hp hn => ?_, fun i hi => ?_, by rw [h5, setNames_length, h1], fun i a ha => ?_⟩
      · have hj : j < t.names.length := (List.getElem?_eq_some_iff.1 hp).1
        exact (h4 j (p, t.nameOrdinals[j]'(by rw [← wf.len]; exact hj)) n (hjz _ _ _ hp (List.getElem?_eq_getElem _)) hn).1
      · obtain ⟨j, hj, rfl⟩ := List.mem_iff_getElem.1 hi
        have := (h4 j (t.names[j]'(by rw [wf.len]; exact hj), t.nameOrdinals[j]) (ns[j]'(by omega))
          (hjz _ _ _ (List.getElem?_eq_getElem _) (List.getElem?_eq_getElem _)) (List.getElem?_eq_getElem _)).2
        rw [← h1]; exact this
      · obtain ⟨x, hx, hex⟩ := h2 i a ha
        refine ⟨x, hx, ?_⟩
        rw [h5, setNames_get, hex, hmap]
        simp only [Option.map_some, Nat.zero_add, lastName]
        congr 2
        cases (List.filter (fun p => decide (p.fst = i)) (t.nameOrdinals.zip ns)).getLast? <;> rfl
  · rintro ⟨ns, h1, h2, h3, h4, h5⟩
    have he : t.exportsLoop 0 t.addresses = .ok (es.map fun e => { e with name := none }) := by
      refine (hl _).2 ⟨by rw [List.length_map, h4], fun j a ha => ?_⟩
      obtain ⟨x, hx, hex⟩ := h5 j a ha
      exact ⟨x, hx, by rw [List.getElem?_map, hex, Nat.zero_add]; rfl⟩
    rw [he, Res.ok_bind]
    refine (namesLoop_iff t wf.va _ hz _ _).2 ⟨ns, by rw [List.length_zip, wf.len, Nat.min_self, h1, wf.len], fun j q n hq hn => ?_, ?_⟩
    · rw [List.getElem?_zip_eq_some] at hq
      exact ⟨h2 j _ n hq.1 hn, by rw [List.length_map, h4]; exact h3 _ (List.mem_of_getElem? hq.2)⟩
    · rw [hmap]
      apply List.ext_getElem?
      intro i
      rw [setNames_get, List.getElem?_map]
      rcases Nat.lt_or_ge i t.addresses.length with hi | hi
      · obtain ⟨x, hx, hex⟩ := h5 i _ (List.getElem?_eq_getElem hi)
        rw [hex]
        simp only [Option.map_some, lastName]
        congr 2
        cases (List.filter (fun p => decide (p.fst = i)) (t.nameOrdinals.zip ns)).getLast? <;> rfl
      · rw [List.getElem?_eq_none (by omega)]; rfl

example : etab.exports = .ok [⟨5, none, .address 0x2000⟩, ⟨6, some [110], .forwardByName [97, 46, 98] [99]⟩,
    ⟨7, none, .forwardByOrdinal [97] 7⟩, ⟨8, none, .address 0⟩] := by decide +kernel

/-- C57: the unified export iterator first yields one result for each name, in order, then one for each non-zero address without a
name, in order; errors in single entries do not stop it; it does not panic.  Without a table it yields nothing. -/
theorem C57_iter {data : List UInt8} {va : Nat} (hva : va < 2 ^ 32) {t : ExportTable} (h : ExportTable.parse data va = .ok t)
    (imageBase : Nat) :
    (∃ (rs us : List (Res GExport)) (idx : List Nat), Drains ExportIter.next (ExportIter.new imageBase (some t)) (rs ++ us) ∧
      rs.length = t.names.length ∧
      (∀ (j : Nat) p i r, t.names[j]? = some p → t.nameOrdinals[j]? = some i → rs[j]? = some r → NamedItem t imageBase p i r) ∧
      idx.Pairwise (· < ·) ∧ (∀ i : Nat, i ∈ idx ↔ ∃ a, t.addresses[i]? = some a ∧ a ≠ 0 ∧ i ∉ t.nameOrdinals) ∧
      us.length = idx.length ∧
      ∀ (k i : Nat) a r, idx[k]? = some i → t.addresses[i]? = some a → us[k]? = some r → UnnamedItem t imageBase i a r) ∧
    Drains ExportIter.next (ExportIter.new imageBase none) [] := by
  have wf := parse_wf hva h
  refine ⟨⟨_, _, unnamed (mark (List.replicate t.addresses.length false) t.nameOrdinals) 0 t.addresses,
    drains_names wf imageBase (List.replicate t.addresses.length false) (by simp) 0 t.names t.nameOrdinals rfl rfl, ?_, ?_, ?_, ?_, ?_, ?_⟩, ?_⟩
  · simp [wf.len]
  · intro j p i r hp hi hr
    rw [List.getElem?_map, (List.getElem?_zip_eq_some (z := (p, i))).2 ⟨hp, hi⟩] at hr
    obtain rfl := Option.some.inj hr
    exact named_spec wf imageBase p i (wf.names p (List.mem_of_getElem? hp))
  · exact unnamed_sorted _ _ _
  · intro i
    rw [unnamed_mem]
    constructor
    · rintro ⟨-, a, h1, h2, h3⟩
      refine ⟨a, h1, h2, fun hc => h3 ?_⟩
      rw [mark_get]
      exact .inr ⟨by rw [List.length_replicate]; exact (List.getElem?_eq_some_iff.1 h1).1, hc⟩
    · rintro ⟨a, h1, h2, h3⟩
      refine ⟨Nat.zero_le _, a, h1, h2, ?_⟩
      rw [Ne, mark_get]
      rintro (hc | hc)
      · rw [List.getElem?_replicate] at hc
        split at hc <;> simp at hc
      · exact h3 hc.2
  · simp
  · intro k i a r hk ha hr
    rw [List.getElem?_map, hk] at hr
    obtain rfl := Option.some.inj hr
    exact unnamed_spec wf imageBase i a ha
  · exact .done (s' := ExportIter.new imageBase none) rfl

example : Drains ExportIter.next (ExportIter.new 0x10000 (some etab))
    [.ok ⟨.name [110], .reexport [97, 46, 98] (.name [99]), 6⟩, .ok ⟨.ordinal 5, .address 0x12000, 5⟩,
      .ok ⟨.ordinal 7, .reexport [97] (.ordinal 7), 7⟩] :=
  .item (s' := ⟨0x10000, some etab, 1, false, [false, true, false, false]⟩) (by decide +kernel)
  (.item (s' := ⟨0x10000, some etab, 1, true, [false, true, false, false]⟩) (by decide +kernel)
  (.item (s' := ⟨0x10000, some etab, 3, true, [false, true, false, false]⟩) (by decide +kernel)
  (.done (s' := ⟨0x10000, some etab, 4, true, [false, true, false, false]⟩) (by decide +kernel))))

end Obj.Props

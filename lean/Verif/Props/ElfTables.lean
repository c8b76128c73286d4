import Verif.Proof.Elf
import Verif.Props.Bytes

/-! # C42, C47: ELF section, segment and symbol tables -/

namespace Obj.Props
open Obj Obj.Elf Obj.Spec Obj.Spec.ElfS

/-! ## C42 -/

/-- C42: the data of a section is nothing for a section without file contents (`SHT_NOBITS`) or of size 0,
and otherwise exactly the bytes the header names if they are all in the file, else an error. -/
theorem C42_section_data (s : Shdr) (data : List UInt8) :
    s.data data = if s.type = 8 ∨ s.size = 0 then .ok []
      else if s.offset + s.size ≤ data.length then .ok (slice data s.offset s.size) else .err := by
  unfold Shdr.data Shdr.fileRange
  by_cases h : s.type = 8
  · simp [h]
  · simp only [h, if_false, false_or]
    rw [readRef_readBytesAt_eq]
    by_cases h0 : s.size = 0
    · simp [h0, slice]
    · simp [h0]

/-- C42: likewise for the data of a segment. -/
theorem C42_segment_data (p : Phdr) (data : List UInt8) :
    p.data data = if p.filesz = 0 then .ok []
      else if p.offset + p.filesz ≤ data.length then .ok (slice data p.offset p.filesz) else .err := by
  unfold Phdr.data
  rw [readRef_readBytesAt_eq]
  by_cases h0 : p.filesz = 0
  · simp [h0, slice]
  · simp [h0]

/-- C42: an address range looked up in a segment gives the bytes at that distance from the start of the
segment exactly when the whole range lies in the segment's file data. -/
theorem C42_segment_data_range (p : Phdr) (data : List UInt8) (address size : Nat) (hf : p.filesz ≠ 0)
    (hin : p.offset + p.filesz ≤ data.length) :
    p.dataRange data address size = .ok (
      if p.vaddr ≤ address ∧ address + size ≤ p.vaddr + p.filesz then
        some (slice data (p.offset + (address - p.vaddr)) size) else none) := by
  unfold Phdr.dataRange
  rw [C42_segment_data, if_neg hf, if_pos hin]
  simp only [Res.ok.injEq]
  unfold dataRange
  have hl : (slice data p.offset p.filesz).length = p.filesz := by simp [slice]; omega
  by_cases h1 : address < p.vaddr
  · rw [if_pos h1, if_neg (by omega)]
  · rw [if_neg h1]
    simp only [List.length_drop, hl]
    by_cases h2 : p.filesz < address - p.vaddr
    · rw [if_pos h2, if_neg (by omega)]
    · rw [if_neg h2]
      by_cases h3 : p.filesz - (address - p.vaddr) < size
      · rw [if_pos h3, if_neg (by omega)]
      · rw [if_neg h3, if_pos (by omega)]
        have := slice_slice data p.offset p.filesz (address - p.vaddr) size (by omega)
        rw [← this]; rfl

example : (Phdr.mk 1 5 2 0x1000 0 4 8 1).dataRange [9, 9, 1, 2, 3, 4, 9] 0x1001 2 = .ok (some [2, 3]) := by decide
example : (Phdr.mk 1 5 2 0x1000 0 4 8 1).dataRange [9, 9, 1, 2, 3, 4, 9] 0x1003 2 = .ok none := by decide

/-- C42: a section index is valid exactly when it is not 0 and below the number of section headers. -/
theorem C42_section_index (t : SectionTable) (index : Nat) (s : Shdr) :
    (t.section index = .ok s ↔ index ≠ 0 ∧ t.sections[index]? = some s) ∧
    (t.section index = .err ↔ index = 0 ∨ t.sections.length ≤ index) ∧ t.section index ≠ .panic := by
  unfold SectionTable.section
  by_cases h : index = 0
  · simp [h]
  · simp only [h, if_false]
    cases hs : t.sections[index]? with
    | none => rw [List.getElem?_eq_none_iff] at hs; simp [h, hs]
    | some x => have := (List.getElem?_eq_some_iff.1 hs).1; simp [h]; omega

/-- C42: likewise for a symbol index. -/
theorem C42_symbol_index (t : SymTab) (index : Nat) (s : Sym) :
    (t.symbol index = .ok s ↔ index ≠ 0 ∧ t.symbols[index]? = some s) ∧
    (t.symbol index = .err ↔ index = 0 ∨ t.symbols.length ≤ index) ∧ t.symbol index ≠ .panic := by
  unfold SymTab.symbol
  by_cases h : index = 0
  · simp [h]
  · simp only [h, if_false]
    cases hs : t.symbols[index]? with
    | none => rw [List.getElem?_eq_none_iff] at hs; simp [h, hs]
    | some x => have := (List.getElem?_eq_some_iff.1 hs).1; simp [h]; omega

private theorem readSliceAt_ok {data : List UInt8} {o size n : Nat} {imgs : List (List UInt8)} (hs : 0 < size) (hn : n ≠ 0)
    (h : readSliceAt data o size n = .ok imgs) :
    imgs = (List.range n).map (fun i => slice data (o + i * size) size) ∧ o + n * size ≤ data.length := by
  unfold readSliceAt ReadRef.readSlice ReadRef.readBytes at h
  rw [readRef_readBytesAt_eq] at h
  split at h
  · simp at h
  · have hpos : 0 < n * size := Nat.mul_pos (by omega) hs
    by_cases hc : o + n * size ≤ data.length
    · rw [if_pos (Or.inr hc)] at h
      simp only [Res.ok.injEq] at h
      refine ⟨?_, hc⟩
      rw [← h, chunks_eq_map]
      apply List.map_congr_left
      intro i hi
      have hi' : i < n := by simpa using hi
      apply slice_slice
      have : (i + 1) * size ≤ n * size := Nat.mul_le_mul_right _ hi'
      rw [Nat.succ_mul] at this; omega
    · rw [if_neg (by omega)] at h
      simp at h

private theorem readSliceAt_no_panic (data : List UInt8) (o size n : Nat) : readSliceAt data o size n ≠ .panic := by
  unfold readSliceAt ReadRef.readSlice ReadRef.readBytes
  rw [readRef_readBytesAt_eq]
  by_cases h1 : U64 ≤ n * size
  · rw [if_pos h1]; simp
  · rw [if_neg h1]
    by_cases h2 : n * size = 0 ∨ o + n * size ≤ data.length
    · rw [if_pos h2]; simp
    · rw [if_neg h2]; simp

/-- C42: every section header returned is the decoding of the bytes at its position in the table, and the
whole table lies in the file. -/
theorem C42_section_headers_in_bounds (c : Cfg) (h : Ehdr) (data : List UInt8) (ss : List Shdr)
    (hok : sectionHeaders c h data = .ok ss) :
    (∀ i s, ss[i]? = some s → s = Shdr.decode c (slice data (h.shoff + i * c.shdrSize) c.shdrSize)) ∧
    (ss ≠ [] → h.shoff + ss.length * c.shdrSize ≤ data.length ∧ shnum c h data = .ok ss.length) := by
  unfold sectionHeaders at hok
  split at hok
  · simp at hok; subst hok; simp
  · split at hok
    · rename_i n hn
      split at hok
      · simp at hok; subst hok; simp
      · split at hok
        · simp at hok
        · split at hok
          · rename_i imgs hi
            simp only [Res.ok.injEq] at hok
            subst hok
            obtain ⟨h1, h2⟩ := readSliceAt_ok (by unfold Cfg.shdrSize; split <;> decide) (by assumption) hi
            subst h1
            refine ⟨?_, fun _ => ⟨by simpa using h2, by simpa using hn⟩⟩
            intro i s his
            simp only [List.getElem?_map, Option.map_eq_some_iff] at his
            obtain ⟨img, ⟨j, hj, rfl⟩, rfl⟩ := his
            obtain ⟨hj1, hj2⟩ := List.getElem?_eq_some_iff.1 hj
            simp at hj2; subst hj2; rfl
          · simp at hok
          · simp at hok
    · simp at hok
    · simp at hok

/-- C42: likewise for program headers. -/
theorem C42_program_headers_in_bounds (c : Cfg) (h : Ehdr) (data : List UInt8) (ps : List Phdr)
    (hok : programHeaders c h data = .ok ps) :
    (∀ i p, ps[i]? = some p → p = Phdr.decode c (slice data (h.phoff + i * c.phdrSize) c.phdrSize)) ∧
    (ps ≠ [] → h.phoff + ps.length * c.phdrSize ≤ data.length ∧ phnum c h data = .ok ps.length) := by
  unfold programHeaders at hok
  split at hok
  · simp at hok; subst hok; simp
  · split at hok
    · rename_i n hn
      split at hok
      · simp at hok; subst hok; simp
      · split at hok
        · simp at hok
        · split at hok
          · rename_i imgs hi
            simp only [Res.ok.injEq] at hok
            subst hok
            obtain ⟨h1, h2⟩ := readSliceAt_ok (by unfold Cfg.phdrSize; split <;> decide) (by assumption) hi
            subst h1
            refine ⟨?_, fun _ => ⟨by simpa using h2, by simpa using hn⟩⟩
            intro i s his
            simp only [List.getElem?_map, Option.map_eq_some_iff] at his
            obtain ⟨img, ⟨j, hj, rfl⟩, rfl⟩ := his
            obtain ⟨hj1, hj2⟩ := List.getElem?_eq_some_iff.1 hj
            simp at hj2; subst hj2; rfl
          · simp at hok
          · simp at hok
    · simp at hok
    · simp at hok

theorem sliceFromAll_ok {size : Nat} {d : List UInt8} {imgs : List (List UInt8)}
    (h : sliceFromAllBytes size d = .ok imgs) : imgs.flatten = d ∧ ∀ img ∈ imgs, img.length = size := by
  unfold sliceFromAllBytes Bytes.readSlice at h
  split at h
  · rename_i sl tail heq
    split at heq
    · rename_i hc
      simp only [Prod.mk.injEq, Res.ok.injEq] at heq
      obtain ⟨rfl, rfl⟩ := heq
      split at h
      · simp at h
      · rename_i ht
        simp only [Res.ok.injEq] at h
        subst h
        obtain ⟨h1, h2, h3⟩ := flatten_chunks size (d.length / size) d hc.2
        refine ⟨?_, h2⟩
        rw [h1]
        simp at ht
        rw [List.take_of_length_le ht]
    · simp at heq
  · simp at h
  · simp at h

theorem sliceFromAll_no_panic (size : Nat) (d : List UInt8) : sliceFromAllBytes size d ≠ .panic := by
  unfold sliceFromAllBytes Bytes.readSlice
  split
  · split <;> simp
  · simp
  · rename_i h; split at h <;> simp at h

/-- C42: a section read as an array of records (symbols, relocations, dynamic entries, ...) gives its data cut
into records without anything left over, or an error. -/
theorem C42_section_array (s : Shdr) (data : List UInt8) (size : Nat) (hs : 0 < size) (hlen : data.length < 2 ^ 64)
    (imgs : List (List UInt8)) :
    (s.dataAsArray data size = .ok imgs ↔
      ∃ d, s.data data = .ok d ∧ imgs.flatten = d ∧ ∀ img ∈ imgs, img.length = size) ∧
    s.dataAsArray data size ≠ .panic := by
  unfold Shdr.dataAsArray
  have hlen' : ∀ d, s.data data = .ok d → d.length < U64 := by
    intro d hd
    rw [C42_section_data] at hd
    split at hd
    · simp at hd; subst hd; decide
    · split at hd
      · simp at hd; subst hd; simp [slice]; omega
      · simp at hd
  cases hd : s.data data with
  | ok d =>
    refine ⟨⟨fun h => ⟨d, rfl, sliceFromAll_ok h⟩, ?_⟩, sliceFromAll_no_panic size d⟩
    rintro ⟨d', h1, h2, h3⟩
    simp only [Res.ok.injEq] at h1
    subst h1
    have h4 := sliceFromAllBytes_flatMap (fun x : List UInt8 => x) size hs imgs h3
    simp only [List.map_id'] at h4
    rw [show imgs.flatMap (fun x => x) = d from h2 ▸ (List.flatten_eq_flatMap (L := imgs)).symm] at h4
    exact h4 (hlen' d hd)
  | err => simp
  | panic =>
    exfalso
    rw [C42_section_data] at hd
    split at hd
    · simp at hd
    · split at hd <;> simp at hd

/-- The bytes of a string table entry. -/
theorem C42_string_lookup (t : StrTable) (data : List UInt8) (offset : Nat) (n : List UInt8) (hlen : data.length < 2 ^ 64) :
    (t.get data offset = .ok n ↔ ∃ start stop, t = some (start, stop) ∧ stop ≤ data.length ∧
      start + offset + n.length < stop ∧ At data (start + offset) (n ++ [0]) ∧ (0 : UInt8) ∉ n) ∧
    t.get data offset ≠ .panic := by
  unfold StrTable.get
  match t with
  | none => simp [stringTableGet]
  | some (s, e) =>
    obtain ⟨h1, h2⟩ := C06_string_table_get data s e offset n hlen
    refine ⟨?_, h2⟩
    simp only [h1]
    constructor
    · rintro ⟨pre, mid, post, rfl, h3, h4, h5⟩
      refine ⟨s, e, rfl, ?_, ?_, ?_, h3⟩
      · simp at h5 ⊢; omega
      · simp at h5; omega
      · unfold At slice
        rw [← h4]
        simp only [List.append_assoc, List.drop_left]
        rw [show n ++ (0 :: mid ++ post) = (n ++ [0]) ++ (mid ++ post) by simp, List.take_left]
    · rintro ⟨s', e', h3, h4, h5, h6, h7⟩
      simp only [Option.some.injEq, Prod.mk.injEq] at h3
      obtain ⟨rfl, rfl⟩ := h3
      have hle := at_le h6 (by simp)
      simp at hle
      refine ⟨data.take (s + offset), (data.take e).drop (s + offset + n.length + 1), data.drop e, ?_, h7, ?_, ?_⟩
      · have h8 : data.take e ++ data.drop e = data := List.take_append_drop e data
        have h9 : data.take e = data.take (s + offset) ++ (n ++ [0]) ++ (data.take e).drop (s + offset + n.length + 1) := by
          unfold At slice at h6
          have h10 : (data.take e).take (s + offset + n.length + 1) = data.take (s + offset) ++ (n ++ [0]) := by
            rw [List.take_take, Nat.min_eq_left (by omega), Nat.add_assoc, List.take_add]
            congr 1
            simpa using h6
          rw [← h10, List.take_append_drop]
        conv => lhs; rw [← h8, h9]
        simp
      · simp; omega
      · simp; omega

/-- C42: a section name or symbol name is the NUL-terminated string at the header's offset inside the
associated string table, or an error. -/
theorem C42_names (data : List UInt8) (hlen : data.length < 2 ^ 64) (n : List UInt8) :
    (∀ (t : SectionTable) (s : Shdr), t.sectionName data s = .ok n ↔ ∃ start stop, t.strings = some (start, stop) ∧
      stop ≤ data.length ∧ start + s.name + n.length < stop ∧ At data (start + s.name) (n ++ [0]) ∧ (0 : UInt8) ∉ n) ∧
    (∀ (t : SymTab) (s : Sym), t.symbolName data s = .ok n ↔ ∃ start stop, t.strings = some (start, stop) ∧
      stop ≤ data.length ∧ start + s.name + n.length < stop ∧ At data (start + s.name) (n ++ [0]) ∧ (0 : UInt8) ∉ n) :=
  ⟨fun t s => (C42_string_lookup t.strings data s.name n hlen).1,
    fun t s => (C42_string_lookup t.strings data s.name n hlen).1⟩

/-- C42: `section_by_name` finds the first section with that name. -/
theorem C42_section_by_name (t : SectionTable) (data name : List UInt8) (i : Nat) (s : Shdr) :
    (t.sectionByName data name = some (i, s) ↔
      t.sections[i]? = some s ∧ t.sectionName data s = .ok name ∧
      ∀ j s', j < i → t.sections[j]? = some s' → t.sectionName data s' ≠ .ok name) ∧
    (t.sectionByName data name = none ↔ ∀ s ∈ t.sections, t.sectionName data s ≠ .ok name) := by
  unfold SectionTable.sectionByName
  constructor
  · rw [Option.map_eq_some_iff]
    constructor
    · rintro ⟨⟨s', i'⟩, h1, h2⟩
      simp only [Prod.mk.injEq] at h2
      obtain ⟨rfl, rfl⟩ := h2
      rw [List.find?_eq_some_iff_getElem] at h1
      obtain ⟨h1, k, hk, h2, h3⟩ := h1
      simp only [beq_iff_eq, List.getElem_zipIdx, Nat.zero_add, Prod.mk.injEq, Bool.not_eq_true', beq_eq_false_iff_ne] at h1 h2 h3
      obtain ⟨rfl, rfl⟩ := h2
      refine ⟨by simp, h1, ?_⟩
      intro j s' hj hs'
      obtain ⟨hj1, rfl⟩ := List.getElem?_eq_some_iff.1 hs'
      exact h3 j hj
    · rintro ⟨h1, h2, h3⟩
      obtain ⟨hi, rfl⟩ := List.getElem?_eq_some_iff.1 h1
      refine ⟨(t.sections[i], i), ?_, rfl⟩
      rw [List.find?_eq_some_iff_getElem]
      refine ⟨by simp [h2], i, by simpa using hi, by simp, ?_⟩
      intro j hj
      simp only [List.getElem_zipIdx, Bool.not_eq_true', beq_eq_false_iff_ne]
      exact h3 j _ hj (by simp)
  · rw [Option.map_eq_none_iff, List.find?_eq_none]
    constructor
    · intro h s hs
      obtain ⟨i, hi, rfl⟩ := List.mem_iff_getElem.1 hs
      have := h (t.sections[i], i) (by rw [List.mem_zipIdx_iff_getElem?]; simp)
      simpa using this
    · intro h p hp
      rw [List.mem_zipIdx_iff_getElem?] at hp
      have := h p.1 (List.mem_of_getElem? hp)
      simpa using this

private theorem section0_no_panic (c : Cfg) (h : Ehdr) (data : List UInt8) : section0 c h data ≠ .panic := by
  unfold section0
  have := readRef_readBytesAt_no_panic data h.shoff c.shdrSize
  split
  · simp
  · split
    · simp
    · split <;> simp_all

private theorem shnum_no_panic (c : Cfg) (h : Ehdr) (data : List UInt8) : shnum c h data ≠ .panic := by
  have := section0_no_panic c h data
  unfold shnum
  repeat' split
  all_goals simp_all

private theorem phnum_no_panic (c : Cfg) (h : Ehdr) (data : List UInt8) : phnum c h data ≠ .panic := by
  have := section0_no_panic c h data
  unfold phnum
  repeat' split
  all_goals simp_all

theorem shstrndx_no_panic (c : Cfg) (h : Ehdr) (data : List UInt8) : shstrndx c h data ≠ .panic := by
  have := section0_no_panic c h data
  unfold shstrndx
  repeat' split
  all_goals simp_all

private theorem sectionHeaders_no_panic (c : Cfg) (h : Ehdr) (data : List UInt8) : sectionHeaders c h data ≠ .panic := by
  have h1 := shnum_no_panic c h data
  unfold sectionHeaders
  split
  · simp
  · split
    · rename_i n _
      have h2 := readSliceAt_no_panic data h.shoff c.shdrSize n
      repeat' split
      all_goals simp_all
    · simp
    · simp_all

theorem data_no_panic (s : Shdr) (data : List UInt8) : s.data data ≠ .panic := by
  rw [C42_section_data]
  repeat' split
  all_goals simp

theorem dataAsArray_no_panic (s : Shdr) (data : List UInt8) (size : Nat) : s.dataAsArray data size ≠ .panic := by
  have h1 := data_no_panic s data
  unfold Shdr.dataAsArray
  cases hd : s.data data with
  | ok d => exact sliceFromAll_no_panic size d
  | err => simp
  | panic => exact absurd hd h1

theorem stringsAt_no_panic (t : SectionTable) (i : Nat) : t.stringsAt i ≠ .panic := by
  unfold SectionTable.stringsAt
  split
  · simp
  · cases hs : t.section i with
    | ok s =>
      simp only
      unfold Shdr.strings
      by_cases h1 : s.type ≠ 3
      · rw [if_pos h1]; simp
      · rw [if_neg h1]
        by_cases h2 : U64 ≤ s.offset + s.size
        · rw [if_pos h2]; simp
        · rw [if_neg h2]; simp
    | err => simp
    | panic => exact absurd hs (C42_section_index t i ⟨0, 0, 0, 0, 0, 0, 0, 0, 0, 0⟩).2.2

private theorem shndxLoop_no_panic (c : Cfg) (data : List UInt8) (i : Nat) (l : List (Shdr × Nat)) (acc : Nat × List Nat) :
    shndxLoop c data i l acc ≠ .panic := by
  induction l generalizing acc with
  | nil => simp [shndxLoop]
  | cons p l ih =>
    obtain ⟨s, k⟩ := p
    unfold shndxLoop
    have := dataAsArray_no_panic s data 4
    split
    · cases hd : s.dataAsArray data 4 with
      | ok d => exact ih _
      | err => simp
      | panic => exact absurd hd this
    · exact ih _

private theorem parse_no_panic (c : Cfg) (data : List UInt8) (t : SectionTable) (i : Nat) (s : Shdr)
    (h : s.type = 11 ∨ s.type = 2) : SymTab.parse c data t i s ≠ .panic := by
  unfold SymTab.parse
  rw [if_neg (by omega)]
  have h1 := dataAsArray_no_panic s data c.symSize
  have h2 := stringsAt_no_panic t s.link
  have h3 := shndxLoop_no_panic c data i t.sections.zipIdx (0, [])
  cases hd : s.dataAsArray data c.symSize <;> simp_all
  cases hd : t.stringsAt s.link <;> simp_all
  cases hd : shndxLoop c data i t.sections.zipIdx (0, []) <;> simp_all

/-- C42: none of these reads panics, whatever the file contains: the file header, the section and program
header tables, the section name table, section and segment contents, names, and the symbol tables. -/
theorem C42_no_panic (c : Cfg) (is64 : Bool) (h : Ehdr) (data : List UInt8) (t : SectionTable) (s : Shdr) (p : Phdr)
    (i address size : Nat) (hlen : data.length < 2 ^ 64) :
    parseHeader is64 data ≠ .panic ∧ sectionHeaders c h data ≠ .panic ∧ programHeaders c h data ≠ .panic ∧
    sections c h data ≠ .panic ∧ s.data data ≠ .panic ∧ p.data data ≠ .panic ∧ p.dataRange data address size ≠ .panic ∧
    p.interpreter data ≠ .panic ∧ t.sectionName data s ≠ .panic ∧ t.stringsAt i ≠ .panic ∧
    SectionTable.symbolTableByIndex c data t i ≠ .panic ∧
    (∀ shType, shType = 2 ∨ shType = 11 → SectionTable.symbols c data t shType ≠ .panic) ∧
    (∀ (st : SymTab) sym, st.symbolSection sym i ≠ .panic ∧ st.symbolName data sym ≠ .panic) := by
  have hp : ∀ p : Phdr, p.data data ≠ .panic := by
    intro p; rw [C42_segment_data]
    repeat' split
    all_goals simp
  refine ⟨?_, sectionHeaders_no_panic c h data, ?_, ?_, data_no_panic s data, hp p, ?_, ?_, ?_, stringsAt_no_panic t i, ?_, ?_, ?_⟩
  · unfold parseHeader
    have := readRef_readBytesAt_no_panic data 0 (if is64 then 64 else 52)
    split
    · split <;> simp
    · simp
    · exact absurd (by assumption) this
  · have h1 := phnum_no_panic c h data
    unfold programHeaders
    split
    · simp
    · split
      · rename_i n _
        have h2 := readSliceAt_no_panic data h.phoff c.phdrSize n
        repeat' split
        all_goals simp_all
      · simp
      · simp_all
  · unfold sections
    have h1 := sectionHeaders_no_panic c h data
    have h2 := shstrndx_no_panic c h data
    cases hs : sectionHeaders c h data with
    | ok ss =>
      have h3 : sectionStrings c h data ss ≠ .panic := by
        unfold sectionStrings
        repeat' split
        all_goals simp_all
      cases hs : sectionStrings c h data ss <;> simp_all
    | err => simp
    | panic => exact absurd hs h1
  · unfold Phdr.dataRange
    have := hp p
    split <;> simp_all
  · unfold Phdr.interpreter
    have := hp p
    repeat' split
    all_goals simp_all
  · exact (C42_string_lookup t.strings data s.name [] hlen).2
  · unfold SectionTable.symbolTableByIndex
    have h1 := fun s => (C42_section_index t i s).2.2
    cases hs : t.section i with
    | ok x =>
      simp only [Res.bind_eq, Res.ok_bind]
      split
      · exact parse_no_panic c data t i x (by assumption)
      · simp
    | err => simp
    | panic => exact absurd hs (h1 ⟨0, 0, 0, 0, 0, 0, 0, 0, 0, 0⟩)
  · intro shType hty
    unfold SectionTable.symbols
    split
    · rename_i s' k hf
      have := List.find?_some hf
      simp at this
      exact parse_no_panic c data t k s' (by omega)
    · simp
  · intro st sym
    refine ⟨?_, (C42_string_lookup st.strings data sym.name [] hlen).2⟩
    unfold SymTab.symbolSection
    repeat' split
    all_goals simp

/-- C42: the symbol table of a section: one symbol per record of the section's data, names from the linked
string section. -/
theorem C42_symbol_table (c : Cfg) (data : List UInt8) (t : SectionTable) (i : Nat) (tab : SymTab)
    (h : SectionTable.symbolTableByIndex c data t i = .ok tab) :
    ∃ s imgs, t.section i = .ok s ∧ (s.type = 2 ∨ s.type = 11) ∧ s.dataAsArray data c.symSize = .ok imgs ∧
      tab.symbols = imgs.map (Sym.decode c) ∧ t.stringsAt s.link = .ok tab.strings ∧ tab.sec = i := by
  unfold SectionTable.symbolTableByIndex at h
  cases hs : t.section i with
  | ok s =>
    simp only [hs, Res.bind_eq, Res.ok_bind] at h
    split at h
    · rename_i hty
      unfold SymTab.parse at h
      rw [if_neg (by omega)] at h
      cases hd : s.dataAsArray data c.symSize with
      | ok imgs =>
        cases hst : t.stringsAt s.link with
        | ok st =>
          cases hl : shndxLoop c data i t.sections.zipIdx (0, []) with
          | ok r =>
            simp only [hd, hst, hl, Res.bind_eq, Res.ok_bind, Res.ok.injEq] at h
            subst h
            exact ⟨s, imgs, rfl, by omega, hd, rfl, hst, rfl⟩
          | err => simp [hd, hst, hl] at h
          | panic => simp [hd, hst, hl] at h
        | err => simp [hd, hst] at h
        | panic => simp [hd, hst] at h
      | err => simp [hd] at h
      | panic => simp [hd] at h
    · simp at h
  | err => simp [hs] at h
  | panic => simp [hs] at h

/-! ## C47 -/

private theorem shndxLoop_eq (c : Cfg) (data : List UInt8) (i : Nat) (D : List Nat) (l : List (Shdr × Nat)) (acc : Nat × List Nat)
    (h : ∀ p ∈ l, p.1.type = 18 → p.1.link = i → ∃ d, p.1.dataAsArray data 4 = .ok d ∧ d.map (rd c.en) = D) :
    ∃ k xs, shndxLoop c data i l acc = .ok (k, xs) ∧
      (xs = D ∨ (xs = acc.2 ∧ ∀ p ∈ l, ¬ (p.1.type = 18 ∧ p.1.link = i))) := by
  induction l generalizing acc with
  | nil => exact ⟨acc.1, acc.2, by simp [shndxLoop]⟩
  | cons p l ih =>
    obtain ⟨s, k⟩ := p
    unfold shndxLoop
    by_cases hc : s.type = 18 ∧ s.link = i
    · rw [if_pos hc]
      obtain ⟨d, hd, hD⟩ := h (s, k) (by simp) hc.1 hc.2
      rw [hd]
      simp only
      obtain ⟨k', xs, hk', hx⟩ := ih (k, d.map (rd c.en)) (fun p hp => h p (by simp [hp]))
      refine ⟨k', xs, hk', Or.inl ?_⟩
      rcases hx with hx | ⟨hx, -⟩
      · exact hx
      · rw [hx]; exact hD
    · rw [if_neg hc]
      obtain ⟨k', xs, hk', hx⟩ := ih acc (fun p hp => h p (by simp [hp]))
      refine ⟨k', xs, hk', hx.imp_right fun ⟨h1, h2⟩ => ⟨h1, ?_⟩⟩
      intro p hp
      rcases List.mem_cons.1 hp with rfl | hp
      · exact hc
      · exact h2 p hp

theorem dataAsArray_flatMap {α : Type} (enc : α → List UInt8) (size : Nat) (hs : 0 < size) (xs : List α)
    (h : ∀ x ∈ xs, (enc x).length = size) (s : Shdr) (data : List UInt8) (hlen : data.length < 2 ^ 64)
    (hh : Holds data s (xs.flatMap enc)) : s.dataAsArray data size = .ok (xs.map enc) := by
  obtain ⟨h1, h2, h3⟩ := hh
  have hl : (xs.flatMap enc).length < U64 := by
    by_cases he : xs.flatMap enc = []
    · rw [he]; decide
    · have := at_le h3 he; omega
  unfold Shdr.dataAsArray Shdr.data Shdr.fileRange
  rw [if_neg h1]
  simp only
  rw [h2, at_read h3]
  exact sliceFromAllBytes_flatMap enc size hs xs h hl

private def nullW : WSym := ⟨0, 0, 0, 0, 0, 0, none⟩

private def symOf (ws : WSym) : Sym :=
  ⟨ws.name, ws.info, ws.other, match ws.sec with | some n => symbolSectionNew n | none => ws.shndx, ws.value, ws.size⟩

private theorem symtabBytes_eq (c : Cfg) (syms : List WSym) :
    symtabBytes c syms = (nullW :: syms).flatMap fun w => Sym.encode c (symOf w) := rfl

private theorem shndxBytes_eq (c : Cfg) (syms : List WSym) :
    symtabShndxBytes c syms = (nullW :: syms).flatMap fun w => wr c.en 4 ((writeSymbol c w).2.getD 0) := by
  unfold symtabShndxBytes
  rw [List.flatMap_cons]; rfl

/-- C47: symbols written by the writer (any number, any section index below 2^32) are read back with all their
fields and their section, through the extended index table when the section index does not fit. -/
theorem C47_symbols_round_trip (c : Cfg) (data : List UInt8) (t : SectionTable) (index : Nat) (s : Shdr) (st : StrTable)
    (syms : List WSym) (hfit : ∀ w ∈ syms, WSymFits c.is64 w) (hlen : data.length < 2 ^ 64)
    (hidx : index ≠ 0) (hs : t.sections[index]? = some s) (hty : s.type = 2 ∨ s.type = 11)
    (hstr : t.stringsAt s.link = .ok st) (hdata : Holds data s (symtabBytes c syms))
    (hshndx : ∀ x ∈ t.sections, x.type = 18 → x.link = index → Holds data x (symtabShndxBytes c syms))
    (hneed : needSymtabShndx syms = true → ∃ x ∈ t.sections, x.type = 18 ∧ x.link = index)
    (hx : ∀ w ∈ syms, w.sec = none → w.shndx ≠ 0xffff) :
    ∃ tab, SectionTable.symbolTableByIndex c data t index = .ok tab ∧ tab.strings = st ∧
      tab.symbols.length = syms.length + 1 ∧
      ∀ (j : Nat) (w : WSym), syms[j]? = some w → ∃ sym, tab.symbol (j + 1) = .ok sym ∧
        sym.name = w.name ∧ sym.info = w.info ∧ sym.other = w.other ∧ sym.value = w.value ∧ sym.size = w.size ∧
        (w.sec = none → sym.shndx = w.shndx) ∧
        tab.symbolSection sym (j + 1) = .ok (wsymSection w) := by
  have hss : 0 < c.symSize := by unfold Cfg.symSize; split <;> decide
  rw [symtabBytes_eq] at hdata
  have hd := dataAsArray_flatMap _ c.symSize hss (nullW :: syms) (fun w _ => Sym.length_encode c (symOf w)) s data hlen hdata
  have hsec : t.section index = .ok s := (C42_section_index t index s).1.2 ⟨hidx, hs⟩
  have hdec : ((nullW :: syms).map fun w => Sym.encode c (symOf w)).map (Sym.decode c) = (nullW :: syms).map symOf := by
    rw [List.map_map]
    apply List.map_congr_left
    intro w hw
    have hf : SymFits c.is64 (symOf w) := by
      rcases List.mem_cons.1 hw with rfl | hw
      · refine ⟨by decide, by decide, by decide, by decide, ?_, ?_⟩ <;> (unfold wordMax; cases c.is64 <;> decide)
      · obtain ⟨h1, h2, h3, h4, h5, h6, h7⟩ := hfit w hw
        refine ⟨h1, h2, h3, ?_, h5, h6⟩
        unfold symOf
        simp only
        split
        · unfold symbolSectionNew; split <;> omega
        · exact h4
    have := Sym.decode_encode c (symOf w) hf []
    simpa using this
  obtain ⟨k, xs, hk, hxs⟩ := shndxLoop_eq c data index ((nullW :: syms).map fun w => (writeSymbol c w).2.getD 0) t.sections.zipIdx (0, [])
    (by
      intro p hp h1 h2
      rw [List.mem_zipIdx_iff_getElem?] at hp
      have hh := hshndx p.1 (List.mem_of_getElem? hp) h1 h2
      rw [shndxBytes_eq] at hh
      refine ⟨_, dataAsArray_flatMap _ 4 (by decide) (nullW :: syms) (fun w _ => by simp) p.1 data hlen hh, ?_⟩
      rw [List.map_map]
      apply List.map_congr_left
      intro w hw
      simp only [Function.comp]
      apply rd_wr
      rcases List.mem_cons.1 hw with rfl | hw
      · show 0 < 256 ^ 4; decide
      · have := (hfit w hw).sec
        unfold writeSymbol
        cases hws : w.sec with
        | none => simp only; split <;> simp
        | some n =>
          have := this n hws
          simp only
          split
          · simpa using this
          · simp)
  refine ⟨⟨index, s.link, k, (nullW :: syms).map symOf, st, xs⟩, ?_, rfl, by simp, ?_⟩
  · unfold SectionTable.symbolTableByIndex SymTab.parse
    simp only [hsec, Res.bind_eq, Res.ok_bind]
    rw [if_pos (by omega), if_neg (by omega), hd, Res.ok_bind, hstr, Res.ok_bind, hk, Res.ok_bind, hdec]
  · intro j w hj
    have hmem : w ∈ syms := List.mem_of_getElem? hj
    refine ⟨symOf w, ?_, rfl, rfl, rfl, rfl, rfl, ?_, ?_⟩
    · unfold SymTab.symbol
      rw [if_neg (by omega)]
      simp [hj]
    · intro hn; unfold symOf; rw [hn]
    · unfold SymTab.symbolSection wsymSection
      cases hws : w.sec with
      | none =>
        have h1 := hx w hmem hws
        simp only [symOf, hws, symbolSectionIndex]
        by_cases hz : w.shndx = 0 ∨ 0xff00 ≤ w.shndx
        · rw [if_pos hz]
          simp only
          rw [if_neg h1, if_neg (by omega)]
        · rw [if_neg hz]
          simp only
          rw [if_pos (by omega)]
      | some n =>
        have hn := (hfit w hmem).sec n hws
        simp only [symOf, hws, symbolSectionNew]
        by_cases hge : 0xff00 ≤ n
        · rw [if_pos hge]
          have hnd : needSymtabShndx syms = true := by
            unfold needSymtabShndx
            rw [List.any_eq_true]
            exact ⟨w, hmem, by simp [hws, hge]⟩
          obtain ⟨x, hx1, hx2⟩ := hneed hnd
          obtain ⟨kk, hkk, rfl⟩ := List.mem_iff_getElem.1 hx1
          have hxs' : xs = (nullW :: syms).map fun w => (writeSymbol c w).2.getD 0 := by
            rcases hxs with hxs | ⟨-, hno⟩
            · exact hxs
            · exact absurd hx2 (hno (t.sections[kk], kk) (by rw [List.mem_zipIdx_iff_getElem?]; simp))
          rw [hxs']
          have hval : (writeSymbol c w).2.getD 0 = n := by
            unfold writeSymbol
            simp [hws, symbolSectionNew, hge]
          have : (if 65535 = 0 ∨ 65280 ≤ 65535 then (none : Option Nat) else some 65535) = none := by decide
          simp only [symbolSectionIndex, this, if_true]
          have : ((nullW :: syms).map fun w => (writeSymbol c w).2.getD 0)[j + 1]? = some n := by
            simp [hj, hval]
          rw [this]
          simp only
          split <;> rfl
        · rw [if_neg hge]
          simp only [symbolSectionIndex]
          by_cases h0 : n = 0
          · subst h0; simp
          · rw [if_neg (by omega), if_neg h0]

/-- Without extended indices needed, nothing but the symbol section is required. -/
example : ∃ tab, SectionTable.symbolTableByIndex ⟨false, .little⟩
    (symtabBytes ⟨false, .little⟩ [⟨1, 18, 0, 0, 0x1000, 4, some 7⟩])
    ⟨[⟨0, 0, 0, 0, 0, 0, 0, 0, 0, 0⟩, ⟨0, 2, 0, 0, 0, 32, 0, 0, 0, 0⟩], none⟩ 1 = .ok tab ∧
    tab.symbolSection ⟨1, 18, 0, 7, 0x1000, 4⟩ 1 = .ok (some 7) ∧ tab.symbols.length = 2 :=
  ⟨_, rfl, by decide, by decide⟩

/-- Section index 70000 goes through the extended table. -/
example : let syms : List WSym := [⟨1, 18, 0, 0, 0x1000, 4, some 70000⟩]
    let data := symtabBytes ⟨false, .big⟩ syms ++ symtabShndxBytes ⟨false, .big⟩ syms
    ∃ tab, SectionTable.symbolTableByIndex ⟨false, .big⟩ data
      ⟨[⟨0, 0, 0, 0, 0, 0, 0, 0, 0, 0⟩, ⟨0, 2, 0, 0, 0, 32, 0, 0, 0, 0⟩, ⟨0, 18, 0, 0, 32, 8, 1, 0, 0, 0⟩], none⟩ 1 = .ok tab ∧
    needSymtabShndx syms = true ∧
    tab.symbolSection ⟨1, 18, 0, 0xffff, 0x1000, 4⟩ 1 = .ok (some 70000) :=
  ⟨_, rfl, by decide, by decide⟩

end Obj.Props

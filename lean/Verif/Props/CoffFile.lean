import Verif.Proof.CoffFile
import Verif.Props.FileKind
import Verif.Props.CoffWrite
import Verif.Proof.MachoFile3

/-! # C88: reading COFF object files -/

namespace Obj.Props
open Obj Obj.Coff Obj.CoffF Obj.Spec Obj.Spec.CoffF
open Obj.CoffW (coffWrite machineOf SubArch)
open Obj.Spec.CoffO (Valid ReadsBack)
open Obj.ElfF (Relocation)
open Obj.Spec.MachoF (HasName FirstOf)

/-- C88: a file parses exactly if it has the layout of an object file (or bigobj file), and the result is what is in the file; no file makes the
parser panic. -/
theorem C88_parse (big : Bool) (data : List UInt8) (hlen : data.length < 2 ^ 63) :
    File.parse big data ≠ .panic ∧ ∀ f, File.parse big data = .ok f ↔ Image big data f :=
  ⟨parse_no_panic big data (by omega), parse_image big data hlen⟩

/-- C88: a bigobj file of version 2 that parses is detected as such, and an object file for a known machine too. -/
theorem C88_kind (big : Bool) (data : List UInt8) (hlen : data.length < 2 ^ 63) (f : CoffF.File) (h : File.parse big data = .ok f) :
    (big = true → CoffF.num data 4 2 = 2 → FileKind.parseAt data 0 = .ok .coffBig) ∧
    (big = false → (∃ a, (f.header.machine, a) ∈ machines) → FileKind.parseAt data 0 = .ok .coff) := by
  have hf := (parse_image big data hlen f).1 h
  have hs := hf.size
  unfold headerSize at hs
  constructor
  · intro hb hv
    rw [hb, if_pos rfl] at hs
    rw [C41_exact]
    obtain ⟨h1, -, h3⟩ := hf.signature hb
    refine ⟨by omega, rfl, by omega, ?_, h3⟩
    show slice data 0 6 = _
    have h6 : slice data 0 6 = slice data 0 4 ++ slice data 4 2 := by
      unfold slice
      rw [List.drop_zero, show (6 : Nat) = 4 + 2 from rfl, List.take_add]
    have l2 : (slice data 4 2).length = 2 := by simp [slice]; omega
    have e2 := wr_rd .little (slice data 4 2)
    rw [l2, show rd .little (slice data 4 2) = 2 from hv] at e2
    rw [h6, h1, ← e2]
    decide
  · rintro hb ⟨a, ha⟩
    subst hb
    simp only [Bool.false_eq_true, if_false] at hs
    rw [C41_exact]
    refine ⟨by omega, f.header.machine, ?_, ?_⟩
    · simp only [machines, List.mem_cons, Prod.mk.injEq, List.not_mem_nil, or_false] at ha
      simp only [List.mem_cons, List.not_mem_nil, or_false]
      omega
    · rw [hf.header]
      have l2 : (slice data 0 2).length = 2 := by simp [slice]; omega
      have e2 := wr_rd .little (slice data 0 2)
      rw [l2] at e2
      unfold At
      rw [length_wr]
      exact e2.symm

/-- C88: the architecture is given by the machine type; ARM64EC is a sub-architecture, and only the big-endian PowerPC is big endian.  The file
flags are those of the header. -/
theorem C88_header (f : CoffF.File) (data : List UInt8) :
    (∀ m a, (m, a) ∈ machines → architecture m = a) ∧ (∀ m, (∀ a, (m, a) ∉ machines) → architecture m = .unknown) ∧
    (∀ m, subArchitecture m = if m = 0xa641 then some .arm64EC else none) ∧ (∀ m, isLittleEndian m = true ↔ m ≠ 0x1f2) ∧
    f.flags data = if f.header.big then 0 else CoffF.num data 18 2 := by
  refine ⟨?_, ?_, fun m => rfl, ?_, ?_⟩
  · intro m a h
    have : ∀ p ∈ machines, architecture p.1 = p.2 := by decide
    exact this _ h
  · intro m h
    have : ∀ p ∈ machines, p.1 ≠ m := by
      rintro ⟨m', a⟩ hp rfl
      exact h a hp
    simp only [machines, List.mem_cons, List.not_mem_nil, or_false, forall_eq_or_imp, forall_eq] at this
    unfold architecture
    repeat rw [if_neg (by omega)]
  · intro m
    unfold isLittleEndian
    split <;> simp_all
  · unfold File.flags
    rw [ElfF.field_num, MachoF.num_slice .little data 0 20 18 2 (by decide)]

/-- C88: the architecture for which an object is written is the one that is read, except that 64-bit PowerPC is read as PowerPC; and so are
sub-architecture and byte order. -/
theorem C88_architecture (a : Arch) (sub : Option SubArch) (e : Endianness) (m : Nat) (h : machineOf a sub e = .ok m) :
    architecture m = (if a = .powerPc64 then .powerPc else a) ∧ subArchitecture m = sub ∧
    ((a = .powerPc ∨ a = .powerPc64) → (isLittleEndian m = true ↔ e = .little)) := by
  rcases sub with _ | _ | _
  · cases a <;> cases e <;> simp only [machineOf, coffMachine] at h <;> cases h <;> decide
  · simp [machineOf] at h
  · revert h
    cases a <;> cases e <;> intro h <;> simp [machineOf] at h <;> subst h <;> decide

private theorem mem_sections {big : Bool} {data : List UInt8} {f : CoffF.File} (hf : Image big data f) {s : Coff.Section} (hs : s ∈ f.sections) :
    s.name.length = 8 ∧ s.numberOfRelocations < 2 ^ 16 := by
  rw [hf.sections, List.mem_map] at hs
  obtain ⟨i, hi, rfl⟩ := hs
  rw [List.mem_range] at hi
  have := hf.inside
  unfold sectionIn
  constructor
  · simp only [slice, List.length_take, List.length_drop]; omega
  · exact MachoF.num_lt .little data _ 2

/-- C88: sections are numbered from 1, and lookup by index is consistent with that and never panics. -/
theorem C88_sections (f : CoffF.File) :
    f.sectionList.length = f.sections.length ∧ (∀ (k : Nat) p, f.sectionList[k]? = some p ↔ p.1 = k + 1 ∧ f.sections[k]? = some p.2) ∧
    (∀ i s, f.sectionByIndex i = .ok s ↔ (i, s) ∈ f.sectionList) ∧ ∀ i, f.sectionByIndex i ≠ .panic := by
  have hget : ∀ (k : Nat) (p : Nat × Coff.Section), f.sectionList[k]? = some p ↔ p.1 = k + 1 ∧ f.sections[k]? = some p.2 := by
    intro k p
    unfold File.sectionList
    obtain ⟨i, s⟩ := p
    simp only [List.getElem?_map, Option.map_eq_some_iff, Prod.mk.injEq]
    constructor
    · rintro ⟨⟨s', i'⟩, h1, h2, h3⟩
      obtain ⟨h4, h5⟩ := (ElfF.zipIdx_get _ _ _).1 h1
      simp only at h2 h3 h4 h5
      subst h3; subst h5
      exact ⟨h2.symm, h4⟩
    · rintro ⟨rfl, h⟩
      exact ⟨(s, k), (ElfF.zipIdx_get _ _ _).2 ⟨h, rfl⟩, rfl, rfl⟩
  refine ⟨by simp [File.sectionList], hget, ?_, ?_⟩
  · intro i s
    unfold File.sectionByIndex sectionAt
    rw [List.mem_iff_getElem?]
    by_cases h0 : i = 0
    · rw [if_pos h0]
      simp only [reduceCtorEq, false_iff]
      rintro ⟨k, hk⟩
      have := ((hget k _).1 hk).1
      simp only at this; omega
    · rw [if_neg h0]
      constructor
      · intro h
        refine ⟨i - 1, (hget _ _).2 ⟨by simp only; omega, ?_⟩⟩
        cases he : f.sections[i - 1]? with
        | none => rw [he] at h; simp [Res.ofOption] at h
        | some x => rw [he] at h; simpa [Res.ofOption] using h
      · rintro ⟨k, hk⟩
        obtain ⟨h1, h2⟩ := (hget k _).1 hk
        simp only at h1 h2
        rw [show i - 1 = k by omega, h2]; rfl
  · intro i
    unfold File.sectionByIndex sectionAt
    split
    · simp
    · cases f.sections[i - 1]? <;> simp [Res.ofOption]

/-- C88: the name of a section is in its header, or in the string table at the decimal or base 64 offset after a slash; otherwise it is an error,
never a panic. -/
theorem C88_names (big : Bool) (data : List UInt8) (hlen : data.length < 2 ^ 63) (f : CoffF.File) (hf : File.parse big data = .ok f) (s : Coff.Section)
    (hs : s ∈ f.sections) : (∀ name, f.sectionName data s = .ok name ↔ Named f data s name) ∧ f.sectionName data s ≠ .panic := by
  have hi := (parse_image big data hlen f).1 hf
  have h8 := (mem_sections hi hs).1
  refine ⟨name_iff f data (by omega) s h8, ?_⟩
  have hp := hf
  unfold File.parse at hp
  simp only [Res.bind_eq, Res.bind_eq_ok, Res.ok.injEq] at hp
  obtain ⟨r, g1, ss, g2, t, g3, rfl⟩ := hp
  exact ((((C54_headers data (by omega) big 0).2 r.1 r.2 g1).2.2 ss g2).2 s hs).2.2.2 _

/-- C88: lookup by name finds the first section of that name; a file has debug symbols if it has a section `.debug_info`. -/
theorem C88_by_name (big : Bool) (data : List UInt8) (hlen : data.length < 2 ^ 63) (f : CoffF.File) (hf : File.parse big data = .ok f) :
    (∀ name i s, f.sectionByName data name = some (i, s) ↔
      f.sections[i - 1]? = some s ∧ 0 < i ∧ Named f data s name ∧ ∀ (j : Nat) s', j + 1 < i → f.sections[j]? = some s' → ¬ Named f data s' name) ∧
    (∀ name, f.sectionByName data name = none ↔ ∀ s ∈ f.sections, ¬ Named f data s name) ∧
    (f.hasDebugSymbols data = true ↔ ∃ s ∈ f.sections, Named f data s ".debug_info".toUTF8.toList) := by
  have hn : ∀ s ∈ f.sections, ∀ name, f.sectionName data s = .ok name ↔ Named f data s name :=
    fun s hs => (C88_names big data hlen f hf s hs).1
  obtain ⟨hl, hget, -, -⟩ := C88_sections f
  have hnone : ∀ name, f.sectionByName data name = none ↔ ∀ s ∈ f.sections, ¬ Named f data s name := by
    intro name
    unfold File.sectionByName
    rw [List.find?_eq_none]
    constructor
    · intro h s hs
      obtain ⟨k, hk⟩ := List.mem_iff_getElem?.1 hs
      have := h (k + 1, s) (List.mem_of_getElem? ((hget k _).2 ⟨rfl, hk⟩))
      simp only [beq_iff_eq] at this
      rw [hn s hs] at this; exact this
    · rintro h ⟨i, s⟩ hp
      obtain ⟨k, hk⟩ := List.mem_iff_getElem?.1 hp
      have hs := List.mem_of_getElem? ((hget k _).1 hk).2
      simp only at hs
      simp only [beq_iff_eq]
      rw [hn s hs]
      exact h s hs
  refine ⟨?_, hnone, ?_⟩
  · intro name i s
    unfold File.sectionByName
    rw [List.find?_eq_some_iff_getElem]
    simp only [beq_iff_eq, Bool.not_eq_true', beq_eq_false_iff_ne, ne_eq]
    constructor
    · rintro ⟨h1, k, hk, h2, h3⟩
      obtain ⟨e1, e2⟩ := (hget k _).1 (by rw [List.getElem?_eq_getElem hk, h2])
      simp only at e1 e2
      refine ⟨by rw [e1]; exact e2, by omega, (hn s (List.mem_of_getElem? e2) _).1 h1, ?_⟩
      intro j s' hj hs' hnm
      have hjl : j < f.sectionList.length := by omega
      have := h3 j (by omega)
      obtain ⟨e3, e4⟩ := (hget j _).1 (List.getElem?_eq_getElem hjl)
      rw [hs'] at e4
      cases e4
      exact this ((hn _ (List.mem_of_getElem? hs') _).2 hnm)
    · rintro ⟨h1, h2, h3, h4⟩
      refine ⟨(hn s (List.mem_of_getElem? h1) _).2 h3, i - 1, ?_, ?_, ?_⟩
      · rw [hl]; exact (List.getElem?_eq_some_iff.1 h1).1
      · have := (hget (i - 1) (i, s)).2 ⟨by simp only; omega, h1⟩
        exact (List.getElem?_eq_some_iff.1 this).2
      · intro j hj hnm
        have hjl : j < f.sectionList.length := by
          have := (List.getElem?_eq_some_iff.1 h1).1
          omega
        obtain ⟨e3, e4⟩ := (hget j _).1 (List.getElem?_eq_getElem hjl)
        exact h4 j _ (by omega) e4 ((hn _ (List.mem_of_getElem? e4) _).1 hnm)
  · unfold File.hasDebugSymbols
    rw [show [0x2e, 0x64, 0x65, 0x62, 0x75, 0x67, 0x5f, 0x69, 0x6e, 0x66, 0x6f] = ".debug_info".toUTF8.toList from by decide +kernel]
    have := hnone ".debug_info".toUTF8.toList
    cases hc : f.sectionByName data ".debug_info".toUTF8.toList with
    | none =>
      rw [hc] at this
      simp only [Option.isSome_none, Bool.false_eq_true, false_iff]
      rintro ⟨s, hs, h⟩
      exact this.1 rfl s hs h
    | some p =>
      rw [hc] at this
      simp only [Option.isSome_some, true_iff]
      simp only [reduceCtorEq, false_iff] at this
      false_or_by_contra
      rename_i hne
      exact this fun s hs h => hne ⟨s, hs, h⟩

/-- C88: the data of a section or segment is that part of the file, and a range of addresses is found exactly if it is inside of the data; uninitialized
data is empty.  The permissions of a segment are three flags, and the data of sections never panics. -/
theorem C88_data (data : List UInt8) (s : Coff.Section) :
    (∀ d, s.data data = .ok d ↔ DataOf data s d) ∧ s.data data ≠ .panic ∧
    (s.fileRange = if s.characteristics.testBit 7 then none else some (s.pointerToRawData, s.sizeOfRawData)) ∧
    (segmentFileRange s = if s.characteristics.testBit 7 then (0, 0) else (s.pointerToRawData, s.sizeOfRawData)) ∧
    (∀ address size r, sectionDataRange s data address size = .ok (some r) ↔ ∃ d, DataOf data s d ∧ s.virtualAddress ≤ address ∧
      address - s.virtualAddress + size ≤ d.length ∧ r = slice d (address - s.virtualAddress) size) ∧
    (∀ address size, sectionDataRange s data address size = .err ↔ ∀ d, ¬ DataOf data s d) ∧
    (∀ address size, sectionDataRange s data address size ≠ .panic) ∧
    permissions s = (s.characteristics.testBit 30, s.characteristics.testBit 31, s.characteristics.testBit 29) := by
  have hnp : s.data data ≠ .panic := by
    unfold Section.data
    split
    · exact readRef_readBytesAt_no_panic _ _ _
    · simp
  have hfr : s.fileRange = if s.characteristics.testBit 7 then none else some (s.pointerToRawData, s.sizeOfRawData) := by
    unfold Section.fileRange
    by_cases hc : s.characteristics.testBit 7
    · rw [if_pos ((bit_iff _ 7 0x80 rfl).2 hc), if_pos hc]
    · rw [if_neg (by rw [bit_iff _ 7 0x80 rfl]; exact hc), if_neg hc]
  refine ⟨data_iff data s, hnp, hfr, ?_, ?_, ?_, ?_, ?_⟩
  · unfold segmentFileRange
    rw [hfr]
    split <;> rfl
  · intro a n r
    unfold sectionDataRange
    simp only [Res.bind_eq_ok, Res.ok.injEq, data_iff, C05_data_range]
  · intro a n
    unfold sectionDataRange
    have := data_iff data s
    cases hd : s.data data with
    | err =>
      rw [hd] at this
      simp only [Res.err_bind, true_iff]
      intro d h
      exact nomatch (this d).2 h
    | panic => exact absurd hd hnp
    | ok d =>
      simp only [Res.ok_bind, reduceCtorEq, false_iff]
      intro h
      exact h d ((this d).1 hd)
  · intro a n
    unfold sectionDataRange
    exact Res.bind_no_panic hnp fun d _ => by simp
  · unfold permissions
    refine Prod.ext ?_ (Prod.ext ?_ ?_) <;> rw [Bool.eq_iff_iff, beq_iff_eq]
    · exact bit_iff _ 30 _ rfl
    · exact bit_iff _ 31 _ rfl
    · exact bit_iff _ 29 _ rfl

/-- C88: the kind of a section is given by its flags: code or executable; initialized data, which may be discardable or writable; uninitialized data;
information for the linker. -/
theorem C88_section_kind (c : Nat) :
    CoffV.sectionKind c =
      if c.testBit 5 || c.testBit 29 then .text
      else if c.testBit 6 then (if c.testBit 25 then .other else if c.testBit 31 then .data else .readOnlyData)
      else if c.testBit 7 then .uninitializedData
      else if c.testBit 9 then .linker
      else .unknown := by
  have h : ∀ k m, m = 2 ^ k → (c &&& m ≠ 0 ↔ c.testBit k = true) := by
    rintro k m rfl
    rw [← and_two_pow_ne]
  unfold CoffV.sectionKind
  simp only [h 5 0x20 rfl, h 29 0x20000000 rfl, h 6 0x40 rfl, h 25 0x2000000 rfl, h 31 0x80000000 rfl, h 7 0x80 rfl, h 9 0x200 rfl, Bool.or_eq_true]

private theorem kind_means (m ty : Nat) :
    (∃ k, Means m ty k ∧ coffKind m ty = k) ∨ ((∀ k, ¬ Means m ty k) ∧ coffKind m ty = (.unknown, .unknown, 0, 0)) := by
  have hin : ∀ p ∈ relocTypes, ∀ m ∈ p.1, ∀ q ∈ p.2, coffKind m q.1 = q.2 := by decide +kernel
  by_cases hm : ∃ k, Means m ty k
  · obtain ⟨k, p, hp, h1, h2⟩ := hm
    exact Or.inl ⟨k, ⟨p, hp, h1, h2⟩, hin p hp m h1 _ h2⟩
  · refine Or.inr ⟨fun k hk => hm ⟨k, hk⟩, ?_⟩
    have hno : ∀ p ∈ relocTypes, m ∈ p.1 → ∀ q ∈ p.2, q.1 ≠ ty := by
      rintro p hp h1 ⟨t, k⟩ hq rfl
      exact hm ⟨k, p, hp, h1, hq⟩
    simp only [relocTypes, List.mem_cons, List.not_mem_nil, or_false, forall_eq_or_imp, forall_eq] at hno
    obtain ⟨g1, g2, g3, g4⟩ := hno
    unfold coffKind
    by_cases c1 : m = 0x1c4
    · rw [if_pos c1]
      have := g1 c1
      repeat rw [if_neg (by omega)]
    rw [if_neg c1]
    by_cases c2 : m = 0xaa64 ∨ m = 0xa641
    · rw [if_pos c2]
      have := g2 c2
      repeat rw [if_neg (by omega)]
    rw [if_neg c2]
    by_cases c3 : m = 0x14c
    · rw [if_pos c3]
      have := g3 c3
      repeat rw [if_neg (by omega)]
    rw [if_neg c3]
    by_cases c4 : m = 0x8664
    · rw [if_pos c4]
      have := g4 c4
      repeat rw [if_neg (by omega)]
    rw [if_neg c4]

/-- C88: the relocations reported for a section are those of its table, in order, with the meaning of the type for the machine; none are
reported if the table is not in the file. -/
theorem C88_relocations (big : Bool) (data : List UInt8) (hlen : data.length < 2 ^ 63) (f : CoffF.File) (hf : File.parse big data = .ok f) (s : Coff.Section)
    (hs : s ∈ f.sections) :
    (∃ rs, RelocsOf data s rs ∧ MachoF.Each (Reports f.header.machine) rs (f.relocations data s)) ∨
    ((∀ rs, ¬ RelocsOf data s rs) ∧ f.relocations data s = []) := by
  have hi := (parse_image big data hlen f).1 hf
  have hr := relocs_iff data s (mem_sections hi hs).2
  unfold File.relocations
  cases hc : s.relocations data with
  | ok rs =>
    refine Or.inl ⟨rs, (hr rs).1 hc, ?_⟩
    clear hr hc
    induction rs with
    | nil => exact .nil
    | cons r rs ih =>
      refine .cons ?_ ih
      refine ⟨rfl, rfl, rfl, rfl, ?_⟩
      rcases kind_means f.header.machine r.type with ⟨k, h1, h2⟩ | ⟨h1, h2⟩
      · exact Or.inl ⟨k, h1, by rw [← h2]; rfl⟩
      · exact Or.inr ⟨h1, h2⟩
  | err =>
    refine Or.inr ⟨fun rs h => ?_, rfl⟩
    rw [(hr rs).2 h] at hc; cases hc
  | panic =>
    refine Or.inr ⟨fun rs h => ?_, rfl⟩
    rw [(hr rs).2 h] at hc; cases hc

private theorem tables_get {h : Header} {data : List UInt8} {t : Coff.SymTab} (ht : TablesOf h data t) :
    t.symbols.length = (if h.pointerToSymbolTable = 0 then 0 else h.numberOfSymbols) ∧
    (h.pointerToSymbolTable ≠ 0 → h.pointerToSymbolTable + h.numberOfSymbols * recordSize h.big ≤ data.length) ∧
    ∀ i, i < t.symbols.length → t.symbols[i]? = some (slice data (h.pointerToSymbolTable + i * recordSize h.big) (recordSize h.big)) := by
  unfold TablesOf at ht
  obtain ⟨-, ht⟩ := ht
  by_cases h0 : h.pointerToSymbolTable = 0
  · rw [if_pos h0] at ht
    rw [if_pos h0, ht.1]
    exact ⟨rfl, fun hc => absurd h0 hc, fun i hi => absurd hi (by simp)⟩
  · rw [if_neg h0] at ht
    rw [if_neg h0]
    obtain ⟨h1, -, h2⟩ := ht
    refine ⟨by rw [h2]; simp, fun _ => by omega, ?_⟩
    intro i hi
    rw [h2] at hi ⊢
    simp only [List.length_map, List.length_range] at hi
    rw [List.getElem?_map, List.getElem?_range hi]
    rfl

/-- C88: any record of the symbol table can be looked up by its index; there is no other index. -/
theorem C88_symbol_by_index (big : Bool) (data : List UInt8) (hlen : data.length < 2 ^ 63) (f : CoffF.File) (hf : File.parse big data = .ok f) (i : Nat) :
    (∀ s, f.symbolByIndex i = .ok s ↔ f.header.pointerToSymbolTable ≠ 0 ∧ i < f.header.numberOfSymbols ∧
      s = symbolIn big data (f.header.pointerToSymbolTable + i * recordSize big)) ∧
    f.symbolByIndex i ≠ .panic := by
  have hi := (parse_image big data hlen f).1 hf
  obtain ⟨h1, h2, h3⟩ := tables_get hi.tables
  have hbig : f.header.big = big := by rw [hi.header]; exact (header_bounds big data).1
  have htb : f.symbols.big = big := by rw [hi.tables.1, hbig]
  have hns : f.header.numberOfSymbols < 2 ^ 32 := by rw [hi.header]; exact (header_bounds big data).2.2.2.1
  rw [hbig] at h2 h3
  have hl : f.symbols.symbols.length < 2 ^ 32 := by rw [h1]; split <;> omega
  unfold File.symbolByIndex SymTab.symbol SymTab.get
  by_cases c : U64 ≤ i + 0
  · rw [if_pos c]
    refine ⟨?_, by simp⟩
    intro s
    simp only [Res.err_bind, reduceCtorEq, false_iff]
    rintro ⟨-, h, -⟩
    simp only [Nat.reducePow] at *; omega
  · rw [if_neg c, Nat.add_zero]
    by_cases c2 : i < f.symbols.symbols.length
    · rw [h3 i c2]
      have hp : f.header.pointerToSymbolTable ≠ 0 := by
        intro h0; rw [if_pos h0] at h1; omega
      rw [if_neg hp] at h1
      have hle := h2 hp
      have hb := recordSize_bounds big
      have hin : f.header.pointerToSymbolTable + i * recordSize big + recordSize big ≤ data.length := by
        have := Nat.mul_le_mul_right (recordSize big) (show i + 1 ≤ f.header.numberOfSymbols by omega)
        rw [Nat.succ_mul] at this
        omega
      have hsl : (slice data (f.header.pointerToSymbolTable + i * recordSize big) (recordSize big)).length = recordSize big := by
        simp only [slice, List.length_take, List.length_drop]; omega
      have hread : (Bytes.read (slice data (f.header.pointerToSymbolTable + i * recordSize big) (recordSize big)) (symbolSize f.symbols.big)).1 =
          .ok (slice data (f.header.pointerToSymbolTable + i * recordSize big) (recordSize big)) := by
        rw [htb, show symbolSize big = recordSize big from rfl]
        unfold Bytes.read Bytes.readBytes
        rw [if_pos (by omega), List.take_of_length_le (by omega)]
      dsimp only
      rw [hread]
      simp only [Res.ok_bind, htb, symbol_decode]
      refine ⟨?_, by simp⟩
      intro s
      simp only [Res.ok.injEq]
      constructor
      · rintro rfl; exact ⟨hp, by omega, rfl⟩
      · rintro ⟨-, -, rfl⟩; rfl
    · rw [List.getElem?_eq_none (by omega)]
      refine ⟨?_, by simp⟩
      intro s
      simp only [Res.err_bind, reduceCtorEq, false_iff]
      rintro ⟨hp, h, -⟩
      rw [if_neg hp] at h1
      omega

/-- C88: the symbols of a file are the records that are not auxiliary records of the symbol before; there are finitely many, and iterating never
fails or panics. -/
theorem C88_symbols (big : Bool) (data : List UInt8) (hlen : data.length < 2 ^ 63) (f : CoffF.File) (hf : File.parse big data = .ok f)
    (xs : List (Nat × Symbol)) (e : End) :
    Runs f.symbolNext 0 xs e ↔ e = .done ∧
      SymbolsFrom big data f.header.pointerToSymbolTable (if f.header.pointerToSymbolTable = 0 then 0 else f.header.numberOfSymbols) 0 xs := by
  have hi := (parse_image big data hlen f).1 hf
  have hns : f.header.numberOfSymbols < 2 ^ 32 := by rw [hi.header]; exact (header_bounds big data).2.2.2.1
  have hsym := C88_symbol_by_index big data hlen f hf
  have haux : ∀ o, (symbolIn big data o).auxCount < 256 := by
    intro o
    unfold symbolIn
    have a := MachoF.num_lt .little data (o + 19) 1
    have b := MachoF.num_lt .little data (o + 17) 1
    split <;> simpa using by assumption
  generalize hN : (if f.header.pointerToSymbolTable = 0 then 0 else f.header.numberOfSymbols) = N
  have hN32 : N < 2 ^ 32 := by rw [← hN]; split <;> omega
  generalize hP : f.header.pointerToSymbolTable = P at *
  have hstep : ∀ i, i < N → f.symbolNext i = (.ok (some (i, symbolIn big data (P + i * recordSize big))), i + 1 + (symbolIn big data (P + i * recordSize big)).auxCount) := by
    intro i hlt
    have hp : P ≠ 0 := by intro h0; rw [if_pos h0] at hN; omega
    rw [if_neg hp] at hN
    unfold File.symbolNext SymTab.next
    have := ((hsym i).1 _).2 ⟨hp, by omega, rfl⟩
    unfold File.symbolByIndex at this
    rw [this]
    have := haux (P + i * recordSize big)
    simp only
    rw [if_neg (by simp only [Nat.reducePow] at *; omega), Nat.add_assoc]
  have hdone : ∀ i, N ≤ i → f.symbolNext i = (.ok none, i) := by
    intro i hle
    unfold File.symbolNext SymTab.next
    cases hc : f.symbols.symbol i with
    | err => rfl
    | panic => exact absurd hc (hsym i).2
    | ok s =>
      obtain ⟨hp, hlt, -⟩ := ((hsym i).1 s).1 hc
      rw [if_neg hp] at hN
      omega
  have hex : ∀ n i, N ≤ i + n → ∃ xs, SymbolsFrom big data P N i xs := by
    intro n
    induction n with
    | zero => intro i h; exact ⟨[], .done h⟩
    | succ n ih =>
      intro i h
      rcases Nat.lt_or_ge i N with c | c
      · obtain ⟨xs, hx⟩ := ih (i + 1 + (symbolIn big data (P + i * recordSize big)).auxCount) (by omega)
        exact ⟨_, .cons c hx⟩
      · exact ⟨[], .done c⟩
  have hrun : ∀ i xs, SymbolsFrom big data P N i xs → Runs f.symbolNext i xs .done := by
    intro i xs h
    induction h with
    | done h => exact .done (hdone _ h)
    | cons h _ ih => exact .item (hstep _ h) ih
  constructor
  · intro h
    obtain ⟨ys, hy⟩ := hex N 0 (by omega)
    obtain ⟨rfl, rfl⟩ := h.unique (hrun _ _ hy)
    exact ⟨rfl, hy⟩
  · rintro ⟨rfl, h⟩
    exact hrun _ _ h

/-- C88: the name of a symbol is as in `SymbolNamed`, and otherwise an error; its address, if it has one, is that of its section plus its value. -/
theorem C88_symbol (big : Bool) (data : List UInt8) (hlen : data.length < 2 ^ 63) (f : CoffF.File) (hf : File.parse big data = .ok f) (i : Nat) (s : Symbol)
    (hs : f.symbolByIndex i = .ok s) :
    (∀ name, f.symbolName data i s = .ok name ↔ SymbolNamed f data i s name) ∧ f.symbolName data i s ≠ .panic ∧
    (∀ sec, s.storageClass ∈ [2, 3, 6, 0x69] → 0 < s.sectionNumber → f.sections[s.sectionNumber.toNat - 1]? = some sec →
      f.symbolAddress s = sec.virtualAddress + s.value) ∧
    ((s.storageClass ∉ [2, 3, 6, 0x69] ∨ s.sectionNumber ≤ 0 ∨ f.sections.length < s.sectionNumber) → f.symbolAddress s = 0) := by
  have hi := (parse_image big data hlen f).1 hf
  obtain ⟨hp, hlt, he⟩ := ((C88_symbol_by_index big data hlen f hf i).1 s).1 hs
  obtain ⟨h1, h2, h3⟩ := tables_get hi.tables
  have hbig : f.header.big = big := by rw [hi.header]; exact (header_bounds big data).1
  rw [if_neg hp] at h1
  have hle := h2 hp
  rw [hbig] at hle
  have hns : f.header.numberOfSymbols < 2 ^ 32 := by rw [hi.header]; exact (header_bounds big data).2.2.2.1
  have hin : f.header.pointerToSymbolTable + i * recordSize big + recordSize big ≤ data.length := by
    have := Nat.mul_le_mul_right (recordSize big) (show i + 1 ≤ f.header.numberOfSymbols by omega)
    rw [Nat.succ_mul] at this
    omega
  have hb := recordSize_bounds big
  have h8 : s.name.length = 8 := by
    rw [he]
    unfold symbolIn
    split <;> simp only [slice, List.length_take, List.length_drop] <;> omega
  have hv : s.value < 2 ^ 32 := by
    rw [he]
    unfold symbolIn
    split <;> exact MachoF.num_lt .little data _ 4
  have hst : Coff.SymTab.parse f.header data = .ok f.symbols := by
    have hb := header_bounds big data
    rw [← hi.header] at hb
    exact (tables_iff f.header data hlen hb.2.2.2.1 hb.2.2.1 f.symbols).2 hi.tables
  refine ⟨symbolName_iff f data hlen (by simp only [Nat.reducePow] at *; omega) i s h8, ?_, ?_, ?_⟩
  · exact (((C54_symbols f.header data hlen f.symbols hst).2.2 i).2.2.2.2 s hs).1
  · intro sec hc hn hsec
    have hsv : sec.virtualAddress < 2 ^ 32 := by
      have := List.mem_of_getElem? hsec
      rw [hi.sections, List.mem_map] at this
      obtain ⟨j, -, rfl⟩ := this
      exact MachoF.num_lt .little data _ 4
    have := ((C54_address s 0 f.sections).1 _).2 ⟨by simp only [List.mem_cons, List.not_mem_nil, or_false] at hc ⊢; omega, hn, sec, hsec, rfl⟩
    unfold File.symbolAddress CoffV.address
    rw [this]
    simp only
    rw [Nat.zero_add, Nat.mod_eq_of_lt (by simp only [Nat.reducePow] at *; omega)]
  · intro hc
    unfold File.symbolAddress CoffV.address
    cases hr : s.address 0 f.sections with
    | err => rfl
    | panic => rfl
    | ok o =>
      cases o with
      | none => rfl
      | some a =>
        exfalso
        obtain ⟨g1, g2, sec, g3, -⟩ := ((C54_address s 0 f.sections).1 a).1 hr
        have g4 := (List.getElem?_eq_some_iff.1 g3).1
        rcases hc with hc | hc | hc
        · apply hc
          simp only [List.mem_cons, List.not_mem_nil, or_false] at g1 ⊢; omega
        · omega
        · omega

/-- C88: what the writer writes is parsed, and the machine, the number of sections and the section names are those of the object
(a name of up to 8 bytes that starts with a slash is stored as it is, and is not read as such). -/
theorem C88_written (crc : List UInt8 → Nat) (o : W.Object) (hv : CoffO.Valid o) (sub : Option SubArch) (flags : Option Nat)
    (hf : CoffO.Fits o crc flags) (out : List UInt8) (h : coffWrite crc o sub flags = .ok out) :
    ∃ f m, File.parse false out = .ok f ∧ machineOf o.arch sub o.endian = .ok m ∧ f.header.machine = m ∧ f.sections.length = o.sections.length ∧
      ∀ (i : Nat) s, o.sections[i]? = some s → ∃ sec, f.sectionByIndex (i + 1) = .ok sec ∧
        (8 < s.name.length ∨ s.name.head? ≠ some 47 → f.sectionName out sec = .ok s.name) := by
  obtain ⟨m, hd, ss, t, suffix, hm, hr⟩ := C69_round_trip crc o hv sub flags hf out h
  refine ⟨⟨hd, ss, t⟩, m, ?_, hm, hr.arch.1, hr.count, ?_⟩
  · unfold File.parse
    rw [hr.parse]
    simp only [Res.bind_eq, Res.ok_bind]
    rw [hr.table]
    simp only [Res.ok_bind]
    rw [hr.symbolTable]
    rfl
  · intro i s hs
    obtain ⟨sec, h1, h2⟩ := hr.sections i s hs
    refine ⟨sec, ?_, h2.name⟩
    unfold File.sectionByIndex sectionAt
    rw [if_neg (by omega), show i + 1 - 1 = i by omega, h1]
    rfl

/-! ## An example: an object for x86-64 with two sections, a relocation and three symbols -/

private def w (l : List (Nat × Nat)) : List UInt8 := l.flatMap fun p => wr .little p.1 p.2

private def exFile : List UInt8 :=
  w [(2, 0x8664), (2, 2), (4, 0), (4, 118), (4, 4), (2, 0), (2, 0x104)] ++
  ".text\x00\x00\x00".toUTF8.toList ++ w [(4, 0), (4, 0), (4, 8), (4, 100), (4, 108), (4, 0), (2, 1), (2, 0), (4, 0x60500020)] ++
  "/4\x00\x00\x00\x00\x00\x00".toUTF8.toList ++ w [(4, 0), (4, 16), (4, 4), (4, 100), (4, 0), (4, 0), (2, 0), (2, 0), (4, 0x42100040)] ++
  -- 100: `.text`, 108: a relocation, 118: symbols
  w [(4, 0x11223344), (4, 0)] ++ w [(4, 4), (4, 3), (2, 4)] ++
  "f\x00\x00\x00\x00\x00\x00\x00".toUTF8.toList ++ w [(4, 4), (2, 1), (2, 0x20), (1, 2), (1, 0)] ++
  ".file\x00\x00\x00".toUTF8.toList ++ w [(4, 0), (2, 0xfffe), (2, 0), (1, 0x67), (1, 1)] ++
  "a.c".toUTF8.toList ++ List.replicate 15 0 ++
  w [(4, 0), (4, 4), (4, 4), (2, 2), (2, 0), (1, 3), (1, 0)] ++
  -- the string table
  w [(4, 16)] ++ ".debug_info\x00".toUTF8.toList

private def check (p : CoffF.File → Bool) : Bool := match File.parse false exFile with | .ok f => p f | _ => false

example : check (fun f => architecture f.header.machine == .x86_64 && f.sections.length == 2 && f.symbols.symbols.length == 4 &&
    f.flags exFile == 0x104 && f.hasDebugSymbols exFile && (f.sectionByName exFile ".debug_info".toUTF8.toList).map (·.1) == some 2) = true := by
  decide +kernel
example : check (fun f => match f.sections with
    | [a, b] => f.relocations exFile a == [(4, ⟨.relative, .generic, 32, some 3, -4, true, 4⟩)] && f.relocations exFile b == [] &&
        a.data exFile == .ok [0x44, 0x33, 0x22, 0x11, 0, 0, 0, 0] && CoffV.sectionKind b.characteristics == .other
    | _ => false) = true := by decide +kernel
example : check (fun f =>
    let r1 := f.symbolNext 0
    let r2 := f.symbolNext r1.2
    let r3 := f.symbolNext r2.2
    match r1.1, r2.1, r3.1 with
    | .ok (some (0, a)), .ok (some (1, b)), .ok (some (3, c)) =>
      f.symbolName exFile 0 a == .ok "f".toUTF8.toList && f.symbolName exFile 1 b == .ok "a.c".toUTF8.toList &&
      f.symbolName exFile 3 c == .ok ".debug_info".toUTF8.toList && f.symbolAddress c == 20 && (f.symbolNext r3.2).1 == .ok none
    | _, _, _ => false) = true := by decide +kernel

end Obj.Props

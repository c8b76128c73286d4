import Verif.Spec.XcoffFile
import Verif.Spec.MachoFile
import Verif.Props.XcoffRead
import Verif.Props.XcoffWrite
import Verif.Props.FileKind
import Verif.Props.Bytes
import Verif.Props.ElfFile

namespace Obj.Props

open Obj.Xcoff Obj.Spec.XcoffS Obj.Spec.XcoffF

private theorem bit (n k : Nat) : n &&& 2 ^ k = 2 ^ k ↔ n.testBit k = true := by
  constructor
  · intro h
    rw [← and_two_pow_ne, h]
    exact Nat.ne_of_gt (Nat.two_pow_pos k)
  · intro h
    apply Nat.eq_of_testBit_eq
    intro i
    rw [Nat.testBit_and, Nat.testBit_two_pow]
    by_cases c : k = i
    · subst c; simp [h]
    · simp [c]

private theorem bit1 (n : Nat) : n &&& 2 = 2 ↔ n.testBit 1 = true := bit n 1

private theorem parse_aux {is64 : Bool} {data : List UInt8} {f : File} (h : File.parse is64 data = .ok f) :
    (HasAux is64 f.header → sectionsAt is64 f.header ≤ data.length) ∧
    f.aux = if HasAux is64 f.header then some (field .big data (auxAt is64 + 44) 2, field .big data (auxAt is64 + 46) 2) else none := by
  unfold File.parse at h
  simp only [Res.bind_eq, Res.bind_eq_ok] at h
  obtain ⟨hd, h1, ⟨a, off⟩, h2, ss, h3, y, h4, h5⟩ := h
  simp only [Res.ok.injEq] at h5
  subst h5
  simp only []
  unfold auxHeader at h2
  simp only [] at h2
  by_cases c1 : hd.flags &&& 2 = 2
  case neg =>
    rw [if_pos c1] at h2
    have : ¬ HasAux is64 hd := fun h => c1 ((bit1 _).2 h.1)
    cases h2
    rw [if_neg this]
    exact ⟨fun h => absurd h this, rfl⟩
  rw [if_neg (by simpa using c1)] at h2
  by_cases c2 : hd.opthdr = auxHeaderSize is64
  case neg =>
    rw [if_pos c2] at h2
    have : ¬ HasAux is64 hd := fun h => c2 h.2
    cases h2
    rw [if_neg this]
    exact ⟨fun h => absurd h this, rfl⟩
  rw [if_neg (by simpa using c2)] at h2
  have hx : HasAux is64 hd := ⟨(bit1 _).1 c1, c2⟩
  have hpos : 48 ≤ auxHeaderSize is64 := by cases is64 <;> decide
  rw [if_pos hx]
  rw [readRef_readBytesAt_pos (by omega)] at h2
  by_cases c3 : hdrSize is64 + auxHeaderSize is64 ≤ data.length
  case neg => rw [if_neg c3] at h2; cases h2
  rw [if_pos c3] at h2
  simp only [Res.ok_bind, Res.ok.injEq, Prod.mk.injEq] at h2
  refine ⟨fun _ => by unfold sectionsAt; rw [c2]; exact c3, ?_⟩
  rw [← h2.1]
  unfold auxAlign auxAt
  rw [field_of_slice _ _ _ _ _ (by omega), field_of_slice _ _ _ _ _ (by omega)]
  rfl

private theorem sect_unique {is64 : Bool} {data : List UInt8} {o : Nat} {s s' : Sect} (h : SectAt is64 data o s) (h' : SectAt is64 data o s') : s = s' := by
  have e1 := h.name.trans h'.name.symm
  have e2 := h.paddr.trans h'.paddr.symm
  have e3 := h.vaddr.trans h'.vaddr.symm
  have e4 := h.size.trans h'.size.symm
  have e5 := h.scnptr.trans h'.scnptr.symm
  have e6 := h.relptr.trans h'.relptr.symm
  have e7 := h.lnnoptr.trans h'.lnnoptr.symm
  have e8 := h.nreloc.trans h'.nreloc.symm
  have e9 := h.nlnno.trans h'.nlnno.symm
  have e10 := h.flags.trans h'.flags.symm
  cases s; cases s'
  simp only [] at e1 e2 e3 e4 e5 e6 e7 e8 e9 e10
  rw [e1, e2, e3, e4, e5, e6, e7, e8, e9, e10]

private theorem image_unique {is64 : Bool} {data : List UInt8} {f f' : File} (h : Image is64 data f) (h' : Image is64 data f') : f = f' := by
  have hh : f.header = f'.header := by
    have a := h.header; have b := h'.header
    generalize f.header = x at a; generalize f'.header = y at b
    cases x; cases y
    have a1 := a.nscns; have a2 := a.timdat; have a3 := a.symptr; have a4 := a.nsyms; have a5 := a.opthdr; have a6 := a.flags
    have b1 := b.nscns; have b2 := b.timdat; have b3 := b.symptr; have b4 := b.nsyms; have b5 := b.opthdr; have b6 := b.flags
    simp only [] at a1 a2 a3 a4 a5 a6 b1 b2 b3 b4 b5 b6
    subst a1; subst a2; subst a3; subst a4; subst a5; subst a6
    subst b1; subst b2; subst b3; subst b4; subst b5; subst b6
    rfl
  have hs : f.sections = f'.sections := by
    apply List.ext_getElem?
    intro i
    by_cases c : i < f.header.nscns
    · have c1 : i < f.sections.length := by rw [h.count]; exact c
      have c2 : i < f'.sections.length := by rw [h'.count, ← hh]; exact c
      rw [List.getElem?_eq_getElem c1, List.getElem?_eq_getElem c2]
      have g1 := h.sections i _ (List.getElem?_eq_getElem c1)
      have g2 := h'.sections i _ (List.getElem?_eq_getElem c2)
      rw [← hh] at g2
      rw [sect_unique g1 g2]
    · rw [List.getElem?_eq_none (by rw [h.count]; omega), List.getElem?_eq_none (by rw [h'.count, ← hh]; omega)]
  have ht : f.symbols = f'.symbols := by
    have a := h.symbols; have b := h'.symbols
    rw [← hh] at b
    have hr : f.symbols.records = f'.symbols.records ∧ f.symbols.strings = f'.symbols.strings := by
      by_cases c : f.header.symptr = 0
      · obtain ⟨a1, a2⟩ := a.absent c
        obtain ⟨b1, b2⟩ := b.absent c
        exact ⟨a1.trans b1.symm, a2.trans b2.symm⟩
      · refine ⟨?_, (a.strings c).2.trans (b.strings c).2.symm⟩
        apply List.ext_getElem?
        intro i
        have l1 := a.count c
        have l2 := b.count c
        by_cases ci : i < f.header.nsyms
        · rw [List.getElem?_eq_getElem (by omega), List.getElem?_eq_getElem (by omega)]
          rw [(a.records i _ (List.getElem?_eq_getElem (by omega))).1, (b.records i _ (List.getElem?_eq_getElem (by omega))).1]
        · rw [List.getElem?_eq_none (by omega), List.getElem?_eq_none (by omega)]
    have hi : f.symbols.is64 = f'.symbols.is64 := a.is64.trans b.is64.symm
    generalize f.symbols = x at hr hi; generalize f'.symbols = y at hr hi
    cases x; cases y
    simp only [] at hr hi
    rw [hi, hr.1, hr.2]
  have hx : f.aux = f'.aux := by rw [h.aux, h'.aux, hh]
  have hi : f.is64 = f'.is64 := h.class_.trans h'.class_.symm
  cases f; cases f'
  simp only [] at hh hs ht hx hi
  rw [hi, hh, hx, hs, ht]

/-- C90: parsing an XCOFF file of either width never panics and succeeds exactly if the bytes are such a file, which is the result. -/
theorem C90_parse (is64 : Bool) (data : List UInt8) (hlen : data.length < 2 ^ 63) :
    File.parse is64 data ≠ .panic ∧ ∀ f, File.parse is64 data = .ok f ↔ Image is64 data f := by
  obtain ⟨hp, ho⟩ := C73_parse is64 data (by omega)
  refine ⟨hp, ?_⟩
  have hto : ∀ f, File.parse is64 data = .ok f → Image is64 data f := by
    intro f h
    obtain ⟨h1, h2, h3, h4, h5⟩ := ho f h
    obtain ⟨h6, h7⟩ := parse_aux h
    exact ⟨h1, h2, h6, h7, h3, h4, h5⟩
  intro f
  refine ⟨hto f, ?_⟩
  intro h
  obtain ⟨f', h1, h2⟩ := C73_accepts is64 data hlen f.header h.header (fun a b => h.auxInside ⟨a, b⟩) (by
    intro hn
    have hl : f.header.nscns - 1 < f.sections.length := by rw [h.count]; omega
    have g := (h.sections _ _ (List.getElem?_eq_getElem hl)).inside
    generalize (if is64 = true then 72 else 40) = w at g ⊢
    have : w * f.header.nscns = w * (f.header.nscns - 1) + w := by
      rw [← Nat.mul_succ]; congr 1; omega
    omega) (fun hn => (h.symbols.strings hn).1)
  rw [h1, image_unique (hto f' h1) h]

/-- C90: a file that parses is detected as the kind of its width, and does not parse with the other width. -/
theorem C90_kind (is64 : Bool) (data : List UInt8) (hlen : data.length < 2 ^ 63) (f : File) (h : File.parse is64 data = .ok f) :
    FileKind.parseAt data 0 = .ok (if is64 then .xcoff64 else .xcoff32) ∧ File.parse (!is64) data = .err := by
  have hi := (C90_parse is64 data hlen).2 f |>.1 h
  have hm := hi.header.magic
  have hin := hi.header.inside
  constructor
  · rw [C41_exact]
    refine ⟨by split at hin <;> omega, ?_⟩
    have hat : Spec.At data 0 (wr .big 2 (if is64 then 0x1f7 else 0x1df)) := by
      unfold Spec.At
      rw [length_wr, ← hm]
      unfold field
      have := wr_rd .big (slice data 0 2)
      rw [length_slice_of (Or.inr (by split at hin <;> omega))] at this
      exact this.symm
    cases is64
    · exact hat
    · exact hat
  · cases hp : File.parse (!is64) data with
    | err => rfl
    | panic => exact absurd hp (C90_parse (!is64) data hlen).1
    | ok f' =>
      have hi' := (C90_parse (!is64) data hlen).2 f' |>.1 hp
      have hm' := hi'.header.magic
      rw [hm] at hm'
      cases is64 <;> simp at hm'

/-- C90: architecture and kind are those of the header; the entry point is that of the auxiliary header. -/
theorem C90_header (is64 : Bool) (data : List UInt8) (hlen : data.length < 2 ^ 63) (f : File) (h : File.parse is64 data = .ok f) :
    f.architecture = (if is64 then .powerPc64 else .powerPc) ∧
    f.kind = (if f.header.flags.testBit 1 then .executable else if f.header.flags.testBit 13 then .dynamic
      else if f.header.flags.testBit 0 then .unknown else .relocatable) ∧
    f.entry data = if HasAux is64 f.header then
      (if is64 then field .big data (auxAt is64 + 80) 8 else field .big data (auxAt is64 + 16) 4) else 0 := by
  have hi := (C90_parse is64 data hlen).2 f |>.1 h
  refine ⟨?_, ?_, ?_⟩
  · unfold File.architecture; rw [hi.class_]
  · have h1 := bit f.header.flags 1
    have h2 := bit f.header.flags 13
    have h3 := bit f.header.flags 0
    simp only [Nat.reducePow] at h1 h2 h3
    unfold File.kind
    simp only [h1, h2, h3]
    split
    · rfl
    · split
      · rfl
      · by_cases c : f.header.flags.testBit 0 = true <;> simp [c]
  · unfold File.entry
    rw [hi.aux, hi.class_]
    by_cases c : HasAux is64 f.header
    · rw [if_pos c, if_pos c]
      simp only []
      cases is64
      · simp only [Bool.false_eq_true, if_false]
        rw [field_of_slice _ _ _ _ _ (by decide)]; rfl
      · simp only [if_true]
        rw [field_of_slice _ _ _ _ _ (by decide)]; rfl
    · rw [if_neg c, if_neg c]

/-- C90: the sections are numbered from 1, in order; lookup by number finds exactly them. -/
theorem C90_sections (f : File) :
    f.sectionList.length = f.sections.length ∧ (∀ (k : Nat) p, f.sectionList[k]? = some p ↔ p.1 = k + 1 ∧ f.sections[k]? = some p.2) ∧
    (∀ i s, f.sectionByIndex i = .ok s ↔ (i, s) ∈ f.sectionList) ∧ ∀ i, f.sectionByIndex i ≠ .panic := by
  have hget : ∀ (k : Nat) (p : Nat × Sect), f.sectionList[k]? = some p ↔ p.1 = k + 1 ∧ f.sections[k]? = some p.2 := by
    intro k p
    unfold File.sectionList
    obtain ⟨i, s⟩ := p
    simp only [List.getElem?_map, Option.map_eq_some_iff, Prod.mk.injEq]
    constructor
    · rintro ⟨⟨s', i'⟩, h1, h2, h3⟩
      obtain ⟨h4, h5⟩ := (ElfF.zipIdx_get _ _ _).1 h1
      simp only at h2 h3 h4 h5
      subst h3; subst h5
      exact ⟨h2.symm, h4⟩
    · rintro ⟨rfl, h⟩
      exact ⟨(s, k), (ElfF.zipIdx_get _ _ _).2 ⟨h, rfl⟩, rfl, rfl⟩
  refine ⟨by unfold File.sectionList; simp, hget, ?_, ?_⟩
  · intro i s
    rw [List.mem_iff_getElem?]
    simp only [hget]
    unfold File.sectionByIndex
    rw [(C73_sections f.sections i []).2.1]
    constructor
    · rintro ⟨h1, h2⟩; exact ⟨i - 1, by omega, h2⟩
    · rintro ⟨k, rfl, h⟩; exact ⟨by omega, h⟩
  · exact fun i => (C73_sections f.sections i []).1

/-- C90: lookup by name gives the first section of that name; debug symbols are in `.debug` or `.dwinfo`. -/
theorem C90_by_name (f : File) :
    (∀ s name, s.nameOf = name ↔ Named s name) ∧
    (∀ name i s, f.sectionByName name = some (i, s) ↔
      0 < i ∧ f.sections[i - 1]? = some s ∧ Named s name ∧ ∀ (j : Nat) s', j + 1 < i → f.sections[j]? = some s' → ¬ Named s' name) ∧
    (∀ name, f.sectionByName name = none ↔ ∀ s ∈ f.sections, ¬ Named s name) ∧
    (f.hasDebugSymbols = true ↔ ∃ s ∈ f.sections, Named s ".debug".toUTF8.toList ∨ Named s ".dwinfo".toUTF8.toList) := by
  have hn : ∀ (s : Sect) name, s.nameOf = name ↔ Named s name := fun s name => upToNul_iff s.name name
  obtain ⟨hl, hget, -, -⟩ := C90_sections f
  have hnone : ∀ name, f.sectionByName name = none ↔ ∀ s ∈ f.sections, ¬ Named s name := by
    intro name
    unfold File.sectionByName
    rw [List.find?_eq_none]
    constructor
    · intro h s hs
      obtain ⟨k, hk⟩ := List.mem_iff_getElem?.1 hs
      have := h (k + 1, s) (List.mem_iff_getElem?.2 ⟨k, (hget k _).2 ⟨rfl, hk⟩⟩)
      rw [← hn]
      simpa using this
    · intro h p hp
      obtain ⟨k, hk⟩ := List.mem_iff_getElem?.1 hp
      obtain ⟨-, h2⟩ := (hget k p).1 hk
      have := h p.2 (List.mem_iff_getElem?.2 ⟨k, h2⟩)
      rw [← hn] at this
      simpa using this
  have hsome : ∀ name, (f.sectionByName name).isSome = true ↔ ∃ s ∈ f.sections, Named s name := by
    intro name
    rw [Option.isSome_iff_ne_none, ne_eq, hnone]
    simp
  refine ⟨hn, ?_, hnone, ?_⟩
  · intro name i s
    unfold File.sectionByName
    rw [List.find?_eq_some_iff_getElem]
    constructor
    · rintro ⟨h1, k, hk, h2, h3⟩
      have h4 := (hget k (i, s)).1 (by rw [List.getElem?_eq_getElem hk, h2])
      simp only [] at h4
      obtain ⟨rfl, h4⟩ := h4
      refine ⟨by omega, h4, (hn _ _).1 (by simpa using h1), ?_⟩
      intro j s' hj hs'
      have h5 := (hget j (j + 1, s')).2 ⟨rfl, hs'⟩
      obtain ⟨h6, h7⟩ := List.getElem?_eq_some_iff.1 h5
      have h8 := h3 j (by omega)
      rw [h7] at h8
      rw [← hn]
      simpa using h8
    · rintro ⟨h1, h2, h3, h4⟩
      have h5 := (hget (i - 1) (i, s)).2 ⟨by simp only []; omega, h2⟩
      obtain ⟨h6, h7⟩ := List.getElem?_eq_some_iff.1 h5
      refine ⟨by simpa using (hn _ _).2 h3, i - 1, h6, h7, ?_⟩
      intro j hj
      have h8 := (hget j f.sectionList[j]).1 (List.getElem?_eq_getElem _)
      have h9 := h4 j _ (by omega) h8.2
      rw [← hn] at h9
      simpa using h9
  · unfold File.hasDebugSymbols
    rw [Bool.or_eq_true, hsome, hsome]
    have e1 : ".debug".toUTF8.toList = [0x2e, 0x64, 0x65, 0x62, 0x75, 0x67] := by decide +kernel
    have e2 : ".dwinfo".toUTF8.toList = [0x2e, 0x64, 0x77, 0x69, 0x6e, 0x66, 0x6f] := by decide +kernel
    rw [e1, e2]
    constructor
    · rintro (⟨s, h1, h2⟩ | ⟨s, h1, h2⟩)
      · exact ⟨s, h1, .inl h2⟩
      · exact ⟨s, h1, .inr h2⟩
    · rintro ⟨s, h1, h2 | h2⟩
      · exact .inl ⟨s, h1, h2⟩
      · exact .inr ⟨s, h1, h2⟩

/-- C90: contents and address ranges of sections; the alignment of text and data is the field of the auxiliary header, else 4. -/
theorem C90_data (f : File) (s : Sect) (data : List UInt8) :
    (∀ b, s.data data = .ok b ↔ (s.size = 0 ∨ s.scnptr + s.size ≤ data.length) ∧ b = slice data s.scnptr s.size) ∧ s.data data ≠ .panic ∧
    s.fileRange = some (s.scnptr, s.size) ∧
    (∀ address size r, s.dataRange data address size = .ok (some r) ↔ ∃ b, s.data data = .ok b ∧ s.paddr ≤ address ∧
      address - s.paddr + size ≤ b.length ∧ r = slice b (address - s.paddr) size) ∧
    (∀ address size, s.dataRange data address size = .err ↔ s.data data = .err) ∧
    (∀ address size, s.dataRange data address size ≠ .panic) ∧
    f.alignOf s = match f.aux with
      | none => 4
      | some (text, d) => if s.flags.testBit 5 then text else if s.flags.testBit 6 then d else 4 := by
  obtain ⟨hp, hd⟩ := (C73_sections [] 0 data).2.2 s
  refine ⟨hd, hp, rfl, ?_, ?_, ?_, ?_⟩
  · intro address size r
    unfold Sect.dataRange
    cases h : s.data data with
    | ok b =>
      simp only [Res.ok_bind, Res.ok.injEq, exists_eq_left']
      exact C05_data_range _ _ _ _ _
    | err => simp [Res.bind]
    | panic => exact absurd h hp
  · intro address size
    unfold Sect.dataRange
    cases h : s.data data <;> simp [Res.bind]
  · intro address size
    unfold Sect.dataRange
    cases h : s.data data
    · simp [Res.bind]
    · simp [Res.bind]
    · exact absurd h hp
  · have h5 := and_two_pow_ne (s.flags % 65536) 5
    have h6 := and_two_pow_ne (s.flags % 65536) 6
    have m5 := Nat.testBit_mod_two_pow s.flags 16 5
    have m6 := Nat.testBit_mod_two_pow s.flags 16 6
    simp only [Nat.reducePow, Nat.reduceLT, decide_true, Bool.true_and] at h5 h6 m5 m6
    rw [m5] at h5
    rw [m6] at h6
    unfold File.alignOf
    cases f.aux with
    | none => rfl
    | some p =>
      obtain ⟨text, d⟩ := p
      simp only []
      unfold sectionKind
      simp only []
      by_cases c5 : s.flags.testBit 5 = true
      · rw [if_pos (h5.2 c5), if_pos c5]
      · rw [if_neg (fun h => c5 (h5.1 h)), if_neg c5]
        by_cases c6 : s.flags.testBit 6 = true
        · rw [if_pos (h6.2 c6), if_pos c6]
        · rw [if_neg (fun h => c6 (h6.1 h)), if_neg c6]
          generalize hk : (if s.flags % 65536 &&& 0x400 ≠ 0 then SectionKind.tls else _) = k
          have h1 : k ≠ .text := by rw [← hk]; (repeat' split) <;> simp
          have h2 : k ≠ .data := by rw [← hk]; (repeat' split) <;> simp
          cases k <;> simp_all

/-- C90: the kind of a section is that of the first type bit that is set, in this order. -/
theorem C90_section_kind (flags : Nat) :
    sectionKind flags =
      if flags.testBit 5 then .text
      else if flags.testBit 6 then .data
      else if flags.testBit 10 then .tls
      else if flags.testBit 7 then .uninitializedData
      else if flags.testBit 11 then .uninitializedTls
      else if flags.testBit 4 || flags.testBit 13 then .debug
      else if flags.testBit 12 || flags.testBit 15 then .metadata
      else if flags.testBit 3 || flags.testBit 8 || flags.testBit 9 || flags.testBit 14 then .other
      else .unknown := by
  have h : ∀ k m, m = 2 ^ k → k < 16 → (flags % 65536 &&& m ≠ 0 ↔ flags.testBit k = true) := by
    rintro k m rfl hk
    rw [and_two_pow_ne]
    have := Nat.testBit_mod_two_pow flags 16 k
    simp only [Nat.reducePow] at this
    rw [this]; simp [hk]
  have hor : ∀ a b : Nat, flags % 65536 &&& (a ||| b) ≠ 0 ↔ flags % 65536 &&& a ≠ 0 ∨ flags % 65536 &&& b ≠ 0 := by
    intro a b
    rw [Nat.and_or_distrib_left]
    constructor
    · intro h
      by_cases c : flags % 65536 &&& a = 0
      · refine Or.inr ?_
        rw [c, Nat.zero_or] at h; exact h
      · exact Or.inl c
    · rintro (h | h) he
      · exact h (Nat.eq_zero_of_le_zero (he ▸ Nat.left_le_or))
      · exact h (Nat.eq_zero_of_le_zero (he ▸ Nat.right_le_or))
  unfold sectionKind
  simp only []
  rw [show (0x2010 : Nat) = 0x10 ||| 0x2000 by decide, show (0x9000 : Nat) = 0x1000 ||| 0x8000 by decide,
    show (0x4308 : Nat) = ((0x8 ||| 0x100) ||| 0x200) ||| 0x4000 by decide]
  simp only [hor, h 5 0x20 rfl (by decide), h 6 0x40 rfl (by decide), h 10 0x400 rfl (by decide), h 7 0x80 rfl (by decide),
    h 11 0x800 rfl (by decide), h 4 0x10 rfl (by decide), h 13 0x2000 rfl (by decide), h 12 0x1000 rfl (by decide),
    h 15 0x8000 rfl (by decide), h 3 8 rfl (by decide), h 8 0x100 rfl (by decide), h 9 0x200 rfl (by decide), h 14 0x4000 rfl (by decide),
    Bool.or_eq_true]

/-- C90: the relocations of a section are exactly its records, in order, each with kind, size and addend of its type; there are none if the
records cannot be read. -/
theorem C90_relocations (is64 : Bool) (data : List UInt8) (hlen : data.length < 2 ^ 63) (f : File) (hf : File.parse is64 data = .ok f)
    (s : Sect) (hs : s ∈ f.sections) :
    (∃ rs, RelocsOf is64 data s rs ∧ Spec.MachoF.Each Reports rs (s.viewRelocations f.is64 data)) ∨
    ((∀ rs, ¬ RelocsOf is64 data s rs) ∧ s.viewRelocations f.is64 data = []) := by
  have hi := (C90_parse is64 data hlen).2 f |>.1 hf
  obtain ⟨k, hk⟩ := List.mem_iff_getElem?.1 hs
  have hn : s.nreloc < 2 ^ 32 := by
    rw [(hi.sections k s hk).nreloc]
    split
    · exact field_lt _ _ _ 4
    · exact Nat.lt_of_lt_of_le (field_lt _ _ _ 2) (by decide)
  obtain ⟨h1, h2, h3⟩ := C73_relocations is64 s hn data
  rw [hi.class_]
  unfold Sect.viewRelocations
  cases hc : s.relocations is64 data with
  | ok rs =>
    refine Or.inl ⟨rs, ⟨(h2.1 ⟨rs, hc⟩).1, (h2.1 ⟨rs, hc⟩).2, h3 rs hc⟩, ?_⟩
    clear h3 h2 h1 hc
    simp only []
    induction rs with
    | nil => exact .nil
    | cons r rs ih =>
      refine .cons ⟨rfl, rfl, ?_, ?_⟩ ih
      · simp only []
        unfold xcoffKind
        simp only []
        repeat' split
        all_goals rfl
      · simp only []
        by_cases c : r.rtype ∈ [0x00, 0x0c, 0x0d, 0x08, 0x18, 0x20, 0x02, 0x0a, 0x1a, 0x03, 0x31, 0x30]
        · refine Or.inl ?_
          simp only [List.mem_cons, List.not_mem_nil, or_false] at c
          rcases c with c | c | c | c | c | c | c | c | c | c | c | c <;> rw [c] <;> simp [relocTypes, xcoffKind]
        · simp only [List.mem_cons, List.not_mem_nil, or_false, not_or] at c
          refine Or.inr ⟨?_, ?_⟩
          · intro k a hm
            simp only [relocTypes, List.mem_cons, Prod.mk.injEq, List.not_mem_nil, or_false] at hm
            omega
          · unfold xcoffKind
            simp only []
            rw [if_neg (by omega), if_neg (by omega), if_neg (by omega)]
            exact ⟨rfl, rfl⟩
  | err =>
    refine Or.inr ⟨?_, rfl⟩
    intro rs hr
    obtain ⟨rs', h⟩ := h2.2 ⟨hr.1, hr.2.1⟩
    rw [hc] at h; cases h
  | panic => exact absurd hc h1

/-- C90: the symbols of a file that parses: iteration gives exactly the live symbols of the table and ends; there is no dynamic symbol. -/
theorem C90_symbols (is64 : Bool) (data : List UInt8) (hlen : data.length < 2 ^ 63) (f : File) (hf : File.parse is64 data = .ok f) :
    (∃ xs, Runs f.symbols.next 0 xs .done ∧ Entries f.symbols.records 0 (xs.map (·.1)) ∧ ∀ p ∈ xs, f.symbols.symbol p.1 = .ok p.2) ∧
    (f.symbolTable = none ↔ f.header.symptr = 0 ∨ f.header.nsyms = 0) ∧ (∀ t, f.symbolTable = some t → t = f.symbols) ∧
    Runs f.symbols.next f.dynamicSymbols [] .done := by
  have hi := (C90_parse is64 data hlen).2 f |>.1 hf
  have hn : f.header.nsyms < 2 ^ 32 := by rw [hi.header.nsyms]; exact field_lt _ _ _ 4
  refine ⟨C73_iterate is64 data f.header hn f.symbols hi.symbols, ?_, ?_, ?_⟩
  · unfold File.symbolTable
    have : f.symbols.records = [] ↔ f.header.symptr = 0 ∨ f.header.nsyms = 0 := by
      by_cases c : f.header.symptr = 0
      · simp [c, (hi.symbols.absent c).1]
      · rw [← List.length_eq_zero_iff, hi.symbols.count c]; simp [c]
    rw [← this]
    split <;> simp_all
  · intro t h
    unfold File.symbolTable at h
    split at h
    · cases h
    · exact (Option.some.inj h).symm
  · unfold File.dynamicSymbols
    have hok := tableAt_ok hn hi.symbols
    have hno : ∀ i, f.symbols.records.length ≤ i → f.symbols.next i = (.ok none, i) := by
      intro i hi
      unfold SymTab.next SymTab.nextFuel
      rcases unchecked_cases hok i with ⟨-, h2⟩ | ⟨r, h1, -⟩
      · rw [h2]
      · rw [List.getElem?_eq_none hi] at h1; cases h1
    exact .done (hno _ (Nat.le_refl _))

/-! A 32-bit executable with a full auxiliary header (entry point 0x10000100, alignment fields 5 and 3) and two sections. -/

private def xcoffExec : List UInt8 :=
  [0x01, 0xdf, 0, 2, 0, 0, 0, 0, 0, 0, 0, 0, 0, 0, 0, 0, 0, 72, 0, 2] ++
  (List.replicate 16 0 ++ [0x10, 0, 1, 0] ++ List.replicate 24 0 ++ [0, 5, 0, 3] ++ List.replicate 24 0) ++
  ([46, 116, 101, 120, 116, 0, 0, 0] ++ [0x10, 0, 1, 0, 0x10, 0, 1, 0, 0, 0, 0, 4, 0, 0, 0, 172] ++ List.replicate 8 0 ++ [0, 0, 0, 0, 0, 0, 0, 0x20]) ++
  ([46, 100, 101, 98, 117, 103, 0, 0] ++ [0, 0, 0, 0, 0, 0, 0, 0, 0, 0, 0, 2, 0, 0, 0, 172] ++ List.replicate 8 0 ++ [0, 0, 0, 0, 0, 0, 0x20, 0]) ++
  [0x4e, 0x80, 0, 0x20]

private def checkExec : Bool :=
  match File.parse false xcoffExec with
  | .ok f =>
    f.kind == .executable && f.entry xcoffExec == 0x10000100 && f.hasDebugSymbols && (f.sectionByName [46, 116, 101, 120, 116]).isSome &&
    (f.sections.map f.alignOf == [5, 4]) && (f.sections.map fun s => sectionKind s.flags) == [.text, .debug] &&
    (f.sections.map fun s => s.dataRange xcoffExec 0x10000102 2) == [.ok (some [0, 0x20]), .ok none]
  | _ => false

example : checkExec = true := by decide +kernel

example : ∃ f, File.parse false xcoffExec = .ok f ∧ HasAux false f.header ∧ f.sections.length = 2 := by
  have h : (match File.parse false xcoffExec with | .ok f => decide (HasAux false f.header) && f.sections.length == 2 | _ => false) = true := by
    decide +kernel
  cases hf : File.parse false xcoffExec with
  | ok f => rw [hf] at h; simp at h; exact ⟨f, rfl, h⟩
  | err => rw [hf] at h; cases h
  | panic => rw [hf] at h; cases h

end Obj.Props

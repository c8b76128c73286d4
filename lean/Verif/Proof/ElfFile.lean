import Verif.Spec.ElfFile
import Verif.Proof.MachoFile
import Verif.Props.ElfTables

/-! # Reading ELF files: headers, tables and symbols -/

namespace Obj.ElfF
open Obj Obj.Elf Obj.Spec.ElfF
open Obj.Spec.MachoF (num ascii FirstOf Each)
open Obj.MachoF (num_slice decode_one num_lt)
open Obj.Props (C42_section_data C42_no_panic)

theorem drop_shift {α : Type} (l : List α) (a b : Nat) : (l.drop a).drop b = l.drop (a + b) := by simp

theorem shdr_decode (c : Elf.Cfg) (data : List UInt8) (o : Nat) : Shdr.decode c (slice data o (sectionSize c.is64)) = sectionAt c data o := by
  unfold Shdr.decode sectionAt sectionSize shdrWidths
  rw [← List.drop_zero (l := slice data o _)]
  cases hc : c.is64 <;>
  simp (discharger := decide) only [decode_one, Elf.Cfg.w, hc, word, if_true, if_false, Bool.false_eq_true, Nat.reduceAdd, Nat.reduceMul,
    num_slice, Nat.add_zero, Nat.add_assoc] <;> rfl

theorem phdr_decode (c : Elf.Cfg) (data : List UInt8) (o : Nat) : Phdr.decode c (slice data o (segmentSize c.is64)) = segmentAt c data o := by
  unfold Phdr.decode segmentAt segmentSize
  rw [← List.drop_zero (l := slice data o _)]
  cases hc : c.is64 <;>
  simp (discharger := decide) only [decode_one, hc, if_true, if_false, Bool.false_eq_true, Nat.reduceAdd, Nat.reduceMul,
    num_slice, Nat.add_zero, Nat.add_assoc] <;> rfl

theorem sym_decode (c : Elf.Cfg) (data : List UInt8) (o : Nat) : Sym.decode c (slice data o (symbolSize c.is64)) = symbolAt c data o := by
  unfold Sym.decode symbolAt symbolSize
  rw [← List.drop_zero (l := slice data o _)]
  cases hc : c.is64 <;>
  simp (discharger := decide) only [decode_one, hc, if_true, if_false, Bool.false_eq_true, Nat.reduceAdd, Nat.reduceMul,
    num_slice, Nat.add_zero, Nat.add_assoc] <;> rfl

theorem getD_slice (data : List UInt8) (n i : Nat) (hi : i < n) : (slice data 0 n).getD i 0 = data.getD i 0 := by
  unfold slice
  simp only [List.drop_zero, List.getD_eq_getElem?_getD, List.getElem?_take, hi, if_true]

theorem ehdr_decode (c : Elf.Cfg) (data : List UInt8) : Ehdr.decode c (slice data 0 (headerSize c.is64)) = headerIn c data := by
  unfold Ehdr.decode headerIn headerSize ehdrWidths
  cases hc : c.is64 <;>
  simp (discharger := decide) only [decode_one, Elf.Cfg.w, hc, word, if_true, if_false, Bool.false_eq_true, Nat.reduceAdd, Nat.reduceMul,
    num_slice, Nat.zero_add, Nat.add_assoc, getD_slice] <;> rfl

/-! ## The header -/

theorem ident_iff (is64 : Bool) (data : List UInt8) (h : headerSize is64 ≤ data.length) (en : Endianness) :
    (isSupported is64 (slice data 0 (headerSize is64)) = true ∧ endianOf (slice data 0 (headerSize is64)) = en) ↔
    slice data 0 7 = [0x7f, 0x45, 0x4c, 0x46, if is64 then 2 else 1, if en = .big then 2 else 1, 1] := by
  have h52 : 52 ≤ headerSize is64 := by unfold headerSize; split <;> omega
  unfold isSupported endianOf
  rw [show (slice data 0 (headerSize is64)).take 4 = slice data 0 4 from by
    have := slice_slice data 0 (headerSize is64) 0 4 (by omega); simpa [slice] using this]
  rw [getD_slice _ _ _ (by omega), getD_slice _ _ _ (by omega), getD_slice _ _ _ (by omega)]
  match data, h with
  | b0 :: b1 :: b2 :: b3 :: b4 :: b5 :: b6 :: tl, _ =>
    simp only [slice, List.drop_zero, List.take_succ_cons, List.take_zero, List.getD_cons_succ, List.getD_cons_zero, Bool.and_eq_true,
      beq_iff_eq, Bool.or_eq_true, List.cons.injEq, and_true, Bool.not_eq_true']
    cases is64 <;> cases en <;> by_cases h5 : b5 = 2 <;> by_cases h5' : b5 = 1 <;> simp_all [and_assoc]
  | [], h => simp at h; omega
  | [_], h => simp at h; omega
  | [_, _], h => simp at h; omega
  | [_, _, _], h => simp at h; omega
  | [_, _, _, _], h => simp at h; omega
  | [_, _, _, _, _], h => simp at h; omega
  | [_, _, _, _, _, _], h => simp at h; omega

theorem parseHeader_iff (is64 : Bool) (data : List UInt8) (c : Elf.Cfg) (h : Ehdr) :
    parseHeader is64 data = .ok (c, h) ↔ c.is64 = is64 ∧ headerSize is64 ≤ data.length ∧
      slice data 0 7 = [0x7f, 0x45, 0x4c, 0x46, if is64 then 2 else 1, if c.en = .big then 2 else 1, 1] ∧ h = headerIn c data := by
  unfold parseHeader
  rw [readRef_readBytesAt_eq, show (if is64 = true then 64 else 52) = headerSize is64 from rfl]
  have h0 : headerSize is64 ≠ 0 := by unfold headerSize; split <;> omega
  by_cases hs : headerSize is64 ≤ data.length
  · rw [if_pos (Or.inr (by omega))]
    simp only []
    obtain ⟨c64, cen⟩ := c
    by_cases hsup : isSupported is64 (slice data 0 (headerSize is64)) = true
    · rw [if_pos hsup]
      simp only [Res.ok.injEq, Prod.mk.injEq, Elf.Cfg.mk.injEq]
      constructor
      · rintro ⟨⟨rfl, he⟩, rfl⟩
        refine ⟨rfl, hs, (ident_iff _ data hs _).1 ⟨hsup, he⟩, ?_⟩
        subst he
        exact (ehdr_decode ⟨is64, _⟩ data)
      · rintro ⟨rfl, -, hi, rfl⟩
        have := ((ident_iff _ data hs _).2 hi).2
        refine ⟨⟨rfl, this⟩, ?_⟩
        rw [this]
        exact (ehdr_decode ⟨c64, cen⟩ data)
    · rw [if_neg hsup]
      simp only [reduceCtorEq, false_iff]
      rintro ⟨rfl, -, hi, -⟩
      exact hsup ((ident_iff _ data hs _).2 hi).1
  · rw [if_neg (by omega)]
    simp only [reduceCtorEq, false_iff]
    rintro ⟨-, h, -⟩; exact hs h

/-! ## Tables -/

theorem sectionSize_eq (c : Elf.Cfg) : c.shdrSize = sectionSize c.is64 := rfl
theorem segmentSize_eq (c : Elf.Cfg) : c.phdrSize = segmentSize c.is64 := rfl
theorem symbolSize_eq (c : Elf.Cfg) : c.symSize = symbolSize c.is64 := rfl
theorem sectionSize_bounds (b : Bool) : 40 ≤ sectionSize b ∧ sectionSize b ≤ 64 := by unfold sectionSize; split <;> omega
theorem segmentSize_bounds (b : Bool) : 32 ≤ segmentSize b ∧ segmentSize b ≤ 56 := by unfold segmentSize; split <;> omega
theorem symbolSize_pos (b : Bool) : 0 < symbolSize b := by unfold symbolSize; split <;> omega

theorem section0_iff (c : Elf.Cfg) (h : Ehdr) (data : List UInt8) (s : Shdr) : section0 c h data = .ok (some s) ↔ FirstSection c h data s := by
  unfold section0 FirstSection
  by_cases h0 : h.shoff = 0
  · simp [h0]
  · rw [if_neg h0]
    by_cases h1 : h.shentsize = c.shdrSize
    · have := sectionSize_bounds c.is64
      rw [if_neg (by simp [h1]), sectionSize_eq, readRef_readBytesAt_eq]
      by_cases h2 : h.shoff + sectionSize c.is64 ≤ data.length
      · rw [if_pos (Or.inr h2)]
        simp only [Res.ok.injEq, Option.some.injEq, shdr_decode]
        exact ⟨fun h => ⟨h0, h1, h2, h.symm⟩, fun h => h.2.2.2.symm⟩
      · rw [if_neg (by omega)]
        simp [h2]
    · rw [if_pos h1]
      simp only [reduceCtorEq, false_iff]
      rintro ⟨-, h, -⟩; exact h1 h

theorem section0_none (c : Elf.Cfg) (h : Ehdr) (data : List UInt8) (hs : h.shoff ≠ 0) : section0 c h data ≠ .ok none := by
  unfold section0
  rw [if_neg hs]
  split
  · simp
  · split <;> simp

theorem firstSection_unique {c : Elf.Cfg} {h : Ehdr} {data : List UInt8} {s s' : Shdr} (a : FirstSection c h data s) (b : FirstSection c h data s') : s = s' :=
  a.2.2.2.trans b.2.2.2.symm

theorem phnum_iff (c : Elf.Cfg) (h : Ehdr) (data : List UInt8) (hb : h.phnum < 65536) (n : Nat) :
    phnum c h data = .ok n ↔ SegmentCount c h data n := by
  unfold phnum SegmentCount
  by_cases h1 : h.phnum = 0xffff
  · rw [if_neg (by omega), if_pos h1]
    constructor
    · intro hp
      split at hp
      · rename_i s hs
        exact ⟨s, (section0_iff c h data s).1 hs, by simpa using hp.symm⟩
      all_goals simp at hp
    · rintro ⟨s, hs, rfl⟩
      rw [(section0_iff c h data s).2 hs]
  · rw [if_pos (by omega), if_neg h1]
    simp [eq_comm]

theorem shnum_iff (c : Elf.Cfg) (h : Ehdr) (data : List UInt8) (hs : h.shoff ≠ 0) (n : Nat) :
    shnum c h data = .ok n ↔ SectionCount c h data n := by
  unfold shnum SectionCount
  by_cases h1 : h.shnum = 0
  · rw [if_neg (by omega), if_pos h1]
    constructor
    · intro hp
      split at hp
      · rename_i s hs
        split at hp
        · simp only [Res.ok.injEq] at hp
          subst hp
          exact ⟨s, (section0_iff c h data s).1 hs, rfl, by assumption⟩
        · simp at hp
      · rename_i hn; exact absurd hn (section0_none c h data hs)
      all_goals simp at hp
    · rintro ⟨s, hs, rfl, hl⟩
      rw [(section0_iff c h data s).2 hs]
      simp only []
      rw [if_pos hl]
  · rw [if_pos (by omega), if_neg h1]
    simp [eq_comm]

theorem shstrndx_iff (c : Elf.Cfg) (h : Ehdr) (data : List UInt8) (n : Nat) :
    shstrndx c h data = .ok n ↔ NamesIndex c h data n := by
  unfold shstrndx NamesIndex symbolSectionIndex
  by_cases h1 : h.shstrndx = 0xffff
  · rw [if_pos (by omega)]
    simp only []
    rw [if_pos h1, if_pos h1]
    constructor
    · intro hp
      split at hp
      · rename_i s hs
        exact ⟨s, (section0_iff c h data s).1 hs, by simpa using hp.symm⟩
      all_goals simp at hp
    · rintro ⟨s, hs, rfl⟩
      rw [(section0_iff c h data s).2 hs]
  · by_cases h2 : h.shstrndx = 0 ∨ 0xff00 ≤ h.shstrndx
    · rw [if_pos h2]
      simp only []
      rw [if_neg h1, if_neg h1]
      simp only [reduceCtorEq, false_iff]
      omega
    · rw [if_neg h2]
      simp only []
      rw [if_neg h1]
      simp only [Res.ok.injEq]
      omega

theorem segments_iff (c : Elf.Cfg) (h : Ehdr) (data : List UInt8) (hb : h.phnum < 65536) (ps : List Phdr) :
    programHeaders c h data = .ok ps ↔ SegmentsOf c h data ps := by
  unfold programHeaders SegmentsOf
  by_cases h0 : h.phoff = 0
  · simp [h0, eq_comm]
  · rw [if_neg h0, if_neg h0]
    have hsz := segmentSize_bounds c.is64
    have hc : ∀ n, SegmentCount c h data n → n < 2 ^ 32 := by
      intro n hn
      unfold SegmentCount at hn
      split at hn
      · obtain ⟨s, hs, rfl⟩ := hn
        rw [hs.2.2.2]
        exact num_lt _ _ _ 4
      · omega
    constructor
    · intro hp
      split at hp
      · rename_i n hn
        have hn := (phnum_iff c h data hb n).1 hn
        refine ⟨n, hn, ?_⟩
        split at hp
        · rename_i hz
          subst hz
          simp only [Res.ok.injEq] at hp
          exact ⟨Or.inl rfl, by simp [← hp]⟩
        · rename_i hz
          split at hp
          · simp at hp
          · rename_i he
            split at hp
            · rename_i imgs hi
              simp only [Res.ok.injEq] at hp
              have hlt := hc n hn
              rw [Pe.readSliceAt_iff _ _ _ _ (by rw [segmentSize_eq]; have := Nat.mul_le_mul (Nat.le_of_lt hlt) hsz.2; omega)] at hi
              obtain ⟨i1, rfl⟩ := hi
              refine ⟨Or.inr ⟨Classical.not_not.1 he, ?_⟩, ?_⟩
              · rcases i1 with i1 | i1
                · exfalso
                  rcases Nat.mul_eq_zero.1 i1 with i1 | i1
                  · exact hz i1
                  · rw [segmentSize_eq] at i1; omega
                · exact i1
              · rw [← hp, List.map_map]
                apply List.map_congr_left
                intro i _
                exact phdr_decode c data _
            all_goals simp at hp
      all_goals simp at hp
    · rintro ⟨n, hn, hr, rfl⟩
      rw [(phnum_iff c h data hb n).2 hn]
      simp only []
      by_cases hz : n = 0
      · rw [if_pos hz, hz]; rfl
      · rw [if_neg hz]
        rcases hr with hr | ⟨he, hr⟩
        · exact absurd hr hz
        · rw [if_neg (by rw [segmentSize_eq]; simp [he])]
          have hlt := hc n hn
          rw [(Pe.readSliceAt_iff data h.phoff c.phdrSize n (by rw [segmentSize_eq]; have := Nat.mul_le_mul (Nat.le_of_lt hlt) hsz.2; omega) _).2 ⟨Or.inr hr, rfl⟩]
          simp only [Res.ok.injEq, List.map_map]
          apply List.map_congr_left
          intro i _
          exact phdr_decode c data _

theorem sectionCount_lt {c : Elf.Cfg} {h : Ehdr} {data : List UInt8} (hb : h.shnum < 65536) {n : Nat} (hn : SectionCount c h data n) : n < 2 ^ 32 := by
  unfold SectionCount at hn
  split at hn
  · obtain ⟨s, hs, -, h⟩ := hn
    exact h
  · omega

theorem sections_iff (c : Elf.Cfg) (h : Ehdr) (data : List UInt8) (hb : h.shnum < 65536) (ss : List Shdr) :
    sectionHeaders c h data = .ok ss ↔ SectionsOf c h data ss := by
  unfold sectionHeaders SectionsOf
  by_cases h0 : h.shoff = 0
  · simp [h0, eq_comm]
  · rw [if_neg h0, if_neg h0]
    have hsz := sectionSize_bounds c.is64
    constructor
    · intro hp
      split at hp
      · rename_i n hn
        have hn := (shnum_iff c h data h0 n).1 hn
        refine ⟨n, hn, ?_⟩
        split at hp
        · rename_i hz
          subst hz
          simp only [Res.ok.injEq] at hp
          exact ⟨Or.inl rfl, by simp [← hp]⟩
        · rename_i hz
          split at hp
          · simp at hp
          · rename_i he
            split at hp
            · rename_i imgs hi
              simp only [Res.ok.injEq] at hp
              have hlt := sectionCount_lt hb hn
              rw [Pe.readSliceAt_iff _ _ _ _ (by rw [sectionSize_eq]; have := Nat.mul_le_mul (Nat.le_of_lt hlt) hsz.2; omega)] at hi
              obtain ⟨i1, rfl⟩ := hi
              refine ⟨Or.inr ⟨Classical.not_not.1 he, ?_⟩, ?_⟩
              · rcases i1 with i1 | i1
                · exfalso
                  rcases Nat.mul_eq_zero.1 i1 with i1 | i1
                  · exact hz i1
                  · rw [sectionSize_eq] at i1; omega
                · exact i1
              · rw [← hp, List.map_map]
                apply List.map_congr_left
                intro i _
                exact shdr_decode c data _
            all_goals simp at hp
      all_goals simp at hp
    · rintro ⟨n, hn, hr, rfl⟩
      rw [(shnum_iff c h data h0 n).2 hn]
      simp only []
      by_cases hz : n = 0
      · rw [if_pos hz, hz]; rfl
      · rw [if_neg hz]
        rcases hr with hr | ⟨he, hr⟩
        · exact absurd hr hz
        · rw [if_neg (by rw [sectionSize_eq]; simp [he])]
          have hlt := sectionCount_lt hb hn
          rw [(Pe.readSliceAt_iff data h.shoff c.shdrSize n (by rw [sectionSize_eq]; have := Nat.mul_le_mul (Nat.le_of_lt hlt) hsz.2; omega) _).2 ⟨Or.inr hr, rfl⟩]
          simp only [Res.ok.injEq, List.map_map]
          apply List.map_congr_left
          intro i _
          exact shdr_decode c data _

theorem names_iff (c : Elf.Cfg) (h : Ehdr) (data : List UInt8) (ss : List Shdr) (st : StrTable) :
    sectionStrings c h data ss = .ok st ↔ NamesOf c h data ss st := by
  unfold sectionStrings NamesOf
  by_cases h0 : ss = []
  · simp [h0, eq_comm]
  · rw [if_neg h0, if_neg h0]
    constructor
    · intro hp
      split at hp
      · rename_i i hi
        split at hp
        · simp at hp
        · rename_i s hs
          refine ⟨i, s, (shstrndx_iff c h data i).1 hi, hs, ?_⟩
          unfold Shdr.fileRange at hp
          by_cases h8 : s.type = 8
          · rw [if_pos h8] at hp ⊢
            simpa [eq_comm] using hp
          · rw [if_neg h8] at hp ⊢
            simp only [] at hp
            split at hp
            · simp at hp
            · rename_i hl
              simp only [Res.ok.injEq] at hp
              exact ⟨by omega, hp.symm⟩
      all_goals simp at hp
    · rintro ⟨i, s, hi, hs, hst⟩
      rw [(shstrndx_iff c h data i).2 hi]
      simp only [hs]
      unfold Shdr.fileRange
      by_cases h8 : s.type = 8
      · rw [if_pos h8] at hst ⊢
        simp [hst]
      · rw [if_neg h8] at hst ⊢
        simp only []
        rw [if_neg (by omega), hst.2]

theorem sectionTable_iff (c : Elf.Cfg) (h : Ehdr) (data : List UInt8) (hb : h.shnum < 65536) (t : SectionTable) :
    Elf.sections c h data = .ok t ↔ SectionsOf c h data t.sections ∧ NamesOf c h data t.sections t.strings := by
  unfold Elf.sections
  rw [Res.bind_eq, Res.bind_eq_ok]
  simp only [Res.bind_eq, Res.bind_eq_ok, sections_iff c h data hb, names_iff, Res.ok.injEq]
  obtain ⟨ss, st⟩ := t
  constructor
  · rintro ⟨a, h1, b, h2, h3⟩
    cases h3
    exact ⟨h1, h2⟩
  · rintro ⟨h1, h2⟩
    exact ⟨ss, h1, st, h2, rfl⟩

/-! ## Records -/

theorem sliceFromAll_iff (size : Nat) (hs : 0 < size) (d : List UInt8) (hd : d.length < U64) (imgs : List (List UInt8)) :
    sliceFromAllBytes size d = .ok imgs ↔ ∃ n, d.length = size * n ∧ imgs = (List.range n).map fun i => slice d (size * i) size := by
  unfold sliceFromAllBytes Bytes.readSlice
  have hdm := Nat.div_add_mod d.length size
  have hle : d.length / size * size ≤ d.length := Nat.div_mul_le_self _ _
  rw [if_pos ⟨by omega, hle⟩]
  simp only []
  have hdrop : List.drop (d.length / size * size) d = [] ↔ d.length = size * (d.length / size) := by
    rw [List.drop_eq_nil_iff]
    rw [Nat.mul_comm] at hle ⊢
    omega
  by_cases h : List.drop (d.length / size * size) d = []
  · rw [if_neg (by simp only [h]; simp)]
    simp only [Res.ok.injEq]
    rw [chunks_eq_map]
    have hn := hdrop.1 h
    constructor
    · intro he
      refine ⟨d.length / size, hn, ?_⟩
      rw [← he]
      apply List.map_congr_left
      intro i _
      rw [Nat.mul_comm]
    · rintro ⟨n, h1, rfl⟩
      have : d.length / size = n := by rw [h1]; exact Nat.mul_div_cancel_left n hs
      rw [this]
      apply List.map_congr_left
      intro i _
      rw [Nat.mul_comm]
  · rw [if_pos h]
    simp only [reduceCtorEq, false_iff]
    rintro ⟨n, h1, -⟩
    have : d.length / size = n := by rw [h1]; exact Nat.mul_div_cancel_left n hs
    exact h (hdrop.2 (by rw [this]; exact h1))

theorem records_iff {α : Type} (s : Shdr) (data : List UInt8) (hlen : data.length < 2 ^ 64) (size : Nat) (hs : 0 < size)
    (dec : List UInt8 → α) (record : Nat → α) (hd : ∀ o, o + size ≤ data.length → dec (slice data o size) = record o) (xs : List α) :
    (∃ imgs, s.dataAsArray data size = .ok imgs ∧ xs = imgs.map dec) ↔ RecordsOf size record data s xs := by
  unfold Shdr.dataAsArray RecordsOf
  rw [C42_section_data]
  by_cases h0 : s.type = 8 ∨ s.size = 0
  · rw [if_pos h0, if_pos h0]
    simp only []
    constructor
    · rintro ⟨imgs, h2, rfl⟩
      obtain ⟨n, h1, rfl⟩ := (sliceFromAll_iff size hs [] (by decide) imgs).1 h2
      have : n = 0 := by
        simp only [List.length_nil] at h1
        rcases Nat.mul_eq_zero.1 h1.symm with h1 | h1
        · omega
        · exact h1
      subst this; rfl
    · rintro rfl
      exact ⟨[], (sliceFromAll_iff size hs [] (by decide) []).2 ⟨0, rfl, rfl⟩, rfl⟩
  · rw [if_neg h0, if_neg h0]
    by_cases h1 : s.offset + s.size ≤ data.length
    · rw [if_pos h1]
      have hl : (slice data s.offset s.size).length = s.size := length_slice_of (Or.inr h1)
      have hi := sliceFromAll_iff size hs _ (show (slice data s.offset s.size).length < U64 by rw [hl]; omega)
      rw [hl] at hi
      simp only []
      constructor
      · rintro ⟨imgs, h2, rfl⟩
        obtain ⟨n, h3, rfl⟩ := (hi imgs).1 h2
        refine ⟨h1, n, h3, ?_⟩
        rw [List.map_map]
        apply List.map_congr_left
        intro i hi
        have hi : i < n := by simpa using hi
        simp only [Function.comp]
        have hle := Nat.mul_le_mul_left size (show i + 1 ≤ n from hi)
        rw [Nat.mul_succ] at hle
        rw [slice_slice _ _ _ _ _ (by omega)]
        exact hd _ (by omega)
      · rintro ⟨-, n, h2, rfl⟩
        refine ⟨_, (hi _).2 ⟨n, h2, rfl⟩, ?_⟩
        rw [List.map_map]
        apply List.map_congr_left
        intro i hi
        have hi : i < n := by simpa using hi
        simp only [Function.comp]
        have hle := Nat.mul_le_mul_left size (show i + 1 ≤ n from hi)
        rw [Nat.mul_succ] at hle
        rw [slice_slice _ _ _ _ _ (by omega)]
        exact (hd _ (by omega)).symm
    · rw [if_neg h1]
      simp [h1]

theorem records_unique {α : Type} {size : Nat} (hs : 0 < size) {record : Nat → α} {data : List UInt8} {s : Shdr} {xs ys : List α}
    (h : RecordsOf size record data s xs) (h' : RecordsOf size record data s ys) : xs = ys := by
  unfold RecordsOf at h h'
  split at h
  · rw [if_pos (by assumption)] at h'; rw [h, h']
  · rw [if_neg (by assumption)] at h'
    obtain ⟨-, n, h1, rfl⟩ := h
    obtain ⟨-, m, h2, rfl⟩ := h'
    rw [h1] at h2
    rw [Nat.eq_of_mul_eq_mul_left hs h2]

theorem strings_iff (t : SectionTable) (i : Nat) (st : StrTable) : t.stringsAt i = .ok st ↔ StringsOf t.sections i st := by
  unfold SectionTable.stringsAt StringsOf
  by_cases h0 : i = 0
  · simp [h0, eq_comm]
  · rw [if_neg h0, if_neg h0]
    unfold SectionTable.section
    rw [if_neg h0]
    cases hs : t.sections[i]? with
    | none => simp
    | some s =>
      simp only [Option.some.injEq]
      unfold Shdr.strings
      by_cases h3 : s.type = 3
      · rw [if_neg (by simp [h3])]
        by_cases hl : s.offset + s.size < 2 ^ 64
        · rw [if_neg (by omega)]
          simp only [Res.ok.injEq]
          constructor
          · rintro rfl; exact ⟨s, rfl, h3, hl, rfl⟩
          · rintro ⟨s', rfl, -, -, h⟩; exact h.symm
        · rw [if_pos (by omega)]
          simp only [reduceCtorEq, false_iff]
          rintro ⟨s', rfl, -, h, -⟩; exact hl h
      · rw [if_pos h3]
        simp only [reduceCtorEq, false_iff]
        rintro ⟨s', rfl, h, -⟩; exact h3 h

theorem strings_unique {ss : List Shdr} {i : Nat} {a b : StrTable} (h : StringsOf ss i a) (h' : StringsOf ss i b) : a = b := by
  unfold StringsOf at h h'
  split at h
  · rw [if_pos (by assumption)] at h'; rw [h, h']
  · rw [if_neg (by assumption)] at h'
    obtain ⟨s, h1, -, -, rfl⟩ := h
    obtain ⟨s', h2, -, -, rfl⟩ := h'
    rw [h1] at h2; cases h2; rfl

end Obj.ElfF

import Verif.Spec.CoffFile
import Verif.Props.Coff
import Verif.Proof.Pe
import Verif.Proof.Rich
import Verif.Proof.ElfFile3

/-! # Lemmas for the COFF file properties -/

namespace Obj.CoffF
open Obj Obj.Coff Obj.Spec.CoffF Obj.Props
open Obj.Spec.MachoF (HasName FirstOf)
open Obj.MachoF (num_slice num_lt hasName_iff testBit_and)

theorem take_slice (data : List UInt8) (o n k : Nat) (h : k ≤ n) : (slice data o n).take k = slice data o k := by
  have := slice_slice data o n 0 k (by omega)
  simpa [slice] using this

theorem section_decode (data : List UInt8) (o : Nat) : Section.decode (slice data o 40) = sectionIn data o := by
  unfold Section.decode sectionIn
  simp (discharger := decide) only [ElfF.field_num, num_slice, take_slice]

theorem reloc_decode (data : List UInt8) (o : Nat) : Reloc.decode (slice data o 10) = relocIn data o := by
  unfold Reloc.decode relocIn
  simp (discharger := decide) only [ElfF.field_num, num_slice, Nat.add_zero]

theorem symbol_decode (big : Bool) (data : List UInt8) (o : Nat) : Symbol.decode big (slice data o (recordSize big)) = symbolIn big data o := by
  unfold Symbol.decode symbolIn recordSize
  cases big
  · simp (discharger := decide) only [ElfF.field_num, num_slice, take_slice, if_false, Bool.false_eq_true]
    have hb := num_lt .little data (o + 12) 2
    have : (if 0xfeff < Spec.MachoF.num .little data (o + 12) 2 then toSigned 2 (Spec.MachoF.num .little data (o + 12) 2) else (Spec.MachoF.num .little data (o + 12) 2 : Int)) =
        sectionNumber (Spec.MachoF.num .little data (o + 12) 2) := by
      generalize Spec.MachoF.num .little data (o + 12) 2 = n at hb
      unfold sectionNumber toSigned
      simp only [Nat.reducePow] at *
      split <;> split <;> (try split) <;> omega
    rw [this]
  · simp (discharger := decide) only [ElfF.field_num, num_slice, take_slice, if_true]
    have hb := num_lt .little data (o + 12) 4
    have : toSigned 4 (Spec.MachoF.num .little data (o + 12) 4) =
        if Spec.MachoF.num .little data (o + 12) 4 < 2 ^ 31 then (Spec.MachoF.num .little data (o + 12) 4 : Int) else (Spec.MachoF.num .little data (o + 12) 4 : Int) - 2 ^ 32 := by
      generalize Spec.MachoF.num .little data (o + 12) 4 = n at hb
      unfold toSigned
      simp only [Nat.reducePow, Int.reducePow] at *
      done
    rw [this]

/-! ## The header -/

theorem parseHeader_iff (big : Bool) (data : List UInt8) (h : Header) (o : Nat) :
    parseHeader big data 0 = .ok (h, o) ↔ headerSize big ≤ data.length ∧
      (big = true → slice data 0 4 = [0, 0, 0xff, 0xff] ∧ 2 ≤ num data 4 2 ∧
        slice data 12 16 = [0xC7, 0xA1, 0xBA, 0xD1, 0xEE, 0xBA, 0xA9, 0x4B, 0xAF, 0x20, 0xFA, 0xF6, 0x6A, 0xA4, 0xDC, 0xB8]) ∧
      h = headerIn big data ∧ o = sectionsOffset big data := by
  unfold parseHeader headerSize headerIn sectionsOffset
  cases big
  · simp only [Bool.false_eq_true, if_false, false_imp_iff, true_and]
    unfold parseSmall ReadRef.read ReadRef.readBytes
    rw [readRef_readBytesAt_pos (by decide)]
    by_cases hs : 20 ≤ data.length
    · rw [if_pos (by omega)]
      have hb := num_lt .little data 16 2
      simp (discharger := decide) only [FileHeader.decode, ElfF.field_num, num_slice, Nat.zero_add]
      rw [if_neg (by simp only [Nat.reducePow] at *; omega)]
      simp only [Res.ok.injEq, Prod.mk.injEq, hs, true_and]
      constructor
      · rintro ⟨rfl, rfl⟩; exact ⟨rfl, by unfold num; omega⟩
      · rintro ⟨rfl, rfl⟩; exact ⟨rfl, by unfold num; omega⟩
    · rw [if_neg (by omega)]
      simp [hs]
  · simp only [if_true, true_imp_iff]
    unfold parseBig ReadRef.read ReadRef.readBytes
    rw [readRef_readBytesAt_pos (by decide)]
    by_cases hs : 56 ≤ data.length
    · rw [if_pos (by omega)]
      simp (discharger := decide) only [ElfF.field_num, num_slice, Nat.zero_add]
      have hcls : ((slice data 0 56).drop 12).take 16 = slice data 12 16 := slice_slice data 0 56 12 16 (by decide)
      rw [hcls]
      have hsig : slice data 0 4 = [0, 0, 0xff, 0xff] ↔ Spec.MachoF.num .little data 0 2 = 0 ∧ Spec.MachoF.num .little data 2 2 = 0xffff := by
        have h4 : slice data 0 4 = slice data 0 2 ++ slice data 2 2 := by
          unfold slice
          rw [List.drop_zero, show (4 : Nat) = 2 + 2 from rfl, List.take_add]
        rw [h4]
        have l1 : (slice data 0 2).length = 2 := by simp [slice]; omega
        have l2 : (slice data 2 2).length = 2 := by simp [slice]; omega
        have e1 : slice data 0 2 = wr .little 2 (Spec.MachoF.num .little data 0 2) := by
          have := wr_rd .little (slice data 0 2); rw [l1] at this; exact this.symm
        have e2 : slice data 2 2 = wr .little 2 (Spec.MachoF.num .little data 2 2) := by
          have := wr_rd .little (slice data 2 2); rw [l2] at this; exact this.symm
        constructor
        · intro he
          have h1 : slice data 0 2 = [0, 0] := by
            have := congrArg (List.take 2) he
            rw [List.take_append_of_le_length (by omega), List.take_of_length_le (by omega)] at this
            exact this
          have h2 : slice data 2 2 = [0xff, 0xff] := by
            have := congrArg (List.drop 2) he
            rw [List.drop_append_of_le_length (by omega), List.drop_of_length_le (by omega), List.nil_append] at this
            exact this
          unfold Spec.MachoF.num
          rw [h1, h2]; decide
        · rintro ⟨h1, h2⟩
          rw [e1, e2, h1, h2]; decide
      rw [hsig]
      by_cases hc : Spec.MachoF.num .little data 0 2 ≠ 0 ∨ Spec.MachoF.num .little data 2 2 ≠ 0xffff ∨ Spec.MachoF.num .little data 4 2 < 2 ∨ slice data 12 16 ≠ bigobjClassId
      · rw [if_pos hc]
        simp only [reduceCtorEq, false_iff]
        rintro ⟨-, ⟨⟨a1, a2⟩, a3, a4⟩, -⟩
        rcases hc with c | c | c | c
        · exact c a1
        · exact c a2
        · unfold num at a3; omega
        · exact c a4
      · rw [if_neg hc]
        simp only [not_or, Classical.not_not, Nat.not_lt] at hc
        obtain ⟨c1, c2, c3, c4⟩ := hc
        have hm : (56 : Nat) % U64 = 56 := by decide
        rw [hm]
        simp only [Res.ok.injEq, Prod.mk.injEq, hs, true_and, c1, c2]
        constructor
        · rintro ⟨rfl, rfl⟩; exact ⟨⟨c3, c4⟩, rfl, rfl⟩
        · rintro ⟨-, rfl, rfl⟩; exact ⟨rfl, rfl⟩
    · rw [if_neg (by omega)]
      simp [hs]

theorem header_bounds (big : Bool) (data : List UInt8) : (headerIn big data).big = big ∧ (headerIn big data).numberOfSections < 2 ^ 32 ∧
    (headerIn big data).pointerToSymbolTable < 2 ^ 32 ∧ (headerIn big data).numberOfSymbols < 2 ^ 32 ∧ sectionsOffset big data < 2 ^ 17 := by
  have a1 := num_lt .little data 44 4
  have a2 := num_lt .little data 48 4
  have a3 := num_lt .little data 52 4
  have b1 := num_lt .little data 2 2
  have b2 := num_lt .little data 8 4
  have b3 := num_lt .little data 12 4
  have b4 := num_lt .little data 16 2
  unfold headerIn sectionsOffset
  cases big <;> simp only [Bool.false_eq_true, if_true, if_false, num, Nat.reducePow, true_and] at * <;> omega

theorem sections_iff (h : Header) (data : List UInt8) (hn : h.numberOfSections < 2 ^ 32) (o : Nat) (ss : List Section) :
    parseSections h data o = .ok ss ↔ (h.numberOfSections = 0 ∨ o + 40 * h.numberOfSections ≤ data.length) ∧
      ss = (List.range h.numberOfSections).map fun i => sectionIn data (o + 40 * i) := by
  unfold parseSections
  rw [Res.bind_eq_ok]
  simp only [Pe.readSliceAt_iff data o 40 h.numberOfSections (by simp only [Nat.reducePow] at *; omega), Res.ok.injEq]
  constructor
  · rintro ⟨_, ⟨h1, rfl⟩, rfl⟩
    refine ⟨by omega, ?_⟩
    simp only [List.map_map]
    apply List.map_congr_left
    intro i _
    exact section_decode _ _
  · rintro ⟨h1, rfl⟩
    refine ⟨_, ⟨by omega, rfl⟩, ?_⟩
    simp only [List.map_map]
    apply List.map_congr_left
    intro i _
    exact section_decode _ _

theorem recordSize_bounds (big : Bool) : 18 ≤ recordSize big ∧ recordSize big ≤ 20 := by unfold recordSize; split <;> omega

theorem tables_iff (h : Header) (data : List UInt8) (hlen : data.length < 2 ^ 63) (hn : h.numberOfSymbols < 2 ^ 32) (hp : h.pointerToSymbolTable < 2 ^ 32)
    (t : SymTab) : SymTab.parse h data = .ok t ↔ TablesOf h data t := by
  unfold SymTab.parse TablesOf
  by_cases h0 : h.pointerToSymbolTable = 0
  · rw [if_neg (by omega), if_pos h0]
    obtain ⟨b, ss, st⟩ := t
    simp only [Res.ok.injEq, SymTab.mk.injEq]
    constructor
    · rintro ⟨rfl, rfl, rfl⟩; exact ⟨rfl, rfl, rfl⟩
    · rintro ⟨rfl, rfl, rfl⟩; exact ⟨rfl, rfl, rfl⟩
  · rw [if_pos h0, if_neg h0]
    have hsz := recordSize_bounds h.big
    have hse : symbolSize h.big = recordSize h.big := rfl
    rw [hse]
    have hm : h.numberOfSymbols * recordSize h.big < 2 ^ 37 := by
      have := Nat.mul_le_mul_left h.numberOfSymbols hsz.2
      simp only [Nat.reducePow] at *; omega
    have hm0 : h.numberOfSymbols * recordSize h.big = 0 ↔ h.numberOfSymbols = 0 := by
      rw [Nat.mul_eq_zero]; omega
    unfold ReadRef.readSlice ReadRef.readBytes
    rw [if_neg (by simp only [Nat.reducePow] at *; omega), readRef_readBytesAt_eq]
    have hch : Bytes.chunks (recordSize h.big) h.numberOfSymbols (slice data h.pointerToSymbolTable (h.numberOfSymbols * recordSize h.big)) =
        (List.range h.numberOfSymbols).map fun i => slice data (h.pointerToSymbolTable + i * recordSize h.big) (recordSize h.big) := by
      rw [chunks_eq_map]
      apply List.map_congr_left
      intro i hi
      rw [List.mem_range] at hi
      refine slice_slice data _ _ _ _ ?_
      have := Nat.mul_le_mul_right (recordSize h.big) hi
      rw [Nat.succ_mul] at this
      exact this
    have hmod : (h.pointerToSymbolTable + h.numberOfSymbols * recordSize h.big) % U64 = h.pointerToSymbolTable + h.numberOfSymbols * recordSize h.big :=
      Nat.mod_eq_of_lt (by simp only [Nat.reducePow] at *; omega)
    obtain ⟨b, ss, st⟩ := t
    by_cases h1 : h.numberOfSymbols * recordSize h.big = 0 ∨ h.pointerToSymbolTable + h.numberOfSymbols * recordSize h.big ≤ data.length
    · rw [if_pos h1]
      simp only [hch, hmod]
      generalize h.pointerToSymbolTable + h.numberOfSymbols * recordSize h.big = stop at *
      rw [readRef_readBytesAt_pos (by decide)]
      by_cases h2 : stop + 4 ≤ data.length
      · rw [if_pos h2]
        have hb := num_lt .little data stop 4
        simp only []
        rw [show rd .little (slice data stop 4) = Spec.MachoF.num .little data stop 4 from rfl]
        rw [if_neg (by simp only [Nat.reducePow] at *; omega)]
        simp only [Res.ok.injEq, SymTab.mk.injEq, h2, true_and]
        constructor
        · rintro ⟨rfl, rfl, rfl⟩; exact ⟨rfl, rfl, rfl⟩
        · rintro ⟨rfl, rfl, rfl⟩; exact ⟨rfl, rfl, rfl⟩
      · rw [if_neg h2]
        simp [h2]
    · rw [if_neg h1]
      simp only [reduceCtorEq, false_iff]
      rintro ⟨-, h2, -⟩
      omega

theorem parse_image (big : Bool) (data : List UInt8) (hlen : data.length < 2 ^ 63) (f : File) : File.parse big data = .ok f ↔ Image big data f := by
  obtain ⟨hb, h1, h2, h3, h4⟩ := header_bounds big data
  unfold File.parse
  simp only [Res.bind_eq, Res.bind_eq_ok, Res.ok.injEq]
  constructor
  · rintro ⟨⟨h, o⟩, g1, ss, g2, t, g3, rfl⟩
    obtain ⟨e1, e2, rfl, rfl⟩ := (parseHeader_iff ..).1 g1
    obtain ⟨e3, e4⟩ := (sections_iff _ data h1 _ ss).1 g2
    exact ⟨e1, e2, rfl, e3, e4, (tables_iff _ data hlen h3 h2 t).1 g3⟩
  · rintro ⟨e1, e2, e3, e4, e5, e6⟩
    obtain ⟨h, ss, t⟩ := f
    simp only at e3 e4 e5 e6
    subst e3
    exact ⟨(_, _), (parseHeader_iff ..).2 ⟨e1, e2, rfl, rfl⟩, ss, (sections_iff _ data h1 _ ss).2 ⟨e4, e5⟩, t, (tables_iff _ data hlen h3 h2 t).2 e6, rfl⟩

theorem parse_no_panic (big : Bool) (data : List UInt8) (hlen : data.length < 2 ^ 64) : File.parse big data ≠ .panic := by
  obtain ⟨h1, h2⟩ := C54_headers data hlen big 0
  unfold File.parse
  refine Res.bind_no_panic h1 fun r hr => ?_
  obtain ⟨h3, h4, -⟩ := h2 r.1 r.2 hr
  exact Res.bind_no_panic h4 fun ss _ => Res.bind_no_panic h3 fun t _ => by simp

/-! ## Names -/

theorem decOffset_rest (ds : List Nat) (h : ∀ d ∈ ds, d < 10) (rest : List UInt8) (hr : rest = [] ∨ ∃ tl, rest = 0 :: tl) (v : Nat)
    (hv : (v + 1) * 10 ^ ds.length ≤ U32) :
    decOffset ((ds.map fun d => UInt8.ofNat (48 + d)) ++ rest) v = .ok (ds.foldl (fun v d => v * 10 + d) v) := by
  induction ds generalizing v with
  | nil =>
    rcases hr with rfl | ⟨tl, rfl⟩
    · rfl
    · rw [List.map_nil, List.nil_append, decOffset]; simp
  | cons d ds ih =>
    have hd : d < 10 := h d (by simp)
    rw [List.length_cons, Nat.pow_succ, Nat.mul_comm (10 ^ ds.length) 10, ← Nat.mul_assoc] at hv
    have hp : 1 ≤ 10 ^ ds.length := Nat.one_le_pow _ _ (by decide)
    have hb : (UInt8.ofNat (48 + d)).toNat = 48 + d := by simp; omega
    rw [List.map_cons, List.cons_append, decOffset, hb, if_pos (by omega), if_neg, show 48 + d - 48 = d by omega, List.foldl_cons]
    · refine ih (fun x hx => h x (by simp [hx])) _ ?_
      refine Nat.le_trans (Nat.mul_le_mul_right _ ?_) hv
      omega
    · have := Nat.le_trans (Nat.le_mul_of_pos_right ((v + 1) * 10) hp) hv
      omega

theorem offset_iff (raw : List UInt8) (hl : raw.length = 8) (off : Nat) : nameOffset raw = .ok (some off) ↔ OffsetIn raw off := by
  constructor
  · intro h
    obtain ⟨h1, h2 | h2⟩ := (C31_decode_only raw hl).1 off h
    · obtain ⟨ds, g1, g2, g3 | ⟨rest, g3⟩⟩ := h2
      · exact Or.inl ⟨ds, [], g1, g2, by simpa using g3, Or.inl rfl⟩
      · exact Or.inl ⟨ds, _, g1, g2, g3, Or.inr ⟨rest, rfl⟩⟩
    · obtain ⟨ds, g1, g2, g3⟩ := h2
      exact Or.inr ⟨ds, g1, g2, h1, g3⟩
  · rintro (⟨ds, rest, g1, g2, g3, g4⟩ | ⟨ds, g1, g2, g3, g4⟩)
    · have hlen : ds.length ≤ 7 := by
        have := congrArg List.length g3
        simp at this; omega
      have hd := decOffset_rest ds g1 rest g4 0 (by
        have : 10 ^ ds.length ≤ 10 ^ 7 := Nat.pow_le_pow_right (by decide) hlen
        simp only [Nat.reducePow] at *; omega)
      subst g3 g2
      cases ds with
      | nil =>
        rcases g4 with rfl | ⟨tl, rfl⟩
        · simp at hl
        · simp only [List.map_nil, List.nil_append] at hd
          simp [nameOffset, hd, Spec.CoffS.digitsValue]
      | cons d ds =>
        have hd0 : d < 10 := g1 d (by simp)
        simp only [List.map_cons, List.cons_append] at hd ⊢
        have hne : UInt8.ofNat (48 + d) ≠ 47 := by
          intro he
          have := congrArg UInt8.toNat he
          simp at this
          omega
        simp only [nameOffset, ne_eq, not_true_eq_false, if_false, hne, hd, Res.ok_bind]
        rfl
    · have hlen : ds.length = 6 := by
        have := congrArg List.length g4
        simp at this; omega
      have := C31_decode off raw (by rw [g4, g2]; exact .base64 ds hlen g1)
      rw [if_pos g3] at this
      exact this

theorem untilNul_eq (l : List UInt8) : untilNul l = MachoR.upToNul l := by
  unfold untilNul
  cases hm : memchr 0 l with
  | none =>
    exact ((hasName_iff l l).1 ⟨(memchr_none_iff ..).1 hm, Or.inl rfl⟩).symm
  | some k =>
    obtain ⟨pre, suf, rfl, h1, rfl⟩ := (memchr_some_iff ..).1 hm
    simp only [List.take_left']
    exact ((hasName_iff _ pre).1 ⟨h1, Or.inr ⟨suf, rfl⟩⟩).symm

theorem string_iff (f : File) (data : List UInt8) (hlen : data.length < 2 ^ 64) (o : Nat) (n : List UInt8) :
    f.symbols.strings.get data o = .ok n ↔ StringAt f data o n := (C42_string_lookup f.symbols.strings data o n hlen).1

theorem name_iff (f : File) (data : List UInt8) (hlen : data.length < 2 ^ 64) (s : Section) (hl : s.name.length = 8) (name : List UInt8) :
    f.sectionName data s = .ok name ↔ Named f data s name := by
  unfold File.sectionName readSectionName Named
  rw [Res.bind_eq_ok]
  constructor
  · rintro ⟨o, h1, h2⟩
    cases o with
    | none =>
      refine Or.inl ⟨(C31_decode_only s.name hl).2.1 h1, ?_⟩
      simp only [Res.ok.injEq] at h2
      rw [hasName_iff, ← untilNul_eq]; exact h2
    | some o => exact Or.inr ⟨o, (offset_iff s.name hl o).1 h1, (string_iff f data hlen o name).1 h2⟩
  · rintro (⟨h1, h2⟩ | ⟨o, h1, h2⟩)
    · refine ⟨none, (C31_decode_only s.name hl).2.2 h1, ?_⟩
      rw [hasName_iff, ← untilNul_eq] at h2
      simp only [h2]
    · exact ⟨some o, (offset_iff s.name hl o).2 h1, (string_iff f data hlen o name).2 h2⟩

theorem symbolName_iff (f : File) (data : List UInt8) (hlen : data.length < 2 ^ 63) (hu : f.symbols.symbols.length < 2 ^ 63) (i : Nat) (s : Symbol)
    (hs : s.name.length = 8) (name : List UInt8) : f.symbolName data i s = .ok name ↔ SymbolNamed f data i s name := by
  unfold File.symbolName SymTab.nameBytes SymbolNamed Symbol.hasAuxFileName
  by_cases hc : 0 < s.auxCount ∧ s.storageClass = 0x67
  · rw [if_pos (by simpa using hc), if_pos hc, C54_file_name f.symbols i s.auxCount hu name]
    rfl
  · rw [if_neg (by simpa using hc), if_neg hc]
    match hn : s.name, hs with
    | b0 :: rest, hs =>
      show (if b0 = 0 then _ else _) = _ ↔ _
      by_cases h0 : b0 = 0
      · rw [if_pos h0, if_pos (by simp [h0])]
        exact string_iff f data (by omega) _ _
      · rw [if_neg h0, if_neg (by simp [h0]), hasName_iff, ← untilNul_eq]
        simp

/-! ## Data and relocations -/

theorem bit_iff (n k : Nat) (m : Nat) (h : m = 2 ^ k) : n &&& m = m ↔ n.testBit k = true := by rw [h]; exact testBit_and n k

theorem data_iff (data : List UInt8) (s : Section) (d : List UInt8) : s.data data = .ok d ↔ DataOf data s d := by
  unfold Section.data Section.fileRange DataOf
  by_cases hc : s.characteristics.testBit 7
  · rw [if_pos ((bit_iff _ 7 0x80 rfl).2 hc), if_pos hc]
    simp [eq_comm]
  · rw [if_neg (by rw [bit_iff _ 7 0x80 rfl]; exact hc), if_neg hc]
    simp only [readRef_readBytesAt_eq]
    by_cases h1 : s.sizeOfRawData = 0 ∨ s.pointerToRawData + s.sizeOfRawData ≤ data.length
    · rw [if_pos h1]; simp [h1, eq_comm]
    · rw [if_neg h1]; simp [h1]

theorem relocsAt_iff (data : List UInt8) (o n : Nat) (hn : n < 2 ^ 32) (rs : List Reloc) :
    ((Elf.readSliceAt data o 10 n).bind fun imgs => Res.ok (imgs.map Reloc.decode)) = .ok rs ↔ RelocsAt data o n rs := by
  unfold RelocsAt
  rw [Res.bind_eq_ok]
  simp only [Pe.readSliceAt_iff data o 10 n (by simp only [Nat.reducePow] at *; omega), Res.ok.injEq]
  have hmap : ((List.range n).map fun i => slice data (o + 10 * i) 10).map Reloc.decode = (List.range n).map fun i => relocIn data (o + 10 * i) := by
    simp only [List.map_map]
    exact List.map_congr_left fun i _ => reloc_decode _ _
  constructor
  · rintro ⟨_, ⟨h1, rfl⟩, rfl⟩
    exact ⟨by omega, hmap⟩
  · rintro ⟨h1, rfl⟩
    exact ⟨_, ⟨by omega, rfl⟩, hmap⟩

theorem relocs_iff (data : List UInt8) (s : Section) (hs : s.numberOfRelocations < 2 ^ 16) (rs : List Reloc) :
    s.relocations data = .ok rs ↔ RelocsOf data s rs := by
  unfold Section.relocations RelocsOf
  by_cases hc : Overflows s
  · rw [if_pos (by exact ⟨hc.1, (bit_iff _ 24 0x1000000 rfl).2 hc.2⟩), readRef_readBytesAt_pos (by decide)]
    simp only [hc, not_true_eq_false, false_and, false_or, true_and]
    by_cases h1 : s.pointerToRelocations + 10 ≤ data.length
    · rw [if_pos h1]
      simp only [Res.ok_bind, reloc_decode]
      have hb := num_lt .little data s.pointerToRelocations 4
      rw [show (relocIn data s.pointerToRelocations).virtualAddress = num data s.pointerToRelocations 4 from rfl]
      unfold num
      generalize Spec.MachoF.num .little data s.pointerToRelocations 4 = n at *
      by_cases h0 : n = 0
      · rw [if_pos h0]
        simp only [reduceCtorEq, h1, true_and, false_iff]
        rintro ⟨n', e, -⟩; omega
      · rw [if_neg h0, relocsAt_iff _ _ _ (by simp only [Nat.reducePow] at *; omega)]
        simp only [h1, true_and]
        constructor
        · intro h; exact ⟨n - 1, by omega, h⟩
        · rintro ⟨n', e, h⟩
          rw [show n - 1 = n' by omega]; exact h
    · rw [if_neg h1]
      simp [h1]
  · rw [if_neg (by
      rintro ⟨a, b⟩
      exact hc ⟨a, (bit_iff _ 24 0x1000000 rfl).1 b⟩)]
    rw [relocsAt_iff _ _ _ (by simp only [Nat.reducePow] at *; omega)]
    simp only [hc, not_false_eq_true, true_and, false_and, or_false]

end Obj.CoffF

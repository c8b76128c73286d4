import Verif.Proof.PeFile
import Verif.Props.Coff
import Verif.Props.Pe
import Verif.Props.FileKind

/-! # C84: reading PE images -/

namespace Obj.Props
open Obj Obj.Coff Obj.Pe Obj.Spec.PeFile
open Obj.Spec.Pe (First Maps)
open Obj.Spec (At Magic)

/-- C84: for any bytes (below 2^63), parsing a PE image of the given width succeeds exactly if the DOS header, the NT headers, the
data directories and the section headers are there and inside of the file; everything that is then available is what the format
specification puts at the place, and a COFF symbol table that does not fit in the file is treated as empty.  Nothing panics. -/
theorem C84_parse (is64 : Bool) (data : List UInt8) (hlen : data.length < 2 ^ 63) :
    (∀ f, PeFile.parse is64 data = .ok f ↔ Image is64 data f) ∧ PeFile.parse is64 data ≠ .panic :=
  ⟨parse_image is64 data hlen, file_parse_no_panic is64 data⟩

/-- Little-endian bytes. -/
private theorem at_of_le {data : List UInt8} {o w v : Nat} (hi : o + w ≤ data.length) (h : le data o w = v) : At data o (wr .little w v) := by
  unfold At
  rw [length_wr, ← h]
  unfold le
  have := wr_rd .little (slice data o w)
  rw [length_slice_of (Or.inr hi)] at this
  exact this.symm

/-- C84: a file that parses as a PE image is detected as the corresponding file kind; no file parses with both widths. -/
theorem C84_kind (is64 : Bool) (data : List UInt8) (hlen : data.length < 2 ^ 63) (f : PeFile) (h : PeFile.parse is64 data = .ok f) :
    FileKind.parseAt data 0 = .ok (if is64 then .pe64 else .pe32) ∧ PeFile.parse (!is64) data = .err := by
  have hf := (parse_image is64 data hlen f).1 h
  have hin := hf.optInside
  have hfit := hf.optFits
  have hfix : 96 ≤ fixedSize is64 := by unfold fixedSize; split <;> omega
  have hmag := hf.opt.1 (f.opt.magic, (0, 2), (0, 2)) (by simp [optTable])
  have hmag' : le data (f.ntOffset + 24) 2 = if is64 then 0x20b else 0x10b := by
    rw [← hf.optMagic]
    cases is64 <;> exact hmag.symm
  have hsz : f.ntOffset + 120 ≤ data.length := by omega
  have hmz : At data 0 "MZ".toUTF8.toList := by
    have := at_of_le (by have := hf.dosSize; omega) hf.dosMagic
    rw [show "MZ".toUTF8.toList = wr .little 2 0x5a4d by decide +kernel]
    exact this
  have hpe : At data f.ntOffset ("PE".toUTF8.toList ++ [0, 0]) := by
    have := at_of_le (by omega) hf.signature
    rw [show "PE".toUTF8.toList ++ [0, 0] = wr .little 4 0x4550 by decide +kernel]
    exact this
  refine ⟨?_, ?_⟩
  · rw [C41_exact]
    refine ⟨by have := hf.dosSize; omega, ?_⟩
    cases is64
    · exact ⟨rfl, f.ntOffset, hf.ntOffset, hf.dosSize, hsz, hmz, hpe, at_of_le (by omega) hmag'⟩
    · exact ⟨rfl, f.ntOffset, hf.ntOffset, hf.dosSize, hsz, hmz, hpe, at_of_le (by omega) hmag'⟩
  · cases hp : PeFile.parse (!is64) data with
    | err => rfl
    | panic => exact absurd hp (file_parse_no_panic _ _)
    | ok g =>
      exfalso
      have hg := (parse_image _ data hlen g).1 hp
      have hn : g.ntOffset = f.ntOffset := by rw [hg.ntOffset, hf.ntOffset]
      have hmag2 := hg.opt.1 (g.opt.magic, (0, 2), (0, 2)) (by simp [optTable])
      have hmag2' : le data (f.ntOffset + 24) 2 = if !is64 then 0x20b else 0x10b := by
        rw [← hg.optMagic, ← hn]
        cases is64 <;> exact hmag2.symm
      rw [hmag'] at hmag2'
      cases is64 <;> simp at hmag2'

/-- C84: what a parsed image says about itself.  The architecture is that of the machine; the kind is given by the DLL flag (bit 13)
and the system flag (bit 12); the entry point is relative to the image base (in 64-bit arithmetic). -/
theorem C84_file (f : PeFile) :
    f.architecture = (if f.header.machine = 0x1c4 then .arm else if f.header.machine = 0xaa64 then .aarch64
      else if f.header.machine = 0xa641 then .aarch64 else if f.header.machine = 0x14c then .i386
      else if f.header.machine = 0x8664 then .x86_64 else .unknown) ∧
    (f.isArm64EC = true ↔ f.header.machine = 0xa641) ∧
    f.kind = (if f.header.characteristics.testBit 13 then .dynamic else if f.header.characteristics.testBit 12 then .unknown
      else .executable) ∧
    f.imageBase = f.opt.imageBase ∧ f.entry = (f.opt.addressOfEntryPoint + f.opt.imageBase) % 2 ^ 64 := by
  refine ⟨?_, by unfold PeFile.isArm64EC; rw [decide_eq_true_iff], ?_, rfl, rfl⟩
  · unfold PeFile.architecture
    repeat' split
    all_goals first | rfl | (exfalso; omega)
  · unfold PeFile.kind
    have h1 := and_two_pow_ne f.header.characteristics 13
    have h2 := and_two_pow_ne f.header.characteristics 12
    simp only [Nat.reducePow] at h1 h2
    by_cases a : f.header.characteristics.testBit 13
    · rw [if_pos (h1.2 a), if_pos a]
    · rw [if_neg (fun c => a (h1.1 c)), if_neg a]
      by_cases b : f.header.characteristics.testBit 12
      · rw [if_pos (h2.2 b), if_pos b]
      · rw [if_neg (fun c => b (h2.1 c)), if_neg b]

/-- C84: the sections of an image are numbered from 1; a section is found exactly by these numbers; by name, the first one of that
name is found. -/
theorem C84_sections (f : PeFile) :
    (∀ i s, f.sectionByIndex i = .ok s ↔ 0 < i ∧ f.sections[i - 1]? = some s) ∧
    (∀ i, f.sectionByIndex i ≠ .panic) ∧
    f.sectionsIter.length = f.sections.length ∧
    (∀ (k : Nat) s, f.sections[k]? = some s → f.sectionsIter[k]? = some (k + 1, s)) ∧
    (∀ name i s, f.sectionByName name = some (i, s) ↔ f.sectionByIndex i = .ok s ∧ f.sectionName s = .ok name ∧
      ∀ j t, j < i → f.sectionByIndex j = .ok t → f.sectionName t ≠ .ok name) ∧
    (f.hasDebugSymbols = true ↔ ∃ s ∈ f.sections, f.sectionName s = .ok ".debug_info".toUTF8.toList) := by
  have hidx : ∀ i s, f.sectionByIndex i = .ok s ↔ 0 < i ∧ f.sections[i - 1]? = some s := by
    intro i s
    unfold PeFile.sectionByIndex sectionAt
    by_cases h : i = 0
    · rw [if_pos h]; simp [h]
    · rw [if_neg h]
      cases hg : f.sections[i - 1]? with
      | none => simp
      | some t => simp; intro _; omega
  have hname : ∀ name i s, f.sectionByName name = some (i, s) ↔ f.sectionByIndex i = .ok s ∧ f.sectionName s = .ok name ∧
      ∀ j t, j < i → f.sectionByIndex j = .ok t → f.sectionName t ≠ .ok name := by
    intro name i s
    have hc := C54_section_by_name f.sections f.symbols.strings f.data name
    constructor
    · intro h
      obtain ⟨h1, h2, h3, h4⟩ := hc.1 i s h
      refine ⟨h2, h3, fun j t hj ht => ?_⟩
      obtain ⟨k1, k2⟩ := (hidx j t).1 ht
      exact h4 (j - 1) t k2 (by omega)
    · rintro ⟨h1, h2, h3⟩
      obtain ⟨k1, k2⟩ := (hidx i s).1 h1
      cases hs : f.sectionByName name with
      | none => exact absurd h2 (hc.2 hs s (List.mem_of_getElem? k2))
      | some p =>
        obtain ⟨i', s'⟩ := p
        obtain ⟨g1, g2, g3, g4⟩ := hc.1 i' s' hs
        have g2' := (hidx i' s').1 g2
        rcases Nat.lt_trichotomy i i' with hl | rfl | hl
        · exact absurd h2 (g4 (i - 1) s k2 (by omega))
        · rw [g2'.2] at k2
          simp only [Option.some.injEq] at k2
          rw [k2]
        · exact absurd g3 (h3 i' s' hl g2)
  refine ⟨hidx, fun i => ?_, ?_, ?_, hname, ?_⟩
  · unfold PeFile.sectionByIndex sectionAt
    split
    · simp
    · cases f.sections[i - 1]? <;> simp
  · simp [PeFile.sectionsIter]
  · intro k s h
    simp [PeFile.sectionsIter, h]
  · have hc := C54_section_by_name f.sections f.symbols.strings f.data ".debug_info".toUTF8.toList
    unfold PeFile.hasDebugSymbols
    rw [Option.isSome_iff_exists]
    constructor
    · rintro ⟨⟨i, s⟩, hs⟩
      obtain ⟨h1, h2, -⟩ := (hname _ i s).1 hs
      exact ⟨s, List.mem_of_getElem? ((hidx i s).1 h1).2, h2⟩
    · rintro ⟨s, hs, hn⟩
      cases h : f.sectionByName ".debug_info".toUTF8.toList with
      | none => exact absurd hn (hc.2 h s hs)
      | some p => exact ⟨p, rfl⟩

/-- C84: the contents of a section are the first bytes of its file range, as many as the section has in memory; a section without
such bytes has no file range.  Data at an address is found exactly if all of it is inside of the contents.  Permissions are the
bits 30, 31 and 29 of the characteristics. -/
theorem C84_section (f : PeFile) (s : Coff.Section) :
    f.sectionAddress s = (s.virtualAddress + f.opt.imageBase) % 2 ^ 64 ∧
    (∀ o n, sectionFileRange s = some (o, n) ↔ o = s.pointerToRawData ∧ n = min s.virtualSize s.sizeOfRawData ∧ 0 < n) ∧
    (∀ d, sectionData s f.data = .ok d ↔ d = slice f.data s.pointerToRawData (min s.virtualSize s.sizeOfRawData) ∧
      d.length = min s.virtualSize s.sizeOfRawData) ∧
    sectionData s f.data ≠ .panic ∧
    (∀ a n b, f.sectionDataRange s a n = .ok (some b) ↔ ∃ d pre post, sectionData s f.data = .ok d ∧ d = pre ++ b ++ post ∧
      b.length = n ∧ a = f.sectionAddress s + pre.length) ∧
    (∀ a n, f.sectionDataRange s a n ≠ .panic ∧ (f.sectionDataRange s a n = .err ↔ sectionData s f.data = .err)) ∧
    permissions s = (s.characteristics.testBit 30, s.characteristics.testBit 31, s.characteristics.testBit 29) := by
  have hnp : sectionData s f.data ≠ .panic := readRef_readBytesAt_no_panic _ _ _
  refine ⟨rfl, ?_, ?_, hnp, ?_, ?_, ?_⟩
  · intro o n
    unfold sectionFileRange fileRange
    by_cases h : min s.virtualSize s.sizeOfRawData = 0
    · rw [if_pos h]; simp; omega
    · rw [if_neg h]
      simp only [Option.some.injEq, Prod.mk.injEq]
      omega
  · intro d
    unfold sectionData fileRange
    rw [readRef_readBytesAt_eq]
    generalize min s.virtualSize s.sizeOfRawData = m
    by_cases h : m = 0 ∨ s.pointerToRawData + m ≤ f.data.length
    · rw [if_pos h, Res.ok.injEq]
      constructor
      · rintro rfl; exact ⟨rfl, length_slice_of h⟩
      · intro h; exact h.1.symm
    · rw [if_neg h]
      simp only [reduceCtorEq, false_iff]
      rintro ⟨rfl, h2⟩
      simp only [slice, List.length_take, List.length_drop] at h2
      omega
  · intro a n b
    unfold PeFile.sectionDataRange
    cases hd : sectionData s f.data with
    | err => simp
    | panic => exact absurd hd hnp
    | ok d =>
      rw [Res.ok_bind, Res.ok.injEq]
      unfold dataRange
      generalize f.sectionAddress s = A
      by_cases h1 : a < A
      · rw [if_pos h1]
        simp only [reduceCtorEq, false_iff]
        rintro ⟨d', pre, post, -, -, -, h⟩
        omega
      · rw [if_neg h1]
        simp only
        by_cases h2 : d.length < a - A
        · rw [if_pos h2]
          simp only [reduceCtorEq, false_iff]
          rintro ⟨d', pre, post, e, h3, -, h⟩
          simp only [Res.ok.injEq] at e
          subst e
          have := congrArg List.length h3
          simp only [List.length_append] at this
          omega
        · rw [if_neg h2]
          by_cases h3 : (d.drop (a - A)).length < n
          · rw [if_pos h3]
            simp only [reduceCtorEq, false_iff]
            rintro ⟨d', pre, post, e, h4, h5, h⟩
            simp only [Res.ok.injEq] at e
            subst e
            have := congrArg List.length h4
            simp only [List.length_append] at this
            rw [List.length_drop] at h3
            omega
          · rw [if_neg h3, Option.some.injEq]
            constructor
            · rintro rfl
              refine ⟨d, d.take (a - A), (d.drop (a - A)).drop n, rfl, ?_, ?_, ?_⟩
              · rw [List.append_assoc, List.take_append_drop, List.take_append_drop]
              · rw [List.length_take]; omega
              · rw [List.length_take]; omega
            · rintro ⟨d', pre, post, e, h4, h5, h⟩
              simp only [Res.ok.injEq] at e
              subst e
              have : a - A = pre.length := by omega
              rw [this, h4, List.append_assoc, List.drop_left, ← h5, List.take_left]
  · intro a n
    unfold PeFile.sectionDataRange
    cases hd : sectionData s f.data with
    | err => simp
    | panic => exact absurd hd hnp
    | ok d => simp
  · unfold permissions
    have h1 := and_two_pow_ne s.characteristics 30
    have h2 := and_two_pow_ne s.characteristics 31
    have h3 := and_two_pow_ne s.characteristics 29
    simp only [Nat.reducePow] at h1 h2 h3
    have key : ∀ (p : Prop) [Decidable p] (b : Bool), (p ↔ b = true) → decide p = b := by
      intro p _ b h
      cases b <;> simp_all
    rw [key _ _ h1, key _ _ h2, key _ _ h3]

private theorem pdb_chunks (bytes : List UInt8) (n : Nat) (hn : 28 * n ≤ bytes.length) :
    (Bytes.chunks 28 n bytes).map (fun d => (⟨field .little d 12 4, field .little d 16 4, field .little d 24 4⟩ : DebugEntry)) =
      (List.range n).map fun i => ⟨le bytes (28 * i + 12) 4, le bytes (28 * i + 16) 4, le bytes (28 * i + 24) 4⟩ := by
  apply List.ext_getElem?
  intro i
  rcases Nat.lt_or_ge i n with h | h
  · rw [List.getElem?_map, Coff.chunks_get _ _ _ _ h, List.getElem?_map, List.getElem?_range h]
    simp only [Option.map_some]
    rw [field_le _ _ _ _ _ (by decide), field_le _ _ _ _ _ (by decide), field_le _ _ _ _ _ (by decide)]
  · rw [List.getElem?_map, Coff.chunks_none _ _ _ _ h, List.getElem?_eq_none (by simpa using h)]
    rfl

private def entryOf (d : List UInt8) : DebugEntry := ⟨field .little d 12 4, field .little d 16 4, field .little d 24 4⟩

/-- The four signature bytes are those of the data. -/
private theorem slice_take4 (data : List UInt8) (p n : Nat) (h : 4 ≤ n) : (slice data p n).take 4 = slice data p 4 := by
  have := slice_slice data p n 0 4 (by omega)
  simpa [slice] using this

private theorem loop_some (data : List UInt8) (ds : List (List UInt8)) (cv : CodeView) :
    pdbLoop data ds = .ok (some cv) ↔ ∃ pre e post, ds.map entryOf = pre ++ e :: post ∧ IsPdb data e cv ∧ ∀ x ∈ pre, Skipped data x := by
  induction ds with
  | nil => simp [pdbLoop]
  | cons d ds ih =>
    have hhead : ∀ P : Prop, (∃ pre e post, (d :: ds).map entryOf = pre ++ e :: post ∧ IsPdb data e cv ∧ ∀ x ∈ pre, Skipped data x) ↔
        (IsPdb data (entryOf d) cv ∨ (Skipped data (entryOf d) ∧
          ∃ pre e post, ds.map entryOf = pre ++ e :: post ∧ IsPdb data e cv ∧ ∀ x ∈ pre, Skipped data x)) := by
      intro _
      constructor
      · rintro ⟨pre, e, post, h1, h2, h3⟩
        cases pre with
        | nil =>
          simp only [List.map_cons, List.nil_append, List.cons.injEq] at h1
          left; rw [h1.1]; exact h2
        | cons x pre =>
          simp only [List.map_cons, List.cons_append, List.cons.injEq] at h1
          right
          exact ⟨by rw [h1.1]; exact h3 x (by simp), pre, e, post, h1.2, h2, fun y hy => h3 y (by simp [hy])⟩
      · rintro (h | ⟨h1, pre, e, post, h2, h3, h4⟩)
        · exact ⟨[], entryOf d, ds.map entryOf, rfl, h, by simp⟩
        · refine ⟨entryOf d :: pre, e, post, by simp [h2], h3, ?_⟩
          intro x hx
          rw [List.mem_cons] at hx
          rcases hx with rfl | hx
          · exact h1
          · exact h4 x hx
    rw [hhead True]
    unfold pdbLoop
    by_cases ht : field .little d 12 4 = 2
    · rw [if_neg (by simp [ht]), readRef_readBytesAt_eq]
      have ht' : (entryOf d).typ = 2 := ht
      by_cases hr : field .little d 16 4 = 0 ∨ field .little d 24 4 + field .little d 16 4 ≤ data.length
      · rw [if_pos hr, Res.ok_bind]
        have hl : (slice data (field .little d 24 4) (field .little d 16 4)).length = field .little d 16 4 := length_slice_of hr
        cases hc : codeView (slice data (field .little d 24 4) (field .little d 16 4)) with
        | panic => exact absurd hc (codeView_no_panic _)
        | err =>
          simp only [Res.err_bind, reduceCtorEq, false_iff]
          rintro (⟨-, h2, h3⟩ | ⟨h1 | ⟨h1, h2, h3⟩, -⟩)
          · have := (codeView_iff _ _).2 h3
            change codeView (slice data (field .little d 24 4) (field .little d 16 4)) = _ at this
            rw [hc] at this
            simp at this
          · exact h1 ht'
          · have := (codeView_none (slice data (field .little d 24 4) (field .little d 16 4))).2
              ⟨by rw [hl]; exact h2, by rw [slice_take4 _ _ _ (show 4 ≤ field .little d 16 4 from h2)]; exact h3⟩
            rw [hc] at this
            simp at this
        | ok o =>
          rw [Res.ok_bind]
          cases o with
          | some c =>
            simp only [Res.ok.injEq, Option.some.injEq]
            have hh := (codeView_iff _ _).1 hc
            constructor
            · rintro rfl
              left
              refine ⟨ht', ?_, hh⟩
              obtain ⟨rest, h1, -⟩ := hh
              have h1' := congrArg List.length h1
              rw [hl] at h1'
              simp only [List.length_append, List.length_cons] at h1'
              show field .little d 24 4 + field .little d 16 4 ≤ data.length
              omega
            · rintro (⟨-, h2, h3⟩ | ⟨h1 | ⟨h1, h2, h3⟩, -⟩)
              · have := (codeView_iff _ _).2 h3
                change codeView (slice data (field .little d 24 4) (field .little d 16 4)) = _ at this
                rw [hc] at this
                simpa using this
              · exact absurd ht' h1
              · have := (codeView_none (slice data (field .little d 24 4) (field .little d 16 4))).2
                  ⟨by rw [hl]; exact h2, by rw [slice_take4 _ _ _ (show 4 ≤ field .little d 16 4 from h2)]; exact h3⟩
                rw [hc] at this
                simp at this
          | none =>
            simp only
            rw [ih]
            have hh := (codeView_none _).1 hc
            rw [hl] at hh
            constructor
            · intro h
              right
              refine ⟨Or.inr ⟨?_, hh.1, ?_⟩, h⟩
              · show field .little d 24 4 + field .little d 16 4 ≤ data.length
                omega
              · have := hh.2
                rw [slice_take4 _ _ _ hh.1] at this
                exact this
            · rintro (⟨-, h2, h3⟩ | ⟨-, h⟩)
              · have := (codeView_iff _ _).2 h3
                change codeView (slice data (field .little d 24 4) (field .little d 16 4)) = _ at this
                rw [hc] at this
                simp at this
              · exact h
      · rw [if_neg hr]
        simp only [Res.err_bind, reduceCtorEq, false_iff]
        rintro (⟨-, h2, h3⟩ | ⟨h1 | ⟨h1, h2, h3⟩, -⟩)
        · exact hr (Or.inr h2)
        · exact h1 ht'
        · exact hr (Or.inr h1)
    · rw [if_pos ht, ih]
      have ht' : (entryOf d).typ ≠ 2 := ht
      constructor
      · intro h; exact Or.inr ⟨Or.inl ht', h⟩
      · rintro (h | h)
        · exact absurd h.1 ht'
        · exact h.2

private theorem loop_none (data : List UInt8) (ds : List (List UInt8)) :
    pdbLoop data ds = .ok none ↔ ∀ x ∈ ds.map entryOf, Skipped data x := by
  induction ds with
  | nil => simp [pdbLoop]
  | cons d ds ih =>
    rw [List.map_cons, List.forall_mem_cons, ← ih]
    rw [pdbLoop]
    by_cases ht : field .little d 12 4 = 2
    · rw [if_neg (by simp [ht]), readRef_readBytesAt_eq]
      have ht' : (entryOf d).typ = 2 := ht
      by_cases hr : field .little d 16 4 = 0 ∨ field .little d 24 4 + field .little d 16 4 ≤ data.length
      · rw [if_pos hr, Res.ok_bind]
        have hl : (slice data (field .little d 24 4) (field .little d 16 4)).length = field .little d 16 4 := length_slice_of hr
        have hsk : Skipped data (entryOf d) ↔ codeView (slice data (field .little d 24 4) (field .little d 16 4)) = .ok none := by
          rw [codeView_none, hl]
          constructor
          · rintro (h | ⟨h1, h2, h3⟩)
            · exact absurd ht' h
            · exact ⟨h2, by rw [slice_take4 _ _ _ (show 4 ≤ field .little d 16 4 from h2)]; exact h3⟩
          · rintro ⟨h1, h2⟩
            rw [slice_take4 _ _ _ h1] at h2
            refine Or.inr ⟨?_, h1, h2⟩
            show field .little d 24 4 + field .little d 16 4 ≤ data.length
            omega
        rw [hsk]
        cases hc : codeView (slice data (field .little d 24 4) (field .little d 16 4)) with
        | panic => exact absurd hc (codeView_no_panic _)
        | err => simp
        | ok o =>
          rw [Res.ok_bind]
          cases o with
          | some c => simp
          | none => simp
      · rw [if_neg hr]
        simp only [Res.err_bind, reduceCtorEq, false_iff]
        rintro ⟨h1 | ⟨h1, h2, h3⟩, -⟩
        · exact h1 ht'
        · exact hr (Or.inr h1)
    · rw [if_pos ht]
      exact ⟨fun h => ⟨Or.inl ht, h⟩, fun h => h.2⟩

private theorem loop_no_panic (data : List UInt8) (ds : List (List UInt8)) : pdbLoop data ds ≠ .panic := by
  induction ds with
  | nil => simp [pdbLoop]
  | cons d ds ih =>
    unfold pdbLoop
    split
    · exact ih
    · refine Res.bind_no_panic (readRef_readBytesAt_no_panic _ _ _) fun _ _ => ?_
      refine Res.bind_no_panic (codeView_no_panic _) fun o _ => ?_
      cases o
      · exact ih
      · simp

/-- C84: the PDB information of an image is that of the first entry of the debug directory (the data of data directory 6) that is a
CodeView entry with the `RSDS` signature; entries of other types and with other signatures before it are skipped.  There is none
if the directory is absent, or if all entries are skipped.  In all other cases the result is an error; nothing panics. -/
theorem C84_pdb_info (f : PeFile) :
    (∀ cv, f.pdbInfo = .ok (some cv) ↔ ∃ d bytes pre e post, f.dirs[6]? = some d ∧ d.virtualAddress ≠ 0 ∧
      d.data f.data f.sections = .ok bytes ∧ bytes.length % 28 = 0 ∧ debugEntries bytes = pre ++ e :: post ∧ IsPdb f.data e cv ∧
      ∀ x ∈ pre, Skipped f.data x) ∧
    (f.pdbInfo = .ok none ↔ (∀ d, f.dirs[6]? = some d → d.virtualAddress = 0) ∨ ∃ d bytes, f.dirs[6]? = some d ∧ d.virtualAddress ≠ 0 ∧
      d.data f.data f.sections = .ok bytes ∧ bytes.length % 28 = 0 ∧ ∀ x ∈ debugEntries bytes, Skipped f.data x) ∧
    f.pdbInfo ≠ .panic := by
  have hg := (C30_directories [] 0 (by decide)).2.2 f.dirs 6
  have hdn : ∀ d : DataDir, d.data f.data f.sections ≠ .panic := fun d => (C30_directory_data d f.sections f.data).2.2.2
  have hent : ∀ bytes : List UInt8, (Bytes.chunks 28 (bytes.length / 28) bytes).map entryOf = debugEntries bytes := by
    intro bytes
    exact pdb_chunks bytes _ (by omega)
  unfold PeFile.pdbInfo
  cases h : getDir f.dirs 6 with
  | none =>
    have h' : ∀ d, f.dirs[6]? = some d → d.virtualAddress = 0 := by
      intro d hd
      rcases Nat.eq_zero_or_pos d.virtualAddress with h0 | h0
      · exact h0
      · have := (hg d).2 ⟨hd, by omega⟩
        rw [h] at this; simp at this
    refine ⟨fun cv => ?_, ?_, by simp⟩
    · simp only [Res.ok.injEq, reduceCtorEq, false_iff]
      rintro ⟨d, _, _, _, _, h1, h2, -⟩
      exact h2 (h' d h1)
    · simp only [true_iff]
      exact Or.inl h'
  | some d =>
    obtain ⟨h1, h2⟩ := (hg d).1 h
    simp only
    cases hd : d.data f.data f.sections with
    | panic => exact absurd hd (hdn d)
    | err =>
      refine ⟨fun cv => ?_, ?_, by simp⟩
      · simp only [Res.err_bind, reduceCtorEq, false_iff]
        rintro ⟨d', _, _, _, _, k1, k2, k3, -⟩
        rw [h1] at k1; simp only [Option.some.injEq] at k1; subst k1
        rw [hd] at k3; simp at k3
      · simp only [Res.err_bind, reduceCtorEq, false_iff]
        rintro (k | ⟨d', _, k1, k2, k3, -⟩)
        · exact h2 (k d h1)
        · rw [h1] at k1; simp only [Option.some.injEq] at k1; subst k1
          rw [hd] at k3; simp at k3
    | ok bytes =>
      rw [Res.ok_bind]
      unfold sliceFromAll
      by_cases hm : bytes.length % 28 = 0
      · rw [if_neg (by simp [hm]), Res.ok_bind]
        refine ⟨fun cv => ?_, ?_, loop_no_panic _ _⟩
        · rw [loop_some, hent]
          constructor
          · rintro ⟨pre, e, post, k1, k2, k3⟩
            exact ⟨d, bytes, pre, e, post, h1, h2, hd, hm, k1, k2, k3⟩
          · rintro ⟨d', bytes', pre, e, post, k1, -, k3, -, k5, k6, k7⟩
            rw [h1] at k1; simp only [Option.some.injEq] at k1; subst k1
            rw [hd] at k3; simp only [Res.ok.injEq] at k3; subst k3
            exact ⟨pre, e, post, k5, k6, k7⟩
        · rw [loop_none, hent]
          constructor
          · intro k
            exact Or.inr ⟨d, bytes, h1, h2, hd, hm, k⟩
          · rintro (k | ⟨d', bytes', k1, -, k3, -, k5⟩)
            · exact absurd (k d h1) h2
            · rw [h1] at k1; simp only [Option.some.injEq] at k1; subst k1
              rw [hd] at k3; simp only [Res.ok.injEq] at k3; subst k3
              exact k5
      · rw [if_pos hm]
        refine ⟨fun cv => ?_, ?_, by simp⟩
        · simp only [Res.err_bind, reduceCtorEq, false_iff]
          rintro ⟨d', bytes', _, _, _, k1, k2, k3, k4, -⟩
          rw [h1] at k1; simp only [Option.some.injEq] at k1; subst k1
          rw [hd] at k3; simp only [Res.ok.injEq] at k3; subst k3
          exact hm k4
        · simp only [Res.err_bind, reduceCtorEq, false_iff]
          rintro (k | ⟨d', bytes', k1, k2, k3, k4, -⟩)
          · exact h2 (k d h1)
          · rw [h1] at k1; simp only [Option.some.injEq] at k1; subst k1
            rw [hd] at k3; simp only [Res.ok.injEq] at k3; subst k3
            exact hm k4

/-! ## A concrete image -/

private def exOpt : OptHeader :=
  ⟨0x20b, 14, 1, 16, 32, 0, 0x1004, 0x1000, none, 0x140000000, 0x1000, 0x200, 6, 0, 1, 2, 6, 0, 0, 0x2000, 0x200, 0, 3, 0x160,
   0x100000, 0x1000, 0x100000, 0x1000, 0, 7⟩

/-- A 64-bit DLL with seven data directories, one section at offset 0x178 (address 0x1000), which has a debug directory with two
entries; the second one is a CodeView record behind the section. -/
private def exPe : List UInt8 :=
  [0x4d, 0x5a] ++ List.replicate 58 0 ++ wr .little 4 64 ++ wr .little 4 0x4550 ++
  FileHeader.encode ⟨0x8664, 1, 0, 0, 0, 168, 0x2022⟩ ++ OptHeader.encode true exOpt ++
  List.replicate 48 0 ++ wr .little 4 0x1000 ++ wr .little 4 56 ++
  (".rdata".toUTF8.toList ++ [0, 0]) ++ wr .little 4 56 ++ wr .little 4 0x1000 ++ wr .little 4 56 ++ wr .little 4 296 ++
  List.replicate 12 0 ++ wr .little 4 0x40000040 ++
  (List.replicate 12 0 ++ wr .little 4 1 ++ List.replicate 12 0) ++
  (List.replicate 12 0 ++ wr .little 4 2 ++ wr .little 4 30 ++ List.replicate 4 0 ++ wr .little 4 352) ++
  ("RSDS".toUTF8.toList ++ List.replicate 16 7 ++ wr .little 4 3 ++ "a.pdb".toUTF8.toList ++ [0])

private def exFile : PeFile :=
  ⟨true, exPe, 64, ⟨0x8664, 1, 0, 0, 0, 168, 0x2022⟩, exOpt, List.replicate 6 ⟨0, 0⟩ ++ [⟨0x1000, 56⟩],
   [⟨".rdata".toUTF8.toList ++ [0, 0], 56, 0x1000, 56, 296, 0, 0, 0, 0, 0x40000040⟩], ⟨false, [], none⟩⟩

example : PeFile.parse true exPe = .ok exFile := by decide +kernel

example : Image true exPe exFile := (C84_parse true exPe (by decide +kernel)).1 exFile |>.1 (by decide +kernel)

example : exFile.kind = .dynamic ∧ exFile.entry = 0x140001004 ∧ exFile.architecture = .x86_64 ∧
    exFile.sectionByName ".rdata".toUTF8.toList = some (1, ⟨".rdata".toUTF8.toList ++ [0, 0], 56, 0x1000, 56, 296, 0, 0, 0, 0, 0x40000040⟩) ∧
    exFile.pdbInfo = .ok (some ⟨List.replicate 16 7, "a.pdb".toUTF8.toList, 3⟩) := by decide +kernel

example : ∃ s ∈ exFile.sections, exFile.sectionDataRange s 0x14000100c 4 = .ok (some [1, 0, 0, 0]) ∧
    permissions s = (true, false, false) := by decide +kernel

end Obj.Props

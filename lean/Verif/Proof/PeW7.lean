import Verif.Proof.PeW6

/-! The image read back is what was written. -/

namespace Obj.PeW
open Obj Obj.Pe Obj.Reserve Obj.Spec Obj.Spec.PeFile Obj.Spec.PeW

/-- Bounds of a section header. -/
theorem secs_ok {p : Prog} {rb : List UInt8} {R : RelocWriter} {rs : List SectionRange} {w : State} (hv : Valid p) (h : Final p rb R rs w)
    (h32 : w.lay.len < U32) : ∀ x ∈ rs.zip (p.sections.map (Obj.Spec.PeW.entry rb)),
    x.1.virtualAddress < U32 ∧ x.2.virtualSize < U32 ∧ x.1.fileSize < U32 ∧ x.1.fileOffset < U32 ∧ x.1.virtualSize = x.2.virtualSize ∧
    x.1.fileSize = roundUp x.2.dataSize p.fileAlign ∧ (x.2.dataSize = 0 → x.1.fileOffset = 0) := by
  rintro ⟨r, e⟩ hx
  have he := (List.of_mem_zip hx).2
  have hvs := h.vsize e he
  rw [h.ranges] at hx
  obtain ⟨k1, k2, k3, k4, k5, k6⟩ := place_mem hv.sectionAlign hv.fileAlign _ _ _ r e hx
  have hb := h.bound.1
  have hl := h.len
  have hce := le_certEnd (fileEnd p (p.sections.map (Obj.Spec.PeW.entry rb))) p.cert
  rw [h.vlen] at hb
  dsimp only
  refine ⟨by omega, hvs, ?_, ?_, k2, k4, k5⟩
  · by_cases h0 : e.dataSize = 0
    · rw [k4, h0, roundUp_zero hv.fileAlign.pos]; decide
    · have := (k6 h0).2.2
      unfold fileEnd at *
      omega
  · by_cases h0 : e.dataSize = 0
    · rw [k5 h0]; decide
    · have := (k6 h0).2.2
      unfold fileEnd at *
      omega

theorem dirs_lt {p : Prog} {rb : List UInt8} {R : RelocWriter} {rs : List SectionRange} {w : State} (hv : Valid p) (h : Final p rb R rs w)
    (h32 : w.lay.len < U32) : ∀ d ∈ w.dirs, d.virtualAddress < 256 ^ 4 ∧ d.size < 256 ^ 4 := by
  intro d hd
  rw [h.dirs] at hd
  have hS := secs_ok hv h h32
  rcases setAll_mem _ _ _ hd with hd | hd
  · rw [List.mem_replicate] at hd
    rw [hd.2]; decide
  · rw [List.mem_map] at hd
    obtain ⟨⟨i, d'⟩, hm, rfl⟩ := hd
    simp only [List.mem_append] at hm
    have two : (2 : Nat) ^ 32 = 256 ^ 4 := by decide
    rcases hm with ((hm | hm) | hm) | hm
    · have := hv.dirsBefore _ hm; rw [two] at this; exact this
    · unfold sectionDirs at hm
      rw [List.mem_filterMap] at hm
      obtain ⟨x, hx, hm⟩ := hm
      have := hS x hx
      rw [Option.map_eq_some_iff] at hm
      obtain ⟨j, -, hm⟩ := hm
      simp only [Prod.mk.injEq] at hm
      rw [← hm.2]
      exact ⟨this.1, this.2.1⟩
    · have := hv.dirsAfter _ hm; rw [two] at this; exact this
    · rw [certDir_eq] at hm
      have hl := h.len
      have hce := le_certEnd (fileEnd p (p.sections.map (Obj.Spec.PeW.entry rb))) p.cert
      cases hc : p.cert with
      | none => rw [hc] at hm; simp [certSets] at hm
      | some c =>
        rw [hc] at hm hl hce
        cases c with
        | nil =>
          simp only [certSets, List.mem_singleton, Prod.mk.injEq] at hm
          rw [hm.2]
          simp only [certEnd] at hl
          dsimp only
          exact ⟨by omega, by decide⟩
        | cons b c =>
          simp only [certSets, List.mem_singleton, Prod.mk.injEq] at hm
          rw [hm.2]
          simp only [certEnd] at hl
          dsimp only
          exact ⟨by omega, by omega⟩

theorem opt_ok {p : Prog} {rb : List UInt8} {R : RelocWriter} {rs : List SectionRange} {w : State} (hv : Valid p) (h : Final p rb R rs w)
    (h32 : w.lay.len < U32) : OptOk p.is64 (w.optHeader p.nt) := by
  have hn := hv.nt
  have hS := secs_ok hv h h32
  have hb := h.bound
  have hfa : ∀ k, firstAddress k (rs.zip (p.sections.map (Obj.Spec.PeW.entry rb))) < U32 := fun k =>
    firstAddress_lt (by decide) _ fun x hx => (hS x hx).1
  have hsa := hv.sectionAlign.lt
  have hfl := hv.fileAlign.lt
  have hl := h.len
  have hce := le_certEnd (fileEnd p (p.sections.map (Obj.Spec.PeW.entry rb))) p.cert
  have hef : headers p ≤ fileEnd p (p.sections.map (Obj.Spec.PeW.entry rb)) := endFile_le hv.fileAlign _ _
  have hw : ∀ x, x < 2 ^ 64 → word w.is64 x < 256 ^ (if p.is64 then 8 else 4) := by
    intro x hx
    rw [h.is64]
    unfold word
    cases p.is64
    · simp only [Bool.false_eq_true, if_false]
      exact Nat.mod_lt _ (by decide)
    · simp only [if_true]
      simpa using hx
  have p1 : (256 : Nat) ^ 1 = 2 ^ 8 := by decide
  have p2 : (256 : Nat) ^ 2 = 2 ^ 16 := by decide
  have p4 : (256 : Nat) ^ 4 = 2 ^ 32 := by decide
  have u : U32 = 2 ^ 32 := by decide
  constructor
  · show (if w.is64 then 0x20b else 0x10b) < _
    split <;> decide
  · rw [p1]; exact hn.majorLinkerVersion
  · rw [p1]; exact hn.minorLinkerVersion
  · rw [p4]; exact hb.2.1
  · rw [p4]; exact hb.2.2.1
  · rw [p4]; exact hb.2.2.2
  · rw [p4]; exact hn.addressOfEntryPoint
  · rw [p4]; show w.lay.codeAddress < _; rw [h.codeAddress]; exact hfa _
  · exact hw _ hn.imageBase
  · show w.lay.sectionAlign < _; rw [h.sa]; simp only [Nat.reducePow] at *; omega
  · show w.lay.fileAlign < _; rw [h.fa]; simp only [Nat.reducePow] at *; omega
  · rw [p2]; exact hn.majorOperatingSystemVersion
  · rw [p2]; exact hn.minorOperatingSystemVersion
  · rw [p2]; exact hn.majorImageVersion
  · rw [p2]; exact hn.minorImageVersion
  · rw [p2]; exact hn.majorSubsystemVersion
  · rw [p2]; exact hn.minorSubsystemVersion
  · show (0 : Nat) < _; decide
  · rw [p4]; exact hb.1
  · rw [p4]; show w.headersLen < _; rw [h.headersLen]; simp only [Nat.reducePow]; omega
  · show (0 : Nat) < _; decide
  · rw [p2]; exact hn.subsystem
  · rw [p2]; exact hn.dllCharacteristics
  · exact hw _ hn.sizeOfStackReserve
  · exact hw _ hn.sizeOfStackCommit
  · exact hw _ hn.sizeOfHeapReserve
  · exact hw _ hn.sizeOfHeapCommit
  · show (0 : Nat) < _; decide
  · show w.dirs.length % U32 < _; exact Nat.mod_lt _ (by decide)
  · have : (w.optHeader p.nt).baseOfData = if w.is64 then none else some w.lay.dataAddress := rfl
    rw [this, h.is64]
    cases p.is64
    · simp only [Bool.false_eq_true, if_false]
      exact ⟨_, rfl, by rw [h.dataAddress]; exact hfa _⟩
    · simp only [if_true]

theorem written {p : Prog} {rb : List UInt8} {R : RelocWriter} {rs : List SectionRange} {w : State} {out : List UInt8} (hv : Valid p)
    (h : Final p rb R rs w) (h32 : w.lay.len < U32) (hb : Bytes p w (p.sections.map (Obj.Spec.PeW.entry rb)) rs out) :
    ∃ f, PeFile.parse p.is64 out = .ok f ∧ Written p (p.sections.map (Obj.Spec.PeW.entry rb)) out f := by
  have hsz := sizes_ok hv
  have hd1 := hsz.dos
  have hd2 := hsz.nt
  have hle := hb.le
  have hge := hb.ge
  have hS := secs_ok hv h h32
  have hol : optLen p = optSize p.is64 + 8 * p.dirNum := rfl
  have hon := hv.dirNum
  have hlen := h.length_dirs
  have hlens := h.length_secs
  have hdos := hb.dos
  -- the parts of the headers
  have hA := hb.hdr
  unfold hdrBytes at hA
  rw [Elf.at_append, Elf.at_append, Elf.at_append, Elf.at_append] at hA
  obtain ⟨⟨⟨⟨a1, a2⟩, a3⟩, a4⟩, a5⟩ := hA
  have len3 : (wr .little 4 0x4550 ++ Coff.FileHeader.encode ⟨p.nt.machine, w.headerNum, p.nt.timeDateStamp, 0, 0, optLen p, p.nt.characteristics⟩).length = 24 := by
    rw [List.length_append, length_wr, length_fileEncode]
  have len4 : (wr .little 4 0x4550 ++ Coff.FileHeader.encode ⟨p.nt.machine, w.headerNum, p.nt.timeDateStamp, 0, 0, optLen p, p.nt.characteristics⟩ ++
      OptHeader.encode w.is64 (w.optHeader p.nt)).length = 24 + optSize p.is64 := by
    rw [List.length_append, len3, length_optEncode, h.is64]
  have len5 : (wr .little 4 0x4550 ++ Coff.FileHeader.encode ⟨p.nt.machine, w.headerNum, p.nt.timeDateStamp, 0, 0, optLen p, p.nt.characteristics⟩ ++
      OptHeader.encode w.is64 (w.optHeader p.nt) ++ w.dirs.flatMap dirBytes).length = 24 + optLen p := by
    rw [List.length_append, len4, Elf.length_flatMap_const _ 8 _ (fun d _ => length_dirBytes d), hlen, hol]; omega
  rw [length_wr] at a2
  rw [len3] at a3
  rw [len4] at a4
  rw [len5] at a5
  generalize hN : Obj.Spec.PeW.ntOffset p = N at *
  have hN32 : N < 2 ^ 32 := by simp only [Nat.reducePow]; omega
  let f : PeFile := ⟨p.is64, out, N, ⟨p.nt.machine, p.sections.length, p.nt.timeDateStamp, 0, 0, optLen p, p.nt.characteristics⟩,
    w.optHeader p.nt, w.dirs, w.secs.map sectionHeader, ⟨false, [], none⟩⟩
  have dosl : ((dosParts p.dos).1 ++ wr .little 4 N).length = 64 := by rw [← hN]; exact length_dos hv
  have headl : (dosParts p.dos).1.length = 60 := by rw [List.length_append, length_wr] at dosl; omega
  have hnum : (w.optHeader p.nt).numberOfRvaAndSizes = p.dirNum := by
    show w.dirs.length % U32 = _
    rw [hlen]
    exact Nat.mod_eq_of_lt (by simp only [Nat.reducePow] at hon; omega)
  have himg : Image p.is64 out f := by
    constructor
    · rfl
    · rfl
    · omega
    · have := le_at hdos 0 2 (by rw [List.length_append, dosl]; omega)
      rw [Nat.zero_add] at this
      rw [this]
      unfold le slice
      rw [List.append_assoc, List.drop_zero, List.take_append_of_le_length (by omega)]
      cases hd : p.dos with
      | standard => show rd .little (stubDos.take 2) = _; decide +kernel
      | empty => show rd .little (emptyDos.take 2) = _; decide +kernel
      | custom head =>
        have := (hv.dos head hd).2
        exact this
    · have := le_at hdos 60 4 (by rw [List.length_append, dosl]; omega)
      rw [Nat.zero_add] at this
      rw [this]
      unfold le slice
      rw [List.append_assoc, ← headl, List.drop_left, List.take_append_of_le_length (by rw [length_wr]; omega),
        List.take_of_length_le (by rw [length_wr]; omega), rd_wr .little 4 N (by simp only [Nat.reducePow] at *; omega)]
    · have := le_at a1 0 4 (by rw [length_wr]; omega)
      rw [Nat.add_zero] at this
      show le out N 4 = _
      rw [this]
      decide +kernel
    · show _ = headerAt out (N + 4)
      have e : slice out (N + 4) 20 = Coff.FileHeader.encode ⟨p.nt.machine, w.headerNum, p.nt.timeDateStamp, 0, 0, optLen p, p.nt.characteristics⟩ := by
        have := a2; unfold At at this; rw [length_fileEncode] at this; exact this
      rw [← header_at', e, h.headerNum]
      exact (CoffW.fileHeader_decode _ hv.nt.machine hv.sections hv.nt.timeDateStamp (by show (0 : Nat) < _; decide) (by show (0 : Nat) < _; decide) hon
        hv.nt.characteristics).symm
    · show OptAt p.is64 out (N + 24) (w.optHeader p.nt)
      rw [optAt_iff]
      have e : slice out (N + 24) (optSize p.is64) = OptHeader.encode p.is64 (w.optHeader p.nt) := by
        have := a3; unfold At at this; rw [length_optEncode, h.is64] at this; exact this
      rw [e, opt_decode_encode (opt_ok hv h h32)]
    · show (if w.is64 then 0x20b else 0x10b) = _
      rw [h.is64]
    · show N + 24 + optLen p ≤ _
      omega
    · show fixedSize p.is64 + 8 * (w.optHeader p.nt).numberOfRvaAndSizes ≤ optLen p
      rw [hnum]
      exact Nat.le_refl _
    · show w.dirs = (List.range (w.optHeader p.nt).numberOfRvaAndSizes).map _
      rw [hnum]
      apply List.ext_getElem?
      intro i
      rw [List.getElem?_map]
      by_cases hi : i < p.dirNum
      · rw [List.getElem?_range hi, Option.map_some, List.getElem?_eq_getElem (by omega), Option.some.injEq]
        have hat := at_flatMap dirBytes 8 w.dirs (N + (24 + optSize p.is64)) i (w.dirs[i]'(by omega)) out (fun d _ => length_dirBytes d) a4
          (List.getElem?_eq_getElem (by omega))
        have hlt := dirs_lt hv h h32 (w.dirs[i]'(by omega)) (List.getElem_mem _)
        generalize w.dirs[i]'(by omega) = d at hat hlt
        have l1 := le_at hat 0 4 (by rw [length_dirBytes]; omega)
        have l2 := le_at hat 4 4 (by rw [length_dirBytes]; omega)
        obtain ⟨t1, t2⟩ := hlt
        have f1 : le (dirBytes d) 0 4 = d.virtualAddress := by
          have := field_encode_zero .little 4 d.virtualAddress [(4, d.size)] [] t1
          rw [List.append_nil] at this
          exact this
        have f2 : le (dirBytes d) 4 4 = d.size := by
          have := field_encode_succ .little 4 d.virtualAddress [(4, d.size)] [] 4 4 (by decide)
          rw [field_encode_zero .little 4 d.size [] [] t2, List.append_nil] at this
          exact this
        rw [f1] at l1
        rw [f2] at l2
        have e1 : N + 24 + fixedSize p.is64 + 8 * i = N + (24 + optSize p.is64) + 8 * i := by rw [fixed_opt]; omega
        show d = ⟨le out (N + 24 + fixedSize p.is64 + 8 * i) 4, le out (N + 24 + fixedSize p.is64 + 8 * i + 4) 4⟩
        rw [e1, l2]
        rw [Nat.add_zero] at l1
        rw [l1]
      · rw [List.getElem?_eq_none (by omega), List.getElem?_eq_none (by rw [List.length_range]; omega)]; rfl
    · show N + 24 + optLen p + 40 * p.sections.length ≤ _
      exact hge
    · show w.secs.map sectionHeader = (List.range p.sections.length).map fun i => sectionHeaderAt out (N + 24 + optLen p + 40 * i)
      apply List.ext_getElem?
      intro i
      rw [List.getElem?_map, List.getElem?_map]
      by_cases hi : i < p.sections.length
      · rw [List.getElem?_range hi, Option.map_some, List.getElem?_eq_getElem (by omega), Option.map_some, Option.some.injEq]
        have hmem : w.secs[i]'(by omega) ∈ w.secs := List.getElem_mem _
        have hat := at_flatMap (fun s => Coff.Section.encode (sectionHeader s)) 40 w.secs (N + (24 + optLen p)) i (w.secs[i]'(by omega)) out
          (h.secs_name hv) a5 (List.getElem?_eq_getElem (by omega))
        have h40 := h.secs_name hv _ hmem
        generalize w.secs[i]'(by omega) = sx at hat hmem h40 ⊢
        rw [h.secs, List.mem_map] at hmem
        obtain ⟨⟨r, e⟩, hm, hse⟩ := hmem
        have hS' := hS _ hm
        have he := (List.of_mem_zip hm).2
        obtain ⟨s, hs, hse2⟩ := List.mem_map.1 he
        have hE := entry_ok hv rb s hs
        rw [hse2] at hE
        rw [← hse] at hat h40 ⊢
        have es : slice out (N + (24 + optLen p) + 40 * i) 40 = Coff.Section.encode (sectionHeader (e.name, e.characteristics, r)) := by
          have := hat; unfold At at this; rw [h40] at this; exact this
        have e1 : N + 24 + optLen p + 40 * i = N + (24 + optLen p) + 40 * i := by omega
        rw [e1, ← section_at, es]
        have := Coff.Section.decode_encode (sectionHeader (e.name, e.characteristics, r)) hE.1 (by
          show r.virtualSize < _
          rw [hS'.2.2.2.2.1]; exact hS'.2.1) hS'.1 hS'.2.2.1 hS'.2.2.2.1 (by show (0 : Nat) < _; decide) (by show (0 : Nat) < _; decide)
          (by show (0 : Nat) < _; decide) (by show (0 : Nat) < _; decide) hE.2.1 []
        rw [List.append_nil] at this
        exact this.symm
      · rw [List.getElem?_eq_none (by omega), List.getElem?_eq_none (by rw [List.length_range]; omega)]; rfl
    · refine ⟨rfl, ?_⟩
      show if (0 : Nat) ≠ 0 ∧ _ then _ else _
      rw [if_neg (by simp)]
      exact ⟨rfl, rfl⟩
  have hsec : f.sections = (rs.zip (p.sections.map (Obj.Spec.PeW.entry rb))).map sectionOf := by
    show w.secs.map sectionHeader = _
    rw [h.secs, List.map_map]
    apply List.map_congr_left
    rintro ⟨r, e⟩ hx
    have := (hS _ hx).2.2.2.2.1
    show (⟨e.name, r.virtualSize, r.virtualAddress, r.fileSize, r.fileOffset, 0, 0, 0, 0, e.characteristics⟩ : Coff.Section) =
      ⟨e.name, e.virtualSize, r.virtualAddress, r.fileSize, r.fileOffset, 0, 0, 0, 0, e.characteristics⟩
    rw [show r.virtualSize = e.virtualSize from this]
  refine ⟨f, (parse_image p.is64 out (by simp only [Nat.reducePow] at *; omega) f).2 himg, ?_⟩
  constructor
  · exact hN.symm
  · rfl
  · show w.optHeader p.nt = _
    unfold State.optHeader
    rw [h.is64, h.codeLen, h.dataLen, h.bssLen, h.codeAddress, h.dataAddress, h.sa, h.fa, h.vlen, h.headersLen, ← h.ranges]
    have : w.dirs.length % U32 = p.dirNum := hnum
    rw [this]
    rfl
  · show w.dirs = _
    rw [h.dirs, ← h.ranges]
  · rw [hsec, ← h.ranges]
  · rfl
  · intro i s e hs he
    have hi : i < rs.length := by
      have : i < (p.sections.map (Obj.Spec.PeW.entry rb)).length := by
        rw [List.getElem?_eq_some_iff] at he; exact he.1
      rw [List.length_map] at this
      rw [h.lengths]; exact this
    rw [hsec, List.getElem?_map, List.getElem?_zip_eq_some (z := (rs[i], e)) |>.2 ⟨List.getElem?_eq_getElem hi, he⟩] at hs
    simp only [Option.map_some, Option.some.injEq] at hs
    have hm : (rs[i], e) ∈ rs.zip (p.sections.map (Obj.Spec.PeW.entry rb)) :=
      List.mem_of_getElem? (List.getElem?_zip_eq_some.2 ⟨List.getElem?_eq_getElem hi, he⟩)
    generalize rs[i] = r at hs hm
    subst hs
    have hS' := hS _ hm
    obtain ⟨s, hs, hse⟩ := List.mem_map.1 (List.of_mem_zip hm).2
    have hfit := (entry_ok hv rb s hs).2.2
    rw [hse] at hfit
    have hcl := length_content hv.fileAlign hfit
    unfold sectionData fileRange
    show ReadRef.readBytesAt out r.fileOffset (min e.virtualSize r.fileSize) = _
    rw [readRef_readBytesAt_eq]
    by_cases h0 : e.dataSize = 0
    · have c0 : Obj.Spec.PeW.content p.fileAlign e = [] := List.eq_nil_of_length_eq_zero (by
        rw [hcl, h0, roundUp_zero hv.fileAlign.pos])
      have f0 : r.fileSize = 0 := by
        have : r.fileSize = roundUp e.dataSize p.fileAlign := hS'.2.2.2.2.2.1
        rw [this, h0, roundUp_zero hv.fileAlign.pos]
      rw [f0, Nat.min_zero, c0, List.take_nil]
      simp [slice]
    · obtain ⟨k1, k2⟩ := hb.secs r e hm h0
      have fs : r.fileSize = roundUp e.dataSize p.fileAlign := hS'.2.2.2.2.2.1
      unfold At at k1
      rw [hcl] at k1
      have : slice out r.fileOffset (min e.virtualSize r.fileSize) = (Obj.Spec.PeW.content p.fileAlign e).take e.virtualSize := by
        rw [← k1, fs]
        unfold slice
        rw [List.take_take]
      rw [this]
      rw [if_pos (.inr (by omega))]
  · rw [hN]; exact hdos
  · exact hb.extra
  · exact hb.cert

end Obj.PeW

import Verif.Proof.ElfRel

/-! # C33, C34: ELF headers, header tables and relocations written by the encoder are read back -/

namespace Obj.Props
open Obj Obj.Elf Obj.Spec Obj.Spec.ElfS

/-- The header the reader should see: counts too large for 16 bits are replaced by markers. -/
private def hdrOf (c : Cfg) (h : WEhdr) (l : Layout) : Ehdr :=
  ⟨h.osAbi, h.abiVersion, h.type, h.machine, 1, h.entry, l.phoff, l.shoff, h.flags,
    c.ehdrSize, if l.segmentNum = 0 then 0 else c.phdrSize, if 0xffff ≤ l.segmentNum then 0xffff else l.segmentNum,
    if l.sectionNum = 0 then 0 else c.shdrSize, if 0xff00 ≤ l.sectionNum then 0 else l.sectionNum,
    symbolSectionNew l.shstrtabIndex⟩

private theorem fileHeader_eq (c : Cfg) (h : WEhdr) (l : Layout) (hok : l.segmentNum < 0xffff ∨ l.sectionNum ≠ 0) :
    fileHeader c h l = .ok ((hdrOf c h l).encode c) := by
  unfold fileHeader hdrOf
  by_cases h1 : 0xffff ≤ l.segmentNum
  · have h2 : l.sectionNum ≠ 0 := by omega
    simp only [h1, if_true, h2, if_false]
  · simp only [h1, if_false]

private theorem hdrOf_fits (c : Cfg) (h : WEhdr) (l : Layout) (hf : HeaderFits c.is64 h l) : EhdrFits c (hdrOf c h l) := by
  obtain ⟨h1, h2, h3, h4, h5, h6, h7, h8, h9⟩ := hf
  refine ⟨h1, h2, by simp [hdrOf], h3, h5, h6, h4, ?_, ?_, ?_, ?_, ?_, ?_⟩ <;> simp only [hdrOf]
  · unfold Cfg.ehdrSize; split <;> decide
  · unfold Cfg.phdrSize; repeat' split
    all_goals decide
  · split <;> omega
  · unfold Cfg.shdrSize; repeat' split
    all_goals decide
  · split <;> omega
  · unfold symbolSectionNew; split <;> omega

private theorem parseHeader_of_at (c : Cfg) (e : Ehdr) (he : EhdrFits c e) (data : List UInt8)
    (ha : At data 0 (e.encode c)) : parseHeader c.is64 data = .ok (c, e) := by
  have hr := at_read ha
  rw [Ehdr.length_encode] at hr
  unfold parseHeader
  unfold Cfg.ehdrSize at hr
  rw [hr]
  obtain ⟨h1, h2⟩ := isSupported_encode c e []
  rw [List.append_nil] at h1 h2
  have h3 := Ehdr.decode_encode c e he []
  rw [List.append_nil] at h3
  simp only [h1, if_true, h2]
  rw [show (⟨c.is64, c.en⟩ : Cfg) = c from rfl, h3]

private theorem section0_of_at (c : Cfg) (h : WEhdr) (l : Layout) (hf : HeaderFits c.is64 h l) (data : List UInt8)
    (hsec : l.sectionNum ≠ 0) (hoff : l.shoff ≠ 0) (ha : At data l.shoff (nullSectionHeader c l)) :
    section0 c (hdrOf c h l) data = .ok (some ⟨0, 0, 0, 0, 0, if 0xff00 ≤ l.sectionNum then l.sectionNum else 0,
    if 0xff00 ≤ l.shstrtabIndex then l.shstrtabIndex else 0,
    if 0xffff ≤ l.segmentNum then l.segmentNum else 0, 0, 0⟩) := by
  unfold section0
  have hr := at_read ha
  unfold nullSectionHeader at hr
  rw [Shdr.length_encode] at hr
  have hd := Shdr.decode_encode c ⟨0, 0, 0, 0, 0, if 0xff00 ≤ l.sectionNum then l.sectionNum else 0,
    if 0xff00 ≤ l.shstrtabIndex then l.shstrtabIndex else 0,
    if 0xffff ≤ l.segmentNum then l.segmentNum else 0, 0, 0⟩ (by
      have hw : 2 ^ 32 ≤ wordMax c.is64 := by unfold wordMax; split <;> decide
      have := hf.sectionNum; have := hf.segmentNum; have := hf.shstrtabIndex
      refine ⟨by simp, by simp, ?_, ?_, ?_, ?_, ?_, ?_, ?_, ?_⟩ <;> simp only
      all_goals first | omega | (split <;> omega)) []
  rw [List.append_nil] at hd
  rw [if_neg (by simpa [hdrOf] using hoff), if_neg (by simp [hdrOf, hsec])]
  show (match ReadRef.readBytesAt data l.shoff c.shdrSize with | .ok img => _ | .err => _ | .panic => _) = _
  rw [hr]
  simp only [hd]

/-- C33: the encoder writes a file header exactly when it can represent the counts: the only unrepresentable
case is 65535 or more segments without section headers. -/
theorem C33_header_written_iff (c : Cfg) (h : WEhdr) (l : Layout) :
    (∃ b, fileHeader c h l = .ok b ∧ b.length = if c.is64 then 64 else 52) ∨
      (fileHeader c h l = .err ∧ 65535 ≤ l.segmentNum ∧ l.sectionNum = 0) := by
  by_cases hb : l.segmentNum < 0xffff ∨ l.sectionNum ≠ 0
  · left
    exact ⟨_, fileHeader_eq c h l hb, by rw [Ehdr.length_encode]; rfl⟩
  · right
    have h1 : 0xffff ≤ l.segmentNum := by omega
    have h2 : l.sectionNum = 0 := by omega
    exact ⟨by unfold fileHeader; simp only [h1, h2, if_true], h1, h2⟩

/-- C33: for any number of segments, sections and any string section index below 2^32, in any file that
starts with the file header written by the encoder and has the null section header it writes at the section
header offset, the reader recovers the class and byte order, all header fields and exactly those numbers. -/
theorem C33_counts_round_trip (c : Cfg) (h : WEhdr) (l : Layout) (hf : HeaderFits c.is64 h l) (b data : List UInt8)
    (hb : fileHeader c h l = .ok b) (hdata : At data 0 b)
    (hnosec : l.sectionNum = 0 → l.shoff = 0 ∧ l.shstrtabIndex = 0)
    (hsec : l.sectionNum ≠ 0 → l.shoff ≠ 0 ∧ At data l.shoff (nullSectionHeader c l)) :
    ∃ e, parseHeader c.is64 data = .ok (c, e) ∧
      e.osAbi = h.osAbi ∧ e.abiVersion = h.abiVersion ∧ e.type = h.type ∧ e.machine = h.machine ∧ e.version = 1 ∧
      e.entry = h.entry ∧ e.flags = h.flags ∧ e.phoff = l.phoff ∧ e.shoff = l.shoff ∧
      phnum c e data = .ok l.segmentNum ∧ shnum c e data = .ok l.sectionNum ∧
      (l.shstrtabIndex ≠ 0 → shstrndx c e data = .ok l.shstrtabIndex) ∧
      (l.shstrtabIndex = 0 → shstrndx c e data = .err) := by
  have hok : l.segmentNum < 0xffff ∨ l.sectionNum ≠ 0 := by
    rcases C33_header_written_iff c h l with _ | ⟨he, _⟩
    · by_cases hx : l.segmentNum < 0xffff ∨ l.sectionNum ≠ 0
      · exact hx
      · exfalso
        have h1 : 0xffff ≤ l.segmentNum := by omega
        have h2 : l.sectionNum = 0 := by omega
        unfold fileHeader at hb; simp only [h1, h2, if_true] at hb; simp at hb
    · rw [he] at hb; simp at hb
  rw [fileHeader_eq c h l hok] at hb
  injection hb with hb; subst hb
  refine ⟨hdrOf c h l, parseHeader_of_at c _ (hdrOf_fits c h l hf) data hdata, rfl, rfl, rfl, rfl, rfl, rfl, rfl, rfl,
    rfl, ?_, ?_, ?_, ?_⟩
  · unfold phnum
    by_cases h1 : 0xffff ≤ l.segmentNum
    · have h2 : l.sectionNum ≠ 0 := by omega
      rw [if_neg (by simp [hdrOf, h1]), section0_of_at c h l hf data h2 (hsec h2).1 (hsec h2).2]
      simp [h1]
    · rw [if_pos (by simp [hdrOf, h1]; omega)]
      simp [hdrOf, h1]
  · unfold shnum
    by_cases h0 : l.sectionNum = 0
    · rw [if_neg (by simp [hdrOf, h0])]
      unfold section0
      rw [if_pos (by simpa [hdrOf] using (hnosec h0).1)]
      simp [h0]
    · by_cases h1 : 0xff00 ≤ l.sectionNum
      · rw [if_neg (by simp [hdrOf, h1]), section0_of_at c h l hf data h0 (hsec h0).1 (hsec h0).2]
        have := hf.sectionNum
        simp only [h1, if_true]
        rw [if_pos (by omega)]
      · rw [if_pos (by simp [hdrOf, h1]; omega)]
        simp [hdrOf, h1]
  · intro hne
    have h0 : l.sectionNum ≠ 0 := fun h0 => hne (hnosec h0).2
    unfold shstrndx
    by_cases h1 : 0xff00 ≤ l.shstrtabIndex
    · have e1 : (hdrOf c h l).shstrndx = 0xffff := by simp [hdrOf, symbolSectionNew, h1]
      have e2 : symbolSectionIndex 0xffff = none := by decide
      rw [e1, e2]
      simp only [if_true]
      rw [section0_of_at c h l hf data h0 (hsec h0).1 (hsec h0).2]
      simp [h1]
    · have e1 : (hdrOf c h l).shstrndx = l.shstrtabIndex := by simp [hdrOf, symbolSectionNew, h1]
      have e2 : symbolSectionIndex l.shstrtabIndex = some l.shstrtabIndex := by
        unfold symbolSectionIndex; rw [if_neg (by omega)]
      rw [e1, e2]
  · intro h0
    have e1 : (hdrOf c h l).shstrndx = 0 := by simp [hdrOf, symbolSectionNew, h0]
    have e2 : symbolSectionIndex 0 = none := by decide
    unfold shstrndx
    rw [e1, e2]; rfl

/-- C33: the section and program header tables written by the encoder are read back entry by entry, whatever
their number. -/
theorem C33_tables_round_trip (c : Cfg) (h : WEhdr) (l : Layout) (hf : HeaderFits c.is64 h l) (b data : List UInt8)
    (ss : List Shdr) (ps : List Phdr) (hss : ∀ s ∈ ss, ShdrFits c.is64 s) (hps : ∀ p ∈ ps, PhdrFits c.is64 p)
    (hlen : data.length < 2 ^ 64)
    (hb : fileHeader c h l = .ok b) (hdata : At data 0 b)
    (hsn : l.sectionNum = ss.length + 1) (hpn : l.segmentNum = ps.length)
    (hshoff : l.shoff ≠ 0) (hphoff : ps ≠ [] → l.phoff ≠ 0)
    (hsec : At data l.shoff (nullSectionHeader c l ++ ss.flatMap (Shdr.encode c)))
    (hseg : At data l.phoff (ps.flatMap (Phdr.encode c))) :
    ∃ e null, parseHeader c.is64 data = .ok (c, e) ∧ sectionHeaders c e data = .ok (null :: ss) ∧
      programHeaders c e data = .ok ps := by
  have hnull := (at_append.1 hsec).1
  obtain ⟨e, he, -, -, -, -, -, -, -, hpo, hso, hph, hsh, -, -⟩ :=
    C33_counts_round_trip c h l hf b data hb hdata (by omega) (fun _ => ⟨hshoff, hnull⟩)
  have he' : e = hdrOf c h l := by
    have hok : l.segmentNum < 0xffff ∨ l.sectionNum ≠ 0 := by omega
    rw [fileHeader_eq c h l hok] at hb
    injection hb with hb; subst hb
    have := parseHeader_of_at c _ (hdrOf_fits c h l hf) data hdata
    rw [he] at this
    simpa using this
  refine ⟨e, Shdr.decode c (nullSectionHeader c l), he, ?_, ?_⟩
  · unfold sectionHeaders
    rw [if_neg (by omega), hsh]
    simp only
    rw [if_neg (by omega), if_neg (by rw [he']; simp [hdrOf]; omega), hsn, hso]
    have hs : ∀ x ∈ ([none] ++ ss.map some : List (Option Shdr)),
        ((fun o : Option Shdr => match o with | none => nullSectionHeader c l | some s => s.encode c) x).length = c.shdrSize := by
      intro x _
      cases x
      · exact Shdr.length_encode ..
      · exact Shdr.length_encode ..
    have hfm : ([none] ++ ss.map some : List (Option Shdr)).flatMap
        (fun o : Option Shdr => match o with | none => nullSectionHeader c l | some s => s.encode c) =
        nullSectionHeader c l ++ ss.flatMap (Shdr.encode c) := by
      simp [List.flatMap_map]
    have := readSliceAt_flatMap _ c.shdrSize _ hs (by simpa using hlen) (by rw [hfm]; exact hsec)
    simp only [List.length_append, List.length_cons, List.length_nil, List.length_map] at this
    rw [show ss.length + 1 = 0 + 1 + ss.length by omega, this]
    simp only [List.map_append, List.map_cons, List.map_nil, List.map_map, List.singleton_append]
    congr 2
    rw [show (Shdr.decode c ∘ (fun o : Option Shdr => match o with | none => nullSectionHeader c l | some s => s.encode c) ∘ some)
        = fun s => Shdr.decode c (s.encode c) from rfl]
    conv => rhs; rw [← List.map_id ss]
    apply List.map_congr_left
    intro s hs'
    have := Shdr.decode_encode c s (hss s hs') []
    simpa using this
  · unfold programHeaders
    by_cases h0 : ps = []
    · subst h0
      split
      · rfl
      · rw [hph, hpn]; rfl
    · have hl : 0 < ps.length := List.length_pos_iff.2 h0
      rw [if_neg (by rw [hpo]; exact hphoff h0), hph]
      simp only
      rw [if_neg (by omega), if_neg (by rw [he']; simp [hdrOf]; omega), hpn, hpo]
      have := readSliceAt_flatMap (Phdr.encode c) c.phdrSize ps (fun p _ => Phdr.length_encode c p) (by simpa using hlen) hseg
      rw [this]
      simp only [List.map_map]
      congr 1
      conv => rhs; rw [← List.map_id ps]
      apply List.map_congr_left
      intro p hp'
      have := Phdr.decode_encode c p (hps p hp') []
      simpa using this

/-- A concrete file: 70000 sections claimed, string table index 66000, 65535 segments. -/
example : ∃ b, fileHeader ⟨true, .big⟩ ⟨0, 0, 3, 62, 0x1000, 0⟩ ⟨64, 65535, 64, 70000, 66000⟩ = .ok b ∧
    HeaderFits true ⟨0, 0, 3, 62, 0x1000, 0⟩ ⟨64, 65535, 64, 70000, 66000⟩ ∧
    (∃ e, parseHeader true (b ++ nullSectionHeader ⟨true, .big⟩ ⟨64, 65535, 64, 70000, 66000⟩) = .ok (⟨true, .big⟩, e) ∧
      shnum ⟨true, .big⟩ e (b ++ nullSectionHeader ⟨true, .big⟩ ⟨64, 65535, 64, 70000, 66000⟩) = .ok 70000) := by
  have hf : HeaderFits true ⟨0, 0, 3, 62, 0x1000, 0⟩ ⟨64, 65535, 64, 70000, 66000⟩ :=
    ⟨by decide, by decide, by decide, by decide, by decide, by decide, by decide, by decide, by decide⟩
  refine ⟨_, rfl, hf, ?_⟩
  refine (C33_counts_round_trip ⟨true, .big⟩ _ _ hf _ _ rfl ?_ ?_ ?_).imp fun e h => ⟨h.1, h.2.2.2.2.2.2.2.2.2.2.2.1⟩
  · decide +kernel
  · decide
  · exact fun _ => ⟨by decide, by decide +kernel⟩

example : fileHeader ⟨false, .little⟩ ⟨0, 0, 3, 62, 0x1000, 0⟩ ⟨64, 70000, 0, 0, 0⟩ = .err := by decide

/-! ## C34 -/

private theorem readRel_writeRel_aux (c : Cfg) (r : Rel) (info : Nat) (hi : info < 256 ^ c.w)
    (ho : r.offset < 256 ^ c.w) (tl : List UInt8) :
    field c.en (Obj.encode c.en [(c.w, r.offset), (c.w, info)] ++ tl) 0 c.w = r.offset ∧
    field c.en (Obj.encode c.en [(c.w, r.offset), (c.w, info)] ++ tl) c.w c.w = info ∧
    (Obj.encode c.en [(c.w, r.offset), (c.w, info)] ++ tl).drop (2 * c.w) = tl := by
  refine ⟨field_encode_zero _ _ _ _ _ ho, ?_, ?_⟩
  · rw [field_encode_succ _ _ _ _ _ _ _ (Nat.le_refl _), Nat.sub_self, field_encode_zero _ _ _ _ _ hi]
  · apply List.drop_left'
    simp; omega

/-- C34: every relocation the class can hold is read back unchanged: 32- and 64-bit, with and without
explicit addend, in both byte orders, including the MIPS64 little-endian packing. -/
theorem C34_round_trip (c : Cfg) (mips isRela : Bool) (r : Rel) (h : RelFits c.is64 isRela r) (tl : List UInt8) :
    readRel c mips isRela (writeRel c mips isRela r ++ tl) = r := by
  obtain ⟨h1, h2, h3, h4⟩ := h
  have hw := pow_w c
  have hadd : (if isRela then rdI c.en (((if isRela then wrI c.en c.w r.addend else []) ++ tl).take c.w) else 0) = r.addend := by
    cases isRela
    · simpa using h4.symm
    · simp only [if_true] at h4 ⊢
      have hl : (wrI c.en c.w r.addend).length = c.w := by simp [wrI]
      rw [List.take_left' hl]
      unfold rdI
      rw [hl]
      unfold wrI
      have hlt : ofSigned c.w r.addend < 256 ^ c.w := by
        unfold ofSigned
        have : (0:Int) < (256:Int) ^ c.w := by unfold Cfg.w; split <;> decide
        have h5 := Int.emod_lt_of_pos r.addend this
        have h6 := Int.emod_nonneg r.addend (by omega : (256:Int) ^ c.w ≠ 0)
        have : ((256 ^ c.w : Nat) : Int) = (256:Int) ^ c.w := by simp
        omega
      rw [rd_wr _ _ _ hlt]
      apply toSigned_ofSigned _ (by unfold Cfg.w; split <;> decide)
      · rw [hw]; exact h4.1
      · rw [hw]; exact h4.2
  unfold readRel writeRel
  cases hc : c.is64
  · have hcw : c.w = 4 := by simp [Cfg.w, hc]
    simp only [hc, Bool.false_eq_true, if_false] at *
    obtain ⟨f1, f2, f3⟩ := readRel_writeRel_aux c r (rInfo32 r.sym r.type)
      (by rw [hcw]; exact rInfo32_lt r.sym r.type) (by rw [hw]; exact h1) ((if isRela then wrI c.en c.w r.addend else []) ++ tl)
    simp only [hcw] at *
    rw [List.append_assoc, f1, f2, f3, hadd, rSym32_rInfo32, rType32_rInfo32, Nat.mod_eq_of_lt h2, Nat.mod_eq_of_lt h3]
  · have hcw : c.w = 8 := by simp [Cfg.w, hc]
    simp only [hc, if_true] at *
    obtain ⟨f1, f2, f3⟩ := readRel_writeRel_aux c r (rInfo64 (mips && isRela) r.sym r.type)
      (by rw [hcw]; exact rInfo64_lt _ r.sym r.type h2 h3) (by rw [hw]; exact h1) ((if isRela then wrI c.en c.w r.addend else []) ++ tl)
    simp only [hcw] at *
    rw [List.append_assoc, f1, f2, f3, hadd, rSym64_rInfo64 _ _ _ h2 h3, rType64_rInfo64 _ _ _ h2 h3]

/-- C34: for 32-bit ELF the writer makes no overflow check (as documented): the symbol is kept modulo 2^24 and
the type modulo 2^8, and neither spills into the other. -/
theorem C34_truncation_32 (sym typ : Nat) :
    rSym32 (rInfo32 sym typ) = sym % 2 ^ 24 ∧ rType32 (rInfo32 sym typ) = typ % 2 ^ 8 ∧ rInfo32 sym typ < 2 ^ 32 :=
  ⟨rSym32_rInfo32 sym typ, rType32_rInfo32 sym typ, rInfo32_lt sym typ⟩

/-- C34: a whole relocation section: the entries written for any list are what the reader returns for a
section whose data they are, in order, with the section's link. -/
theorem C34_section_round_trip (c : Cfg) (mips isRela : Bool) (rs : List Rel) (h : ∀ r ∈ rs, RelFits c.is64 isRela r)
    (s : Shdr) (hty : s.type = if isRela then 4 else 9) (data : List UInt8) (hlen : data.length < 2 ^ 64)
    (hsz : s.size = (rs.flatMap (writeRel c mips isRela)).length)
    (hat : At data s.offset (rs.flatMap (writeRel c mips isRela))) :
    s.rels c mips isRela data = .ok (some (rs, s.link)) := by
  have hlw : ∀ r ∈ rs, (writeRel c mips isRela r).length = c.relSize isRela := by
    intro r _
    unfold writeRel Cfg.relSize Cfg.w
    cases c.is64 <;> cases isRela <;> simp [wrI]
  have hpos : 0 < c.relSize isRela := by unfold Cfg.relSize Cfg.w; cases c.is64 <;> cases isRela <;> decide
  have hfl : (rs.flatMap (writeRel c mips isRela)).length < U64 := by
    by_cases he : rs.flatMap (writeRel c mips isRela) = []
    · rw [he]; decide
    · have := at_le hat he; omega
  unfold Shdr.rels
  rw [if_neg (by simp [hty])]
  unfold Shdr.dataAsArray Shdr.data Shdr.fileRange
  rw [if_neg (by rw [hty]; split <;> omega)]
  simp only
  rw [hsz, at_read hat]
  simp only
  rw [sliceFromAllBytes_flatMap _ _ hpos rs hlw hfl]
  simp only [List.map_map]
  congr 2
  have : rs.map (readRel c mips isRela ∘ writeRel c mips isRela) = rs := by
    conv => rhs; rw [← List.map_id rs]
    apply List.map_congr_left
    intro r hr
    have := C34_round_trip c mips isRela r (h r hr) []
    simpa using this
  rw [this]

example : RelFits true true ⟨0x1000, 0xfffffff1, 0x01020304, -5⟩ ∧
    readRel ⟨true, .little⟩ true true (writeRel ⟨true, .little⟩ true true ⟨0x1000, 7, 0x010203, -5⟩) = ⟨0x1000, 7, 0x010203, -5⟩ ∧
    (writeRel ⟨true, .little⟩ true true ⟨0x1000, 7, 0x010203, -5⟩).drop 8 =
      [7, 0, 0, 0, 0, 1, 2, 3, 0xfb, 0xff, 0xff, 0xff, 0xff, 0xff, 0xff, 0xff] :=
  ⟨⟨by decide, by decide, by decide, by decide⟩, by decide +kernel, by decide +kernel⟩

end Obj.Props

import Verif.Proof.MachoW5
import Verif.Proof.ElfW13
import Verif.Props.MachoReloc

/-! Reading back what `macho_write` has written. -/

namespace Obj.MachoW
open Obj Obj.Reserve Obj.Parts Obj.Spec Obj.Spec.MachoO Obj.MachoR
open Obj.ElfW (length_of_getElem? Written nmOf nmOf_spec at_string)

variable {c : Cfg} {o : W.Object} {x : Extra} {t : StrTab} {data : List UInt8} {cpu sub : Nat} {hs : List Sect} {ys : List Nlist}
  {file : List UInt8}

/-! ## Sizes -/

theorem vm_fits (hv : Valid o) (hp : Planned c o x t data) : vmSizeOf o.sections < 256 ^ c.w := by
  have h1 := fileSize_le o
  have h2 := hv.memory
  unfold Elf.Cfg.w
  cases hc : c.is64
  · exact hp.vm hc
  · have : (2 : Nat) ^ 62 < 256 ^ 8 := by decide
    show _ < 256 ^ 8
    omega

theorem seg_lt (hp : Planned c o x t data) : segEnd c o x < U32 ∧ endOf (segEnd c o x) (relSizes c o.sections) < U32 ∧ symOff c o x < U32 ∧
    strOff c o x < U32 ∧ data.length < U32 := by
  have h1 := hp.len
  have e1 : strOff c o x = symOff c o x + (orderOf o).length * nlistSize c := rfl
  have e2 : symOff c o x = up (endOf (segEnd c o x) (relSizes c o.sections)) c.w := rfl
  have l1 := le_endOf (relSizes c o.sections) (segEnd c o x)
  have l2 := le_up (endOf (segEnd c o x) (relSizes c o.sections)) c.w
  refine ⟨?_, ?_, ?_, ?_, ?_⟩ <;> omega

theorem sectionFlags_lt {s : W.Section} (hf : MachoO.Fits o x) (hs : s ∈ o.sections) {f g : Nat} (h : MachoW.sectionFlags s = some (f, g)) :
    f < U32 ∧ g < U32 := by
  unfold MachoW.sectionFlags at h
  split at h
  · unfold defaultSectionFlags at h
    split at h <;> simp only [Option.some.injEq, Prod.mk.injEq, reduceCtorEq] at h <;>
      (obtain ⟨rfl, rfl⟩ := h; exact ⟨by decide, by decide⟩)
  · rename_i f' r' he
    simp only [Option.some.injEq, Prod.mk.injEq] at h
    obtain ⟨rfl, rfl⟩ := h
    exact hf.sectionFlags s hs _ _ he
  · cases h

theorem and15 (n : Nat) : n &&& 0xf ≤ 15 := Nat.and_le_right

theorem descOf_lt (s : W.Symbol) : descOf s < 65536 := by
  have hw : weakBits s < 2 ^ 16 := by unfold weakBits; split; (split <;> decide); decide
  unfold descOf
  split
  · refine Nat.or_lt_two_pow (n := 16) ?_ ?_
    · exact Nat.lt_of_le_of_lt Nat.and_le_left hw
    · have := and15 (commonAlign s.value)
      rw [Nat.shiftLeft_eq]; omega
  · exact hw

theorem typeOf_lt {s : W.SymSection} {n : Nat} (h : typeOf s = some n) : n < 256 := by
  unfold typeOf at h
  split at h <;> simp only [Option.some.injEq, reduceCtorEq] at h <;> omega

theorem symbolFlags_lt {s : W.Symbol} (hf : MachoO.Fits o x) (hs : s ∈ o.symbols) {a b : Nat} (h : MachoW.symbolFlags s = some (a, b)) :
    a < 256 ∧ b < 65536 := by
  unfold MachoW.symbolFlags at h
  split at h
  · unfold defaultSymbolFlags at h
    cases ht : typeOf s.section_ with
    | none => rw [ht] at h; cases h
    | some n =>
      rw [ht] at h
      simp only [Option.map_some, Option.some.injEq, Prod.mk.injEq] at h
      obtain ⟨rfl, rfl⟩ := h
      refine ⟨Nat.or_lt_two_pow (n := 8) (typeOf_lt ht) ?_, descOf_lt s⟩
      unfold scopeBits; split <;> decide
  · rename_i a' b' he
    simp only [Option.some.injEq, Prod.mk.injEq] at h
    obtain ⟨rfl, rfl⟩ := h
    exact hf.symbolFlags s hs _ _ he
  · cases h

theorem mod_two_pow_and (f : Nat) : f &&& 0xff = f % 256 := Nat.and_two_pow_sub_one_eq_mod f 8

/-! ## Section headers -/

/-- All that is known about the header of section `i`. -/
structure Head (c : Cfg) (o : W.Object) (x : Extra) (file : List UInt8) (i : Nat) (s : W.Section) (h : Sect) : Prop where
  get : ∃ k < 64, s.align = 2 ^ k ∧ h.align = k
  name : h.sectname = s.name ++ List.replicate (16 - s.name.length) 0
  segname : h.segname = s.segment ++ List.replicate (16 - s.segment.length) 0
  nameLen : s.name.length ≤ 16 ∧ s.segment.length ≤ 16
  place : ∃ p, (placesOf (cmdsOf c o.sections.length x.version).stop o.sections)[i]? = some p ∧ h.addr = p.1
  aligned : h.addr % s.align = 0
  size : h.size = s.size
  inside : h.addr + s.size ≤ vmSizeOf o.sections
  flags : MachoW.sectionFlags s = some (h.flags, h.reserved2) ∧ h.reserved1 = 0 ∧ h.reserved3 = 0
  contents : s.kind.isBss = false → h.offset = (cmdsOf c o.sections.length x.version).stop + h.addr ∧
    h.addr + s.size ≤ fileSizeOf o.sections ∧ (s.data ≠ [] → At file h.offset s.data)
  offset : h.offset < U32
  rel : At file h.reloff ((recsOf o s).flatMap (RelInfo.bytes o.endian)) ∧ h.nreloc = (recsOf o s).length ∧ h.reloff < U32 ∧ h.nreloc < U32

theorem heads (hv : Valid o) (im : Image c o x t data cpu sub hs ys file) {i : Nat} {s : W.Section} (hi : o.sections[i]? = some s) :
    ∃ h, hs[i]? = some h ∧ Head c o x file i s h := by
  have hmem := List.mem_of_getElem? hi
  obtain ⟨k, hk, hal⟩ := hv.align s hmem
  have h0 : s.align ≠ 0 := by rw [hal]; exact Nat.ne_of_gt (Nat.two_pow_pos k)
  obtain ⟨p, p1, p2, p3, p4, p5⟩ := placesOf_get (cmdsOf c o.sections.length x.version).stop o.sections i s hi h0
  obtain ⟨L1, L2, L3, L4, L5⟩ := seg_lt im.planned
  have e3 : segEnd c o x = (cmdsOf c o.sections.length x.version).stop + fileSizeOf o.sections := rfl
  have hdl : (emit [] (dataParts o.sections)).length = fileSizeOf o.sections := by
    rw [length_emit, sizes_dataParts o.sections hv.contents]; rfl
  have hsl : (headOf c o x cpu sub data hs ++ emit [] (dataParts o.sections)).length = segEnd c o x := by
    rw [List.length_append, hdl, im.headLen]; rfl
  obtain ⟨q, q1, q2, q3, q4⟩ : ∃ q, (relPlaces c (segEnd c o x) o.sections)[i]? = some q ∧
      At file q.1 ((recsOf o s).flatMap (RelInfo.bytes o.endian)) ∧ q.2 = (recsOf o s).length ∧ q.1 < U32 ∧ q.2 < U32 := by
    by_cases hc0 : cnt s = 0
    · have hr : recsOf o s = [] := List.length_eq_zero_iff.1 (by rw [im.recs.length hmem, hc0])
      refine ⟨(0, 0), relPlaces_zero c o.sections _ i s hi hc0, ?_, by rw [hr]; rfl, by decide, by decide⟩
      rw [hr]; unfold At slice; simp
    · obtain ⟨q, a1, a2, a3⟩ := at_relocs c o im.recs [(c.w, ys.flatMap (Nlist.encode c)), (1, data)] o.sections
        (headOf c o x cpu sub data hs ++ emit [] (dataParts o.sections)) i s (fun s h => h) hi hc0
      rw [hsl] at a1 a3
      refine ⟨(q, cnt s), a1, by rw [im.file_]; exact a2, (im.recs.length hmem).symm, ?_, ?_⟩
      · show q < U32; omega
      · show cnt s < U32; omega
  obtain ⟨h, g1, g2⟩ := im.headers.2 i s p q hi p1 q1
  obtain ⟨n1, n2, f, g, hfl, hh⟩ := sectionHeader_names g2
  refine ⟨h, g1, ?_⟩
  subst hh
  have hlt : p.2 < U32 := by
    cases hb : s.kind.isBss with
    | true => rw [(p5 hb).1]; decide
    | false => have := p4 hb; omega
  refine ⟨⟨k, hk, hal, by show tz 64 s.align = k; rw [hal]; exact tz_pow k 64 hk⟩, rfl, rfl, ⟨n1, n2⟩, ⟨p, p1, rfl⟩, p2, rfl, p3,
    ⟨hfl, rfl, rfl⟩, ?_, by exact Nat.mod_lt _ (by decide), ?_⟩
  · intro hb
    obtain ⟨b1, b2⟩ := p4 hb
    refine ⟨by show p.2 % U32 = _; rw [Nat.mod_eq_of_lt hlt]; exact b1, b2, fun hne => ?_⟩
    show At file (p.2 % U32) s.data
    rw [Nat.mod_eq_of_lt hlt, b1, im.file_]
    obtain ⟨d, d1, -⟩ := dataPlaces_get (cmdsOf c o.sections.length x.version).stop o.sections 0 i s hi hb h0
    have d2 := allPlaces_data o.sections _ (endOf 0 (dataSizes o.sections)) i s _ hi d1 hb
    have d3 : (d, (cmdsOf c o.sections.length x.version).stop + d) = p := by
      have : (placesOf (cmdsOf c o.sections.length x.version).stop o.sections)[i]? = some (d, (cmdsOf c o.sections.length x.version).stop + d) := d2
      rw [p1] at this
      simp only [Option.some.injEq] at this
      exact this.symm
    have d4 := at_data (cmdsOf c o.sections.length x.version).stop o.sections [] i s (d, (cmdsOf c o.sections.length x.version).stop + d) hi hb
      hv.contents d1
    rw [d3] at d4
    obtain ⟨tl, htl⟩ := emit_prefix (relParts c o o.sections ++ [(c.w, ys.flatMap (Nlist.encode c)), (1, data)])
      (headOf c o x cpu sub data hs ++ emit [] (dataParts o.sections))
    rw [htl, ← im.headLen]
    exact at_prefix (at_shift d4) hne
  · show At file (q.1 % U32) _ ∧ q.2 = _ ∧ q.1 % U32 < U32 ∧ q.2 < U32
    rw [Nat.mod_eq_of_lt q4.1]
    exact ⟨q2, q3, q4.1, q4.2⟩

theorem heads_mem (hv : Valid o) (im : Image c o x t data cpu sub hs ys file) {h : Sect} (hh : h ∈ hs) :
    ∃ i s, o.sections[i]? = some s ∧ hs[i]? = some h ∧ Head c o x file i s h := by
  obtain ⟨i, hi⟩ := List.mem_iff_getElem?.1 hh
  have hlt : i < o.sections.length := by rw [← im.headers.1]; exact length_of_getElem? hi
  obtain ⟨h', e1, e2⟩ := heads hv im (List.getElem?_eq_getElem hlt)
  rw [hi] at e1
  simp only [Option.some.injEq] at e1
  subst e1
  exact ⟨i, _, List.getElem?_eq_getElem hlt, hi, e2⟩

theorem head_decode (hv : Valid o) (hf : MachoO.Fits o x) (im : Image c o x t data cpu sub hs ys file) {h : Sect} (hh : h ∈ hs) :
    Sect.decode c (h.encode c) = h := by
  obtain ⟨i, s, h1, -, H⟩ := heads_mem hv im hh
  have hvm := vm_fits hv im.planned
  have h2 := H.inside
  obtain ⟨f1, f2⟩ := sectionFlags_lt hf (List.mem_of_getElem? h1) H.flags.1
  obtain ⟨k, hk, -, hk2⟩ := H.get
  have hu : (64 : Nat) < U32 := by decide
  refine sect_decode c h ?_ ?_ (by omega) (by rw [H.size]; omega) H.offset (by omega) H.rel.2.2.1 H.rel.2.2.2 f1
    (by rw [H.flags.2.1]; decide) f2 H.flags.2.2
  · rw [H.name]; simp; have := H.nameLen; omega
  · rw [H.segname]; simp; have := H.nameLen; omega

/-! ## Parsing -/

/-- The file as parsed. -/
def fileOf (c : Cfg) (o : W.Object) (x : Extra) (data : List UInt8) (cpu sub : Nat) (hs : List Sect) (ys : List Nlist) : File :=
  ⟨c, mhdrOf c o x cpu sub, [segOf c o x], hs.map secInt,
    ⟨ys.map fun y => { y with value := y.value % 256 ^ c.w }, some (strOff c o x, strOff c o x + data.length)⟩⟩

/-- The load commands. -/
def cmdBytes (c : Cfg) (o : W.Object) (x : Extra) (data : List UInt8) (hs : List Sect) : List (List UInt8) :=
  [(segOf c o x).encode c ++ hs.flatMap (Sect.encode c)] ++ (match x.version with
    | none => []
    | some v => [BuildVersion.encode c ⟨v.platform, v.minos, v.sdk, 0⟩]) ++ [(symcmdOf c o x data).encode c, (dycmdOf o).encode c]

theorem length_cmdBytes (c : Cfg) (o : W.Object) (x : Extra) (data : List UInt8) (hs : List Sect) :
    (cmdBytes c o x data hs).length = cmdCount x.version := by
  unfold cmdBytes cmdCount; cases x.version <;> rfl

theorem headOf_eq : headOf c o x cpu sub data hs = (mhdrOf c o x cpu sub).encode c ++ (cmdBytes c o x data hs).flatten := by
  unfold headOf cmdBytes verBytes
  cases x.version <;> simp

theorem segCmd_cases (c : Cfg) : segCmd c = 1 ∨ segCmd c = 0x19 := by unfold segCmd; cases c.is64 <;> simp

theorem flags_lt (hf : MachoO.Fits o x) : fileFlags o x < U32 := by
  have h : x.flags.getD 0 < 2 ^ 32 := by
    cases hx : x.flags with
    | none => decide
    | some n => exact hf.flags n hx
  unfold fileFlags
  split
  · exact Nat.or_lt_two_pow h (by decide)
  · exact h

theorem table_lt (h : ((o.arch, x.sub), (cpu, sub)) ∈ cpuTable) : cpu < U32 ∧ sub < U32 := by
  have : ∀ e ∈ cpuTable, e.2.1 < U32 ∧ e.2.2 < U32 := by decide
  exact this _ h

theorem cmds_ok (hv : Valid o) (hf : MachoO.Fits o x) (im : Image c o x t data cpu sub hs ys file) :
    ∀ d ∈ cmdBytes c o x data hs, 8 ≤ d.length ∧ field c.en d 4 4 = d.length := by
  obtain ⟨L1, L2, L3, L4, L5⟩ := seg_lt im.planned
  have hn := im.planned.sections
  have hU : U32 = 2 ^ 32 := by decide
  have hms := mul_sect_le c o.sections.length
  have hss := segSize_le c
  have hl : ((segOf c o x).encode c ++ hs.flatMap (Sect.encode c)).length = segSize c + o.sections.length * sectSize c := by
    rw [List.length_append, length_seg c _ (by rfl), Elf.length_flatMap_const _ _ _ im.sectLen, im.headers.1]
  have hvm := vm_fits hv im.planned
  have hfs := fileSize_le o
  have e3 : segEnd c o x = (cmdsOf c o.sections.length x.version).stop + fileSizeOf o.sections := rfl
  have hseg := (seg_decode c (segOf c o x) (by rfl) (by exact Nat.pow_pos (by decide)) hvm (pow_w4 c (by show (cmdsOf _ _ _).stop < _; omega))
    (pow_w4 c (by show fileSizeOf _ < _; omega)) (by show 7 < _; decide) (by show 7 < _; decide) (by show o.sections.length < _; omega) (by show 0 < _; decide)
    (by show segSize c + o.sections.length * sectSize c < _; omega) (hs.flatMap (Sect.encode c))).2.2
  have hlo := length_order o
  have hsy := hv.symbols
  have hol : (locals o).length + (externals o).length + (undefineds o).length = (orderOf o).length := by
    unfold orderOf; rw [List.length_append, List.length_append]
  intro d hd
  unfold cmdBytes at hd
  rcases List.mem_append.1 hd with hd | hd
  · rcases List.mem_append.1 hd with hd | hd
    · rw [List.mem_singleton] at hd
      subst hd
      rw [hl]
      exact ⟨by omega, hseg⟩
    · cases hx : x.version with
      | none => rw [hx] at hd; simp at hd
      | some v =>
        rw [hx] at hd
        simp only [List.mem_singleton] at hd
        subst hd
        obtain ⟨v1, v2, v3⟩ := hf.version v hx
        have := (version_decode c ⟨v.platform, v.minos, v.sdk, 0⟩ v1 v2 v3 rfl []).2.2
        rw [List.append_nil] at this
        rw [length_version]
        exact ⟨by decide, this⟩
  · simp only [List.mem_cons, List.not_mem_nil, or_false] at hd
    rcases hd with rfl | rfl
    · rw [length_symtab]
      have := (symtab_decode c (symcmdOf c o x data) L3 (by show (orderOf o).length < _; omega) L4 L5 []).2.2
      rw [List.append_nil] at this
      exact ⟨by decide, this⟩
    · rw [length_dysymtab c _ (by rfl)]
      have := (dysymtab_decode c (dycmdOf o) (by show 0 < _; decide) (by show (locals o).length < _; omega) (by show (locals o).length < _; omega)
        (by show (externals o).length < _; omega) (by show (locals o).length + (externals o).length < _; omega)
        (by show (undefineds o).length < _; omega) rfl []).2.2
      rw [List.append_nil] at this
      exact ⟨by decide, this⟩

theorem at_file_head (im : Image c o x t data cpu sub hs ys file) : ∃ tl, file = headOf c o x cpu sub data hs ++ tl := by
  obtain ⟨tl, htl⟩ := emit_prefix (relParts c o o.sections ++ [(c.w, ys.flatMap (Nlist.encode c)), (1, data)])
    (headOf c o x cpu sub data hs ++ emit [] (dataParts o.sections))
  exact ⟨emit [] (dataParts o.sections) ++ tl, by rw [im.file_, htl, List.append_assoc]⟩

theorem mhdr_ok (hf : MachoO.Fits o x) (im : Image c o x t data cpu sub hs ys file) :
    Mhdr.decode c ((mhdrOf c o x cpu sub).encode c) = mhdrOf c o x cpu sub ∧ ((mhdrOf c o x cpu sub).encode c).take 4 = magic c := by
  obtain ⟨L1, L2, L3, L4, L5⟩ := seg_lt im.planned
  obtain ⟨h1, h2⟩ := table_lt im.table
  have e3 : segEnd c o x = (cmdsOf c o.sections.length x.version).stop + fileSizeOf o.sections := rfl
  refine mhdr_decode c _ h1 ?_ (by show 1 < _; decide) ?_ ?_ (flags_lt hf)
  · show x.cpuSubtype.getD sub < _
    cases hx : x.cpuSubtype with
    | none => exact h2
    | some n => exact hf.cpuSubtype n hx
  · show cmdCount x.version < _
    have hk : cmdCount x.version ≤ 4 := by unfold cmdCount; cases x.version <;> simp
    have : (4 : Nat) < U32 := by decide
    omega
  · show (cmdsOf c o.sections.length x.version).stop - hdrSize c < _
    omega

theorem parseHeader_ok (hf : MachoO.Fits o x) (im : Image c o x t data cpu sub hs ys file) :
    parseHeader c.is64 file = .ok (c, mhdrOf c o x cpu sub) := by
  obtain ⟨h1, h2⟩ := mhdr_ok hf im
  obtain ⟨tl, htl⟩ := at_file_head im
  have hA : At file 0 ((mhdrOf c o x cpu sub).encode c) := by
    rw [htl, headOf_eq, List.append_assoc]
    exact at_mid [] _ _
  have hr := Elf.at_read hA
  rw [length_mhdr] at hr
  unfold parseHeader
  have : (if c.is64 then 32 else 28) = hdrSize c := rfl
  rw [this, hr]
  simp only [Res.ok_bind]
  rw [h2]
  obtain ⟨b, en⟩ := c
  cases en with
  | little => rw [if_pos rfl, h1]
  | big =>
    rw [if_neg (by unfold magic; cases b <;> decide), if_pos rfl, h1]

theorem loadCommands_ok (im : Image c o x t data cpu sub hs ys file) :
    loadCommands c (mhdrOf c o x cpu sub) file =
      .ok ⟨(cmdBytes c o x data hs).flatten, (cmdBytes c o x data hs).length, hdrSize c⟩ := by
  obtain ⟨tl, htl⟩ := at_file_head im
  have hl := im.headLen
  rw [headOf_eq, List.length_append, length_mhdr] at hl
  have hA : At file (hdrSize c) (cmdBytes c o x data hs).flatten := by
    rw [htl, headOf_eq, ← length_mhdr c (mhdrOf c o x cpu sub)]
    exact at_mid _ _ _
  have hr := Elf.at_read hA
  unfold loadCommands
  have : (mhdrOf c o x cpu sub).sizeofcmds = (cmdBytes c o x data hs).flatten.length := by
    show (cmdsOf c o.sections.length x.version).stop - hdrSize c = _
    omega
  rw [this, hr]
  simp only [Res.ok_bind]
  rw [length_cmdBytes]; rfl

theorem flatten_lt (im : Image c o x t data cpu sub hs ys file) : hdrSize c + (cmdBytes c o x data hs).flatten.length < U64 := by
  have hl := im.headLen
  rw [headOf_eq, List.length_append, length_mhdr] at hl
  obtain ⟨L1, -⟩ := seg_lt im.planned
  have e3 : segEnd c o x = (cmdsOf c o.sections.length x.version).stop + fileSizeOf o.sections := rfl
  have : U32 < U64 := by decide
  omega

theorem step_seg (hv : Valid o) (hf : MachoO.Fits o x) (im : Image c o x t data cpu sub hs ys file) (f : File) (off n : Nat)
    (hn : n = segCmd c) (hft : f.header.filetype = 1) :
    parseStep c file f ⟨n, off, (segOf c o x).encode c ++ hs.flatMap (Sect.encode c)⟩ =
      .ok { f with segments := f.segments ++ [segOf c o x], sections := f.sections ++ hs.map secInt } := by
  obtain ⟨L1, L2, L3, L4, L5⟩ := seg_lt im.planned
  have hn255 := im.planned.sections
  have hU : U32 = 2 ^ 32 := by decide
  have hms := mul_sect_le c o.sections.length
  have hss := segSize_le c
  have hvm := vm_fits hv im.planned
  have hfs := fileSize_le o
  have e3 : segEnd c o x = (cmdsOf c o.sections.length x.version).stop + fileSizeOf o.sections := rfl
  have hseg := (seg_decode c (segOf c o x) (by rfl) (by exact Nat.pow_pos (by decide)) hvm (pow_w4 c (by show (cmdsOf _ _ _).stop < _; omega))
    (pow_w4 c (by show fileSizeOf _ < _; omega)) (by show 7 < _; decide) (by show 7 < _; decide) (by show o.sections.length < _; omega) (by show 0 < _; decide)
    (by show segSize c + o.sections.length * sectSize c < _; omega) []).1
  unfold parseStep segmentOf
  rw [if_pos hn]
  have hl := length_seg c (segOf c o x) (by rfl)
  simp only
  rw [← hl, read_prefix]
  simp only [Res.ok_bind]
  rw [hseg, parseSections_eq c f.header (segOf c o x) hs hft im.headers.1.symm im.sectLen (fun h hh => head_decode hv hf im hh)
    (by show (cmdsOf c o.sections.length x.version).stop + fileSizeOf o.sections < _; omega)
    (by
      rw [Elf.length_flatMap_const _ _ _ im.sectLen, im.headers.1]
      have : U32 < U64 := by decide
      omega)]
  rfl

theorem step_other (c : Cfg) (f : File) (d : MachO.LoadCommandData) (h1 : d.cmd ≠ segCmd c) (h2 : d.cmd ≠ 2) : parseStep c file f d = .ok f := by
  unfold parseStep segmentOf symtabOf
  rw [if_neg h1]
  simp only [Res.ok_bind]
  rw [if_neg h2]
  rfl

theorem nlist_ok (hv : Valid o) (hf : MachoO.Fits o x) (im : Image c o x t data cpu sub hs ys file) {i : Nat} {s : W.Symbol} {y : Nlist}
    (hi : o.symbols[i]? = some s) (he : Emitted o s) (hy : IsNlist c o x t s y) :
    Nlist.decode c (y.encode c) = { y with value := y.value % 256 ^ c.w } ∧ StringAt data s.name y.strx ∧ y.sect = numberOf s.section_ := by
  have hmem := List.mem_of_getElem? hi
  obtain ⟨f1, f2⟩ := symbolFlags_lt hf hmem hy.flags
  have hs : y.strx < U32 ∧ StringAt data s.name y.strx := by
    rw [hy.strx]
    by_cases h0 : s.name = []
    · rw [if_pos h0, h0]; exact ⟨by decide, im.planned.written.nul⟩
    · rw [if_neg h0]
      have hm := mem_emNames hi ((em_iff o s).2 he) h0
      rw [← im.planned.strings] at hm
      exact (nmOf_spec im.planned.written hm).2
  have hn : y.sect = numberOf s.section_ ∧ y.sect < 256 := by
    rw [hy.sect]
    unfold symbolSection numberOf
    cases hj : s.section_ with
    | inSec j =>
      have h1 := hv.symbolSection s hmem j hj
      have h2 := im.planned.sections
      simp only
      rw [Nat.mod_eq_of_lt (by omega)]
      exact ⟨rfl, by omega⟩
    | none => exact ⟨rfl, by decide⟩
    | undefined => exact ⟨rfl, by decide⟩
    | absolute => exact ⟨rfl, by decide⟩
    | common => exact ⟨rfl, by decide⟩
  exact ⟨nlist_decode c y hs.1 f1 hn.2 f2, hs.2, hn.1⟩

theorem at_syms (im : Image c o x t data cpu sub hs ys file) (hv : Valid o) : At file (symOff c o x) (ys.flatMap (Nlist.encode c)) ∧
    At file (strOff c o x) data := by
  have hdl : (emit [] (dataParts o.sections)).length = fileSizeOf o.sections := by
    rw [length_emit, sizes_dataParts o.sections hv.contents]; rfl
  have hsl : (headOf c o x cpu sub data hs ++ emit [] (dataParts o.sections)).length = segEnd c o x := by
    rw [List.length_append, hdl, im.headLen]; rfl
  have hrs : sizes (relParts c o o.sections) = relSizes c o.sections := by
    have : ∀ ss : List W.Section, (∀ s ∈ ss, s ∈ o.sections) → sizes (relParts c o ss) = relSizes c ss := by
      intro ss
      induction ss with
      | nil => intro _; rfl
      | cons s ss ih =>
        intro h
        rw [relParts_cons, relSizes_cons]
        have ih := ih (fun y hy => h y (by simp [hy]))
        split
        · show (c.w, ((recsOf o s).flatMap (RelInfo.bytes o.endian)).length) :: sizes (relParts c o ss) = _
          rw [ih, length_recs, im.recs.length (h s (by simp))]
        · exact ih
    exact this _ (fun s h => h)
  have hyl : (ys.flatMap (Nlist.encode c)).length = (orderOf o).length * nlistSize c := by
    rw [Elf.length_flatMap_const _ _ _ fun y _ => length_nlist c y, im.symsLen]
  constructor
  · have := at_emit (relParts c o o.sections) [(1, data)] c.w (ys.flatMap (Nlist.encode c))
      (headOf c o x cpu sub data hs ++ emit [] (dataParts o.sections))
    rw [hrs, hsl] at this
    rw [im.file_]
    exact this
  · have := at_emit (relParts c o o.sections ++ [(c.w, ys.flatMap (Nlist.encode c))]) [] 1 data
      (headOf c o x cpu sub data hs ++ emit [] (dataParts o.sections))
    rw [sizes_append, hrs, hsl, endOf_append] at this
    simp only [sizes, List.map_cons, List.map_nil, endOf, up_one, hyl] at this
    rw [im.file_]
    rw [List.append_assoc] at this
    exact this

theorem ys_mem (im : Image c o x t data cpu sub hs ys file) {y : Nlist} (hy : y ∈ ys) : ∃ (k i : Nat) (s : W.Symbol), (orderOf o)[k]? = some i ∧
    o.symbols[i]? = some s ∧ Emitted o s ∧ ys[k]? = some y ∧ IsNlist c o x t s y := by
  obtain ⟨k, hk⟩ := List.mem_iff_getElem?.1 hy
  have hlt : k < (orderOf o).length := by rw [← im.symsLen]; exact length_of_getElem? hk
  have hm : (orderOf o)[k] ∈ orderOf o := List.getElem_mem hlt
  obtain ⟨s, h1, h2⟩ := ((order_ok o).members _).1 hm
  obtain ⟨y', e1, e2⟩ := im.syms k _ s (List.getElem?_eq_getElem hlt) h1
  rw [hk] at e1
  simp only [Option.some.injEq] at e1
  subst e1
  exact ⟨k, _, s, List.getElem?_eq_getElem hlt, h1, h2, hk, e2⟩

theorem symbols_ok (hv : Valid o) (hf : MachoO.Fits o x) (im : Image c o x t data cpu sub hs ys file) :
    (symcmdOf c o x data).symbols c file = .ok ⟨ys.map fun y => { y with value := y.value % 256 ^ c.w },
      some (strOff c o x, strOff c o x + data.length)⟩ := by
  obtain ⟨L1, L2, L3, L4, L5⟩ := seg_lt im.planned
  have hlen := im.planned.len
  have hu : U32 < U64 := by decide
  unfold SymtabCmd.symbols
  have e1 : (symcmdOf c o x data).symoff = symOff c o x := rfl
  have e2 : (symcmdOf c o x data).nsyms = ys.length := im.symsLen.symm
  rw [e1, e2, Elf.readSliceAt_flatMap (Nlist.encode c) (nlistSize c) ys (fun y _ => length_nlist c y) (by rw [im.len]; omega) (at_syms im hv).1]
  simp only [Res.ok_bind]
  have e3 : (symcmdOf c o x data).stroff = strOff c o x := rfl
  have e4 : (symcmdOf c o x data).strsize = data.length := rfl
  rw [e3, e4, if_neg (by omega), List.map_map]
  congr 2
  refine List.map_congr_left fun y hy => ?_
  obtain ⟨k, i, s, -, h1, h2, -, h3⟩ := ys_mem im hy
  exact (nlist_ok hv hf im h1 h2 h3).1

theorem step_sym (hv : Valid o) (hf : MachoO.Fits o x) (im : Image c o x t data cpu sub hs ys file) (f : File) (off n : Nat) (hn : n = 2) :
    parseStep c file f ⟨n, off, (symcmdOf c o x data).encode c⟩ =
      .ok { f with symbols := ⟨ys.map fun y => { y with value := y.value % 256 ^ c.w }, some (strOff c o x, strOff c o x + data.length)⟩ } := by
  obtain ⟨L1, L2, L3, L4, L5⟩ := seg_lt im.planned
  have hU : U32 = 2 ^ 32 := by decide
  have hlo := length_order o
  have hsy := hv.symbols
  unfold parseStep segmentOf symtabOf
  have h1 : n ≠ segCmd c := by rcases segCmd_cases c with h | h <;> omega
  rw [if_neg h1]
  simp only [Res.ok_bind]
  rw [if_pos hn]
  have hl := length_symtab c (symcmdOf c o x data)
  have := readAt_all ((symcmdOf c o x data).encode c)
  rw [hl] at this
  rw [this]
  simp only [Res.ok_bind]
  rw [(symtab_decode c (symcmdOf c o x data) L3 (by show (orderOf o).length < _; omega) L4 L5 []).1, symbols_ok hv hf im]
  rfl

/-- The iterator data of the commands. -/
def cmdData (c : Cfg) (o : W.Object) (x : Extra) (data : List UInt8) (hs : List Sect) : List MachO.LoadCommandData :=
  dataOf c.en (hdrSize c) (cmdBytes c o x data hs)

/-- The kinds of the commands. -/
structure Kinds (c : Cfg) (o : W.Object) (x : Extra) (data : List UInt8) (hs : List Sect) : Prop where
  seg : field c.en ((segOf c o x).encode c ++ hs.flatMap (Sect.encode c)) 0 4 = segCmd c
  ver : ∀ v, x.version = some v → field c.en (BuildVersion.encode c ⟨v.platform, v.minos, v.sdk, 0⟩) 0 4 = 0x32
  sym : field c.en ((symcmdOf c o x data).encode c) 0 4 = 2
  dy : field c.en ((dycmdOf o).encode c) 0 4 = 0xb ∧ DysymtabCmd.decode c ((dycmdOf o).encode c) = dycmdOf o

theorem kinds (hv : Valid o) (hf : MachoO.Fits o x) (im : Image c o x t data cpu sub hs ys file) : Kinds c o x data hs := by
  obtain ⟨L1, L2, L3, L4, L5⟩ := seg_lt im.planned
  have hn := im.planned.sections
  have hU : U32 = 2 ^ 32 := by decide
  have hms := mul_sect_le c o.sections.length
  have hss := segSize_le c
  have hvm := vm_fits hv im.planned
  have hfs := fileSize_le o
  have e3 : segEnd c o x = (cmdsOf c o.sections.length x.version).stop + fileSizeOf o.sections := rfl
  have hseg := (seg_decode c (segOf c o x) (by rfl) (by exact Nat.pow_pos (by decide)) hvm (pow_w4 c (by show (cmdsOf _ _ _).stop < _; omega))
    (pow_w4 c (by show fileSizeOf _ < _; omega)) (by show 7 < _; decide) (by show 7 < _; decide) (by show o.sections.length < _; omega) (by show 0 < _; decide)
    (by show segSize c + o.sections.length * sectSize c < _; omega) (hs.flatMap (Sect.encode c))).2.1
  have hlo := length_order o
  have hsy := hv.symbols
  have hol : (locals o).length + (externals o).length + (undefineds o).length = (orderOf o).length := by
    unfold orderOf; rw [List.length_append, List.length_append]
  have hdy := dysymtab_decode c (dycmdOf o) (by show 0 < _; decide) (by show (locals o).length < _; omega) (by show (locals o).length < _; omega)
        (by show (externals o).length < _; omega) (by show (locals o).length + (externals o).length < _; omega)
        (by show (undefineds o).length < _; omega) rfl []
  rw [List.append_nil] at hdy
  refine ⟨hseg, ?_, ?_, hdy.2.1, hdy.1⟩
  · intro v hx
    obtain ⟨v1, v2, v3⟩ := hf.version v hx
    have := (version_decode c ⟨v.platform, v.minos, v.sdk, 0⟩ v1 v2 v3 rfl []).2.1
    rw [List.append_nil] at this
    exact this
  · have := (symtab_decode c (symcmdOf c o x data) L3 (by show (orderOf o).length < _; omega) L4 L5 []).2.1
    rw [List.append_nil] at this
    exact this

theorem stepAll_ok (hv : Valid o) (hf : MachoO.Fits o x) (im : Image c o x t data cpu sub hs ys file) :
    stepAll c file ⟨c, mhdrOf c o x cpu sub, [], [], ⟨[], none⟩⟩ (cmdData c o x data hs) = .ok (fileOf c o x data cpu sub hs ys) := by
  have K := kinds hv hf im
  have hseg := segCmd_cases c
  have hd : ∀ (f : File) (n : Nat), parseStep c file f ⟨field c.en ((dycmdOf o).encode c) 0 4, n, (dycmdOf o).encode c⟩ = .ok f := fun f n =>
    step_other c f _ (by show field _ _ _ _ ≠ _; rw [K.dy.1]; omega) (by show field _ _ _ _ ≠ _; rw [K.dy.1]; decide)
  unfold cmdData cmdBytes
  cases hx : x.version with
  | none =>
    simp only [List.append_nil, List.singleton_append, dataOf, stepAll]
    rw [step_seg hv hf im _ _ _ K.seg (by rfl)]
    simp only [Res.ok_bind]
    rw [step_sym hv hf im _ _ _ K.sym]
    simp only [Res.ok_bind]
    rw [hd]
    rfl
  | some v =>
    simp only [List.singleton_append, List.cons_append, List.nil_append, dataOf, stepAll]
    rw [step_seg hv hf im _ _ _ K.seg (by rfl)]
    simp only [Res.ok_bind]
    rw [step_other c _ _ (by show field _ _ _ _ ≠ _; rw [K.ver v hx]; omega) (by show field _ _ _ _ ≠ _; rw [K.ver v hx]; decide)]
    simp only [Res.ok_bind]
    rw [step_sym hv hf im _ _ _ K.sym]
    simp only [Res.ok_bind]
    rw [hd]
    rfl

theorem parse_ok (hv : Valid o) (hf : MachoO.Fits o x) (im : Image c o x t data cpu sub hs ys file) :
    File.parse c.is64 file = .ok (fileOf c o x data cpu sub hs ys) := by
  unfold File.parse
  rw [parseHeader_ok hf im]
  simp only [Res.ok_bind]
  rw [loadCommands_ok im]
  simp only
  rw [parseLoop_cmds c file (cmdBytes c o x data hs) (hdrSize c) _ (cmds_ok hv hf im) (flatten_lt im)]
  exact stepAll_ok hv hf im

end Obj.MachoW

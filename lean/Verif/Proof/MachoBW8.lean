import Verif.Proof.MachoBW7

/-! Writing with the Mach-O builder: sections and segments. -/

namespace Obj.MachoB
open Obj Obj.MachoR
open Obj.BuildW (mapR mapR_each Blk)
open Obj.Spec.MachoF (Each num headerSize headerIn IsCommand segmentIn sectionAt sectionsIn OffsetsOf Zerofill sectionSize segmentSize)
open Obj.Spec.MachoB

section
variable {b : Builder} {o : Order} {l : Layout} {out : List UInt8}

theorem space_w (b : Builder) : space b = 256 ^ b.cfg.w := by
  unfold space Elf.Cfg.w Builder.cfg
  simp only
  split <;> rfl

/-- The header of a section as it is read. -/
def secHdr (o : Order) (l : Layout) (s : Sec) : Sect :=
  ⟨s.sectname, s.segname, s.addr, s.data.size, l.offs.getD (secPos o s.id) 0 % 2 ^ 32, s.align, l.rels.getD (secPos o s.id) 0 % 2 ^ 32, s.relocs.length, s.flags,
    (indStarts 0 o.secs).getD (secPos o s.id) 0, s.stubSize, 0⟩

/-- A section after reading. -/
def newSec (o : Order) (s : Sec) : Sec :=
  ⟨secPos o s.id, false, s.sectname, s.segname, s.addr, s.align, s.relocs.map (newRel o), s.flags, s.indirect.map (newInd o),
    if s.flags % 256 = 8 then s.stubSize else 0, s.data⟩

theorem Written.sec_pos (x : Written b o l out) {k : Nat} {s : Sec} (h : o.secs[k]? = some s) : secPos o s.id = k := by
  rw [secPos, posIn, x.sec_index h]; rfl

theorem Written.sym_pos (x : Written b o l out) {k : Nat} {y : Sym} (h : o.syms[k]? = some y) : symPos o y.id = k := by
  rw [symPos, posIn, x.sym_index h]; rfl

theorem encode_sect_mod (c : Cfg) (a1 a2 : List UInt8) (n1 n2 n3 n4 n5 n6 n7 n8 n9 n10 : Nat) :
    Sect.encode c ⟨a1, a2, n1, n2, n3 % 2 ^ 32, n4, n5 % 2 ^ 32, n6, n7, n8, n9, n10⟩ = Sect.encode c ⟨a1, a2, n1, n2, n3, n4, n5, n6, n7, n8, n9, n10⟩ := by
  unfold Sect.encode Sect.fields
  have h (n : Nat) : wr c.en 4 (n % 2 ^ 32) = wr c.en 4 n := MachoW.wr_mod c.en 4 n
  simp only [List.cons_append, List.nil_append, Obj.encode, h]

theorem Written.data_blk (x : Written b o l out) {k : Nat} {s : Sec} (hs : o.secs[k]? = some s) {d : List UInt8} (hd : s.data = .data d) :
    Blk out (l.offs.getD k 0) d := by
  have hk : k < l.offs.length := by rw [x.laid.offs]; exact (List.getElem?_eq_some_iff.1 hs).1
  have hz : (s, l.offs[k]) ∈ o.secs.zip l.offs := List.mem_of_getElem? (i := k) (by
    rw [List.getElem?_zip_eq_some]; exact ⟨hs, List.getElem?_eq_getElem hk⟩)
  have := x.em.data _ hz d hd
  rwa [List.getD_eq_getElem?_getD, List.getElem?_eq_getElem hk]

theorem Written.size_lt (x : Written b o l out) {k : Nat} {s : Sec} (hs : o.secs[k]? = some s) : s.data.size < 2 ^ 32 := by
  obtain ⟨m1, m2⟩ := x.sec_mem (List.mem_of_getElem? hs)
  have so := (x.sound.sections s m1 m2).data
  cases hd : s.data with
  | data d =>
    have hout := x.lt
    exact (blk_lt (x.data_blk hs hd) hout).2
  | uninit n =>
    rw [hd] at so
    exact so.2

theorem Written.section_ok (x : Written b o l out) {s : Sec} (hm : s ∈ o.secs) :
    SectionIs b.cfg out (totals o l (indTable o)) (secHdr o l s) (secHdr o l s).offset (newSec o s) ∧
      SecSame (sectionOrder b) (o.syms.map (·.id)) s (newSec o s) := by
  obtain ⟨k, hs⟩ := List.mem_iff_getElem?.1 hm
  have hp := x.sec_pos hs
  obtain ⟨m1, m2⟩ := x.sec_mem hm
  have so := x.sound.sections s m1 m2
  obtain ⟨r1, r2, r3⟩ := x.relocs_ok hs (secHdr o l s) rfl (by rw [secHdr, hp]) (indTable o)
  obtain ⟨i1, i2, i3⟩ := x.indirect_ok hs (secHdr o l s) rfl rfl rfl (by rw [secHdr, hp])
  refine ⟨⟨rfl, rfl, rfl, rfl, rfl, rfl, rfl, ?_, r2, i2⟩, ⟨rfl, rfl, rfl, rfl, rfl, r3, rfl, i3, rfl, rfl⟩⟩
  have hd := so.data
  unfold DataIs Zerofill
  cases hc : s.data with
  | data d =>
    rw [hc] at hd
    have hb := x.data_blk hs hc
    have hout := x.lt
    have hlt := (blk_lt hb hout).1
    refine .inr ⟨hd, d, ?_, hc⟩
    rw [secHdr, hp, hc, Nat.mod_eq_of_lt hlt]
    exact blk_part hb
  | uninit n =>
    rw [hc] at hd
    refine .inl ⟨hd.1, ?_⟩
    rw [secHdr, hc, newSec, hc]
    simp only [Data.size]
    rw [Nat.mod_eq_of_lt hd.2]

theorem Written.hdr_decode (x : Written b o l out) {s : Sec} (hm : s ∈ o.secs) {h : Sect} (e : sectOf o l s = .ok h) :
    Sect.decode b.cfg (Sect.encode b.cfg h) = secHdr o l s := by
  obtain ⟨k, hs⟩ := List.mem_iff_getElem?.1 hm
  have hp := x.sec_pos hs
  obtain ⟨m1, m2⟩ := x.sec_mem hm
  have so := x.sound.sections s m1 m2
  have hw := space_w b
  have hsz := x.size_lt hs
  obtain ⟨r1, -, -⟩ := x.relocs_ok hs (secHdr o l s) rfl (by rw [secHdr, hp]) (indTable o)
  obtain ⟨i1, -, -⟩ := x.indirect_ok hs (secHdr o l s) rfl rfl rfl (by rw [secHdr, hp])
  unfold sectOf at e
  rw [x.sec_index hs] at e
  cases e
  rw [← encode_sect_mod, secHdr, hp]
  exact MachoW.sect_decode b.cfg _ so.sectname so.segname (by rw [← hw]; exact so.addr) (MachoW.pow_w4 _ hsz) (Nat.mod_lt _ (by decide)) so.align
    (Nat.mod_lt _ (by decide)) r1 so.flags i1 so.stubSize rfl

/-! ## Segments -/

/-- A segment after reading. -/
def newSegm (b : Builder) (o : Order) (l : Layout) (i : Nat) (g : Segm × List Sec) : Segm :=
  ⟨i, false, g.1.segname, g.1.vmaddr, (match l.ranges[i]? with | some r => r.vmsize | none => 0) % 256 ^ b.cfg.w, g.1.maxprot, g.1.initprot, g.1.flags,
    g.2.map fun s => secPos o s.id⟩

theorem encode_seg_mod (c : Cfg) (a : List UInt8) (n1 n2 n3 n4 n5 n6 n7 n8 : Nat) :
    Seg.encode c ⟨a, n1, n2 % 256 ^ c.w, n3, n4, n5, n6, n7, n8⟩ = Seg.encode c ⟨a, n1, n2, n3, n4, n5, n6, n7, n8⟩ := by
  unfold Seg.encode
  simp only [Obj.encode, MachoW.wr_mod]

theorem mem_secs (x : Written b o l out) {i : Nat} {g : Segm × List Sec} (h : o.segs[i]? = some g) {s : Sec} (hs : s ∈ g.2) : s ∈ o.secs := by
  rw [x.ord.secs, List.mem_flatMap]
  exact ⟨g, List.mem_of_getElem? h, hs⟩

/-- The segment command as it is read. -/
def segHdr (c : Cfg) (g : Segm × List Sec) (r : Range) : Seg :=
  ⟨g.1.segname, g.1.vmaddr, r.vmsize % 256 ^ c.w, r.off, r.size, g.1.maxprot, g.1.initprot, g.2.length, g.1.flags⟩

/-- The segment command is read. -/
theorem Written.segment_is (x : Written b o l out) {i : Nat} {bs : List UInt8} (h : CmdOut b o l out (.segment i) bs) :
    ∃ g, o.segs[i]? = some g ∧ b.segments[i]? = some g.1 ∧
      SegmentIs b.endian out (totals o l (indTable o)) bs (newSegm b o l i g, g.2.map (newSec o)) ∧
      (segmentIn b.cfg bs).nsects = g.2.length ∧ segCfg b.endian bs = b.cfg ∧
      (∃ r, l.ranges[i]? = some r ∧ segmentIn b.cfg bs = segHdr b.cfg g r ∧ sectionsIn b.cfg bs = g.2.map (secHdr o l)) ∧ SegSame b (sectionOrder b) g.1 (newSegm b o l i g) := by
  obtain ⟨hm, ⟨lk, hk⟩, hl, hsz, -, -⟩ := h
  obtain ⟨-, -, hnum⟩ := x.segment_ok hk hl
  obtain ⟨g, r, ss, h1, h2, h3, he⟩ := x.segment_bytes hk
  obtain ⟨-, e1, e2⟩ := x.seg_at h1
  have hlive := x.clean.commands i g.1 hm e1
  have hg := x.sound.segments g.1 (List.mem_of_getElem? e1) hlive
  have hfetch : fetch o.segs i = .ok g := by unfold fetch; rw [h1]
  rw [cmdSize, hfetch] at hsz
  have hlen : segSize b.cfg + g.2.length * sectSize b.cfg = bs.length := by injection hsz
  have hcfg : segCfg b.endian bs = b.cfg := by
    unfold segCfg
    rw [hnum]
    unfold segCmd Builder.cfg
    cases b.is64 <;> rfl
  have hnr : newSegm b o l i g = ⟨i, false, g.1.segname, g.1.vmaddr, r.vmsize % 256 ^ b.cfg.w, g.1.maxprot, g.1.initprot, g.1.flags,
      g.2.map fun s => secPos o s.id⟩ := by rw [newSegm, h2]
  have hw := space_w b
  have hout := x.lt
  obtain ⟨rl, rg⟩ := x.laid.ranges
  obtain ⟨rg1, rg2⟩ := rg i r g h2 h1
  have hllt := x.laid.len
  -- the segment
  have hsl : (Seg.encode b.cfg ⟨g.1.segname, g.1.vmaddr, r.vmsize, r.off, r.size, g.1.maxprot, g.1.initprot, g.2.length, g.1.flags⟩).length = segSize b.cfg :=
    MachoW.length_seg _ _ hg.segname
  have hss : segSize b.cfg = segmentSize b.is64 := rfl
  have hsc : sectSize b.cfg = sectionSize b.is64 := rfl
  have hro : r.off < 4294967296 := by omega
  have hrs : r.size < 4294967296 := by omega
  have h68 : 68 ≤ sectSize b.cfg := by unfold sectSize; split <;> omega
  have hns : g.2.length * 68 ≤ g.2.length * sectSize b.cfg := Nat.mul_le_mul_left _ h68
  have hsegIn : segmentIn b.cfg bs = ⟨g.1.segname, g.1.vmaddr, r.vmsize % 256 ^ b.cfg.w, r.off, r.size, g.1.maxprot, g.1.initprot, g.2.length, g.1.flags⟩ := by
    rw [← seg_slice b.cfg bs (by rw [← hss]; omega), he, List.take_left' hsl, ← encode_seg_mod]
    exact (MachoW.seg_decode b.cfg _ hg.segname (by rw [← hw]; exact hg.vmaddr) (Nat.mod_lt _ (Nat.pow_pos (by decide))) (MachoW.pow_w4 _ hro) (MachoW.pow_w4 _ hrs)
      hg.maxprot hg.initprot (by simp only; omega) hg.flags (by simp only; omega) []).1
  have hslen := x.sects_len h1 h3
  have hsections : sectionsIn b.cfg bs = g.2.map (secHdr o l) := by
    unfold sectionsIn
    rw [hsegIn]
    apply List.ext_getElem?
    intro j
    rw [List.getElem?_map, List.getElem?_map]
    by_cases hj : j < g.2.length
    · rw [List.getElem?_eq_getElem (by simpa using hj), List.getElem?_eq_getElem hj, List.getElem_range]
      have hg2 := List.getElem?_eq_getElem hj
      obtain ⟨hh, q1, q2⟩ := BuildW.each_get_left h3 hg2
      obtain ⟨s1, s2⟩ := slice_item (Sect.encode b.cfg) (sectSize b.cfg) ss j hh hslen q1
      rw [Option.map_some, Option.map_some, Option.some.injEq, ← x.hdr_decode (mem_secs x h1 (List.getElem_mem hj)) q2, ← s1, ← MachoF.sect_decode]
      congr 1
      have := slice_right (Seg.encode b.cfg ⟨g.1.segname, g.1.vmaddr, r.vmsize, r.off, r.size, g.1.maxprot, g.1.initprot, g.2.length, g.1.flags⟩)
        (ss.flatMap (Sect.encode b.cfg)) (sectSize b.cfg * j) (sectSize b.cfg)
      rw [hsl] at this
      rw [he]
      exact this
    · rw [List.getElem?_eq_none (by simpa using hj), List.getElem?_eq_none (by omega)]; rfl
  refine ⟨g, h1, e1, ?_, by rw [hsegIn], hcfg, ⟨r, h2, hsegIn, hsections⟩, ?_⟩
  · refine ⟨?_, rfl, ?_, ?_, ?_, ?_, ?_, ?_, ?_, ?_⟩
    · rw [hcfg, hsegIn, ← hss, ← hsc, Nat.mul_comm]; simp only; omega
    · have : segmentIn b.cfg bs = ⟨slice bs 8 16, _, _, _, _, _, _, _, _⟩ := rfl
      rw [hsegIn] at this
      rw [hnr]
      injection this
    · rw [hcfg, hsegIn, hnr]
    · rw [hcfg, hsegIn, hnr]
    · rw [hcfg, hsegIn, hnr]
    · rw [hcfg, hsegIn, hnr]
    · rw [hcfg, hsegIn, hnr]
    · rw [hnr, List.map_map]; rfl
    · rw [hcfg, hsections]
      refine ⟨(g.2.map (secHdr o l)).map (·.offset), ?_, ?_⟩
      · unfold OffsetsOf
        rw [hsegIn]
        simp only
        rw [Nat.mod_eq_of_lt (show r.off + r.size < 2 ^ 64 by omega), if_pos (show r.off + r.size < 2 ^ 32 by omega)]

        trivial
      · rw [List.map_map, List.zip_map', BuildR.each_map_left]
        exact BuildW.each_map_right _ (BuildW.each_self _ fun s hs => (x.section_ok (mem_secs x h1 hs)).1)
  · rw [hnr]
    refine ⟨rfl, rfl, rfl, ?_, rfl, rfl, rfl, ?_⟩
    · intro hf hn
      have hv := rg2 hf fun g0 hg0 => by
        rw [e1] at hg0
        cases hg0
        rw [← Bool.not_eq_true]
        intro hc
        refine hn ?_
        unfold isLinkeditSeg at hc
        rw [beq_iff_eq] at hc
        exact (MachoF.hasName_iff ..).2 (hc.trans (by decide))
      simp only
      rw [hv, ← hw]
      exact Nat.mod_eq_of_lt hg.vmsize
    · refine BuildW.each_of_forall ?_ fun j i' k' hi hk' => ?_
      · rw [List.length_map, BuildR.each_length e2]
      · obtain ⟨s, hs, hs'⟩ := BuildW.each_get_left e2 hi
        rw [List.getElem?_map, hs] at hk'
        cases hk'
        obtain ⟨k, hk⟩ := List.mem_iff_getElem?.1 (mem_secs x h1 (List.mem_of_getElem? hs))
        unfold Place
        simp only
        rw [x.sec_pos hk, ← x.secIds, List.getElem?_map, hk]
        simp only [Option.map_some, Option.some.injEq]
        exact x.sound.numbered.sections _ _ hs'

end

end Obj.MachoB

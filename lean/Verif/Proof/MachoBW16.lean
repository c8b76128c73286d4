import Verif.Proof.MachoBW15

/-! The layout of files that the Mach-O builder writes. -/

namespace Obj.MachoB
open Obj Obj.MachoR
open Obj.BuildW (foldR mapR mapR_each Blk align64_ge)
open Obj.Spec (roundUp)
open Obj.Spec.MachoF (Each num headerSize headerIn segmentIn sectionsIn Zerofill width HasName ascii)
open Obj.Spec.MachoB

theorem each_left {α β : Type} {P : α → β → Prop} {xs : List α} {ys : List β} (h : Each P xs ys) {Q : α → Prop} (hq : ∀ x ∈ xs, Q x) :
    Each (fun x y => P x y ∧ Q x) xs ys := by
  induction h with
  | nil => exact .nil
  | cons h1 _ ih => exact .cons ⟨h1, hq _ (by simp)⟩ (ih fun x hx => hq x (by simp [hx]))

section
variable {b : Builder} {o : Order} {l : Layout} {out : List UInt8} {ks : List (List UInt8)}

theorem width_w (b : Builder) : width b.is64 = b.cfg.w := by
  unfold width Elf.Cfg.w Builder.cfg
  rfl

/-- What holds for all files. -/
theorem Written.file_laid (x : Written b o l out) (hl : layout b.cfg b o = .ok l) (he : emit b.cfg b o l = .ok out)
    (hc : CommandsAll b.cfg (headerIn b.endian out) out ks) {start : Nat} (ht : Tail b.cfg b l start)
    (hrel : ∀ p ∈ o.secs.zip l.rels, p.1.relocs ≠ [] → p.2 % b.cfg.w = 0) : FileLaid b.cfg out ks start ∧ Each (CmdOut b o l out) b.commands ks := by
  obtain ⟨ks', h1, h2, h3, -⟩ := x.commands'
  have := commandsAll_unique hc h3
  subst this
  obtain ⟨ks2, h4, h5, -⟩ := emit_order (BuildR.each_length x.ord.names) he
  have h4 : mapR (fun x : Cmd × List Nat => cmdBytes b.cfg b o l x.1 x.2) (b.commands.zip l.link) = .ok ks2 := h4
  rw [h1] at h4
  injection h4 with h4
  subst h4
  rw [mapR_each] at h1
  have hb : Each (BlobOut b o l out) (b.commands.zip l.link) ks := by
    refine BuildW.each_of_forall ?_ fun i p bs hp hbs => ?_
    · exact BuildR.each_length h1
    · obtain ⟨bs', e1, e2⟩ := BuildW.each_get_left h1 hp
      rw [hbs] at e1
      cases e1
      have hp' := hp
      rw [List.getElem?_zip_eq_some] at hp'
      obtain ⟨bs', e3, e4⟩ := BuildW.each_get_left h2 hp'.1
      rw [hbs] at e3
      cases e3
      exact ⟨e2, e4, List.mem_of_getElem? hp⟩
  have hs := x.tableParts hb h2
  have hw := width_w b
  have hblob : ∀ q ∈ b.commands.zip l.link, ∀ p ∈ blobPart q, start ≤ p.1 ∧ p.1 % b.cfg.w = 0 := by
    intro q hq p hp
    unfold blobPart at hp
    rw [List.mem_map] at hp
    obtain ⟨z, hz, rfl⟩ := hp
    exact ht.link _ (List.of_mem_zip hq).2 _ (List.of_mem_zip hz).2
  obtain ⟨s1, s2⟩ := x.symbolParts h2
  have s3 := x.indirectParts h2
  refine ⟨⟨?_, ?_, ?_, ?_, ?_, ?_, ?_⟩, h2⟩
  · rw [x.dataParts h2, x.relocParts h2]
    exact h5.sublist ((List.Sublist.refl _).append ((List.Sublist.refl _).append hs))
  · intro p hp
    have hp := hs.subset hp
    unfold tailParts at hp
    simp only [List.mem_append, List.mem_flatMap, List.mem_singleton, List.mem_map] at hp
    rcases hp with ⟨q, hq, hp⟩ | rfl | hp | rfl | ⟨d, hd, rfl⟩
    · exact (hblob q hq p hp).1
    · exact ht.sym.1
    · split at hp
      · next hn =>
        rw [List.mem_singleton] at hp
        subst hp
        exact (ht.ind hn).1
      · cases hp
    · exact ht.str
    · exact (ht.sig fun e => by rw [e] at hd; cases hd).1
  · intro p hp
    rw [x.relocParts h2, List.mem_flatMap] at hp
    obtain ⟨q, hq, hp⟩ := hp
    unfold relPart at hp
    split at hp
    · cases hp
    · next hn =>
      rw [List.mem_singleton] at hp
      subst hp
      exact hw ▸ hrel q hq hn
  · intro k hk p hp
    obtain ⟨q, hq, e⟩ := BuildR.each_mem hb hk
    rw [show b.cfg.en = b.endian from rfl, x.blobs_at e] at hp
    exact hw ▸ (hblob q hq p hp).2
  · intro p hp
    have := s1.subset hp
    rw [List.mem_singleton] at this
    subst this
    exact hw ▸ ht.sym.2
  · intro p hp
    have := s3.subset hp
    split at this
    · next hn =>
      rw [List.mem_singleton] at this
      subst this
      exact (ht.ind hn).2
    · cases this
  · intro p hp
    rw [show b.cfg.en = b.endian from rfl, x.signatureParts h2, List.mem_map] at hp
    obtain ⟨d, hd, rfl⟩ := hp
    exact (ht.sig fun e => by rw [e] at hd; cases hd).2

/-- A segment command. -/
theorem Written.hdr_at (x : Written b o l out) (h : Each (CmdOut b o l out) b.commands ks) {k : List UInt8} (hk : k ∈ ks) (hs : isSegment b.endian k = true) :
    ∃ (i : Nat) (g : Segm × List Sec) (r : Range), o.segs[i]? = some g ∧ l.ranges[i]? = some r ∧ segmentIn b.cfg k = segHdr b.cfg g r ∧ sectionsIn b.cfg k = g.2.map (secHdr o l) := by
  obtain ⟨i, hi⟩ := List.mem_iff_getElem?.1 (List.mem_filter.2 ⟨hk, hs⟩)
  have := congrArg (fun z => z[i]?) (x.hdrs h)
  simp only [List.getElem?_map, hi, Option.map_some] at this
  obtain ⟨⟨g, r⟩, e1, e2⟩ := Option.map_eq_some_iff.1 this.symm
  rw [List.getElem?_zip_eq_some] at e1
  simp only [Prod.mk.injEq] at e2
  exact ⟨i, g, r, e1.1, e1.2, e2.1.symm, e2.2.symm⟩

theorem Written.sec_hdr (x : Written b o l out) {s : Sec} (hs : s ∈ o.secs) (hz : ¬ Zerofill (secHdr o l s)) :
    ∃ d, s.data = .data d ∧ (secHdr o l s).size = d.length ∧ (secHdr o l s).offset = l.offs.getD (secPos o s.id) 0 := by
  cases hc : s.data with
  | data d => exact ⟨d, rfl, by rw [secHdr, hc]; rfl, by rw [secHdr]; exact Nat.mod_eq_of_lt (x.off_lt hs hc)⟩
  | uninit n => exact absurd ((x.zerofill hs).1 ⟨n, hc⟩) hz

/-- Parts of lists that are zipped. -/
theorem chunks {α β γ : Type} (f : α → α × β) {gs : List (γ × List α)} {xs : List (List β)} (hl : Each (fun g (x : List β) => x.length = g.2.length) gs xs)
    (h : (gs.flatMap (·.2)).zip xs.flatten = (gs.flatMap (·.2)).map f) : Each (fun g x => g.2.zip x = g.2.map f) gs xs := by
  induction hl with
  | nil => exact .nil
  | @cons g x gs xs h1 _ ih =>
    rw [List.flatMap_cons, List.flatten_cons, List.map_append, List.zip_append h1.symm] at h
    obtain ⟨e1, e2⟩ := List.append_inj h (by rw [zip_length h1, List.length_map])
    exact .cons e1 (ih e2)

theorem isLinkedit_iff (g : Segm) : isLinkeditSeg g = true ↔ HasName g.segname (ascii "__LINKEDIT") := by
  unfold isLinkeditSeg
  rw [beq_iff_eq, MachoF.hasName_iff]
  rw [show ascii "__LINKEDIT" = [95, 95, 76, 73, 78, 75, 69, 68, 73, 84] by decide]

/-- Linked files. -/
theorem Written.linked (x : Written b o l out) (hl : layout b.cfg b o = .ok l) (he : emit b.cfg b o l = .ok out) (hf : b.filetype ≠ 1)
    (hp : ∃ n < 64, b.pageSize = 2 ^ n) (hc : CommandsAll b.cfg (headerIn b.endian out) out ks) : ∃ start, LinkedLaid b.cfg b.pageSize out ks start := by
  obtain ⟨p, vm, l1, l2, l3, l4, l5, ht⟩ := layout_at hl
  unfold placeAll at l1
  rw [if_neg hf, Res.bind_eq_ok] at l1
  obtain ⟨r, l6, l7⟩ := l1
  cases l7
  obtain ⟨⟨xs, q1, q2, q3⟩, -, q5, -, q7⟩ := placeSegs_at hp (Nat.zero_mod _) l6
  have hru : vm = roundUp (l.len - r.2.2) b.pageSize := by
    obtain ⟨n, hn, hpn⟩ := hp
    exact (Build.align64_ok hn hpn l2).1
  simp only at l3 l4 l5 ht hru
  have hok := (placeSegs_ok (Nat.zero_le _) l6).1
  -- relocations
  have hnorel : ∀ g ∈ o.segs, ∀ s ∈ g.2, s.relocs = [] := by
    intro g hg s hs
    obtain ⟨i, hi⟩ := List.mem_iff_getElem?.1 hg
    obtain ⟨y, y1, y2⟩ := BuildW.each_get_left q3 hi
    obtain ⟨so, size, h1, -⟩ := y2.secs
    obtain ⟨j, hj⟩ := List.mem_iff_getElem?.1 hs
    have hj' : j < y.2.length := by rw [y2.len]; exact (List.getElem?_eq_some_iff.1 hj).1
    have hz : (g.2.zip y.2)[j]? = some (s, y.2[j]) := List.getElem?_zip_eq_some.2 ⟨hj, List.getElem?_eq_getElem hj'⟩
    exact (h1 _ (List.mem_of_getElem? hz)).relocs
  have hnorel' : ∀ s ∈ o.secs, s.relocs = [] := by
    intro s hs
    rw [x.ord.secs, List.mem_flatMap] at hs
    obtain ⟨g, hg, hs⟩ := hs
    exact hnorel g hg s hs
  obtain ⟨hfile, hcmd⟩ := x.file_laid hl he hc ht fun q hq hn => absurd (hnorel' _ (mem_zip_left hq)) hn
  -- offsets
  have hch : Each (fun g z => g.2.zip z = g.2.map fun s => (s, l.offs.getD (secPos o s.id) 0)) o.segs (xs.map (·.2)) := by
    refine chunks _ ?_ ?_
    · exact BuildW.each_map_right _ (BuildR.each_imp q3 fun g _ z hz => hz.len)
    · rw [← x.ord.secs, ← x.zip_at x.laid.offs, l3, q2, List.flatMap_def]
  have hlen := BuildR.each_length q3
  have hseg : (segmentsOf b.commands) = List.range o.segs.length := by rw [x.sound.order, x.segs_length]
  have hrange (i : Nat) (g : Segm × List Sec) (rg : Range) (hg : o.segs[i]? = some g) (hr : l.ranges[i]? = some rg) : ∃ y, xs[i]? = some y ∧ SegAt b.pageSize g y ∧
      (HasName g.1.segname (ascii "__LINKEDIT") → rg = ⟨r.2.2, l.len - r.2.2, vm⟩) ∧ (¬ HasName g.1.segname (ascii "__LINKEDIT") → rg = y.1) := by
    obtain ⟨y, y1, y2⟩ := BuildW.each_get_left q3 hg
    have hi := (List.getElem?_eq_some_iff.1 hg).1
    have hbs := (x.seg_at hg).2.1
    have hset := setLinkedit_at l5 i
    rw [hr] at hset
    refine ⟨y, y1, y2, fun hn => ?_, fun hn => ?_⟩
    · rw [if_pos ⟨by rw [hseg]; exact List.mem_range.2 hi, g.1, hbs, (isLinkedit_iff _).2 hn⟩] at hset
      cases hset; rfl
    · rw [if_neg, q1, List.getElem?_map, y1] at hset
      · cases hset; rfl
      · rintro ⟨-, g', e1, e2⟩
        rw [hbs] at e1
        cases e1
        exact hn ((isLinkedit_iff _).1 e2)
  have hvm (g : Segm × List Sec) (hg : g ∈ o.segs) : g.1.vmsize % 256 ^ b.cfg.w = g.1.vmsize := by
    obtain ⟨i, hi⟩ := List.mem_iff_getElem?.1 hg
    obtain ⟨e0, e1, -⟩ := x.seg_at hi
    have := (x.sound.segments g.1 (List.mem_of_getElem? e1) (x.clean.commands i g.1 e0 e1)).vmsize
    rw [space_w] at this
    exact Nat.mod_eq_of_lt this
  have hstop (i : Nat) (g : Segm × List Sec) (y : Range × List Nat) (hg : o.segs[i]? = some g) (hy : xs[i]? = some y) : y.1.off + y.1.size ≤ r.2.2 := by
    obtain ⟨y', y1, y2⟩ := BuildW.each_get_left hok hg
    rw [q1, List.getElem?_map, hy] at y1
    cases y1
    exact y2.1
  have hsegs : (ks.filter (isSegment b.cfg.en)).map (segmentIn b.cfg) = (o.segs.zip l.ranges).map fun p => segHdr b.cfg p.1 p.2 := by
    have := congrArg (fun z => z.map fun p : Seg × List Sect => p.1) (x.hdrs hcmd)
    simp only [List.map_map] at this
    exact this
  have hpair (Q : Seg → Seg → Prop) (hq : ∀ (i j : Nat) (g g' : Segm × List Sec) (rg rg' : Range), i < j → o.segs[i]? = some g → o.segs[j]? = some g' →
      l.ranges[i]? = some rg → l.ranges[j]? = some rg' → Q (segHdr b.cfg g rg) (segHdr b.cfg g' rg')) :
      (ks.filter (isSegment b.cfg.en)).Pairwise fun k k' => Q (segmentIn b.cfg k) (segmentIn b.cfg k') := by
    rw [← List.pairwise_map, hsegs, List.pairwise_map, List.pairwise_iff_getElem]
    intro i j hi hj hij
    have e1 := List.getElem?_eq_getElem hi
    have e2 := List.getElem?_eq_getElem hj
    rw [List.getElem?_zip_eq_some] at e1 e2
    exact hq i j _ _ _ _ hij e1.1 e2.1 e1.2 e2.2
  refine ⟨r.2.2, hfile, ?_, ?_, ?_, ?_, ?_⟩
  · intro k hk hks hn
    obtain ⟨i, g, rg, h1, h2, h3, h4⟩ := x.hdr_at hcmd hk hks
    have hname : (segmentIn b.cfg k).segname = g.1.segname := by rw [h3]; rfl
    have hn : ¬ HasName g.1.segname (ascii "__LINKEDIT") := by rw [← hname]; exact hn
    obtain ⟨y, y1, y2, -, y3⟩ := hrange i g rg h1 h2
    have hrg := y3 hn
    subst hrg
    obtain ⟨so, size, s1, s2, s3⟩ := y2.secs
    have hz : g.2.zip y.2 = g.2.map fun s => (s, l.offs.getD (secPos o s.id) 0) := by
      obtain ⟨z, z1, z2⟩ := BuildW.each_get_left hch h1
      rw [List.getElem?_map, y1] at z1
      cases z1
      exact z2
    have hat (s : Sec) (hs : s ∈ g.2) : SecAt g.1.vmaddr so size (s, l.offs.getD (secPos o s.id) 0) :=
      s1 _ (by rw [hz]; exact List.mem_map.2 ⟨s, hs, rfl⟩)
    have hv := hvm g (List.mem_of_getElem? h1)
    refine ⟨?_, ?_, ?_, ?_, ?_, ?_, ?_⟩
    · rw [h3]; exact y2.off
    · rw [h3]; exact y2.size
    · rw [h3, h4, List.map_map]
      unfold segHdr
      simp only
      rw [y2.vmsize, hv]
      exact y2.addrs
    · rw [h3, h4]
      intro h hh hnz hsz
      obtain ⟨s, hs, rfl⟩ := List.mem_map.1 hh
      obtain ⟨d, d1, d2, d3⟩ := x.sec_hdr (mem_secs x h1 hs) hnz
      obtain ⟨a1, a2⟩ := (hat s hs).data d d1
      simp only at a1 a2
      have := s3 (by omega)
      rw [d3, d2, a1]
      show so + (s.addr - g.1.vmaddr) = y.1.off + (s.addr - g.1.vmaddr) ∧ so + (s.addr - g.1.vmaddr) + d.length ≤ y.1.off + y.1.size
      omega
    · rw [h4]
      intro h hh hnz
      obtain ⟨s, hs, rfl⟩ := List.mem_map.1 hh
      obtain ⟨n, hn⟩ := (x.zerofill (mem_secs x h1 hs)).2 hnz
      have := (hat s hs).uninit n hn
      rw [secHdr]
      simp only at this ⊢
      rw [this]; rfl
    · rw [h3, h4]
      intro hpos
      obtain ⟨s, m, d, e1, e2⟩ := y2.tight hpos
      refine ⟨_, List.mem_map.2 ⟨s, m, rfl⟩, fun hz => ?_, ?_⟩
      · obtain ⟨n, hn⟩ := (x.zerofill (mem_secs x h1 m)).2 hz
        rw [e1] at hn; cases hn
      · rw [secHdr, e1]
        exact e2
    · rw [h4]
      intro h hh
      obtain ⟨s, hs, rfl⟩ := List.mem_map.1 hh
      rw [secHdr, hnorel g (List.mem_of_getElem? h1) s hs]; rfl
  · refine hpair (fun s t => ¬ HasName s.segname (ascii "__LINKEDIT") → s.vmaddr + s.vmsize ≤ t.vmaddr) ?_
    intro i j g g' rg rg' hij h1 h2 h3 h4 hn
    obtain ⟨y, y1, y2, -, y3⟩ := hrange i g rg h1 h3
    have hrg := y3 hn
    subst hrg
    have := List.pairwise_iff_getElem.1 q5 i j (List.getElem?_eq_some_iff.1 h1).1 (List.getElem?_eq_some_iff.1 h2).1 hij
    rw [(List.getElem?_eq_some_iff.1 h1).2, (List.getElem?_eq_some_iff.1 h2).2] at this
    unfold segHdr
    simp only
    rw [y2.vmsize, hvm g (List.mem_of_getElem? h1)]
    exact this
  · refine hpair (fun s t => ¬ HasName s.segname (ascii "__LINKEDIT") → ¬ HasName t.segname (ascii "__LINKEDIT") → 0 < s.filesize → 0 < t.filesize →
      s.fileoff + s.filesize ≤ t.fileoff) ?_
    intro i j g g' rg rg' hij h1 h2 h3 h4 hn hn' hs hs'
    obtain ⟨y, y1, y2, -, y3⟩ := hrange i g rg h1 h3
    obtain ⟨z, z1, z2, -, z3⟩ := hrange j g' rg' h2 h4
    have e1 := y3 hn
    have e2 := z3 hn'
    subst e1 e2
    rw [q1, List.pairwise_map] at q7
    have := List.pairwise_iff_getElem.1 q7 i j (List.getElem?_eq_some_iff.1 y1).1 (List.getElem?_eq_some_iff.1 z1).1 hij
    rw [(List.getElem?_eq_some_iff.1 y1).2, (List.getElem?_eq_some_iff.1 z1).2] at this
    exact this hs hs'
  · intro k hk hks hn
    obtain ⟨i, g, rg, h1, h2, h3, h4⟩ := x.hdr_at hcmd hk hks
    have hname : (segmentIn b.cfg k).segname = g.1.segname := by rw [h3]; rfl
    have hn : ¬ HasName g.1.segname (ascii "__LINKEDIT") := by rw [← hname]; exact hn
    obtain ⟨y, y1, y2, -, y3⟩ := hrange i g rg h1 h2
    have hrg := y3 hn
    subst hrg
    rw [h3]
    exact hstop i g y h1 y1
  · intro k hk hks hn
    obtain ⟨i, g, rg, h1, h2, h3, h4⟩ := x.hdr_at hcmd hk hks
    have hname : (segmentIn b.cfg k).segname = g.1.segname := by rw [h3]; rfl
    have hn : HasName g.1.segname (ascii "__LINKEDIT") := by rw [← hname]; exact hn
    obtain ⟨y, y1, y2, y3, -⟩ := hrange i g rg h1 h2
    have hrg := y3 hn
    subst hrg
    rw [h3, x.em.len]
    have := ht.len
    refine ⟨rfl, by show r.2.2 + (l.len - r.2.2) = l.len; omega, ?_⟩
    show vm % 256 ^ b.cfg.w = _
    rw [hru]
    rfl

/-- Object files. -/
theorem Written.object (x : Written b o l out) (hl : layout b.cfg b o = .ok l) (he : emit b.cfg b o l = .ok out) (hf : b.filetype = 1)
    (hc : CommandsAll b.cfg (headerIn b.endian out) out ks) : ∃ start, ObjectLaid b.cfg out ks start := by
  obtain ⟨p, vm, l1, l2, l3, l4, l5, ht⟩ := layout_at hl
  unfold placeAll at l1
  rw [if_pos hf] at l1
  split at l1
  · next g hg =>
    split at l1
    · cases l1
    next hname =>
    have hname : g.1.segname = List.replicate 16 0 ∧ g.1.vmaddr = 0 := by
      refine ⟨Classical.byContradiction fun e => hname (.inl e), Classical.byContradiction fun e => hname (.inr e)⟩
    simp only [Res.bind_eq_ok] at l1
    obtain ⟨q, h1, q2, h2, bss, -, r, h4, h5⟩ := l1
    cases h5
    simp only at l3 l4 l5 ht
    have hr4 := placeRelocs_at h4
    have hr5 := (placeRelocs_ok h4).2
    obtain ⟨hfile, hcmd⟩ := x.file_laid hl he hc ht fun y hy hn => (hr4 y (by rw [← l4]; exact hy) hn).2
    have hbs := (x.seg_at (i := 0) (g := g) (by rw [hg]; rfl)).2.1
    have hnl : isLinkeditSeg g.1 = false := by
      rw [← Bool.not_eq_true, isLinkedit_iff, hname.1]
      intro e
      have := (MachoF.hasName_iff ..).1 e
      revert this
      decide
    have hrange : l.ranges[0]? = some ⟨q2.1, q.2, bss⟩ := by
      have := setLinkedit_at l5 0
      rw [if_neg] at this
      · exact this
      · rintro ⟨-, g', e1, e2⟩
        rw [hbs] at e1
        cases e1
        rw [hnl] at e2
        cases e2
    have hoff : q2.1 = hdrSize b.cfg + l.sizeofcmds ∧ q2.2 = q2.1 + q.2 := by
      refine ⟨?_, (reserve_ok h2).2⟩
      unfold reserve MachoW.reserve at h2
      have h2 : (align64 (hdrSize b.cfg + l.sizeofcmds) 1).bind (fun o => (Reserve.addU64 o q.2).bind fun n => Res.ok (o, n)) = .ok q2 := h2
      simp only [Res.bind_eq_ok] at h2
      obtain ⟨o', e1, n, e2, e3⟩ := h2
      cases e3
      have := (Build.align64_ok (k := 0) (by decide) rfl e1).1
      rw [this]
      unfold roundUp
      omega
    have hsz : l.sizeofcmds = ks.flatten.length := by
      obtain ⟨sizes, s1, s2⟩ := x.laid.sizes
      rw [s2]
      exact sizes_sum s1 (BuildR.each_imp hcmd fun _ _ _ e => e.2.2.2.1)
    -- the only segment
    have hh := x.hdrs hcmd
    have hz : o.segs.zip l.ranges = [(g, ⟨q2.1, q.2, bss⟩)] := by
      have hl1 := x.laid.ranges.1
      rw [hg] at hl1 ⊢
      match hm : l.ranges, hl1 with
      | [z], _ =>
        rw [hm] at hrange
        cases hrange
        rfl
    rw [hz] at hh
    obtain ⟨k, hk⟩ : ∃ k, ks.filter (isSegment b.endian) = [k] := by
      have hlen := congrArg List.length hh
      simp only [List.length_map, List.length_singleton] at hlen
      match hm : ks.filter (isSegment b.endian), hlen with
      | [k], _ => exact ⟨k, rfl⟩
    rw [hk] at hh
    simp only [List.map_cons, List.map_nil, List.cons.injEq, Prod.mk.injEq, and_true] at hh
    obtain ⟨k1, k2⟩ := hh
    have hsecs : o.secs = g.2 := by rw [x.ord.secs, hg]; simp
    obtain ⟨d1, d2, d3⟩ := placeData_at h1
    rw [← l3, x.zip_at x.laid.offs] at d2 d3
    rw [← l3] at d1
    rw [← l4, x.zip_at x.laid.rels] at hr4
    have hhs : headerSize b.cfg.is64 = hdrSize b.cfg := rfl
    refine ⟨_, hfile, k, hk, by rw [k1]; exact hname.2, ?_, by rw [k1, hhs, ← hsz]; exact hoff.1, ?_, ?_, ?_, ?_, ?_⟩
    · have : (segmentIn b.cfg k).segname = g.1.segname := by rw [k1]; rfl
      exact this.trans hname.1
    · rw [k1, k2]
      intro h hh hnz
      obtain ⟨s, hs, rfl⟩ := List.mem_map.1 hh
      have hs' : s ∈ o.secs := hsecs ▸ hs
      obtain ⟨d, e1, e2, e3⟩ := x.sec_hdr hs' hnz
      obtain ⟨a1, a2⟩ := d3 _ (List.mem_map.2 ⟨s, hs', rfl⟩) d e1
      refine ⟨a1, ?_⟩
      rw [e3]
      show (l.offs.getD (secPos o s.id) 0 - q2.1) % 2 ^ s.align = 0
      rw [hoff.1]
      exact a2
    · rw [x.dataParts hcmd, k1]
      show InOrder q2.1 _ (q2.1 + q.2)
      rw [hoff.1]
      exact d1
    · rw [k2]
      intro h hh hnz
      obtain ⟨s, hs, rfl⟩ := List.mem_map.1 hh
      have hs' : s ∈ o.secs := hsecs ▸ hs
      obtain ⟨n, hn⟩ := (x.zerofill hs').2 hnz
      have := d2 _ (List.mem_map.2 ⟨s, hs', rfl⟩) n hn
      rw [secHdr]
      simp only at this ⊢
      rw [this]; rfl
    · rw [k1, k2]
      intro h hh hnz
      obtain ⟨s, hs, rfl⟩ := List.mem_map.1 hh
      have hs' : s ∈ o.secs := hsecs ▸ hs
      have hne : s.relocs ≠ [] := fun e => hnz (by rw [secHdr, e]; rfl)
      have := (hr4 _ (List.mem_map.2 ⟨s, hs', rfl⟩) hne).1
      have hlt := x.rel_lt hs' hne
      show q2.1 + q.2 ≤ (secHdr o l s).reloff
      rw [← hoff.2, secHdr]
      simp only
      rw [Nat.mod_eq_of_lt hlt]
      exact this
    · rw [k1]
      show q2.1 + q.2 ≤ r.2
      rw [← hoff.2]
      exact hr5
  · cases l1

end

end Obj.MachoB

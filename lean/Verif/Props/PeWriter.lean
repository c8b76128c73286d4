import Verif.Proof.PeW8
import Verif.Props.Pe
import Verif.Props.PeReloc
import Verif.Props.Reserve

/-! # C85: images written with `write::pe::Writer` -/

namespace Obj.Props
open Obj Obj.Pe Obj.PeW Obj.Reserve Obj.Spec Obj.Spec.Pe Obj.Spec.PeFile Obj.Spec.PeW

private theorem main {p : Prog} {rs : List SectionRange} {w : State} (hv : Valid p) (h : reserveAll p = .ok (rs, w)) (h32 : w.lay.len < 2 ^ 32) :
    ∃ rb R out f, Final p rb R rs w ∧ Obj.PeW.Bytes p w (p.sections.map (Obj.Spec.PeW.entry rb)) rs out ∧ writeAll p rs w = .ok out ∧
      PeFile.parse p.is64 out = .ok f ∧ Written p (p.sections.map (Obj.Spec.PeW.entry rb)) out f ∧ (.reloc ∈ p.sections → RelocBytes rb p.relocs) := by
  have hu : w.lay.len < U32 := by simpa using h32
  by_cases hm : Sec.reloc ∈ p.sections
  · obtain ⟨h1, h2, h3⟩ := hv.relocs hm
    obtain ⟨R0, R, size, rb, bs, k1, k2, k3, k4, -, k5, k6, rss, k7, k8, k9⟩ := C28_round_trip p.relocs h1 h2 h3
    have hF := reserveAll_ok (R := R) (rb := rb) hv h hu k1 (fun _ => by rw [k2, k4])
    obtain ⟨out, e1, e2⟩ := writeAll_ok hv hF hu (fun _ => k3)
    obtain ⟨f, e3, e4⟩ := written hv hF hu e2
    exact ⟨rb, R, out, f, hF, e2, e1, e3, e4, fun _ => ⟨bs, rss, k5, k7, k8, k9⟩⟩
  · have hR0 : ∃ R0, RelocWriter.new.addAll p.relocs = .ok R0 := by
      have h' := h
      unfold reserveAll at h'
      simp only [Res.bind_eq, Res.bind_eq_ok] at h'
      obtain ⟨w1, e1, w2, e2, w3, e3, w4, e4, w5, e5, w6, e6, -⟩ := h'
      unfold State.addRelocs at e6
      simp only [Res.bind_eq, Res.bind_eq_ok] at e6
      obtain ⟨R0, e6, -⟩ := e6
      have keep : w5.relocs = RelocWriter.new := by
        obtain ⟨-, rfl⟩ := reserveDos_ok e1
        replace e2 := reserveExtra_ok hv.extra e2
        subst e2
        have hn : p.dirNum < U32 := by
          have := hv.dirNum
          unfold optLen at this
          simp only [Nat.reducePow] at this
          omega
        obtain ⟨-, rfl⟩ := reserveNt_ok hn e3
        replace e4 := setDirs_ok e4
        subst e4
        obtain ⟨rfl, -⟩ := reserveHeaders_ok hv.sectionAlign hv.fileAlign e5
        rfl
      rw [keep] at e6
      exact ⟨R0, e6⟩
    obtain ⟨R0, hR0⟩ := hR0
    have hF := reserveAll_ok (R := R0) (rb := []) hv h hu hR0 (fun h => absurd h hm)
    obtain ⟨out, e1, e2⟩ := writeAll_ok hv hF hu (fun h => absurd h hm)
    obtain ⟨f, e3, e4⟩ := written hv hF hu e2
    exact ⟨[], R0, out, f, hF, e2, e1, e3, e4, fun h => absurd h hm⟩

/-- C85: if a client reserves an image as documented, and its size is below 4 GiB, then writing it does not panic, writes no more
than was reserved, and the file is read back as the image that the client asked for: the headers, the data directories, the sections
at the ranges that were returned, with their data; and the base relocations added. -/
theorem C85_round_trip (p : Prog) (rs : List SectionRange) (w : State) (hv : Valid p) (h : reserveAll p = .ok (rs, w))
    (h32 : w.lay.len < 2 ^ 32) :
    ∃ out f rb, writeAll p rs w = .ok out ∧ out.length ≤ w.lay.len ∧ PeFile.parse p.is64 out = .ok f ∧
      Written p (p.sections.map (Obj.Spec.PeW.entry rb)) out f ∧
      rs = place p.sectionAlign p.fileAlign (roundUp (headers p) p.sectionAlign) (headers p) (p.sections.map (Obj.Spec.PeW.entry rb)) ∧
      (.reloc ∈ p.sections → RelocBytes rb p.relocs) := by
  obtain ⟨rb, R, out, f, h1, h2, h3, h4, h5, h6⟩ := main hv h h32
  exact ⟨out, f, rb, h3, h2.le, h4, h5, h1.ranges, h6⟩

private theorem place_pairwise {sa fa : Nat} (hs : Pow2 sa) (hf : Pow2 fa) : ∀ (es : List Entry) (v l : Nat), v % sa = 0 →
    LaidOut v (endVirtual sa v es) ((place sa fa v l es).map fun r => ⟨r.virtualAddress, r.virtualSize, sa⟩) ∧
    LaidOut l (endFile fa l es) (((place sa fa v l es).filter fun r => r.fileSize ≠ 0).map fun r => ⟨r.fileOffset, r.fileSize, fa⟩)
  | [], v, l, _ => ⟨⟨by simp [place], by simp [place], by simp [place]⟩, ⟨by simp [place], by simp [place], by simp [place]⟩⟩
  | e :: es, v, l, h0 => by
    have h1 := le_ru (v + e.virtualSize) hs
    have h2 := le_ru l hf
    have h3 := le_ru e.dataSize hf
    obtain ⟨i1, i2⟩ := place_pairwise hs hf es (roundUp (v + e.virtualSize) sa)
      (if e.dataSize = 0 then l else roundUp l fa + roundUp e.dataSize fa) (ru_mod _ hs)
    have hm : roundUp (v + e.virtualSize) sa ≤ endVirtual sa (roundUp (v + e.virtualSize) sa) es := by
      generalize roundUp (v + e.virtualSize) sa = n
      clear i1 i2
      revert n
      induction es with
      | nil => exact fun n => Nat.le_refl _
      | cons y ys ih =>
        intro n
        have := ih (roundUp (n + y.virtualSize) sa)
        have := le_ru (n + y.virtualSize) hs
        show n ≤ endVirtual sa _ ys
        omega
    have hfe := endFile_le hf es (if e.dataSize = 0 then l else roundUp l fa + roundUp e.dataSize fa)
    constructor
    · simp only [place, List.map_cons, endVirtual]
      constructor
      · intro r hr
        rw [List.mem_cons] at hr
        rcases hr with rfl | hr
        · exact ⟨Nat.le_refl _, by dsimp only; omega⟩
        · have := i1.inside r hr
          omega
      · intro r hr
        rw [List.mem_cons] at hr
        rcases hr with rfl | hr
        · exact fun _ => h0
        · exact i1.aligned r hr
      · refine List.pairwise_cons.2 ⟨fun r hr => ?_, i1.ordered⟩
        have := i1.inside r hr
        dsimp only
        omega
    · simp only [place, endFile]
      rw [List.filter_cons]
      by_cases hd : e.dataSize = 0
      · simp only [hd, if_true, roundUp_zero hf.pos] at i2 hfe ⊢
        rw [if_neg (by simp)]
        exact i2
      · have hne : roundUp e.dataSize fa ≠ 0 := by omega
        rw [if_neg hd] at i2 hfe
        simp only [if_neg hd]
        rw [if_pos (by simp [hne]), List.map_cons]
        constructor
        · intro r hr
          rw [List.mem_cons] at hr
          rcases hr with rfl | hr
          · exact ⟨h2, hfe⟩
          · have := i2.inside r hr
            omega
        · intro r hr
          rw [List.mem_cons] at hr
          rcases hr with rfl | hr
          · exact fun _ => ru_mod _ hf
          · exact i2.aligned r hr
        · refine List.pairwise_cons.2 ⟨fun r hr => ?_, i2.ordered⟩
          have := i2.inside r hr
          dsimp only
          omega

/-- C85: the ranges returned to the client do not overlap, in memory (after the headers, below the size of the image) and in the file
(after the headers), and they are aligned. -/
theorem C85_layout (p : Prog) (rs : List SectionRange) (w : State) (out : List UInt8) (f : PeFile) (hv : Valid p)
    (h : reserveAll p = .ok (rs, w)) (h32 : w.lay.len < 2 ^ 32) (hw : writeAll p rs w = .ok out) (hp : PeFile.parse p.is64 out = .ok f) :
    LaidOut f.opt.sizeOfHeaders f.opt.sizeOfImage (rs.map fun r => ⟨r.virtualAddress, r.virtualSize, p.sectionAlign⟩) ∧
    LaidOut f.opt.sizeOfHeaders w.lay.len ((rs.filter fun r => r.fileSize ≠ 0).map fun r => ⟨r.fileOffset, r.fileSize, p.fileAlign⟩) ∧
    rs.length = p.sections.length := by
  obtain ⟨rb, R, out', f', h1, h2, h3, h4, h5, h6⟩ := main hv h h32
  rw [hw] at h3
  cases h3
  rw [hp] at h4
  cases h4
  rw [h5.opt]
  dsimp only
  obtain ⟨a1, a2⟩ := place_pairwise hv.sectionAlign hv.fileAlign (p.sections.map (Obj.Spec.PeW.entry rb))
    (roundUp (headers p) p.sectionAlign) (headers p) (ru_mod _ hv.sectionAlign)
  rw [← h1.ranges] at a1 a2
  have h8 := le_ru (headers p) hv.sectionAlign
  have h9 := le_certEnd (fileEnd p (p.sections.map (Obj.Spec.PeW.entry rb))) p.cert
  have h10 := h1.len
  refine ⟨⟨fun r hr => ?_, a1.aligned, a1.ordered⟩, ⟨fun r hr => ?_, a2.aligned, a2.ordered⟩, h1.lengths⟩
  · have := a1.inside r hr
    omega
  · have := a2.inside r hr
    unfold fileEnd at h9 h10
    omega

/-- Reading at an address of a section. -/
private theorem maps_of {p : Prog} {rb : List UInt8} {R : RelocWriter} {rs : List SectionRange} {w : State} {out : List UInt8} {f : PeFile} (hv : Valid p)
    (h1 : Final p rb R rs w) (h32 : w.lay.len < U32) (h2 : Obj.PeW.Bytes p w (p.sections.map (Obj.Spec.PeW.entry rb)) rs out)
    (h5 : Written p (p.sections.map (Obj.Spec.PeW.entry rb)) out f) (k : Nat) (r : SectionRange) (s : Sec) (hr : rs[k]? = some r)
    (hs : p.sections[k]? = some s) (off : Nat) (ho : off < min (Obj.Spec.PeW.entry rb s).virtualSize r.fileSize) :
    ∃ S, First (fun S => ∃ o n, Maps S (r.virtualAddress + off) o n ∧ o + n ≤ out.length) f.sections S ∧
      Maps S (r.virtualAddress + off) (r.fileOffset + off) (min (Obj.Spec.PeW.entry rb s).virtualSize r.fileSize - off) ∧
      r.fileOffset + off + (min (Obj.Spec.PeW.entry rb s).virtualSize r.fileSize - off) ≤ out.length ∧
      slice out (r.fileOffset + off) (min (Obj.Spec.PeW.entry rb s).virtualSize r.fileSize - off) =
        ((Obj.Spec.PeW.content p.fileAlign (Obj.Spec.PeW.entry rb s)).take (Obj.Spec.PeW.entry rb s).virtualSize).drop off := by
  have hsec : f.sections = (rs.zip (p.sections.map (Obj.Spec.PeW.entry rb))).map sectionOf := by rw [h5.sections, ← h1.ranges]
  have he : (p.sections.map (Obj.Spec.PeW.entry rb))[k]? = some (Obj.Spec.PeW.entry rb s) := by rw [List.getElem?_map, hs]; rfl
  generalize hE : Obj.Spec.PeW.entry rb s = e at *
  have hz : (rs.zip (p.sections.map (Obj.Spec.PeW.entry rb)))[k]? = some (r, e) := List.getElem?_zip_eq_some.2 ⟨hr, he⟩
  have hm : (r, e) ∈ rs.zip (p.sections.map (Obj.Spec.PeW.entry rb)) := List.mem_of_getElem? hz
  have hS := secs_ok hv h1 h32
  obtain ⟨s1, s2, s3, s4, s5, s6, s7⟩ := hS _ hm
  dsimp only at s1 s2 s3 s4 s5 s6 s7
  have h0 : e.dataSize ≠ 0 := by
    intro h0
    rw [h0, roundUp_zero hv.fileAlign.pos] at s6
    omega
  obtain ⟨b1, b2⟩ := h2.secs r e hm h0
  have hfit := (entry_ok hv rb s (List.mem_of_getElem? hs)).2.2
  rw [hE] at hfit
  have hcl := length_content hv.fileAlign hfit
  have hle := h2.le
  have hlt : k < (rs.zip (p.sections.map (Obj.Spec.PeW.entry rb))).length := (List.getElem?_eq_some_iff.1 hz).1
  have hsplit : rs.zip (p.sections.map (Obj.Spec.PeW.entry rb)) =
      (rs.zip (p.sections.map (Obj.Spec.PeW.entry rb))).take k ++ (r, e) :: (rs.zip (p.sections.map (Obj.Spec.PeW.entry rb))).drop (k + 1) := by
    have hg : (rs.zip (p.sections.map (Obj.Spec.PeW.entry rb)))[k] = (r, e) := by
      rw [List.getElem?_eq_getElem hlt] at hz; exact Option.some.inj hz
    rw [← hg, ← List.drop_eq_getElem_cons hlt, List.take_append_drop]
  have hM : Maps (sectionOf (r, e)) (r.virtualAddress + off) (r.fileOffset + off) (min e.virtualSize r.fileSize - off) := by
    refine ⟨?_, ?_, ?_, ?_, ?_⟩
    · show r.virtualAddress ≤ _; omega
    · show _ = r.virtualAddress + min e.virtualSize r.fileSize
      omega
    · omega
    · show _ = r.fileOffset + (r.virtualAddress + off - r.virtualAddress)
      omega
    · simp only [Nat.reducePow]; omega
  have hin : r.fileOffset + off + (min e.virtualSize r.fileSize - off) ≤ out.length := by omega
  refine ⟨sectionOf (r, e), ⟨((rs.zip (p.sections.map (Obj.Spec.PeW.entry rb))).take k).map sectionOf,
    ((rs.zip (p.sections.map (Obj.Spec.PeW.entry rb))).drop (k + 1)).map sectionOf, ?_, ⟨_, _, hM, hin⟩, ?_⟩, hM, hin, ?_⟩
  · rw [hsec]
    conv => lhs; rw [hsplit]
    rw [List.map_append, List.map_cons]
  · intro t ht
    rw [List.mem_map] at ht
    obtain ⟨⟨r', e'⟩, ht, rfl⟩ := ht
    rintro ⟨o, n, hM', -⟩
    -- the earlier section ends before
    have hpw := (place_pairwise hv.sectionAlign hv.fileAlign (p.sections.map (Obj.Spec.PeW.entry rb))
      (roundUp (headers p) p.sectionAlign) (headers p) (ru_mod _ hv.sectionAlign)).1.ordered
    rw [← h1.ranges] at hpw
    rw [List.pairwise_map] at hpw
    have hz2 : (rs.zip (p.sections.map (Obj.Spec.PeW.entry rb))).map Prod.fst = rs := by
      rw [List.map_fst_zip]
      rw [h1.lengths, List.length_map]; exact Nat.le_refl _
    rw [← hz2, hsplit, List.map_append, List.map_cons, List.pairwise_append] at hpw
    have := hpw.2.2 r' (List.mem_map.2 ⟨(r', e'), ht, rfl⟩) r (by simp)
    dsimp only at this
    have hv' := (hS (r', e') (List.mem_of_mem_take ht)).2.2.2.2.1
    dsimp only at hv'
    obtain ⟨m1, m2, m3, -⟩ := hM'
    have m2' : r.virtualAddress + off + n = r'.virtualAddress + min e'.virtualSize r'.fileSize := m2
    omega
  · have hc : slice out r.fileOffset (roundUp e.dataSize p.fileAlign) = Obj.Spec.PeW.content p.fileAlign e := by
      have := b1; unfold At at this; rwa [hcl] at this
    rw [← hc, s6]
    unfold slice
    rw [List.take_take, List.drop_take, List.drop_drop]

/-- C85: at each address of a section, the reader finds the data that was written to it. -/
theorem C85_addresses (p : Prog) (rs : List SectionRange) (w : State) (out : List UInt8) (f : PeFile) (hv : Valid p)
    (h : reserveAll p = .ok (rs, w)) (h32 : w.lay.len < 2 ^ 32) (hw : writeAll p rs w = .ok out) (hp : PeFile.parse p.is64 out = .ok f) :
    ∃ rb, (.reloc ∈ p.sections → RelocBytes rb p.relocs) ∧ ∀ (k : Nat) r s, rs[k]? = some r → p.sections[k]? = some s →
      ∀ off, off < min (Obj.Spec.PeW.entry rb s).virtualSize r.fileSize →
        dataAt f.sections out (r.virtualAddress + off) =
          some (((Obj.Spec.PeW.content p.fileAlign (Obj.Spec.PeW.entry rb s)).take (Obj.Spec.PeW.entry rb s).virtualSize).drop off) := by
  obtain ⟨rb, R, out', f', h1, h2, h3, h4, h5, h6⟩ := main hv h h32
  rw [hw] at h3
  cases h3
  rw [hp] at h4
  cases h4
  refine ⟨rb, h6, fun k r s hr hs off ho => ?_⟩
  obtain ⟨S, g1, g2, g3, g4⟩ := maps_of hv h1 (by simpa using h32) h2 h5 k r s hr hs off ho
  exact ((C30_data_at f.sections out (r.virtualAddress + off)).1 _).2 ⟨S, _, _, g1, g2, g3, g4.symm⟩

private theorem setAll_get : ∀ (sets : List (Nat × DataDir)) (ds : List DataDir) (i : Nat), (∀ x ∈ sets, x.1 ≠ i) → (setAll ds sets)[i]? = ds[i]?
  | [], _, _, _ => rfl
  | x :: sets, ds, i, h => by
    show (setAll (ds.set x.1 x.2) sets)[i]? = _
    rw [setAll_get sets _ i (fun y hy => h y (by simp [hy])), List.getElem?_set_ne (h x (by simp))]

/-- The directory of a section. -/
private theorem dir_of {p : Prog} {rb : List UInt8} {R : RelocWriter} {rs : List SectionRange} {w : State} {out : List UInt8} {f : PeFile}
    (h1 : Final p rb R rs w) (h5 : Written p (p.sections.map (Obj.Spec.PeW.entry rb)) out f) (k : Nat) (r : SectionRange) (s : Sec) (hr : rs[k]? = some r)
    (hs : p.sections[k]? = some s) (i : Nat) (hi : (Obj.Spec.PeW.entry rb s).dir = some i) (ha : ∀ x ∈ p.dirsAfter, x.1 ≠ i) :
    f.dirs[i]? = some ⟨r.virtualAddress, (Obj.Spec.PeW.entry rb s).virtualSize⟩ := by
  have he : (p.sections.map (Obj.Spec.PeW.entry rb))[k]? = some (Obj.Spec.PeW.entry rb s) := by rw [List.getElem?_map, hs]; rfl
  have h4 : i ≠ 4 := by
    intro h
    subst h
    cases s <;> simp [Obj.Spec.PeW.entry] at hi
  generalize hE : Obj.Spec.PeW.entry rb s = e at *
  have hz : (rs.zip (p.sections.map (Obj.Spec.PeW.entry rb)))[k]? = some (r, e) := List.getElem?_zip_eq_some.2 ⟨hr, he⟩
  have hlt : k < (rs.zip (p.sections.map (Obj.Spec.PeW.entry rb))).length := (List.getElem?_eq_some_iff.1 hz).1
  have hsplit : rs.zip (p.sections.map (Obj.Spec.PeW.entry rb)) =
      (rs.zip (p.sections.map (Obj.Spec.PeW.entry rb))).take k ++ (r, e) :: (rs.zip (p.sections.map (Obj.Spec.PeW.entry rb))).drop (k + 1) := by
    have hg : (rs.zip (p.sections.map (Obj.Spec.PeW.entry rb)))[k] = (r, e) := by
      rw [List.getElem?_eq_getElem hlt] at hz; exact Option.some.inj hz
    rw [← hg, ← List.drop_eq_getElem_cons hlt, List.take_append_drop]
  have hlater : ∀ x ∈ sectionDirs ((rs.zip (p.sections.map (Obj.Spec.PeW.entry rb))).drop (k + 1)), x.1 ≠ i := by
    intro x hx
    unfold sectionDirs at hx
    rw [List.mem_filterMap] at hx
    obtain ⟨⟨r', e'⟩, hm, hx⟩ := hx
    rw [Option.map_eq_some_iff] at hx
    obtain ⟨j, hj, rfl⟩ := hx
    dsimp only at hj ⊢
    have hz2 : (rs.zip (p.sections.map (Obj.Spec.PeW.entry rb))).map Prod.snd = p.sections.map (Obj.Spec.PeW.entry rb) := by
      rw [List.map_snd_zip]
      rw [h1.lengths, List.length_map]; exact Nat.le_refl _
    have ho := h1.once
    rw [← hz2, hsplit, List.map_append, List.map_cons, List.pairwise_append] at ho
    have := (List.pairwise_cons.1 ho.2.1).1 e' (List.mem_map.2 ⟨_, hm, rfl⟩) i hi
    intro hji
    subst hji
    exact this hj
  have hidx := h1.dirIndex e (List.mem_of_getElem? he) i hi
  rw [h5.dirs, ← h1.ranges, certDir_eq, setAll_append, setAll_append, setAll_get _ _ _ (by
    intro x hx
    rcases hc : p.cert with _ | _ | _ <;> rw [hc] at hx <;> simp [certSets] at hx
    · rw [hx]; exact fun h => h4 h.symm
    · rw [hx]; exact fun h => h4 h.symm), setAll_get _ _ _ ha, setAll_append, hsplit]
  unfold sectionDirs at hlater ⊢
  rw [List.filterMap_append, List.filterMap_cons]
  simp only [hi, Option.map_some]
  rw [setAll_append]
  show (setAll (List.set _ i _) _)[i]? = _
  rw [setAll_get _ _ _ hlater, List.getElem?_set_self]
  rw [length_setAll, length_setAll, List.length_replicate]
  exact hidx

/-- C85: the data directory of an import, export, exception, resource or base relocation section is found by the reader, unless the
client changes it afterwards, and its data is the data of the section. -/
theorem C85_directories (p : Prog) (rs : List SectionRange) (w : State) (out : List UInt8) (f : PeFile) (hv : Valid p)
    (h : reserveAll p = .ok (rs, w)) (h32 : w.lay.len < 2 ^ 32) (hw : writeAll p rs w = .ok out) (hp : PeFile.parse p.is64 out = .ok f)
    (i : Nat) (ha : ∀ x ∈ p.dirsAfter, x.1 ≠ i) (k : Nat) (d : List UInt8) (hd : d ≠ [])
    (hs : p.sections[k]? = some (.edata d) ∧ i = 0 ∨ p.sections[k]? = some (.idata d) ∧ i = 1 ∨ p.sections[k]? = some (.rsrc d) ∧ i = 2 ∨
      p.sections[k]? = some (.pdata d) ∧ i = 3) :
    ∃ r, rs[k]? = some r ∧ getDir f.dirs i = some ⟨r.virtualAddress, d.length⟩ ∧ DataDir.data ⟨r.virtualAddress, d.length⟩ out f.sections = .ok d := by
  obtain ⟨rb, R, out', f', h1, h2, h3, h4, h5, h6⟩ := main hv h h32
  rw [hw] at h3
  cases h3
  rw [hp] at h4
  cases h4
  have hs' : ∃ s, p.sections[k]? = some s ∧ (Obj.Spec.PeW.entry rb s).dir = some i ∧ (Obj.Spec.PeW.entry rb s).data = d ∧
      (Obj.Spec.PeW.entry rb s).virtualSize = d.length ∧ (Obj.Spec.PeW.entry rb s).dataSize = d.length := by
    rcases hs with ⟨hs, rfl⟩ | ⟨hs, rfl⟩ | ⟨hs, rfl⟩ | ⟨hs, rfl⟩ <;> exact ⟨_, hs, rfl, rfl, rfl, rfl⟩
  obtain ⟨s, hs, d1, d2, d3, d4⟩ := hs'
  have hk : k < rs.length := by rw [h1.lengths]; exact (List.getElem?_eq_some_iff.1 hs).1
  have hr : rs[k]? = some rs[k] := List.getElem?_eq_getElem hk
  generalize rs[k] = r at hr
  have hdir := dir_of h1 h5 k r s hr hs i d1 ha
  rw [d3] at hdir
  have he : (p.sections.map (Obj.Spec.PeW.entry rb))[k]? = some (Obj.Spec.PeW.entry rb s) := by rw [List.getElem?_map, hs]; rfl
  have hm : (r, Obj.Spec.PeW.entry rb s) ∈ rs.zip (p.sections.map (Obj.Spec.PeW.entry rb)) :=
    List.mem_of_getElem? (List.getElem?_zip_eq_some.2 ⟨hr, he⟩)
  obtain ⟨s1, s2, s3, s4, s5, s6, s7⟩ := secs_ok hv h1 (by simpa using h32) _ hm
  dsimp only at s5 s6
  rw [d4] at s6
  have hle := le_ru d.length hv.fileAlign
  have hpos : 0 < d.length := List.length_pos_iff.2 hd
  obtain ⟨S, g1, g2, g3, g4⟩ := maps_of hv h1 (by simpa using h32) h2 h5 k r s hr hs 0 (by rw [d3, s6]; omega)
  rw [d3] at g2 g3 g4
  have hmin : min d.length r.fileSize = d.length := by omega
  rw [hmin, Nat.sub_zero, Nat.add_zero] at g2 g3 g4
  rw [Nat.add_zero] at g1 g2
  have hva : r.virtualAddress ≠ 0 := by
    have hm' := hm
    rw [h1.ranges] at hm'
    have := (place_mem hv.sectionAlign hv.fileAlign _ _ _ _ _ hm').1
    have := le_ru (headers p) hv.sectionAlign
    have := (sizes_ok hv).headers
    have := (sizes_ok hv).nt
    have := (sizes_ok hv).dos
    omega
  refine ⟨r, hr, ?_, ?_⟩
  · exact ((C30_directories [] 0 (by decide)).2.2 f.dirs i _).2 ⟨hdir, hva⟩
  · refine ((C30_directory_data ⟨r.virtualAddress, d.length⟩ f.sections out).2.1 d).2 ⟨S, r.fileOffset, d.length, g1, g2, g3, Nat.le_refl _, ?_⟩
    rw [g4, List.drop_zero]
    unfold Obj.Spec.PeW.content
    rw [d2, List.take_left]

/-- C85: the base relocation directory is found by the reader, unless the client changes it afterwards, and its data is the base
relocations that were added. -/
theorem C85_relocations (p : Prog) (rs : List SectionRange) (w : State) (out : List UInt8) (f : PeFile) (hv : Valid p)
    (h : reserveAll p = .ok (rs, w)) (h32 : w.lay.len < 2 ^ 32) (hw : writeAll p rs w = .ok out) (hp : PeFile.parse p.is64 out = .ok f)
    (ha : ∀ x ∈ p.dirsAfter, x.1 ≠ 5) (hs : Sec.reloc ∈ p.sections) (hne : p.relocs ≠ []) :
    ∃ d b, getDir f.dirs 5 = some d ∧ d.data out f.sections = .ok b ∧ RelocBytes b p.relocs := by
  obtain ⟨rb, R, out', f', h1, h2, h3, h4, h5, h6⟩ := main hv h h32
  rw [hw] at h3
  cases h3
  rw [hp] at h4
  cases h4
  have hrb := h6 hs
  have hrb0 : rb ≠ [] := by
    rintro rfl
    obtain ⟨bs, rss, k1, k2, k3, k4⟩ := hrb
    have : bs = [] := by
      cases k1 with
      | done h => rfl
      | item h _ => unfold nextBlock at h; rw [fuseNext_nil] at h; simp at h
    subst this
    have : rss = [] := List.eq_nil_of_length_eq_zero (by simpa using k2)
    subst this
    exact hne (by simpa using k4.symm)
  obtain ⟨k, hk, hs⟩ := List.mem_iff_getElem.1 hs
  have hs : p.sections[k]? = some .reloc := by rw [List.getElem?_eq_getElem hk, hs]
  have hk : k < rs.length := by rw [h1.lengths]; exact hk
  have hr : rs[k]? = some rs[k] := List.getElem?_eq_getElem hk
  generalize rs[k] = r at hr
  have hdir := dir_of h1 h5 k r .reloc hr hs 5 rfl ha
  have he : (p.sections.map (Obj.Spec.PeW.entry rb))[k]? = some (Obj.Spec.PeW.entry rb .reloc) := by rw [List.getElem?_map, hs]; rfl
  have hm : (r, Obj.Spec.PeW.entry rb .reloc) ∈ rs.zip (p.sections.map (Obj.Spec.PeW.entry rb)) :=
    List.mem_of_getElem? (List.getElem?_zip_eq_some.2 ⟨hr, he⟩)
  obtain ⟨s1, s2, s3, s4, s5, s6, s7⟩ := secs_ok hv h1 (by simpa using h32) _ hm
  dsimp only [Obj.Spec.PeW.entry] at s5 s6 hdir
  have hle := le_ru rb.length hv.fileAlign
  have hpos : 0 < rb.length := List.length_pos_iff.2 hrb0
  obtain ⟨S, g1, g2, g3, g4⟩ := maps_of hv h1 (by simpa using h32) h2 h5 k r .reloc hr hs 0 (by
    show 0 < min rb.length r.fileSize
    rw [s6]; omega)
  dsimp only [Obj.Spec.PeW.entry] at g2 g3 g4
  have hmin : min rb.length r.fileSize = rb.length := by omega
  rw [hmin, Nat.sub_zero, Nat.add_zero] at g2 g3 g4
  rw [Nat.add_zero] at g1 g2
  have hva : r.virtualAddress ≠ 0 := by
    have hm' := hm
    rw [h1.ranges] at hm'
    have := (place_mem hv.sectionAlign hv.fileAlign _ _ _ _ _ hm').1
    have := le_ru (headers p) hv.sectionAlign
    have := (sizes_ok hv).headers
    have := (sizes_ok hv).nt
    have := (sizes_ok hv).dos
    omega
  refine ⟨_, rb, ((C30_directories [] 0 (by decide)).2.2 f.dirs 5 _).2 ⟨hdir, hva⟩, ?_, hrb⟩
  refine ((C30_directory_data ⟨r.virtualAddress, rb.length⟩ f.sections out).2.1 rb).2 ⟨S, r.fileOffset, rb.length, g1, g2, g3, Nat.le_refl _, ?_⟩
  rw [g4, List.drop_zero]
  unfold Obj.Spec.PeW.content
  rw [List.take_left]

/-- C85: reserving an image does not panic if there is room for it; then all of the above applies. -/
theorem C85_reserve (p : Prog) (hv : Valid p) (hr : Room p) : ∃ rs w, reserveAll p = .ok (rs, w) ∧ w.lay.len < 2 ^ 32 := by
  by_cases hm : Sec.reloc ∈ p.sections
  · obtain ⟨h1, h2, h3⟩ := hv.relocs hm
    obtain ⟨R0, R, size, rb, bs, k1, k2, k3, k4, k5, -⟩ := C28_round_trip p.relocs h1 h2 h3
    exact reserveAll_fine hv hr k1 (fun _ => k2) k5
  · have h0 : p.relocs = [] := hr.relocs.resolve_left hm
    exact reserveAll_fine (R0 := RelocWriter.new) (R1 := RelocWriter.new) (size := 0) hv hr (by rw [h0]; rfl) (fun h => absurd h hm) (Nat.zero_le _)

/-! A client that meets the hypotheses: code, data with a zero-filled end, uninitialized data, imports, base relocations in two
pages, further data before the NT headers and certificates. -/

private def sample : Prog :=
  { is64 := true, sectionAlign := 4096, fileAlign := 512, dos := .standard, extra := [(4, [1, 2, 3])], dirNum := 16,
    dirsBefore := [(15, ⟨7, 8⟩)],
    nt := ⟨0x8664, 5, 0x22, 14, 1, 0x1000, 0x140000000, 6, 0, 1, 2, 6, 0, 3, 0x8160, 0x100000, 0x1000, 0x100000, 0x1000⟩,
    relocs := [⟨0x2000, 10⟩, ⟨0x2008, 10⟩, ⟨0x2010, 10⟩, ⟨0x3004, 3⟩],
    sections := [.text [0x90, 0xc3], .data 5000 [1, 2, 3, 4], .bss 100, .idata (List.replicate 20 9), .reloc,
      .custom (name8 ".foo") 0x40000040 3 3 [7, 7, 7]],
    dirsAfter := [(6, ⟨0x2000, 28⟩)], cert := some [5, 6, 7, 8, 9] }

private theorem sample_valid : Valid sample where
  sectionAlign := ⟨12, by decide, by decide⟩
  fileAlign := ⟨9, by decide, by decide⟩
  dos := by intro head h; simp [sample] at h
  extra := by
    intro x hx
    simp only [sample, List.mem_singleton] at hx
    subst hx
    exact ⟨⟨2, by decide, by decide⟩, by decide⟩
  dirNum := by decide
  nt := by constructor <;> decide
  sections := by decide
  custom := by
    intro n c v s d h
    simp only [sample, List.mem_cons, List.not_mem_nil, or_false, Sec.custom.injEq, reduceCtorEq, false_or] at h
    obtain ⟨rfl, rfl, rfl, rfl, rfl⟩ := h
    decide +kernel
  dirsBefore := by decide
  dirsAfter := by decide
  oneReloc := by decide +kernel
  relocs := by intro _; decide +kernel

example : Room sample where
  size := by decide +kernel
  before := by decide
  after := by decide
  exist := by
    intro s hs i hi
    simp only [sample, List.mem_cons, List.not_mem_nil, or_false] at hs
    rcases hs with rfl | rfl | rfl | rfl | rfl | rfl <;> simp [Obj.Spec.PeW.entry] at hi <;> subst hi <;> decide
  once := by
    simp [sample, Obj.Spec.PeW.entry]
  cert := by intro _; decide
  relocs := .inl (by decide)

private def check (r : Res (List SectionRange × State)) (q : List SectionRange × State → Bool) : Bool :=
  match r with
  | .ok x => q x
  | _ => false

private theorem of_check {r : Res (List SectionRange × State)} {q : List SectionRange × State → Bool} (h : check r q = true) :
    ∃ rs w, r = .ok (rs, w) ∧ q (rs, w) = true := by
  cases r with
  | ok x => exact ⟨x.1, x.2, rfl, h⟩
  | err => exact absurd h (by simp [check])
  | panic => exact absurd h (by simp [check])

example : ∃ rs w, reserveAll sample = .ok (rs, w) ∧ w.lay.len < 2 ^ 32 ∧
    rs.map (fun r => (r.virtualAddress, r.virtualSize, r.fileOffset, r.fileSize)) =
      [(0x1000, 2, 0x400, 0x200), (0x2000, 5000, 0x600, 0x200), (0x4000, 100, 0, 0), (0x5000, 20, 0x800, 0x200), (0x6000, 28, 0xa00, 0x200),
        (0x7000, 3, 0xc00, 0x200)] := by
  obtain ⟨rs, w, h1, h2⟩ := of_check (r := reserveAll sample) (q := fun x => decide (x.2.lay.len < 2 ^ 32 ∧
    x.1.map (fun r => (r.virtualAddress, r.virtualSize, r.fileOffset, r.fileSize)) =
      [(0x1000, 2, 0x400, 0x200), (0x2000, 5000, 0x600, 0x200), (0x4000, 100, 0, 0), (0x5000, 20, 0x800, 0x200), (0x6000, 28, 0xa00, 0x200),
        (0x7000, 3, 0xc00, 0x200)])) (by decide +kernel)
  exact ⟨rs, w, h1, of_decide_eq_true h2⟩

end Obj.Props

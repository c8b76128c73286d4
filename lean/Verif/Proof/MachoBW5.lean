import Verif.Proof.MachoBW4

/-! Writing with the Mach-O builder: the load commands. -/

namespace Obj.MachoB
open Obj Obj.MachoR
open Obj.BuildW (mapR mapR_each Blk)
open Obj.Spec.MachoF (Each num headerSize headerIn IsCommand)
open Obj.Spec.MachoB
open Obj.Spec.MachoI (PartIs)
open Obj.Spec.Pe (CStrAt)

/-- What is known about a file that was written. -/
structure Written (b : Builder) (o : Order) (l : Layout) (out : List UInt8) : Prop where
  sound : Sound b
  clean : NoOrphans b
  ord : Ordered b o
  laid : Laid ⟨b.is64, b.endian⟩ b o l
  em : Emitted ⟨b.is64, b.endian⟩ b o l out

theorem Written.lt {b : Builder} {o : Order} {l : Layout} {out : List UInt8} (x : Written b o l out) : out.length < 2 ^ 32 := by
  rw [x.em.len]; exact x.laid.len

/-- The configuration of a builder. -/
abbrev Builder.cfg (b : Builder) : Cfg := ⟨b.is64, b.endian⟩

theorem Written.seg_at {b : Builder} {o : Order} {l : Layout} {out : List UInt8} (x : Written b o l out) {i : Nat} {g : Segm × List Sec} (h : o.segs[i]? = some g) :
    Cmd.segment i ∈ b.commands ∧ b.segments[i]? = some g.1 ∧ Each (fun j s => b.sections[j]? = some s) g.1.sections g.2 := by
  obtain ⟨j, hj, h1, h2⟩ := BuildR.each_get x.ord.segs h
  have hji : j = i := by
    rw [x.sound.order] at hj
    obtain ⟨hi, e⟩ := List.getElem?_eq_some_iff.1 hj
    simpa using e.symm
  subst hji
  refine ⟨?_, h1, h2⟩
  have := List.mem_of_getElem? hj
  unfold segmentsOf at this
  rw [List.mem_filterMap] at this
  obtain ⟨k, hk, e⟩ := this
  split at e
  · cases e; exact hk
  · cases e

theorem Written.sec_of {b : Builder} {o : Order} {l : Layout} {out : List UInt8} (x : Written b o l out) {i : Nat} {g : Segm × List Sec} (h : o.segs[i]? = some g)
    {s : Sec} (hs : s ∈ g.2) : s ∈ b.sections ∧ s.delete = false := by
  obtain ⟨hm, h1, h2⟩ := x.seg_at h
  obtain ⟨j, hj, e⟩ := BuildR.each_mem h2 hs
  exact ⟨List.mem_of_getElem? e, x.clean.segments g.1 (List.mem_of_getElem? h1) (x.clean.commands i g.1 hm h1) j hj s e⟩

theorem sectOf_names {o : Order} {l : Layout} {s : Sec} {h : Sect} (e : sectOf o l s = .ok h) : h.sectname = s.sectname ∧ h.segname = s.segname := by
  unfold sectOf at e
  split at e
  · cases e; exact ⟨rfl, rfl⟩
  · cases e

/-- The bytes of a segment command. -/
theorem Written.segment_bytes {b : Builder} {o : Order} {l : Layout} {out : List UInt8} (x : Written b o l out) {i : Nat} {lk : List Nat} {bs : List UInt8}
    (h : cmdBytes b.cfg b o l (.segment i) lk = .ok bs) :
    ∃ g r ss, o.segs[i]? = some g ∧ l.ranges[i]? = some r ∧ Each (fun s h => sectOf o l s = .ok h) g.2 ss ∧
      bs = Seg.encode b.cfg ⟨g.1.segname, g.1.vmaddr, r.vmsize, r.off, r.size, g.1.maxprot, g.1.initprot, g.2.length, g.1.flags⟩ ++ ss.flatMap (Sect.encode b.cfg) := by
  unfold cmdBytes at h
  simp only [Res.bind_eq_ok] at h
  obtain ⟨g, h1, r, h2, n, h3, ss, h4, h5⟩ := h
  have h1 := fetch_ok h1
  have h2 := fetch_ok h2
  have h3 := fetch_ok h3
  obtain ⟨hm, e1, e2⟩ := x.seg_at h3
  rw [e1] at h1
  cases h1
  cases h5
  refine ⟨n, r, ss, h3, h2, ?_, rfl⟩
  rw [mapR_each] at h4
  refine BuildW.each_of_forall ?_ fun j s hd hs hh => ?_
  · rw [BuildR.each_length h4, BuildR.each_length e2]
  · obtain ⟨k, hk, e⟩ := BuildR.each_get h4 hh
    obtain ⟨s', hs', e'⟩ := BuildW.each_get_left e2 hk
    rw [hs] at hs'
    cases hs'
    rw [Res.bind_eq_ok] at e
    obtain ⟨s', e3, e4⟩ := e
    rw [fetch_ok e3] at e'
    cases e'
    exact e4

theorem Written.sects_len {b : Builder} {o : Order} {l : Layout} {out : List UInt8} (x : Written b o l out) {i : Nat} {g : Segm × List Sec} {ss : List Sect}
    (h : o.segs[i]? = some g) (hs : Each (fun s h => sectOf o l s = .ok h) g.2 ss) : ∀ h ∈ ss, (Sect.encode b.cfg h).length = sectSize b.cfg := by
  intro h1 hm
  obtain ⟨s, hs, e⟩ := BuildR.each_mem hs hm
  obtain ⟨e1, e2⟩ := sectOf_names e
  obtain ⟨m1, m2⟩ := x.sec_of h hs
  have := x.sound.sections s m1 m2
  exact MachoW.length_sect _ _ (by rw [e1]; exact this.sectname) (by rw [e2]; exact this.segname)

theorem segCmd_lt (c : Cfg) : segCmd c < 2 ^ 32 := by unfold segCmd; split <;> omega

theorem Written.segment_ok {b : Builder} {o : Order} {l : Layout} {out : List UInt8} (x : Written b o l out) {i : Nat} {lk : List Nat} {bs : List UInt8}
    (h : cmdBytes b.cfg b o l (.segment i) lk = .ok bs) (hl : bs.length < 2 ^ 32) :
    cmdSize b.cfg b o (.segment i) = .ok bs.length ∧ IsCommand b.endian bs ∧ number b.endian bs = segCmd b.cfg := by
  obtain ⟨g, r, ss, h1, h2, h3, rfl⟩ := x.segment_bytes h
  obtain ⟨hm, e1, e2⟩ := x.seg_at h1
  have hg := x.sound.segments g.1 (List.mem_of_getElem? e1) (x.clean.commands i g.1 hm e1)
  have hlen : (Seg.encode b.cfg ⟨g.1.segname, g.1.vmaddr, r.vmsize, r.off, r.size, g.1.maxprot, g.1.initprot, g.2.length, g.1.flags⟩ ++
      ss.flatMap (Sect.encode b.cfg)).length = segSize b.cfg + g.2.length * sectSize b.cfg := by
    rw [List.length_append, MachoW.length_seg _ _ hg.segname, length_flat _ _ _ (x.sects_len h1 h3), BuildR.each_length h3, Nat.mul_comm]
  rw [hlen] at hl
  refine ⟨?_, ⟨?_, ?_⟩, ?_⟩
  · rw [hlen]
    have : fetch o.segs i = .ok g := by unfold fetch; rw [h1]
    rw [cmdSize, this]
    rfl
  · rw [hlen]; unfold segSize; split <;> omega
  · rw [hlen]
    unfold Seg.encode
    rw [List.append_assoc]
    exact (num_encode b.endian [(4, segCmd b.cfg), (4, segSize b.cfg + g.2.length * sectSize b.cfg)] _ 1 4 _ rfl).trans (mod_lt4 hl)
  · unfold Seg.encode number
    rw [List.append_assoc]
    exact (num_encode b.endian [(4, segCmd b.cfg), (4, segSize b.cfg + g.2.length * sectSize b.cfg)] _ 0 4 _ rfl).trans (mod_lt4 (segCmd_lt _))

/-- The numbers of `LC_BUILD_VERSION`. -/
theorem tools_ok (en : Endianness) (hd : List UInt8) (hh : hd.length = 24) (tools : List (Nat × Nat)) (ht : ∀ t ∈ tools, t.1 < 2 ^ 32 ∧ t.2 < 2 ^ 32) :
    (List.range tools.length).map (fun i => (num en (hd ++ tools.flatMap fun t => Obj.encode en [(4, t.1), (4, t.2)]) (24 + 8 * i) 4,
      num en (hd ++ tools.flatMap fun t => Obj.encode en [(4, t.1), (4, t.2)]) (28 + 8 * i) 4)) = tools := by
  apply List.ext_getElem?
  intro i
  rw [List.getElem?_map]
  by_cases hi : i < tools.length
  · rw [List.getElem?_eq_getElem (by simpa using hi), List.getElem?_eq_getElem hi, List.getElem_range]
    have hg := List.getElem?_eq_getElem hi
    have hf : ∀ t ∈ tools, (Obj.encode en [(4, t.1), (4, t.2)]).length = 8 := fun t _ => by rw [length_encode]; rfl
    obtain ⟨h1, h2⟩ := slice_item (fun t : Nat × Nat => Obj.encode en [(4, t.1), (4, t.2)]) 8 tools i _ hf hg
    obtain ⟨a, b⟩ := ht _ (List.getElem_mem hi)
    have e0 (o : Nat) (ho : o + 4 ≤ 8) : num en (tools.flatMap fun t => Obj.encode en [(4, t.1), (4, t.2)]) (8 * i + o) 4 =
        num en (Obj.encode en [(4, tools[i].1), (4, tools[i].2)]) o 4 := by
      rw [← MachoF.num_slice en _ (8 * i) 8 o 4 ho, h1]
    have e1 := num_right en hd (tools.flatMap fun t => Obj.encode en [(4, t.1), (4, t.2)]) (8 * i + 0) 4
    have e2 := num_right en hd (tools.flatMap fun t => Obj.encode en [(4, t.1), (4, t.2)]) (8 * i + 4) 4
    rw [hh, e0 0 (by omega)] at e1
    rw [hh, e0 4 (by omega)] at e2
    have f1 := (num_encode0 en [(4, tools[i].1), (4, tools[i].2)] 0 4 _ rfl).trans (mod_lt4 a)
    have f2 := (num_encode0 en [(4, tools[i].1), (4, tools[i].2)] 1 4 _ rfl).trans (mod_lt4 b)
    rw [Option.map_some]
    rw [show 28 + 8 * i = 24 + (8 * i + 4) by omega, show 24 + 8 * i = 24 + (8 * i + 0) by omega, e1, e2]
    simp only [Option.some.injEq]
    exact Prod.ext f1 f2
  · rw [List.getElem?_eq_none (by simpa using hi), List.getElem?_eq_none (by omega)]; rfl

theorem mem_zip_left {α β : Type} {xs : List α} {ys : List β} {p : α × β} (h : p ∈ xs.zip ys) : p.1 ∈ xs := (List.of_mem_zip h).1

/-- The numbers fit. -/
theorem link_lt {n : Nat} (h : n ∈ linkeditNumbers) : n < 2 ^ 32 := by
  simp only [linkeditNumbers, List.mem_cons, List.not_mem_nil, or_false] at h; omega
theorem raw_lt {n m : Nat} (h : (n, m) ∈ rawCommands) : n < 2 ^ 32 := by
  simp only [rawCommands, List.mem_cons, Prod.mk.injEq, List.not_mem_nil, or_false] at h; omega
theorem lib_lt : ∀ n ∈ [0xc, 0x80000018, 0x8000001f, 0x20, 0x80000023], n < 2 ^ 32 := by decide

theorem num_words (en : Endianness) (vs : List Nat) (i v : Nat) (h : vs[i]? = some v) : num en (Obj.encode en (vs.map fun v => (4, v))) (4 * i) 4 = v % 256 ^ 4 := by
  have := num_encode0 en (vs.map fun v => (4, v)) i 4 v (by rw [List.getElem?_map, h]; rfl)
  have hs : ∀ (l : List Nat), ((l.map fun v => ((4 : Nat), v)).map (·.1)).sum = 4 * l.length := by
    intro l
    induction l with
    | nil => rfl
    | cons x l ih => rw [List.map_cons, List.map_cons, List.sum_cons, ih, List.length_cons]; omega
  rw [← List.map_take, hs, List.length_take_of_le (by have := (List.getElem?_eq_some_iff.1 h).1; omega)] at this
  exact this

/-- The fields of `LC_DYSYMTAB`. -/
theorem dysym_fields (c : Cfg) (n1 n2 n3 n4 n5 n6 n7 n8 : Nat) :
    number c.en (DysymtabCmd.encode c ⟨n1, n2, n3, n4, n5, n6, [0, 0, 0, 0, 0, 0, n7, n8, 0, 0, 0, 0]⟩) = 11 ∧
    num c.en (DysymtabCmd.encode c ⟨n1, n2, n3, n4, n5, n6, [0, 0, 0, 0, 0, 0, n7, n8, 0, 0, 0, 0]⟩) 4 4 = 80 ∧
    (∀ o ∈ [36, 44, 52, 68, 76], num c.en (DysymtabCmd.encode c ⟨n1, n2, n3, n4, n5, n6, [0, 0, 0, 0, 0, 0, n7, n8, 0, 0, 0, 0]⟩) o 4 = 0) ∧
    num c.en (DysymtabCmd.encode c ⟨n1, n2, n3, n4, n5, n6, [0, 0, 0, 0, 0, 0, n7, n8, 0, 0, 0, 0]⟩) 56 4 = n7 % 256 ^ 4 ∧
    num c.en (DysymtabCmd.encode c ⟨n1, n2, n3, n4, n5, n6, [0, 0, 0, 0, 0, 0, n7, n8, 0, 0, 0, 0]⟩) 60 4 = n8 % 256 ^ 4 := by
  have hn (i v : Nat) (hi : [11, 80, n1, n2, n3, n4, n5, n6, 0, 0, 0, 0, 0, 0, n7, n8, 0, 0, 0, 0][i]? = some v) :=
    num_words c.en [11, 80, n1, n2, n3, n4, n5, n6, 0, 0, 0, 0, 0, 0, n7, n8, 0, 0, 0, 0] i v hi
  have he : DysymtabCmd.encode c ⟨n1, n2, n3, n4, n5, n6, [0, 0, 0, 0, 0, 0, n7, n8, 0, 0, 0, 0]⟩ =
      Obj.encode c.en ([11, 80, n1, n2, n3, n4, n5, n6, 0, 0, 0, 0, 0, 0, n7, n8, 0, 0, 0, 0].map fun v => (4, v)) := rfl
  rw [he]
  generalize Obj.encode c.en _ = bs at hn ⊢
  refine ⟨hn 0 11 rfl, hn 1 80 rfl, ?_, hn 14 n7 rfl, hn 15 n8 rfl⟩
  intro o ho
  simp only [List.mem_cons, List.not_mem_nil, or_false] at ho
  rcases ho with rfl | rfl | rfl | rfl | rfl
  · exact hn 9 0 rfl
  · exact hn 11 0 rfl
  · exact hn 13 0 rfl
  · exact hn 17 0 rfl
  · exact hn 19 0 rfl

/-- A load command. -/
theorem Written.cmd_ok {b : Builder} {o : Order} {l : Layout} {out : List UInt8} (x : Written b o l out) {p : Cmd × List Nat} (hp : p ∈ b.commands.zip l.link)
    {bs : List UInt8} (h : cmdBytes b.cfg b o l p.1 p.2 = .ok bs) (hl : bs.length < 2 ^ 32) :
    cmdSize b.cfg b o p.1 = .ok bs.length ∧ IsCommand b.endian bs ∧ ∀ k, CmdSame p.1 k → CommandIs b.endian out bs k := by
  obtain ⟨k, lk⟩ := p
  have hk := x.sound.commands k (mem_zip_left hp)
  obtain ⟨hb1, hb2⟩ := x.em.blobs _ hp
  have hout := x.lt
  simp only at h hb1 hb2 ⊢
  cases k with
  | segment i =>
    obtain ⟨h1, h2, h3⟩ := x.segment_ok h hl
    refine ⟨h1, h2, fun k hk => ?_⟩
    have : isSegment b.endian bs = true := by rw [isSegment_of, h3]; unfold segCmd; split <;> simp
    cases hk with
    | segment => exact .segment this
    | other h _ => exact absurd rfl (h i)
  | symtab =>
    cases h
    refine ⟨by rw [MachoW.length_symtab]; rfl, ⟨by rw [MachoW.length_symtab]; omega, ?_⟩, fun k hk => ?_⟩
    · rw [MachoW.length_symtab]
      unfold SymtabCmd.encode
      exact num_encode0 b.endian _ 1 4 24 rfl
    · cases hk
      refine .symtab (isSymtab_of.2 ?_)
      unfold SymtabCmd.encode number
      exact num_encode0 b.endian _ 0 4 2 rfl
  | dysymtab =>
    cases h
    obtain ⟨f1, f2, f3, -, -⟩ := dysym_fields b.cfg 0 (localSyms b.symbols).length (localSyms b.symbols).length (extSyms b.symbols).length
      ((localSyms b.symbols).length + (extSyms b.symbols).length) (undefSyms b.symbols).length l.indoff (indCount o.secs)
    refine ⟨by rw [MachoW.length_dysymtab _ _ rfl]; rfl, ⟨by rw [MachoW.length_dysymtab _ _ rfl]; omega, ?_⟩, fun k hk => ?_⟩
    · rw [MachoW.length_dysymtab _ _ rfl]
      exact f2
    · cases hk
      exact .dysymtab (isDysymtab_of.2 f1) f3
  | dylib i =>
    rw [cmdBytes, Res.bind_eq_ok] at h
    obtain ⟨d, h1, h2⟩ := h
    have h1' := fetch_ok h1
    have hd := x.sound.libraries i d (mem_zip_left hp) h1'
    obtain ⟨e1, e2, e3, e4⟩ := dylib_ok h2 lib_lt hd hl
    refine ⟨by rw [cmdSize, h1]; exact e1, ⟨by have := e4.size; omega, e3⟩, fun k hk => ?_⟩
    have : isLibrary b.endian bs = true := by rw [isLibrary_of, e2]; exact hd.cmd
    cases hk with
    | dylib => exact .dylib this
    | other _ h => exact absurd rfl (h i)
  | idDylib d =>
    rw [cmdBytes] at h
    obtain ⟨e1, e2, e3, e4⟩ := dylib_ok h (by decide) hk hl
    refine ⟨e1, ⟨by have := e4.size; omega, e3⟩, fun k hk' => ?_⟩
    cases hk'
    exact .idDylib (e2.trans (by simpa using hk.cmd)) e4
  | buildVersion pl mi sd tools =>
    cases h
    have hlen : (BuildVersion.encode b.cfg ⟨pl, mi, sd, tools.length⟩ ++ tools.flatMap fun t => Obj.encode b.endian [(4, t.1), (4, t.2)]).length =
        24 + tools.length * 8 := by
      rw [List.length_append, MachoW.length_version, length_flat _ 8 _ fun t _ => by rw [length_encode]; rfl]; omega
    obtain ⟨k1, k2, k3, k4⟩ := hk
    have hn (i w v : Nat) (hi : [(4, 0x32), (4, 24 + tools.length * 8), (4, pl), (4, mi), (4, sd), (4, tools.length)][i]? = some (w, v)) :=
      num_encode b.endian [(4, 0x32), (4, 24 + tools.length * 8), (4, pl), (4, mi), (4, sd), (4, tools.length)]
        (tools.flatMap fun t => Obj.encode b.endian [(4, t.1), (4, t.2)]) i w v hi
    simp only at hl
    rw [hlen] at hl
    refine ⟨by rw [hlen]; rfl, ⟨by rw [hlen]; omega, ?_⟩, fun k hk' => ?_⟩
    · rw [hlen]
      exact (hn 1 4 _ rfl).trans (mod_lt4 hl)
    · cases hk'
      have f5 := (hn 5 4 _ rfl).trans (mod_lt4 (by omega))
      have := CommandIs.buildVersion (en := b.endian) (data := out) (k := BuildVersion.encode b.cfg ⟨pl, mi, sd, tools.length⟩ ++
        tools.flatMap fun t => Obj.encode b.endian [(4, t.1), (4, t.2)]) ((hn 0 4 _ rfl).trans (by decide)) (by
          rw [hlen]
          refine Nat.le_of_eq ?_
          exact (congrArg (fun z => 24 + 8 * z) f5).trans (by omega))
      rw [show num b.endian (BuildVersion.encode b.cfg ⟨pl, mi, sd, tools.length⟩ ++ tools.flatMap fun t => Obj.encode b.endian [(4, t.1), (4, t.2)]) 8 4 = pl from
          (hn 2 4 _ rfl).trans (mod_lt4 k1),
        show num b.endian (BuildVersion.encode b.cfg ⟨pl, mi, sd, tools.length⟩ ++ tools.flatMap fun t => Obj.encode b.endian [(4, t.1), (4, t.2)]) 12 4 = mi from
          (hn 3 4 _ rfl).trans (mod_lt4 k2),
        show num b.endian (BuildVersion.encode b.cfg ⟨pl, mi, sd, tools.length⟩ ++ tools.flatMap fun t => Obj.encode b.endian [(4, t.1), (4, t.2)]) 16 4 = sd from
          (hn 4 4 _ rfl).trans (mod_lt4 k3),
        show num b.endian (BuildVersion.encode b.cfg ⟨pl, mi, sd, tools.length⟩ ++ tools.flatMap fun t => Obj.encode b.endian [(4, t.1), (4, t.2)]) 20 4 =
          tools.length from f5, tools_ok b.endian _ (MachoW.length_version _ _) tools k4] at this
      exact this
  | linkedit cmd data =>
    rw [cmdBytes, Res.bind_eq_ok] at h
    obtain ⟨off, h1, h2⟩ := h
    cases h2
    have hblk : Blk out off data := by
      split at h1
      · next hc =>
        cases h1
        refine x.em.sig data (List.mem_filterMap.2 ⟨_, mem_zip_left hp, ?_⟩)
        unfold signature
        simp only [hc, if_true]
      · next hc =>
        have hbl : blobs (.linkedit cmd data) = [data] := by simp only [blobs, if_neg hc]
        rw [hbl] at hb1 hb2
        cases lk with
        | nil => simp at hb1
        | cons a lk =>
          have : a = off := by have := fetch_ok h1; simpa using this
          subst this
          exact hb2 (data, a) (by simp)
    have hn (i w v : Nat) (hi : [(4, cmd), (4, 16), (4, off), (4, data.length)][i]? = some (w, v)) := num_encode0 b.endian
      [(4, cmd), (4, 16), (4, off), (4, data.length)] i w v hi
    obtain ⟨l1, l2⟩ := blk_lt hblk hout
    have hnum : number b.endian (Obj.encode b.endian [(4, cmd), (4, 16), (4, off), (4, data.length)]) = cmd := (hn 0 4 _ rfl).trans (mod_lt4 (link_lt hk))
    refine ⟨by rw [length_encode]; rfl, ⟨by rw [length_encode]; simp, ?_⟩, fun k hk' => ?_⟩
    · rw [length_encode]; exact hn 1 4 16 rfl
    · cases hk'
      have := CommandIs.linkedit (en := b.endian) (data := out) (k := Obj.encode b.endian [(4, cmd), (4, 16), (4, off), (4, data.length)]) (l := data)
        (by rw [hnum]; exact hk) (by rw [length_encode]; simp) (by
          have e1 : num b.endian (Obj.encode b.endian [(4, cmd), (4, 16), (4, off), (4, data.length)]) 8 4 = off := (hn 2 4 _ rfl).trans (mod_lt4 l1)
          have e2 : num b.endian (Obj.encode b.endian [(4, cmd), (4, 16), (4, off), (4, data.length)]) 12 4 = data.length := (hn 3 4 _ rfl).trans (mod_lt4 l2)
          rw [e1, e2]
          exact blk_part hblk)
      rwa [hnum] at this
  | dyldInfo x1 x2 x3 x4 x5 =>
    rw [cmdBytes, Res.bind_eq_ok] at h
    obtain ⟨ps, h1, h2⟩ := h
    cases h2
    have hbl : blobs (.dyldInfo x1 x2 x3 x4 x5) = [x1, x2, x3, x4, x5].filter fun x => x ≠ [] := rfl
    rw [hbl] at hb2
    have hps := partsOf_ok _ _ _ h1 hb2
    cases hps with | @cons _ p1 _ _ q1 hps =>
    cases hps with | @cons _ p2 _ _ q2 hps =>
    cases hps with | @cons _ p3 _ _ q3 hps =>
    cases hps with | @cons _ p4 _ _ q4 hps =>
    cases hps with | @cons _ p5 _ _ q5 hps =>
    cases hps
    have hn (i w v : Nat) (hi : [(4, 0x80000022), (4, 48), (4, p1.1), (4, p1.2), (4, p2.1), (4, p2.2), (4, p3.1), (4, p3.2), (4, p4.1), (4, p4.2), (4, p5.1),
      (4, p5.2)][i]? = some (w, v)) := num_encode0 b.endian [(4, 0x80000022), (4, 48), (4, p1.1), (4, p1.2), (4, p2.1), (4, p2.2), (4, p3.1), (4, p3.2),
      (4, p4.1), (4, p4.2), (4, p5.1), (4, p5.2)] i w v hi
    have hlen : (Obj.encode b.endian ([(4, 0x80000022), (4, 48)] ++ [p1, p2, p3, p4, p5].flatMap fun p => [(4, p.1), (4, p.2)])).length = 48 := by
      rw [length_encode]; rfl
    refine ⟨by rw [hlen]; rfl, ⟨by rw [hlen]; decide, ?_⟩, fun k hk' => ?_⟩
    · rw [hlen]; exact hn 1 4 48 rfl
    · cases hk'
      have part {x : List UInt8} {p : Nat × Nat} {a c : Nat} (q : p.2 = x.length ∧ (x = [] ∧ p = (0, 0) ∨ Blk out p.1 x)) (e1 : a = p.1 % 256 ^ 4)
          (e2 : c = p.2 % 256 ^ 4) : PartIs out a c x := by rw [e1, e2]; exact part_of hout q
      exact .dyldInfo (hn 0 4 _ rfl) (by rw [hlen]) (part q1 (hn 2 4 _ rfl) (hn 3 4 _ rfl)) (part q2 (hn 4 4 _ rfl) (hn 5 4 _ rfl))
        (part q3 (hn 6 4 _ rfl) (hn 7 4 _ rfl)) (part q4 (hn 8 4 _ rfl) (hn 9 4 _ rfl)) (part q5 (hn 10 4 _ rfl) (hn 11 4 _ rfl))
  | other cmd data =>
    cases h
    obtain ⟨n, hk1, hk2⟩ := hk
    have hn (i w v : Nat) (hi : [(4, cmd), (4, 8 + data.length)][i]? = some (w, v)) := num_encode b.endian [(4, cmd), (4, 8 + data.length)] data i w v hi
    have hlen : (Obj.encode b.endian [(4, cmd), (4, 8 + data.length)] ++ data).length = 8 + data.length := by
      rw [List.length_append, length_encode]; rfl
    simp only at hl
    rw [hlen] at hl
    have hnum : number b.endian (Obj.encode b.endian [(4, cmd), (4, 8 + data.length)] ++ data) = cmd := (hn 0 4 _ rfl).trans (mod_lt4 (raw_lt hk1))
    refine ⟨by rw [hlen]; rfl, ⟨by rw [hlen]; omega, ?_⟩, fun k hk' => ?_⟩
    · rw [hlen]; exact (hn 1 4 _ rfl).trans (mod_lt4 hl)
    · cases hk'
      have := CommandIs.other (en := b.endian) (data := out) (k := Obj.encode b.endian [(4, cmd), (4, 8 + data.length)] ++ data) (n := n) (by rwa [hnum])
        (by rw [hlen]; exact hk2)
      rw [hnum, List.drop_left' (by rw [length_encode]; rfl)] at this
      exact this

end Obj.MachoB

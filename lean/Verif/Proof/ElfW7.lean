import Verif.Proof.ElfW6

/-! The writing phase of `elf_write`: tables, relocations and headers. -/

namespace Obj.ElfW
open Obj Obj.Elf Obj.Reserve Obj.Parts Obj.Spec Obj.W Obj.Spec.ElfO

theorem writeNullSymbol_eq {w : Wtr} {c : Cfg} (hc : w.c = c) (h0 : w.sy.offset ≠ 0) (h1 : w.sy.offset = up w.out.length c.w)
    (h2 : nSymtab ∈ w.sh.tab.strings) (h3 : w.sh.tab.strings.length ≤ U32) (h4 : w.sy.id = some (idOf w.sh.tab nSymtab))
    (h5 : 1 ≤ w.sy.num) (h6 : w.out.length + c.w + c.symSize < U64) (h7 : w.needStr = true) :
    w.writeNullSymbol = .ok { w with
      out := pad w.out c.w ++ Sym.encode c ⟨0, 0, 0, 0, 0, 0⟩,
      sx := { w.sx with data := if w.sx.offset ≠ 0 then w.sx.data ++ wr c.en 4 0 else w.sx.data },
      sy := { w.sy with written := 1 } } := by
  subst hc
  have hu := up_le w.out.length w.c.w
  have hp := length_pad w.out w.c.w
  unfold Wtr.writeNullSymbol
  rw [if_neg h0]
  unfold Wtr.writeNullSymbolSome
  rw [writeAlign_eq (alignOk_w _) (by omega)]
  simp only [Res.bind_eq, Res.ok_bind]
  rw [check_ok (show w.sy.offset = (pad w.out w.c.w).length by rw [hp, h1])]
  simp only [Res.ok_bind]
  rw [getId_eq h2 h3]
  simp only [Res.ok_bind]
  rw [check_ok h4]
  simp only [Res.ok_bind]
  rw [write_eq (by show (pad w.out w.c.w).length + _ < _; rw [Sym.length_encode, hp]; omega)]
  simp only [Res.ok_bind]
  rw [check_ok h5]
  simp only [Res.ok_bind]
  rw [← h7]
  rfl

theorem writeShndx_eq {w : Wtr} {c : Cfg} (hc : w.c = c) (h1 : w.sx.need = true → w.sx.offset = up w.out.length 4)
    (h2 : w.sx.need = true → nShndx ∈ w.sh.tab.strings) (h3 : w.sh.tab.strings.length ≤ U32)
    (h4 : w.sx.need = true → w.sx.id = some (idOf w.sh.tab nShndx))
    (h6 : w.out.length + 4 + w.sx.data.length < U64) :
    w.writeShndx = .ok { w with
      out := emit w.out (if w.sx.need then [(4, w.sx.data)] else []),
      sx := { w.sx with data := [] } } := by
  subst hc
  have hu := up_le w.out.length 4
  have hp := length_pad w.out 4
  unfold Wtr.writeShndx
  by_cases hn : w.sx.need
  · simp only [if_pos hn]
    unfold Wtr.writeShndxSome
    rw [writeAlign_eq alignOk_4 (by omega)]
    simp only [Res.bind_eq, Res.ok_bind]
    rw [check_ok (show w.sx.offset = (pad w.out 4).length by rw [hp, h1 hn])]
    simp only [Res.ok_bind]
    rw [getId_eq (h2 hn) h3]
    simp only [Res.ok_bind]
    rw [check_ok (h4 hn)]
    simp only [Res.ok_bind]
    rw [write_eq (by show (pad w.out 4).length + _ < _; rw [hp]; omega)]
    rfl
  · simp only [if_neg hn]
    rfl

theorem writeStrtab_eq {w : Wtr} (h0 : w.st.offset ≠ 0) (h1 : w.st.offset = w.out.length) (h2 : w.out.length + w.st.data.length < U64) :
    w.writeStrtab = .ok { w with out := w.out ++ w.st.data } := by
  unfold Wtr.writeStrtab
  rw [if_neg h0]
  unfold Wtr.writeStrtabSome
  rw [check_ok h1]
  simp only [Res.bind_eq, Res.ok_bind]
  rw [write_eq h2]

theorem writeShstrtab_eq {w : Wtr} (h0 : w.sh.offset ≠ 0) (h1 : w.sh.offset = w.out.length) (h2 : w.out.length + w.sh.data.length < U64) :
    w.writeShstrtab = .ok { w with out := w.out ++ w.sh.data } := by
  unfold Wtr.writeShstrtab
  rw [if_neg h0]
  unfold Wtr.writeShstrtabSome
  rw [check_ok h1]
  simp only [Res.bind_eq, Res.ok_bind]
  rw [write_eq h2]

/-! ## Relocations -/

/-- The ELF type of a relocation. -/
def relType (r : Reloc) : Nat :=
  match r.flags with
  | .elf t => t
  | _ => 0

/-- The relocation given to the encoder. -/
def relOf (ix : List Nat) (x : Reloc) : Rel := ⟨x.offset, (ix[x.symbol]?).getD 0, relType x, x.addend⟩

/-- The bytes of the relocations of a section. -/
def relBytes (c : Cfg) (mips r : Bool) (ix : List Nat) (rs : List Reloc) : List UInt8 :=
  (rs.map (relOf ix)).flatMap (writeRel c mips r)

theorem length_writeRel (c : Cfg) (mips r : Bool) (x : Rel) : (writeRel c mips r x).length = c.relSize r := by
  unfold writeRel Cfg.relSize Cfg.w
  cases c.is64 <;> cases r <;> simp [wrI]

theorem length_relBytes (c : Cfg) (mips r : Bool) (ix : List Nat) (rs : List Reloc) :
    (relBytes c mips r ix rs).length = rs.length * c.relSize r := by
  unfold relBytes
  rw [length_flatMap_const _ (c.relSize r) _ (by intro x _; exact length_writeRel c mips r x), List.length_map]

theorem writeRelocsOf_sat (E : Prop) (c : Cfg) (mips r : Bool) (ix : List Nat) : ∀ (rs : List Reloc) (w : Wtr), w.c = c → w.mips = mips →
    (∀ x ∈ rs, x.symbol < ix.length) → (∀ x ∈ rs, (∀ t, x.flags ≠ .elf t) → E) →
    w.out.length + rs.length * c.relSize r < U64 →
    Res.Sat E (writeRelocsOf r ix w rs) fun w' => w' = { w with out := w.out ++ relBytes c mips r ix rs } ∧
      ∀ x ∈ rs, ∃ t, x.flags = .elf t := by
  intro rs
  induction rs with
  | nil => intro w _ _ _ _ _; exact ⟨by simp [relBytes], by simp⟩
  | cons x rs ih =>
    intro w hc hm h1 h2 h3
    simp only [List.length_cons] at h3
    have h3' : w.out.length + c.relSize r + rs.length * c.relSize r < U64 := by rw [Nat.add_mul] at h3; omega
    unfold writeRelocsOf writeOneReloc
    cases hf : x.flags with
    | elf t =>
      have hx := h1 x (by simp)
      simp only [List.getElem?_eq_getElem hx]
      have hl := length_writeRel c mips r (relOf ix x)
      have e : (⟨x.offset, ix[x.symbol], t, x.addend⟩ : Rel) = relOf ix x := by
        unfold relOf relType; rw [hf, List.getElem?_eq_getElem hx]; rfl
      rw [hc, hm, e, write_eq (by rw [hl]; omega)]
      simp only [Res.bind_eq, Res.ok_bind]
      refine (ih _ (by exact hc) (by exact hm) (fun y hy => h1 y (by simp [hy])) (fun y hy => h2 y (by simp [hy]))
        (by show (w.out ++ _).length + _ < _; rw [List.length_append, hl]; omega)).mono (fun h => h) ?_
      rintro w' ⟨rfl, hq⟩
      refine ⟨?_, ?_⟩
      · have : relBytes c mips r ix (x :: rs) = writeRel c mips r (relOf ix x) ++ relBytes c mips r ix rs := rfl
        rw [this]
        simp only [List.append_assoc, hc, hm]
      · intro y hy
        rcases List.mem_cons.1 hy with rfl | hy
        · exact ⟨t, hf⟩
        · exact hq y hy
    | generic a b c => exact h2 x (by simp) (by rw [hf]; simp)
    | macho a b c => exact h2 x (by simp) (by rw [hf]; simp)
    | coff a => exact h2 x (by simp) (by rw [hf]; simp)
    | xcoff a b => exact h2 x (by simp) (by rw [hf]; simp)

/-- The relocations of a section as parts. -/
def relPart1 (c : Cfg) (mips r : Bool) (ix : List Nat) (s : Section) : List (Nat × List UInt8) :=
  if s.relocs = [] then [] else [(c.w, relBytes c mips r ix s.relocs)]

/-- The relocations as parts. -/
def relParts (c : Cfg) (mips r : Bool) (ix : List Nat) (ss : List Section) : List (Nat × List UInt8) :=
  ss.flatMap (relPart1 c mips r ix)

theorem sizes_relPart1 (c : Cfg) (mips r : Bool) (ix : List Nat) (s : Section) :
    sizes (relPart1 c mips r ix s) = relSize1 c r s := by
  unfold relPart1 relSize1 sizes
  split
  · rfl
  · simp [length_relBytes]

theorem sizes_relParts (c : Cfg) (mips r : Bool) (ix : List Nat) : ∀ ss : List Section,
    sizes (relParts c mips r ix ss) = relSizes c r ss
  | [] => rfl
  | s :: ss => by
    unfold relParts relSizes
    rw [List.flatMap_cons, sizes_append, sizes_relPart1]
    congr 1
    exact sizes_relParts c mips r ix ss

theorem writeRelocs_sat (E : Prop) (c : Cfg) (T : StrTab) (mips r : Bool) (ix : List Nat) :
    ∀ (l : List (Section × SecOff)) (w : Wtr) (n len : Nat), w.c = c → w.mips = mips → SecsOk c T r n len w.out.length l →
    (∀ p ∈ l, ∀ x ∈ p.1.relocs, x.symbol < ix.length) → (∀ p ∈ l, ∀ x ∈ p.1.relocs, (∀ t, x.flags ≠ .elf t) → E) →
    w.out.length + cost (relSizes c r (l.map (·.1))) < U64 →
    Res.Sat E (writeRelocs r ix w l) fun w' => w' = { w with out := emit w.out (relParts c mips r ix (l.map (·.1))) } ∧
      ∀ p ∈ l, ∀ x ∈ p.1.relocs, ∃ t, x.flags = .elf t := by
  intro l
  induction l with
  | nil => intro w _ _ _ _ _ _ _ _; exact ⟨rfl, by simp⟩
  | cons p l ih =>
    obtain ⟨s, so⟩ := p
    intro w n len hc hm h0 h1 h2 h3
    obtain ⟨rfl, h0⟩ := h0
    have h2s : ∀ x ∈ s.relocs, (∀ t, x.flags ≠ .elf t) → E := h2 _ List.mem_cons_self
    have h1s : ∀ x ∈ s.relocs, x.symbol < ix.length := h1 _ List.mem_cons_self
    have hcost : ∀ (a : SecOff), cost (relSizes c r (((s, a) :: l).map (·.1))) =
        cost (relSize1 c r s) + cost (relSizes c r (l.map (·.1))) := by
      intro a
      simp only [List.map_cons]
      unfold relSizes
      rw [cost_append]
      cases l.map (·.1) <;> rfl
    rw [hcost] at h3
    have hu := up_le w.out.length c.w
    have hp := length_pad w.out c.w
    unfold writeRelocs writeRelocSection
    have hrest : ∀ w' : Wtr, w' = { w with out := emit w.out (relPart1 c mips r ix s) } →
        Res.Sat E (writeRelocs r ix w' l) fun w'' => w'' = { w' with out := emit w'.out (relParts c mips r ix (l.map (·.1))) } ∧
        ∀ p ∈ l, ∀ x ∈ p.1.relocs, ∃ t, x.flags = .elf t := by
      rintro w' rfl
      have hl : (emit w.out (relPart1 c mips r ix s)).length = endOf w.out.length (relSize1 c r s) := by
        rw [length_emit, sizes_relPart1]
      have := endOf_le (relSize1 c r s) w.out.length
      exact ih _ (n + hdrCount s) (up len s.align + s.data.length) (by exact hc) (by exact hm)
        (by show SecsOk c T r _ _ (emit w.out (relPart1 c mips r ix s)).length l; rw [hl]; exact h0)
        (fun p hp => h1 p (by simp [hp])) (fun p hp => h2 p (by simp [hp]))
        (by show (emit w.out (relPart1 c mips r ix s)).length + _ < _; rw [hl]; omega)
    have hemit : emit w.out (relParts c mips r ix (s :: l.map (·.1))) =
        emit (emit w.out (relPart1 c mips r ix s)) (relParts c mips r ix (l.map (·.1))) := by
      rw [← emit_append]; rfl
    by_cases hr : s.relocs = []
    · rw [if_pos hr]
      simp only [Res.bind_eq, Res.ok_bind]
      have hp1 : relPart1 c mips r ix s = [] := if_pos hr
      have hw : w = { w with out := emit w.out (relPart1 c mips r ix s) } := by rw [hp1]; rfl
      refine (hrest w hw).mono (fun h => h) ?_
      rintro w'' ⟨rfl, hq⟩
      refine ⟨?_, ?_⟩
      · simp only [List.map_cons]
        rw [hemit, hp1]; rfl
      · intro p hp
        rcases List.mem_cons.1 hp with rfl | hp
        · intro x hx; simp only [hr] at hx; cases hx
        · exact hq p hp
    · rw [if_neg hr]
      have hp1 : relPart1 c mips r ix s = [(c.w, relBytes c mips r ix s.relocs)] := if_neg hr
      have hs1 : cost (relSize1 c r s) = c.w + s.relocs.length * c.relSize r + 0 := by unfold relSize1; rw [if_neg hr]; rfl
      rw [hc, writeAlign_eq (alignOk_w c) (by omega)]
      simp only [Res.bind_eq, Res.ok_bind]
      rw [check_ok (show (if s.relocs = [] then 0 else up w.out.length c.w) = (pad w.out c.w).length by rw [if_neg hr, hp])]
      simp only [Res.ok_bind]
      refine Res.Sat.bind (writeRelocsOf_sat E c mips r ix s.relocs _ (by exact hc) (by exact hm) h1s h2s
        (by show (pad w.out c.w).length + _ < _; rw [hp]; omega)) ?_
      rintro w1 ⟨rfl, hq1⟩
      refine (hrest _ (by rw [hp1]; subst hc; rfl)).mono (fun h => h) ?_
      rintro w'' ⟨rfl, hq⟩
      refine ⟨?_, ?_⟩
      · simp only [List.map_cons]
        rw [hemit, hp1]
        subst hc; rfl
      · intro p hp
        rcases List.mem_cons.1 hp with rfl | hp
        · exact hq1
        · exact hq p hp

/-! ## Headers -/

theorem writeHeader_eq {w : Wtr} {c : Cfg} {s : Shdr} (hc : w.c = c) (h1 : w.out.length + c.shdrSize < U64)
    (h2 : w.written + 1 ≤ w.layout.sectionNum) (h3 : w.layout.sectionNum < U32) :
    w.writeHeader s = .ok (w.written, { w with out := w.out ++ s.encode c, written := w.written + 1 }) := by
  subst hc
  unfold Wtr.writeHeader
  rw [write_eq (by rw [Shdr.length_encode]; exact h1)]
  simp only [Res.bind_eq, Res.ok_bind]
  rw [addU32_eq (by omega)]
  simp only [Res.ok_bind]
  rw [check_ok h2]
  rfl

/-- The state after headers `hs`. -/
def addHdrs (w : Wtr) (hs : List Shdr) : Wtr :=
  { w with out := w.out ++ hs.flatMap (Shdr.encode w.c), written := w.written + hs.length }

theorem addHdrs_nil (w : Wtr) : addHdrs w [] = w := by unfold addHdrs; simp

theorem addHdrs_append (w : Wtr) (a b : List Shdr) : addHdrs (addHdrs w a) b = addHdrs w (a ++ b) := by
  unfold addHdrs; simp [Nat.add_assoc]

theorem length_addHdrs (w : Wtr) (hs : List Shdr) : (addHdrs w hs).out.length = w.out.length + hs.length * w.c.shdrSize := by
  show (w.out ++ _).length = _
  rw [List.length_append, length_flatMap_const _ w.c.shdrSize _ (by intro x _; exact Shdr.length_encode _ _)]

/-- There is room for `k` more headers. -/
structure Room (w : Wtr) (k : Nat) : Prop where
  bytes : w.out.length + k * w.c.shdrSize < U64
  count : w.written + k ≤ w.layout.sectionNum
  num : w.layout.sectionNum < U32

theorem Room.add {w : Wtr} {k : Nat} {hs : List Shdr} (h : Room w (hs.length + k)) : Room (addHdrs w hs) k := by
  obtain ⟨h1, h2, h3⟩ := h
  refine ⟨?_, ?_, h3⟩
  · rw [length_addHdrs]; rw [Nat.add_mul] at h1; show _ + k * w.c.shdrSize < _; omega
  · show w.written + hs.length + k ≤ w.layout.sectionNum; omega

theorem Room.mono {w : Wtr} {k j : Nat} (h : Room w k) (hj : j ≤ k) : Room w j := by
  obtain ⟨h1, h2, h3⟩ := h
  have := Nat.mul_le_mul_right w.c.shdrSize hj
  exact ⟨by omega, by omega, h3⟩

theorem writeHeader_add {w : Wtr} {k : Nat} (s : Shdr) (h : Room w (k + 1)) : w.writeHeader s = .ok (w.written, addHdrs w [s]) := by
  obtain ⟨h1, h2, h3⟩ := h
  rw [writeHeader_eq rfl (by rw [Nat.add_mul] at h1; omega) (by omega) h3]
  unfold addHdrs
  simp

/-- The headers of the groups. -/
def comdatHdrs (nm : List UInt8 → Nat) (sy : Nat) (ix : List Nat) : Nat → List Comdat → List Shdr
  | _, [] => []
  | len, d :: ds => ⟨nm nGroup, 17, 0, 0, up len 4, (d.sections.length + 1) * 4, sy, (ix[d.symbol]?).getD 0, 4, 4⟩ ::
      comdatHdrs nm sy ix (up len 4 + (d.sections.length + 1) * 4) ds

theorem length_comdatHdrs (nm : List UInt8 → Nat) (sy : Nat) (ix : List Nat) : ∀ (ds : List Comdat) (len : Nat),
    (comdatHdrs nm sy ix len ds).length = ds.length
  | [], _ => rfl
  | d :: ds, len => by simp [comdatHdrs, length_comdatHdrs nm sy ix ds]

theorem idOf_congr {T T' : StrTab} (h : T'.strings = T.strings) (s : List UInt8) : idOf T' s = idOf T s := by
  unfold idOf; rw [h]

theorem name_eq {T T' : StrTab} {data s : List UInt8} (h : T'.strings = T.strings) (hw : Written T' data) (hs : s ∈ T.strings) :
    nameOffset T' (some (idOf T s)) = .ok (nmOf T' s) := by
  rw [← idOf_congr h]
  exact (nmOf_spec hw (by rw [h]; exact hs)).1

theorem writeComdatHeaders_eq (c : Cfg) (T T' : StrTab) (shd : List UInt8) (hT : T'.strings = T.strings) (hw : Written T' shd) (ix : List Nat) (sy k : Nat) :
    ∀ (ds : List Comdat) (w : Wtr) (len : Nat), w.c = c → w.sh.tab = T' → w.sy.index = sy → (∀ d ∈ ds, nGroup ∈ T.strings) →
    (∀ d ∈ ds, d.symbol < ix.length) → (∀ d ∈ ds, (d.sections.length + 1) * 4 < U64) → Room w (ds.length + k) →
    writeComdatHeaders ix w (ds.zip (comdatOffs T len ds)) = .ok (addHdrs w (comdatHdrs (nmOf T') sy ix len ds)) := by
  intro ds
  induction ds with
  | nil => intro w _ _ _ _ _ _ _ _; unfold comdatHdrs; rw [addHdrs_nil]; rfl
  | cons d ds ih =>
    intro w len hc ht hs h1 h2 h3 h4
    have hd := h2 d (by simp)
    have hz := h3 d (by simp)
    unfold comdatOffs
    rw [List.zip_cons_cons]
    unfold writeComdatHeaders
    rw [List.getElem?_eq_getElem hd]
    simp only
    unfold Wtr.writeComdatHeader
    rw [ht, name_eq hT hw (h1 d (by simp))]
    simp only [Res.bind_eq, Res.ok_bind]
    rw [addU64_eq (by omega)]
    simp only [Res.ok_bind]
    rw [mulU64_eq hz]
    simp only [Res.ok_bind]
    rw [writeHeader_add (k := ds.length + k) _ (h4.mono (by simp only [List.length_cons]; omega))]
    simp only [Res.ok_bind]
    rw [ih _ _ (by exact hc) (by exact ht) (by exact hs) (fun x hx => h1 x (by simp [hx])) (fun x hx => h2 x (by simp [hx]))
      (fun x hx => h3 x (by simp [hx])) (Room.add (h4.mono (by simp only [List.length_cons, List.length_nil]; omega)))]
    rw [addHdrs_append]
    congr 2
    rw [comdatHdrs.eq_2, List.singleton_append, hs, List.getElem?_eq_getElem hd]
    rfl

/-- The header of a section. -/
def secHdr (nm : List UInt8 → Nat) (len : Nat) (s : Section) : Shdr :=
  ⟨nm s.name, ((sectionFlags s).getD (0, 0)).1, ((sectionFlags s).getD (0, 0)).2, 0, up len s.align, s.size, 0, 0, s.align, entsize s.kind⟩

/-- The header of a relocation section. -/
def relHdr (c : Cfg) (r : Bool) (nm : List UInt8 → Nat) (sy n rlen : Nat) (s : Section) : Shdr :=
  ⟨nm (relocName r s), if r then 4 else 9, 0x40, 0, up rlen c.w, s.relocs.length * c.relSize r, sy, n, c.w, c.relSize r⟩

/-- The headers of a section. -/
def secHdr1 (c : Cfg) (r : Bool) (nm : List UInt8 → Nat) (sy n len rlen : Nat) (s : Section) : List Shdr :=
  secHdr nm len s :: if s.relocs = [] then [] else [relHdr c r nm sy n rlen s]

/-- The headers of the sections. -/
def secHdrs (c : Cfg) (r : Bool) (nm : List UInt8 → Nat) (sy : Nat) : Nat → Nat → Nat → List Section → List Shdr
  | _, _, _, [] => []
  | n, len, rlen, s :: ss => secHdr1 c r nm sy n len rlen s ++
      secHdrs c r nm sy (n + hdrCount s) (up len s.align + s.data.length) (endOf rlen (relSize1 c r s)) ss

theorem length_secHdr1 (c : Cfg) (r : Bool) (nm : List UInt8 → Nat) (sy n len rlen : Nat) (s : Section) :
    (secHdr1 c r nm sy n len rlen s).length = hdrCount s := by
  unfold secHdr1 hdrCount; split <;> rfl

theorem length_secHdrs (c : Cfg) (r : Bool) (nm : List UInt8 → Nat) (sy : Nat) : ∀ (ss : List Section) (n len rlen : Nat),
    (secHdrs c r nm sy n len rlen ss).length = hdrs ss
  | [], _, _, _ => rfl
  | s :: ss, n, len, rlen => by
    unfold secHdrs
    rw [List.length_append, length_secHdr1, length_secHdrs c r nm sy ss, hdrs_cons]

theorem writeSectionHeaders_sat (E : Prop) (c : Cfg) (r : Bool) (T T' : StrTab) (shd : List UInt8) (hT : T'.strings = T.strings) (hw : Written T' shd)
    (sy k : Nat) :
    ∀ (l : List (Section × SecOff)) (w : Wtr) (n len rlen : Nat), w.c = c → w.sh.tab = T' → w.sy.index = sy →
    SecsOk c T r n len rlen l → (∀ p ∈ l, sectionFlags p.1 = none → E) →
    (∀ p ∈ l, p.1.name ∈ T.strings ∧ (p.1.relocs ≠ [] → relocName r p.1 ∈ T.strings)) →
    (∀ p ∈ l, p.1.relocs.length * c.relSize r < U64) →
    Room w (hdrs (l.map (·.1)) + k) →
    Res.Sat E (writeSectionHeaders r w l) fun w' =>
      w' = addHdrs w (secHdrs c r (nmOf T') sy n len rlen (l.map (·.1))) ∧ ∀ p ∈ l, sectionFlags p.1 ≠ none := by
  intro l
  induction l with
  | nil => intro w n len rlen _ _ _ _ _ _ _ _; exact ⟨by simp [secHdrs, addHdrs_nil], by simp⟩
  | cons p l ih =>
    obtain ⟨s, so⟩ := p
    intro w n len rlen hc ht hs h0 h1 h2 h3 h4
    obtain ⟨rfl, h0⟩ := h0
    have hf1 : sectionFlags s = none → E := h1 _ List.mem_cons_self
    obtain ⟨hn, hrn⟩ : s.name ∈ T.strings ∧ (s.relocs ≠ [] → relocName r s ∈ T.strings) := h2 _ List.mem_cons_self
    have hz : s.relocs.length * c.relSize r < U64 := h3 _ List.mem_cons_self
    have hh : hdrs (((s, (⟨n, up len s.align, idOf T s.name, if s.relocs = [] then 0 else up rlen c.w, relId T r s⟩ : SecOff)) :: l).map (·.1)) =
        hdrCount s + hdrs (l.map (·.1)) := by rw [List.map_cons, hdrs_cons]
    rw [hh] at h4
    have hc1 := hdrCount_pos s
    unfold writeSectionHeaders
    simp only
    cases hf : sectionFlags s with
    | none => exact hf1 hf
    | some f =>
      obtain ⟨ty, fl⟩ := f
      simp only
      rw [ht, name_eq hT hw hn]
      simp only [Res.bind_eq, Res.ok_bind]
      rw [writeHeader_add (k := hdrCount s - 1 + hdrs (l.map (·.1)) + k) _ (h4.mono (by omega))]
      simp only [Res.ok_bind]
      have e : (⟨nmOf T' s.name, ty, fl, 0, up len s.align, s.size, 0, 0, s.align, entsize s.kind⟩ : Shdr) = secHdr (nmOf T') len s := by
        unfold secHdr; rw [hf]; rfl
      rw [e]
      have hrel : writeRelocHeaderIf r s ⟨n, up len s.align, idOf T s.name, if s.relocs = [] then 0 else up rlen c.w, relId T r s⟩
          (addHdrs w [secHdr (nmOf T') len s]) = .ok (addHdrs w (secHdr1 c r (nmOf T') sy n len rlen s)) := by
        unfold writeRelocHeaderIf secHdr1 relId
        by_cases hr : s.relocs = []
        · rw [if_pos hr, if_pos hr]
        · simp only [if_neg hr]
          unfold Wtr.writeRelocHeader
          rw [show (addHdrs w [secHdr (nmOf T') len s]).sh.tab = T' from ht, name_eq hT hw (hrn hr)]
          simp only [Res.bind_eq, Res.ok_bind]
          rw [show (addHdrs w [secHdr (nmOf T') len s]).c = c from hc, mulU64_eq hz]
          simp only [Res.ok_bind]
          have hcnt : hdrCount s = 2 := if_neg hr
          rw [writeHeader_add (k := hdrs (l.map (·.1)) + k) _ (Room.add (h4.mono (by simp only [List.length_cons, List.length_nil]; omega)))]
          simp only [Res.ok_bind]
          rw [addHdrs_append, show (addHdrs w [secHdr (nmOf T') len s]).sy.index = sy from hs]
          rfl
      rw [hrel]
      simp only [Res.ok_bind]
      refine (ih _ _ _ _ (by exact hc) (by exact ht) (by exact hs) h0 (fun x hx => h1 x (by simp [hx])) (fun x hx => h2 x (by simp [hx]))
        (fun x hx => h3 x (by simp [hx])) (Room.add (h4.mono (by rw [length_secHdr1]; omega)))).mono (fun h => h) ?_
      rintro w' ⟨rfl, hq⟩
      refine ⟨?_, ?_⟩
      · rw [addHdrs_append]; rfl
      · intro x hx
        rcases List.mem_cons.1 hx with rfl | hx
        · simp only [hf]; simp
        · exact hq x hx

end Obj.ElfW

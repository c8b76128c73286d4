import Verif.Proof.CoffW2
import Verif.Props.Coff

/-! The writing phase of `coff_write`. -/

namespace Obj.CoffW
open Obj Obj.Reserve Obj.Parts Obj.Spec Obj.Spec.CoffO
open Obj.ElfW (check tabAdd check_ok addU32_eq addU64_eq mulU64_eq idOf TabW tabAdd_eq length_of_getElem?)

/-! ## Names -/

theorem names_ok (o : W.Object) (hv : Valid o) {size : Nat} {t : StrTab} {strs data : List UInt8} (hw : (tabOf o).write 4 = (.ok size, t, strs))
    {off : Nat} (hlen : data.length < 2 ^ 64) (ha : At data off (Coff.strtabBytes size strs)) : ∀ s ∈ allNames o,
    (∃ b, Coff.sectionName t (nameOf (tabOf o) s) = .ok b ∧ b.length = 8 ∧
      (8 < s.length ∨ s.head? ≠ some 47 → Coff.readSectionName (some (off, off + size)) data b = .ok s)) ∧
    (∃ b, Coff.symbolName t (nameOf (tabOf o) s) = .ok b ∧ b.length = 8 ∧
      (s ≠ [] → Coff.readSymbolName (some (off, off + size)) data b = .ok s)) := by
  intro s hs
  obtain ⟨i, hi⟩ := List.getElem?_of_mem hs
  have hl := length_allNames o hv
  have hT : TabW StrTab.new ((allNames o).length + 0) := TabW.new (by omega)
  have e : (CoffS.addNames StrTab.new (allNames o)).2 = tabOf o := addNames_snd _ _
  obtain ⟨n, h1, h2, h3⟩ := Props.coffNames (allNames o) size off t strs data (by omega) (nul_allNames o hv) hlen (by rw [e]; exact hw) ha i s hi
  rw [addNames_get_nameOf (T := tabOf o) hT List.prefix_rfl i s hi] at h1
  cases h1
  exact ⟨h2, h3⟩

/-- The name field of a section header. -/
def secNm (o : W.Object) (t : StrTab) (s : List UInt8) : List UInt8 :=
  match Coff.sectionName t (nameOf (tabOf o) s) with
  | .ok b => b
  | .err => []
  | .panic => []

/-- The name field of a symbol. -/
def symNm (o : W.Object) (t : StrTab) (s : List UInt8) : List UInt8 :=
  match Coff.symbolName t (nameOf (tabOf o) s) with
  | .ok b => b
  | .err => []
  | .panic => []

theorem nm_ok (o : W.Object) (hv : Valid o) {size : Nat} {t : StrTab} {strs data : List UInt8} (hw : (tabOf o).write 4 = (.ok size, t, strs))
    {off : Nat} (hlen : data.length < 2 ^ 64) (ha : At data off (Coff.strtabBytes size strs)) : ∀ s ∈ allNames o,
    (Coff.sectionName t (nameOf (tabOf o) s) = .ok (secNm o t s) ∧ (secNm o t s).length = 8 ∧
      (8 < s.length ∨ s.head? ≠ some 47 → Coff.readSectionName (some (off, off + size)) data (secNm o t s) = .ok s)) ∧
    (Coff.symbolName t (nameOf (tabOf o) s) = .ok (symNm o t s) ∧ (symNm o t s).length = 8 ∧
      (s ≠ [] → Coff.readSymbolName (some (off, off + size)) data (symNm o t s) = .ok s)) := by
  intro s hs
  obtain ⟨⟨b, h1, h2, h3⟩, ⟨c, g1, g2, g3⟩⟩ := names_ok o hv hw hlen ha s hs
  have e1 : secNm o t s = b := by unfold secNm; rw [h1]
  have e2 : symNm o t s = c := by unfold symNm; rw [g1]
  rw [e1, e2]
  exact ⟨⟨h1, h2, h3⟩, g1, g2, g3⟩

/-- The names exist, whatever the file. -/
theorem nm_len (o : W.Object) (hv : Valid o) {size : Nat} {t : StrTab} {strs : List UInt8} (hw : (tabOf o).write 4 = (.ok size, t, strs))
    (hsz : size = 4 + strs.length) (hlt : size < U32) : ∀ s ∈ allNames o,
    (Coff.sectionName t (nameOf (tabOf o) s) = .ok (secNm o t s) ∧ (secNm o t s).length = 8) ∧
    (Coff.symbolName t (nameOf (tabOf o) s) = .ok (symNm o t s) ∧ (symNm o t s).length = 8) := by
  intro s hs
  have hl : (Coff.strtabBytes size strs).length = size := by unfold Coff.strtabBytes; simp; omega
  have ha : At (Coff.strtabBytes size strs) 0 (Coff.strtabBytes size strs) := by
    unfold At slice; simp
  obtain ⟨⟨h1, h2, -⟩, g1, g2, -⟩ := nm_ok o hv hw (by omega) ha s hs
  exact ⟨⟨h1, h2⟩, g1, g2⟩

/-! ## Section headers -/

theorem write_eq {w : Wtr} {b : List UInt8} (h : w.out.length + b.length < U64) : w.write b = .ok { w with out := w.out ++ b } := by
  unfold Wtr.write
  rw [bufBytes_eq _ _ h]
  rfl

/-- The bytes of a section header. -/
def hdrBytes (t : StrTab) (p : W.Section × SecOff) : List UInt8 :=
  match sectionHeader p.1 p.2 with
  | .ok h => match Coff.writeSection t h with
    | .ok b => b
    | .err => []
    | .panic => []
  | .err => []
  | .panic => []

theorem alignFlags_none {a : Nat} (h : Coff.alignFlags a = none) : ∀ k ≤ 13, a ≠ 2 ^ k := by
  intro k hk e
  subst e
  rw [Props.C56_accepted k hk] at h
  simp at h

theorem sectionHeader_name {s : W.Section} {so : SecOff} {h : Coff.WSection} (e : sectionHeader s so = .ok h) : h.name = so.name := by
  unfold sectionHeader at e
  cases h1 : sectionFlags s with
  | none => rw [h1] at e; simp at e
  | some c =>
    rw [h1] at e
    simp only at e
    cases h2 : Coff.alignFlags s.align with
    | none => rw [h2] at e; simp at e
    | some a =>
      rw [h2] at e
      simp only [Res.ok.injEq] at e
      rw [← e]

theorem writeHeaders_sat (E : Prop) : ∀ (l : List (W.Section × SecOff)) (w : Wtr),
    (∀ p ∈ l, ∃ b, Coff.sectionName w.tab p.2.name = .ok b ∧ b.length = 8) →
    (∀ p ∈ l, (sectionFlags p.1 = none → E) ∧ ((∀ k ≤ 13, p.1.align ≠ 2 ^ k) → E)) → w.out.length + 40 * l.length < U64 →
    Res.Sat E (writeHeaders w l) fun r => r = { w with out := w.out ++ l.flatMap (hdrBytes w.tab) } ∧
      ∀ p ∈ l, ∃ h, sectionHeader p.1 p.2 = .ok h ∧ Coff.writeSection w.tab h = .ok (hdrBytes w.tab p) ∧ (hdrBytes w.tab p).length = 40
  | [], w, _, _, _ => ⟨by simp, by simp⟩
  | (s, so) :: l, w, hn, hE, hl => by
    obtain ⟨b, hb1, hb2⟩ := hn (s, so) (by simp)
    obtain ⟨hE1, hE2⟩ := hE (s, so) (by simp)
    simp only [List.length_cons] at hl
    unfold writeHeaders
    cases hsh : sectionHeader s so with
    | err =>
      show E
      unfold sectionHeader at hsh
      cases h1 : sectionFlags s with
      | none => exact hE1 h1
      | some c =>
        rw [h1] at hsh
        simp only at hsh
        cases h2 : Coff.alignFlags s.align with
        | none => exact hE2 (alignFlags_none h2)
        | some a => rw [h2] at hsh; simp at hsh
    | panic =>
      exfalso
      unfold sectionHeader at hsh
      split at hsh
      · simp at hsh
      · split at hsh <;> simp at hsh
    | ok h =>
      simp only [Res.bind_eq, Res.ok_bind]
      have hname := sectionHeader_name hsh
      have hws : Coff.writeSection w.tab h = .ok (hdrBytes w.tab (s, so)) ∧ (hdrBytes w.tab (s, so)).length = 40 := by
        have : ∃ c, Coff.writeSection w.tab h = .ok c ∧ c.length = 40 := by
          unfold Coff.writeSection
          rw [hname, hb1]
          exact ⟨_, rfl, Coff.Section.length_encode _ hb2⟩
        obtain ⟨c, c1, c2⟩ := this
        have e : hdrBytes w.tab (s, so) = c := by
          unfold hdrBytes
          simp only [hsh, c1]
        rw [e]; exact ⟨c1, c2⟩
      unfold Wtr.writeSectionHeader
      rw [hws.1]
      simp only [Res.bind_eq, Res.ok_bind]
      rw [write_eq (by rw [hws.2]; omega)]
      simp only [Res.ok_bind]
      refine (writeHeaders_sat E l _ (by exact fun p hp => hn p (by simp [hp])) (fun p hp => hE p (by simp [hp]))
        (by show (w.out ++ _).length + _ < _; rw [List.length_append, hws.2]; omega)).mono id ?_
      rintro r ⟨r1, r2⟩
      refine ⟨by rw [r1]; simp, ?_⟩
      intro p hp
      rcases List.mem_cons.1 hp with rfl | hp
      · exact ⟨h, hsh, hws⟩
      · exact r2 p hp

theorem length_flatMap_hdr {t : StrTab} {l : List (W.Section × SecOff)} (h : ∀ p ∈ l, (hdrBytes t p).length = 40) :
    (l.flatMap (hdrBytes t)).length = 40 * l.length := by
  rw [Elf.length_flatMap_const _ 40 l h]; omega

/-! ## Sections -/

/-- A relocation as written. -/
def relOf (syms : List SymOff) (r : W.Reloc) : Coff.Reloc :=
  ⟨r.offset % U32, (match syms[r.symbol]? with | some so => so.index | none => 0), (match r.flags with | .coff t => t | _ => 0)⟩

/-- The relocations of a section as written. -/
def relBytes (syms : List SymOff) (rs : List W.Reloc) : List UInt8 :=
  (if 0xffff < rs.length then Coff.Reloc.encode ⟨rs.length + 1, 0, 0⟩ else []) ++ rs.flatMap fun r => (relOf syms r).encode

/-- The parts of a section. -/
def secParts (syms : List SymOff) (s : W.Section) : List (Nat × List UInt8) :=
  (if s.data = [] then [] else [(4, s.data)]) ++ (if s.relocs = [] then [] else [(1, relBytes syms s.relocs)])

theorem length_relBytes (syms : List SymOff) (rs : List W.Reloc) (h : rs ≠ []) :
    (relBytes syms rs).length = Coff.relocationsLen rs.length := by
  have hz : rs.length ≠ 0 := by simpa using h
  have h1 := Elf.length_flatMap_const (fun r => (relOf syms r).encode) 10 rs (fun r _ => Coff.Reloc.length_encode _)
  unfold relBytes Coff.relocationsLen
  rw [List.length_append, h1, if_neg hz]
  split
  · rw [Coff.Reloc.length_encode]; omega
  · simp

theorem sizes_secParts (syms : List SymOff) (s : W.Section) : sizes (secParts syms s) = secSizes s := by
  unfold secParts secSizes
  rw [sizes_append]
  by_cases h1 : s.data = []
  · by_cases h2 : s.relocs = []
    · simp [h1, h2, sizes]
    · simp [h1, h2, sizes, length_relBytes syms _ h2]
  · by_cases h2 : s.relocs = []
    · simp [h1, h2, sizes]
    · simp [h1, h2, sizes, length_relBytes syms _ h2]

theorem sizes_flatMap (syms : List SymOff) : ∀ ss : List W.Section, sizes (ss.flatMap (secParts syms)) = ss.flatMap secSizes
  | [] => rfl
  | s :: ss => by rw [List.flatMap_cons, List.flatMap_cons, sizes_append, sizes_secParts, sizes_flatMap syms ss]

theorem writeRelocsOf_sat (E : Prop) (syms : List SymOff) : ∀ (rs : List W.Reloc) (w : Wtr), (∀ r ∈ rs, r.symbol < syms.length) →
    (∀ r ∈ rs, (∀ t, r.flags ≠ .coff t) → E) → w.out.length + 10 * rs.length < U64 →
    Res.Sat E (writeRelocsOf syms w rs) fun r => r = { w with out := w.out ++ rs.flatMap fun r => (relOf syms r).encode } ∧
      ∀ r ∈ rs, ∃ t, r.flags = .coff t
  | [], w, _, _, _ => ⟨by simp, by simp⟩
  | r :: rs, w, hs, hE, hl => by
    simp only [List.length_cons] at hl
    have hi := hs r (by simp)
    unfold writeRelocsOf writeReloc
    have hE' := hE r (by simp)
    cases hf : r.flags with
    | coff t =>
      have he : relOf syms r = ⟨r.offset % U32, syms[r.symbol].index, t⟩ := by
        unfold relOf
        rw [List.getElem?_eq_getElem hi, hf]
      simp only [List.getElem?_eq_getElem hi]
      rw [← he, write_eq (by rw [Coff.Reloc.length_encode]; omega)]
      simp only [Res.bind_eq, Res.ok_bind]
      refine (writeRelocsOf_sat E syms rs _ (fun x hx => hs x (by simp [hx])) (fun x hx => hE x (by simp [hx]))
        (by show (w.out ++ _).length + _ < _; rw [List.length_append, Coff.Reloc.length_encode]; omega)).mono id ?_
      rintro x ⟨r1, r2⟩
      refine ⟨by rw [r1]; simp, ?_⟩
      intro y hy
      rcases List.mem_cons.1 hy with rfl | hy
      · exact ⟨t, hf⟩
      · exact r2 y hy
    | _ => exact hE' (by rw [hf]; simp)

theorem writeRelocs_sat (E : Prop) (syms : List SymOff) (s : W.Section) (w : Wtr) (hs : ∀ r ∈ s.relocs, r.symbol < syms.length)
    (hE : ∀ r ∈ s.relocs, (∀ t, r.flags ≠ .coff t) → E) (hl : w.out.length + 10 * (s.relocs.length + 1) < U64) (hc : s.relocs.length + 1 < U32) :
    Res.Sat E (writeRelocs syms s w) fun r => r = { w with out := emit w.out (if s.relocs = [] then [] else [(1, relBytes syms s.relocs)]) } ∧
      ∀ r ∈ s.relocs, ∃ t, r.flags = .coff t := by
  unfold writeRelocs
  by_cases hr : s.relocs = []
  · rw [if_pos hr, if_pos hr, hr]
    exact ⟨rfl, by simp⟩
  · rw [if_neg hr, if_neg hr]
    have e : w.writeRelocationsCount s.relocs.length = .ok { w with out := w.out ++
        (if 0xffff < s.relocs.length then Coff.Reloc.encode ⟨s.relocs.length + 1, 0, 0⟩ else []) } := by
      unfold Wtr.writeRelocationsCount Coff.relocationsCount
      by_cases h : 0xffff < s.relocs.length
      · rw [if_pos h, if_pos h, Nat.mod_eq_of_lt (by omega), if_neg (by omega)]
        simp only [Res.bind_eq, Res.ok_bind]
        rw [write_eq (by rw [Coff.Reloc.length_encode]; omega)]
      · rw [if_neg h, if_neg h]
        simp only [Res.bind_eq, Res.ok_bind]
        rw [write_eq (by simp; omega)]
    rw [e]
    simp only [Res.bind_eq, Res.ok_bind]
    refine (writeRelocsOf_sat E syms s.relocs _ hs hE ?_).mono id ?_
    · show (w.out ++ _).length + _ < _
      rw [List.length_append]
      split
      · rw [Coff.Reloc.length_encode]; omega
      · simp; omega
    · rintro x ⟨r1, r2⟩
      refine ⟨?_, r2⟩
      rw [r1]
      simp only [emit, pad_of_le_one _ 1 (by decide), relBytes, List.append_assoc]

theorem writeSections_sat (E : Prop) (syms : List SymOff) : ∀ (ss : List W.Section) (w : Wtr),
    (∀ s ∈ ss, ∀ r ∈ s.relocs, r.symbol < syms.length) → (∀ s ∈ ss, ∀ r ∈ s.relocs, (∀ t, r.flags ≠ .coff t) → E) →
    w.out.length + (ss.map secRoom).sum < U32 →
    Res.Sat E (writeSections syms w ss) fun r => r = { w with out := emit w.out (ss.flatMap (secParts syms)) } ∧
      ∀ s ∈ ss, ∀ r ∈ s.relocs, ∃ t, r.flags = .coff t
  | [], w, _, _, _ => ⟨rfl, by simp⟩
  | s :: ss, w, hs, hE, hl => by
    have hu : U32 + U32 < U64 := by decide
    simp only [List.map_cons, List.sum_cons] at hl
    have hR : secRoom s = 4 + s.data.length + 10 * (s.relocs.length + 1) := rfl
    have e : w.writeSection s.data = .ok { w with out := emit w.out (if s.data = [] then [] else [(4, s.data)]) } := by
      unfold Wtr.writeSection
      by_cases hd : s.data = []
      · rw [if_pos hd, if_pos hd]; rfl
      · rw [if_neg hd, if_neg hd, bufAlign_eq _ 4 alignOk_4 (by decide) (by omega)]
        simp only [Res.bind_eq, Res.ok_bind]
        rw [write_eq (by
          show (pad w.out 4).length + _ < _
          have := up_le w.out.length 4
          rw [length_pad]; omega)]
        rfl
    have hlen : (emit w.out (if s.data = [] then [] else [(4, s.data)])).length ≤ w.out.length + 4 + s.data.length := by
      rw [length_emit]
      have := up_le w.out.length 4
      split <;> simp only [sizes, List.map_cons, List.map_nil, endOf] <;> omega
    unfold writeSections
    rw [e]
    simp only [Res.bind_eq, Res.ok_bind]
    refine (writeRelocs_sat E syms s _ (hs s (by simp)) (hE s (by simp)) (by
      show (emit w.out (if s.data = [] then [] else [(4, s.data)])).length + _ < _; omega) (by omega)).bind ?_
    rintro w1 ⟨r1, r2⟩
    have e1 : emit (emit w.out (if s.data = [] then [] else [(4, s.data)])) (if s.relocs = [] then [] else [(1, relBytes syms s.relocs)]) =
        emit w.out (secParts syms s) := (emit_append _ _ _).symm
    subst r1
    have hlen2 : (emit w.out (secParts syms s)).length ≤ w.out.length + secRoom s := by
      rw [length_emit, sizes_secParts]; exact endOf_secSizes_le _ _
    simp only [e1]
    refine (writeSections_sat E syms ss _ (fun x hx => hs x (by simp [hx])) (fun x hx => hE x (by simp [hx])) (by
      show (emit w.out (secParts syms s)).length + _ < _; omega)).mono id ?_
    rintro x ⟨r3, r4⟩
    refine ⟨by rw [r3, List.flatMap_cons, emit_append], ?_⟩
    intro y hy
    rcases List.mem_cons.1 hy with rfl | hy
    · exact r2
    · exact r4 y hy

end Obj.CoffW

import Verif.Proof.ElfW1

/-! The reserving phase of `elf_write`, continued: the tables, the relocations, and the whole plan. -/

namespace Obj.ElfW
open Obj Obj.Elf Obj.Reserve Obj.Parts Obj.Spec Obj.W Obj.Spec.ElfO

/-- `k` if `b`. -/
def ifn (b : Bool) (k : Nat) : Nat := if b then k else 0

theorem reserveSymtabIndex_eq {w : Wtr} {T : StrTab} {k : Nat} (h1 : w.sy.index = 0) (h3 : w.layout.shoff = 0)
    (h4 : w.sh.offset = 0) (h5 : TabW w.sh.tab (k + 1)) (h6 : nx w.layout.sectionNum + 1 < U32)
    (h8 : (addAll w.sh.tab [nSymtab]).strings <+: T.strings) :
    w.reserveSymtabIndex = .ok { w with
      layout := { w.layout with sectionNum := adv w.layout.sectionNum 1 },
      sh := { w.sh with tab := addAll w.sh.tab [nSymtab] },
      sy := { w.sy with id := some (idOf T nSymtab), index := nx w.layout.sectionNum } } := by
  unfold Wtr.reserveSymtabIndex
  rw [check_ok h1]
  simp only [Res.bind_eq, Res.ok_bind]
  rw [addSectionName_eq (T := T) (k := k) h4 h5 (by decide) h8]
  simp only [Res.ok_bind]
  rw [reserveSectionIndex_eq (by exact h3) (by exact h6)]
  rfl

theorem reserveSymtab_eq {w : Wtr} (h1 : w.sy.offset = 0) (h2 : w.sy.num ≠ 0)
    (h3 : w.len + w.c.w + w.sy.num * w.c.symSize < U64) :
    w.reserveSymtab = .ok { w with
      len := up w.len w.c.w + w.sy.num * w.c.symSize, sy := { w.sy with offset := up w.len w.c.w } } := by
  unfold Wtr.reserveSymtab
  rw [check_ok h1]
  simp only [Res.bind_eq, Res.ok_bind]
  rw [if_neg h2]
  unfold Wtr.reserveSymtabSome
  rw [mulU64_eq (by omega)]
  simp only [Res.bind_eq, Res.ok_bind]
  rw [reserve_eq (alignOk_w _) h3]
  rfl

/-- The name of the extended index section, if needed. -/
def shndxNames (need : Bool) : List (List UInt8) := if need then [nShndx] else []

theorem reserveShndxIndexIf_eq {w : Wtr} {T : StrTab} {k : Nat} (h1 : w.sx.id = none) (h3 : w.layout.shoff = 0)
    (h4 : w.sh.offset = 0) (h5 : TabW w.sh.tab (k + 1)) (h6 : nx w.layout.sectionNum + 1 < U32)
    (h8 : (addAll w.sh.tab (shndxNames w.sx.need)).strings <+: T.strings) :
    w.reserveShndxIndexIf = .ok { w with
      layout := { w.layout with sectionNum := adv w.layout.sectionNum (ifn w.sx.need 1) },
      sh := { w.sh with tab := addAll w.sh.tab (shndxNames w.sx.need) },
      sx := { w.sx with id := if w.sx.need then some (idOf T nShndx) else none } } := by
  unfold Wtr.reserveShndxIndexIf shndxNames at *
  cases hn : w.sx.need with
  | false =>
    simp only [Bool.false_eq_true, if_false, ifn, adv_zero]
    rw [← h1]; rfl
  | true =>
    rw [hn] at h8
    simp only [if_true, ifn] at h8 ⊢
    unfold Wtr.reserveShndxIndex
    rw [check_ok h1]
    simp only [Res.bind_eq, Res.ok_bind]
    rw [addSectionName_eq (T := T) (k := k) h4 h5 (by decide) h8]
    simp only [Res.ok_bind]
    rw [reserveSectionIndex_eq (by exact h3) (by exact h6)]
    rfl

/-- The space for extended indices. -/
def shndxSizes (need : Bool) (num : Nat) : List (Nat × Nat) := if need then [(4, num * 4)] else []

theorem reserveShndx_eq {w : Wtr} (h1 : w.sx.offset = 0) (h3 : w.len + 4 + w.sy.num * 4 < U64) :
    w.reserveShndx = .ok { w with
      len := endOf w.len (shndxSizes w.sx.need w.sy.num), sx := { w.sx with offset := ifn w.sx.need (up w.len 4) } } := by
  unfold Wtr.reserveShndx shndxSizes ifn
  rw [check_ok h1]
  simp only [Res.bind_eq, Res.ok_bind]
  cases hn : w.sx.need with
  | false =>
    simp only [Bool.false_eq_true, if_false, endOf]
    rw [← h1, ← hn]
  | true =>
    simp only [if_true, endOf]
    unfold Wtr.reserveShndxSome
    rw [mulU64_eq (by omega)]
    simp only [Res.bind_eq, Res.ok_bind]
    rw [reserve_eq alignOk_4 h3]
    simp [hn]

theorem reserveStrtabIndex_eq {w : Wtr} {T : StrTab} {k : Nat} (h1 : w.st.index = 0) (h3 : w.layout.shoff = 0)
    (h4 : w.sh.offset = 0) (h5 : TabW w.sh.tab (k + 1)) (h6 : nx w.layout.sectionNum + 1 < U32)
    (h8 : (addAll w.sh.tab [nStrtab]).strings <+: T.strings) :
    w.reserveStrtabIndex = .ok { w with
      layout := { w.layout with sectionNum := adv w.layout.sectionNum 1 },
      sh := { w.sh with tab := addAll w.sh.tab [nStrtab] },
      st := { w.st with id := some (idOf T nStrtab), index := nx w.layout.sectionNum } } := by
  unfold Wtr.reserveStrtabIndex
  rw [check_ok h1]
  simp only [Res.bind_eq, Res.ok_bind]
  rw [addSectionName_eq (T := T) (k := k) h4 h5 (by decide) h8]
  simp only [Res.ok_bind]
  rw [reserveSectionIndex_eq (by exact h3) (by exact h6)]
  rfl

theorem reserveStrtab_sat {w : Wtr} {ss : List (List UInt8)} (h1 : w.st.offset = 0) (h2 : w.needStr = true)
    (h3 : w.st.tab = addAll StrTab.new ss) (hn : ∀ s ∈ ss, (0 : UInt8) ∉ s) (h4 : w.len + 1 + U32 < U64) :
    Res.Sat (U32 ≤ 1 + storedSize (addAll StrTab.new ss).strings) w.reserveStrtab fun r => ∃ U data,
      r = { w with len := w.len + data.length,
                   st := { w.st with tab := U, size := data.length, offset := w.len, data := data } } ∧
      U.strings = (addAll StrTab.new ss).strings ∧ Written U data ∧ data.length ≤ 1 + storedSize (addAll StrTab.new ss).strings := by
  unfold Wtr.reserveStrtab
  rw [check_ok h1]
  simp only [Res.bind_eq, Res.ok_bind]
  rw [if_pos (show (w.needStr || !w.st.tab.strings.isEmpty) = true by rw [h2]; rfl)]
  unfold Wtr.reserveStrtabSome
  rw [h3]
  refine Res.Sat.bind (encStrtab_sat ss hn) ?_
  rintro ⟨n, U, data⟩ ⟨e1, e2, e3, e4⟩
  simp only at e1 e2 e3 e4
  subst e1
  have := e3.len
  simp only
  rw [Res.bind_eq, reserve_eq alignOk_1 (by omega), up_one]
  exact ⟨U, data, rfl, e2, e3, e4⟩

/-! ## Relocations -/

/-- The space for the relocations of a section. -/
def relSize1 (c : Cfg) (r : Bool) (s : Section) : List (Nat × Nat) :=
  if s.relocs = [] then [] else [(c.w, s.relocs.length * c.relSize r)]

/-- The space for relocations. -/
def relSizes (c : Cfg) (r : Bool) : List Section → List (Nat × Nat)
  | [] => []
  | s :: ss => relSize1 c r s ++ relSizes c r ss

/-- The offsets reserved. -/
def relOffs (c : Cfg) (r : Bool) : Nat → List Section → List SecOff → List SecOff
  | len, s :: ss, so :: sos =>
    { so with relocOffset := if s.relocs = [] then 0 else up len c.w } :: relOffs c r (endOf len (relSize1 c r s)) ss sos
  | _, _, _ => []

theorem reserveRelocs_eq (c : Cfg) (r : Bool) : ∀ (ss : List Section) (sos : List SecOff) (w : Wtr), w.c = c →
    w.len + cost (relSizes c r ss) < U64 → sos.length = ss.length →
    reserveRelocs r w (ss.zip sos) = .ok (relOffs c r w.len ss sos, { w with len := endOf w.len (relSizes c r ss) }) := by
  intro ss
  induction ss with
  | nil => intro sos w _ _ _; simp [reserveRelocs, relOffs, relSizes, endOf]
  | cons s ss ih =>
    intro sos w hc h1 h2
    cases sos with
    | nil => simp at h2
    | cons so sos =>
      simp only [List.length_cons, Nat.add_right_cancel_iff] at h2
      rw [List.zip_cons_cons]
      unfold reserveRelocs reserveRelocsOf relOffs relSizes
      unfold relSizes at h1
      rw [cost_append] at h1
      rw [endOf_append]
      by_cases hr : s.relocs = []
      · simp only [relSize1, hr, if_true, List.length_nil, ne_eq, not_true_eq_false, if_false, endOf, Res.bind_eq, Res.ok_bind] at *
        rw [ih sos w hc (by simpa [cost] using h1) h2]
        rfl
      · have hl : s.relocs.length ≠ 0 := by simpa using hr
        simp only [relSize1, hr, if_false, endOf, cost] at h1 ⊢
        rw [if_pos hl]
        unfold Wtr.reserveRelocations
        rw [hc, mulU64_eq (by omega)]
        simp only [Res.bind_eq, Res.ok_bind]
        have hu := up_le w.len c.w
        rw [reserve_eq (by exact alignOk_w c) (by omega)]
        simp only [Res.ok_bind]
        rw [ih sos _ (by exact hc) (by show up w.len c.w + _ + _ < _; omega) h2]
        subst hc
        rfl

/-! ## Section names and headers -/

theorem reserveShstrtabIndex_eq {w : Wtr} {T : StrTab} {k : Nat} (h1 : w.layout.shstrtabIndex = 0) (h3 : w.layout.shoff = 0)
    (h4 : w.sh.offset = 0) (h5 : TabW w.sh.tab (k + 1)) (h6 : nx w.layout.sectionNum + 1 < U32)
    (h8 : (addAll w.sh.tab [nShstrtab]).strings <+: T.strings) :
    w.reserveShstrtabIndex = .ok { w with
      layout := { w.layout with sectionNum := adv w.layout.sectionNum 1, shstrtabIndex := nx w.layout.sectionNum },
      sh := { w.sh with tab := addAll w.sh.tab [nShstrtab], id := some (idOf T nShstrtab) } } := by
  unfold Wtr.reserveShstrtabIndex
  rw [check_ok h1]
  simp only [Res.bind_eq, Res.ok_bind]
  rw [addSectionName_eq (T := T) (k := k) h4 h5 (by decide) h8]
  simp only [Res.ok_bind]
  rw [reserveSectionIndex_eq (by exact h3) (by exact h6)]
  rfl

theorem reserveShstrtab_sat {w : Wtr} {ss : List (List UInt8)} (h1 : w.sh.offset = 0) (h2 : w.layout.sectionNum ≠ 0)
    (h3 : w.sh.tab = addAll StrTab.new ss) (hn : ∀ s ∈ ss, (0 : UInt8) ∉ s) (h4 : w.len + 1 + U32 < U64) :
    Res.Sat (U32 ≤ 1 + storedSize (addAll StrTab.new ss).strings) w.reserveShstrtab fun r => ∃ T data,
      r = { w with len := w.len + data.length,
                   sh := { w.sh with tab := T, size := data.length, offset := w.len, data := data } } ∧
      T.strings = (addAll StrTab.new ss).strings ∧ Written T data ∧ data.length ≤ 1 + storedSize (addAll StrTab.new ss).strings := by
  unfold Wtr.reserveShstrtab
  rw [check_ok h1]
  simp only [Res.bind_eq, Res.ok_bind]
  rw [if_neg h2]
  unfold Wtr.reserveShstrtabSome
  rw [h3]
  refine Res.Sat.bind (encStrtab_sat ss hn) ?_
  rintro ⟨n, U, data⟩ ⟨e1, e2, e3, e4⟩
  simp only at e1 e2 e3 e4
  subst e1
  have := e3.len
  simp only
  rw [Res.bind_eq, reserve_eq alignOk_1 (by omega), up_one]
  exact ⟨U, data, rfl, e2, e3, e4⟩

theorem reserveHeaders_eq {w : Wtr} (h1 : w.layout.shoff = 0) (h2 : w.layout.sectionNum ≠ 0)
    (h3 : w.len + w.c.w + w.layout.sectionNum * w.c.shdrSize < U64) :
    w.reserveHeaders = .ok { w with
      len := up w.len w.c.w + w.layout.sectionNum * w.c.shdrSize, layout := { w.layout with shoff := up w.len w.c.w } } := by
  unfold Wtr.reserveHeaders
  rw [check_ok h1]
  simp only [Res.bind_eq, Res.ok_bind]
  rw [if_neg h2]
  unfold Wtr.reserveHeadersSome
  rw [mulU64_eq (by omega)]
  simp only [Res.bind_eq, Res.ok_bind]
  rw [reserve_eq (alignOk_w _) h3]
  rfl

end Obj.ElfW

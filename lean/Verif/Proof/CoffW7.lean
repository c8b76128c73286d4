import Verif.Proof.CoffW6

/-! Sections and symbols of the file written by `coff_write`. -/

namespace Obj.CoffW
open Obj Obj.Reserve Obj.Parts Obj.Spec Obj.Spec.CoffO Obj.Spec.CoffS
open Obj.ElfW (check tabAdd check_ok length_of_getElem?)

/-! ## Flags -/

theorem and_bit (c k : Nat) : (c &&& 2 ^ k = 2 ^ k ↔ c.testBit k = true) ∧ (c &&& 2 ^ k = 0 ↔ c.testBit k = false) := by
  have hp : 0 < 2 ^ k := Nat.two_pow_pos k
  have h : c &&& 2 ^ k = if c.testBit k then 2 ^ k else 0 := by
    apply Nat.eq_of_testBit_eq
    intro i
    rw [Nat.testBit_and, Nat.testBit_two_pow]
    by_cases hi : k = i
    · subst hi
      cases hc : c.testBit k <;> simp
    · have : decide (k = i) = false := by simp [hi]
      rw [this, Bool.and_false]
      split
      · rw [Nat.testBit_two_pow, this]
      · simp
  rw [h]
  cases c.testBit k <;> simp <;> omega

theorem withAlign_relocFlags (n f a : Nat) : Coff.withAlign (Coff.relocFlags n f) a = Coff.relocFlags n (Coff.withAlign f a) := by
  unfold Coff.relocFlags
  split
  · unfold Coff.withAlign
    apply Nat.eq_of_testBit_eq
    intro i
    simp only [Nat.testBit_or, Nat.testBit_and]
    by_cases hi : i = 24
    · subst hi
      have : Nat.testBit (0xffffffff - 0xf00000) 24 = true := by decide
      have e2 : Nat.testBit 0x1000000 24 = true := by decide
      rw [this, e2]; simp
    · have : Nat.testBit 0x1000000 i = false := by
        rw [show (0x1000000 : Nat) = 2 ^ 24 from rfl, Nat.testBit_two_pow]
        simp; omega
      rw [this]; simp
  · rfl

theorem withAlign_lt {f a : Nat} (hf : f < 2 ^ 32) : Coff.withAlign f a < 2 ^ 32 := by
  unfold Coff.withAlign
  apply Nat.or_lt_two_pow
  · exact Nat.lt_of_le_of_lt Nat.and_le_left hf
  · exact Nat.lt_of_le_of_lt Nat.and_le_right (by decide)

theorem addedFlags_lt {s : W.Section} {x : Sel} {c : Nat} (h : c < 2 ^ 32) : addedFlags s x c < 2 ^ 32 := by
  unfold addedFlags Coff.relocFlags
  have h2 : (if x.selection ≠ 0 then c ||| 0x1000 else c) < 2 ^ 32 := by
    split
    · exact Nat.or_lt_two_pow h (by decide)
    · exact h
  split
  · exact Nat.or_lt_two_pow h2 (by decide)
  · exact h2

theorem testBit_added (s : W.Section) (x : Sel) (c b : Nat) : (addedFlags s x c).testBit b = true ↔
    c.testBit b = true ∨ (b = 12 ∧ x.selection ≠ 0) ∨ (b = 24 ∧ 0xffff < s.relocs.length) := by
  unfold addedFlags Coff.relocFlags
  have e1 : Nat.testBit 0x1000 b = decide (12 = b) := by rw [show (0x1000 : Nat) = 2 ^ 12 from rfl, Nat.testBit_two_pow]
  have e2 : Nat.testBit 0x1000000 b = decide (24 = b) := by rw [show (0x1000000 : Nat) = 2 ^ 24 from rfl, Nat.testBit_two_pow]
  by_cases h1 : 0xffff < s.relocs.length <;> by_cases h2 : x.selection = 0 <;> simp only [h1, h2, ne_eq, not_true_eq_false, not_false_eq_true, if_true, if_false, Nat.testBit_or, e1, e2] <;>
    simp only [Bool.or_eq_true, decide_eq_true_eq, and_true, and_false, or_false, false_or, or_assoc, eq_comm (a := b)]

section
variable {crc : List UInt8 → Nat} {o : W.Object} {sub : Option SubArch} {flags : Option Nat} {p : Plan} {w : Wtr} {sels : List Sel}
  {size : Nat} {t : StrTab} {strs : List UInt8} {machine : Nat} {data : List UInt8}

theorem secOff_lt (hv : Valid o) {i : Nat} {s : W.Section} (hs : o.sections[i]? = some s) :
    (secOff (secAt o i) s).1 < 2 ^ 32 ∧ (secOff (secAt o i) s).2 < 2 ^ 32 ∧ (secOff (secAt o i) s).1 % 4 = 0 ∧ s.relocs.length + 1 < 2 ^ 32 := by
  have hr := hv.room
  have h4 : room o = 20 + 40 * o.sections.length + (o.sections.map secRoom).sum + 18 * total o := rfl
  have hsp := split_at' hs
  have hsum : (o.sections.map secRoom).sum = ((o.sections.take i).map secRoom).sum + (secRoom s + ((o.sections.drop (i + 1)).map secRoom).sum) := by
    conv => lhs; rw [hsp]
    rw [List.map_append, List.sum_append, List.map_cons, List.sum_cons]
  have hle := endOf_flatMap_le (o.sections.take i) (20 + 40 * o.sections.length)
  have hR : secRoom s = 4 + s.data.length + 10 * (s.relocs.length + 1) := rfl
  have e : secAt o i = endOf (20 + 40 * o.sections.length) ((o.sections.take i).flatMap secSizes) := rfl
  have hu := up_le (secAt o i) 4
  have hm := up_mod (secAt o i) 4 (by decide)
  unfold secOff
  refine ⟨?_, ?_, ?_, by omega⟩
  · split <;> simp only <;> omega
  · simp only
    split
    · omega
    · split <;> simp only [endOf] <;> omega
  · split
    · rfl
    · exact hm

theorem symIndex_eq {i : Nat} {s : W.Symbol} (h : o.symbols[i]? = some s) : symIndex o i = firstIndex o i + if s.weak then 1 else 0 := by
  unfold symIndex; rw [h]

theorem Image.sym_index (h : Image crc o sub flags p w sels size t strs machine data) {i : Nat} (hi : i < o.symbols.length) :
    ∃ so, p.syms[i]? = some so ∧ so.index = symIndex o i := by
  have hs := List.getElem?_eq_getElem hi
  refine ⟨_, by rw [h.planned.syms]; exact get_symOffs _ _ _ 0 i _ hs, ?_⟩
  rw [symIndex_eq hs]
  show 0 + ((o.symbols.take i).map symRecords).sum + _ = _
  rw [Nat.zero_add]
  rfl

theorem firstIndex_lt (hv : Valid o) {i : Nat} {s : W.Symbol} (h : o.symbols[i]? = some s) : firstIndex o i + symRecords s < 2 ^ 32 := by
  have hr := (symtab_room o hv).1
  have hsum : total o = firstIndex o i + (symRecords s + ((o.symbols.drop (i + 1)).map symRecords).sum) := by
    unfold total firstIndex
    conv => lhs; rw [split_at' h]
    rw [List.map_append, List.sum_append, List.map_cons, List.sum_cons]
  omega

theorem symIndex_lt (hv : Valid o) {i : Nat} {s : W.Symbol} (h : o.symbols[i]? = some s) : symIndex o i < 2 ^ 32 := by
  have := firstIndex_lt hv h
  rw [symIndex_eq h]
  unfold symRecords at this
  omega

theorem Image.relBytes_eq (h : Image crc o sub flags p w sels size t strs machine data) {s : W.Section} (hr : s.relocs.length + 1 < 2 ^ 32)
    (hne : s.relocs ≠ []) : Coff.writeRelocations (s.relocs.map (relOf p.syms)) = .ok (relBytes p.syms s.relocs) := by
  unfold Coff.writeRelocations Coff.relocationsCount relBytes
  have : (s.relocs.map (relOf p.syms)).isEmpty = false := by cases hx : s.relocs with
    | nil => exact absurd hx hne
    | cons a l => rfl
  rw [this]
  simp only [Bool.false_eq_true, if_false, List.length_map, List.flatMap_map]
  by_cases h1 : 0xffff < s.relocs.length
  · rw [if_pos h1, if_pos h1, Nat.mod_eq_of_lt (by omega), if_neg (by omega)]
    rfl
  · rw [if_neg h1, if_neg h1]
    rfl

theorem Image.sectionBack (h : Image crc o sub flags p w sels size t strs machine data) (hv : Valid o) (hf : CoffO.Fits o crc flags)
    {i : Nat} {s : W.Section} (hs : o.sections[i]? = some s) :
    ∃ sec, ((o.sections.zip p.secs).map fun x => Coff.Section.decode (hdrBytes t x))[i]? = some sec ∧
      SectionBack o data (some (symtabAt o + 18 * total o, symtabAt o + 18 * total o + size)) i s sec := by
  have hsm := List.mem_of_getElem? hs
  obtain ⟨x, hx1, hx2⟩ := h.planned.sec hs
  replace hx2 : p.secs[i]? = some ⟨nameOf (tabOf o) s.name, x, (secOff (secAt o i) s).1, (secOff (secAt o i) s).2⟩ := hx2
  obtain ⟨o1, o2, o3, o4⟩ := secOff_lt hv hs
  generalize hso : (⟨nameOf (tabOf o) s.name, x, (secOff (secAt o i) s).1, (secOff (secAt o i) s).2⟩ : SecOff) = so at hx2
  have hz : (o.sections.zip p.secs)[i]? = some (s, so) := by
    rw [List.getElem?_zip_eq_some]; exact ⟨hs, hx2⟩
  obtain ⟨hd, hd1, hd2, hd3⟩ := h.headers (s, so) (List.mem_of_getElem? hz)
  obtain ⟨hA, hDl⟩ := h.at_symbols hv
  have hlen := h.length_lt hv
  rw [Elf.at_append, h.entries_len hv] at hA
  have hnm := (nm_ok o hv h.planned.write (by omega) hA.2 s.name (mem_allNames_sec hsm)).1
  -- the header
  simp only at hd1
  unfold sectionHeader at hd1
  cases hc : sectionFlags s with
  | none => rw [hc] at hd1; simp at hd1
  | some c =>
    rw [hc] at hd1
    simp only at hd1
    cases hal : Coff.alignFlags s.align with
    | none => rw [hal] at hd1; simp at hd1
    | some a =>
      rw [hal] at hd1
      simp only [Res.ok.injEq] at hd1
      have hcl := hf.secFlags s hsm c hc
      have hsz := hf.size s hsm
      have hadd := addedFlags_lt (s := s) (x := x) hcl
      obtain ⟨al1, -, al3⟩ := Props.C56_alignment s.align (addedFlags s x c) a hadd hal
      have hchl := withAlign_lt (a := a) hadd
      rw [← hso] at hd1
      simp only at hd1
      rw [Nat.mod_eq_of_lt (by omega), Nat.mod_eq_of_lt (show s.relocs.length < U32 by omega)] at hd1
      have hdec : Coff.Section.decode (hdrBytes t (s, so)) = ⟨secNm o t s.name, 0, 0, s.size, (secOff (secAt o i) s).1, (secOff (secAt o i) s).2, 0,
          if 0xffff < s.relocs.length then 0xffff else s.relocs.length % U16, 0, Coff.withAlign (addedFlags s x c) a⟩ := by
        have hw := hd2
        rw [← hd1] at hw
        unfold Coff.writeSection at hw
        simp only [hnm.1, Res.ok_bind, Res.ok.injEq] at hw
        rw [← hw]
        have := Coff.Section.decode_encode ⟨secNm o t s.name, 0, 0, s.size, (secOff (secAt o i) s).1, (secOff (secAt o i) s).2, 0,
          if 0xffff < s.relocs.length then 0xffff else s.relocs.length % U16, 0, Coff.withAlign (addedFlags s x c) a⟩ hnm.2.1
          (by show 0 < _; decide) (by show 0 < _; decide) hsz o1 o2 (by show 0 < _; decide)
          (by
            show (if _ then _ else _) < _
            split
            · decide
            · exact Nat.mod_lt _ (by decide)) (by show 0 < _; decide) hchl []
        rw [List.append_nil] at this
        exact this
      refine ⟨Coff.Section.decode (hdrBytes t (s, so)), by rw [List.getElem?_map, hz]; rfl, ?_⟩
      have hbit7 : Nat.testBit (Coff.withAlign (addedFlags s x c) a) 7 = c.testBit 7 := by
        rw [al3 7 (by omega)]
        have := testBit_added s x c 7
        cases hb : (addedFlags s x c).testBit 7 <;> cases hb2 : c.testBit 7 <;> simp_all
      have hsel := h.planned.selsOk.selected i x hx1
      have hback : SectionBack o data (some (symtabAt o + 18 * total o, symtabAt o + 18 * total o + size)) i s
          ⟨secNm o t s.name, 0, 0, s.size, (secOff (secAt o i) s).1, (secOff (secAt o i) s).2, 0,
          if 0xffff < s.relocs.length then 0xffff else s.relocs.length % U16, 0, Coff.withAlign (addedFlags s x c) a⟩ := by
        constructor
        · exact hnm.2.2
        · exact ⟨rfl, rfl⟩
        · rfl
        · exact al1
        · refine ⟨c, hc, fun b hb => ?_⟩
          show Nat.testBit (Coff.withAlign (addedFlags s x c) a) b = true ↔ _
          rw [al3 b hb, testBit_added, hsel]
        · exact o3
        · intro c' hc' h0 hlen'
          rw [hc] at hc'
          cases hc'
          have hb := (and_bit c 7).2.1 h0
          unfold Coff.Section.data Coff.Section.fileRange
          simp only
          rw [if_neg (by
            intro hbad
            have := (and_bit _ 7).1.1 hbad
            rw [hbit7, hb] at this; cases this)]
          simp only
          have := Elf.at_read (h.at_data hs)
          rw [hlen'] at this
          exact this
        · intro c' hc' h0
          rw [hc] at hc'
          cases hc'
          have hb := (and_bit c 7).1.1 h0
          unfold Coff.Section.data Coff.Section.fileRange
          simp only
          rw [if_pos ((and_bit _ 7).1.2 (by rw [hbit7]; exact hb))]
        · intro c' hc' hex
          rw [hc] at hc'
          cases hc'
          refine ⟨s.relocs.map (relOf p.syms), ?_, by simp, ?_⟩
          · by_cases hne : s.relocs = []
            · unfold Coff.Section.relocations
              simp only [hne, List.length_nil, List.map_nil]
              rw [if_neg (by simp)]
              simp only [show ¬ (0xffff < 0) by decide, if_false]
              have : Elf.readSliceAt data (secOff (secAt o i) s).2 10 (0 % U16) = .ok ([].map id) :=
                Elf.readSliceAt_flatMap (α := List UInt8) id 10 [] (by simp) (by omega) (by simp [At, slice])
              show (Elf.readSliceAt data _ 10 (0 % U16)).bind _ = _
              rw [this]
              rfl
            · have hfit : WSectionFits ⟨nameOf (tabOf o) s.name, s.size, (secOff (secAt o i) s).1, (secOff (secAt o i) s).2, 0, s.relocs.length, 0,
                  Coff.withAlign (addedFlags s x c) a⟩ := ⟨hsz, o1, o2, by show 0 < _; decide, by show s.relocs.length < _; omega, hchl⟩
              have := Props.C32_round_trip t ⟨nameOf (tabOf o) s.name, s.size, (secOff (secAt o i) s).1, (secOff (secAt o i) s).2, 0, s.relocs.length, 0,
                  Coff.withAlign (addedFlags s x c) a⟩ hfit (s.relocs.map (relOf p.syms)) (by
                    intro y hy
                    obtain ⟨r, hr1, rfl⟩ := List.mem_map.1 hy
                    obtain ⟨f1, f2⟩ := hf.relocs s hsm r hr1
                    obtain ⟨tt, ht⟩ := h.relocs s hsm r hr1
                    have hrs := hv.relocSymbol s hsm r hr1
                    obtain ⟨so', hso1, hso2⟩ := h.sym_index hrs
                    unfold relOf RelocFits
                    rw [hso1, ht]
                    refine ⟨Nat.mod_lt _ (by decide), ?_, f2 tt ht⟩
                    show so'.index < _
                    rw [hso2]; exact symIndex_lt hv (List.getElem?_eq_getElem hrs)) (by rw [List.length_map]; omega)
                  (by rw [List.length_map]) (Coff.withAlign (if x.selection ≠ 0 then c ||| 0x1000 else c) a)
                  (by
                    rw [List.length_map, ← withAlign_relocFlags]; rfl)
                  (by
                    rw [List.length_map]
                    intro hb24
                    apply hex
                    have hb := (and_bit _ 24).1.1 hb24
                    refine (and_bit c 24).1.2 ?_
                    have hlt : (if x.selection ≠ 0 then c ||| 0x1000 else c) < 2 ^ 32 := by
                      split
                      · exact Nat.or_lt_two_pow hcl (by decide)
                      · exact hcl
                    rw [(Props.C56_alignment s.align _ a hlt hal).2.2 24 (by omega)] at hb
                    split at hb
                    · rw [Nat.testBit_or] at hb
                      have e24 : Nat.testBit 0x1000 24 = false := by decide
                      simpa [e24] using hb
                    · exact hb)
                  (hdrBytes t (s, so)) (relBytes p.syms s.relocs) data (by
                    intro b hb
                    rw [hnm.1] at hb; cases hb; exact hnm.2.1) (by rw [hd1]; exact hd2) (h.relBytes_eq o4 hne) (by omega) (h.at_relocs hs hne)
              rw [hdec] at this
              exact this.1
          · intro k r hk
            have hrm := List.mem_of_getElem? hk
            refine ⟨relOf p.syms r, by rw [List.getElem?_map, hk]; rfl, ?_, ?_, ?_⟩
            · exact Nat.mod_eq_of_lt (hf.relocs s hsm r hrm).1
            · obtain ⟨so', hso1, hso2⟩ := h.sym_index (hv.relocSymbol s hsm r hrm)
              unfold relOf
              rw [hso1]
              exact hso2
            · obtain ⟨tt, ht⟩ := h.relocs s hsm r hrm
              unfold relOf
              rw [ht]
      rw [hdec]
      exact hback

end

end Obj.CoffW

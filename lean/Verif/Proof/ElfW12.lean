import Verif.Proof.ElfW11
import Verif.Props.ElfMisc

/-! Reading the output of `elf_write`. -/

namespace Obj.ElfW
open Obj Obj.Elf Obj.Reserve Obj.Parts Obj.Spec Obj.W Obj.Spec.ElfO Obj.Spec.ElfS

/-! ## Fields fit -/

theorem comdatHdrs_fits (is64 : Bool) (nm : List UInt8 → Nat) (sy : Nat) (ix : List Nat) (M : Nat) (hM : M < wordMax is64)
    (hn : ∀ n, n ∈ [nGroup] → nm n < U32) (hsy : sy < U32) (hix : ∀ i : Nat, (ix[i]?).getD 0 < U32) :
    ∀ (ds : List Comdat) (len : Nat), endOf len (comdatSizes ds) ≤ M → ∀ h ∈ comdatHdrs nm sy ix len ds, ShdrFits is64 h
  | [], _, _, h, hh => by simp [comdatHdrs] at hh
  | d :: ds, len, hl, h, hh => by
    have hw : 2 ^ 32 ≤ wordMax is64 := by unfold wordMax; split <;> decide
    have hl' : endOf (up len 4 + (d.sections.length + 1) * 4) (comdatSizes ds) ≤ M := hl
    have hle := le_endOf (comdatSizes ds) (up len 4 + (d.sections.length + 1) * 4)
    rw [comdatHdrs.eq_2] at hh
    rcases List.mem_cons.1 hh with rfl | hh
    · have := hn nGroup (by simp)
      have := hix d.symbol
      refine ⟨by simp only; omega, by simp only; omega, ?_, ?_, ?_, ?_, ?_, ?_, ?_, ?_⟩ <;> simp only <;> omega
    · exact comdatHdrs_fits is64 nm sy ix M hM hn hsy hix ds _ hl' h hh

theorem relSizes_cons (c : Cfg) (r : Bool) (s : Section) (ss : List Section) (n : Nat) :
    endOf n (relSizes c r (s :: ss)) = endOf (endOf n (relSize1 c r s)) (relSizes c r ss) := by
  rw [relSizes.eq_2, endOf_append]

theorem secHdrs_fits (c : Cfg) (r : Bool) (nm : List UInt8 → Nat) (sy : Nat) (M : Nat) (hM : M < wordMax c.is64) (hsy : sy < U32) :
    ∀ (ss : List Section) (n len rlen : Nat), (∀ s ∈ ss, nm s.name < U32 ∧ (s.relocs ≠ [] → nm (relocName r s) < U32)) →
      (∀ s ∈ ss, s.size < wordMax c.is64 ∧ s.align < wordMax c.is64) →
      (∀ s ∈ ss, ∀ t f, sectionFlags s = some (t, f) → t < 2 ^ 32 ∧ f < wordMax c.is64) →
      endOf len (secSizes ss) ≤ M → endOf rlen (relSizes c r ss) ≤ M → n + hdrs ss ≤ U32 →
      ∀ h ∈ secHdrs c r nm sy n len rlen ss, ShdrFits c.is64 h
  | [], _, _, _, _, _, _, _, _, _, h, hh => by simp [secHdrs] at hh
  | s :: ss, n, len, rlen, hnm, hsz, hfl, hl, hr, hn, h, hh => by
    have hw : 2 ^ 32 ≤ wordMax c.is64 := by unfold wordMax; split <;> decide
    have hl' : endOf (up len s.align + s.data.length) (secSizes ss) ≤ M := hl
    have hle := le_endOf (secSizes ss) (up len s.align + s.data.length)
    rw [relSizes_cons] at hr
    have hle2 := le_endOf (relSizes c r ss) (endOf rlen (relSize1 c r s))
    rw [hdrs_cons] at hn
    have hp := hdrCount_pos s
    have hs := hsz s (by simp)
    have hnm1 := hnm s (by simp)
    have hent : entsize s.kind ≤ 1 := by unfold entsize; split <;> omega
    rw [secHdrs.eq_2] at hh
    rcases List.mem_append.1 hh with hh | hh
    · unfold secHdr1 at hh
      rcases List.mem_cons.1 hh with rfl | hh
      · have hf : ((sectionFlags s).getD (0, 0)).1 < 2 ^ 32 ∧ ((sectionFlags s).getD (0, 0)).2 < wordMax c.is64 := by
          cases hq : sectionFlags s with
          | none => simp only [Option.getD_none]; omega
          | some p => exact hfl s (by simp) p.1 p.2 hq
        refine ⟨hnm1.1, hf.1, hf.2, ?_, ?_, hs.1, ?_, ?_, hs.2, ?_⟩ <;> simp only [secHdr] <;> omega
      · by_cases he : s.relocs = []
        · rw [if_pos he] at hh; simp at hh
        · rw [if_neg he] at hh
          simp only [List.mem_singleton] at hh
          subst hh
          have h2 := hnm1.2 he
          have h3 : endOf rlen (relSize1 c r s) = up rlen c.w + s.relocs.length * c.relSize r := by unfold relSize1; rw [if_neg he]; rfl
          have h4 : c.w ≤ 8 := by unfold Cfg.w; split <;> omega
          have h5 : c.relSize r ≤ 24 := by unfold Cfg.relSize Cfg.w; cases c.is64 <;> cases r <;> decide
          refine ⟨h2, ?_, ?_, ?_, ?_, ?_, ?_, ?_, ?_, ?_⟩ <;> simp only [relHdr]
          · split <;> omega
          all_goals omega
    · exact secHdrs_fits c r nm sy M hM hsy ss _ _ _ (fun x hx => hnm x (by simp [hx])) (fun x hx => hsz x (by simp [hx]))
        (fun x hx => hfl x (by simp [hx])) hl' hr (by omega) h hh

theorem nm_lt {o : Object} {r : Bool} {x : Strs} (hx : StrsOk o r x) {n : List UInt8} (h : n ∈ shNames o r (needB o)) :
    nmOf x.T n < U32 ∧ StringAt x.shd n (nmOf x.T n) := by
  have h1 : n ∈ x.T.strings := by rw [hx.t]; exact shNames_mem o r _ h
  exact (nmOf_spec hx.wt h1).2

theorem sec_shNames {o : Object} {r need : Bool} {s : Section} (hs : s ∈ o.sections) :
    s.name ∈ shNames o r need ∧ (s.relocs ≠ [] → relocName r s ∈ shNames o r need) := by
  obtain ⟨h1, h2⟩ := secName_mem r o.sections s hs
  unfold shNames
  exact ⟨List.mem_append_right _ (List.mem_append_left _ h1), fun h => List.mem_append_right _ (List.mem_append_left _ (h2 h))⟩

theorem tail_shNames {o : Object} {r need : Bool} {n : List UInt8} (h : n ∈ [nSymtab] ++ (shndxNames need ++ ([nStrtab] ++ [nShstrtab]))) :
    n ∈ shNames o r need := by
  unfold shNames
  exact List.mem_append_right _ (List.mem_append_right _ h)

theorem group_shNames {o : Object} {r need : Bool} {d : Comdat} (h : d ∈ o.comdats) : nGroup ∈ shNames o r need := by
  unfold shNames
  apply List.mem_append_left
  rw [List.mem_replicate]
  exact ⟨by have := List.length_pos_of_mem h; omega, rfl⟩

theorem total_lt (o : Object) (hv : Valid o) : total o (needB o) < U32 := by
  have h1 := hv.sections
  have h2 := total_eq o (needB o)
  have h3 := symtabIndex_eq o
  have h4 : hdrs o.sections ≤ 2 * o.sections.length := by
    have : ∀ ss : List Section, hdrs ss ≤ 2 * ss.length := by
      intro ss
      induction ss with
      | nil => simp [hdrs]
      | cons s ss ih => rw [hdrs_cons]; have : hdrCount s ≤ 2 := by { unfold hdrCount; split <;> omega }; simp only [List.length_cons]; omega
    exact this _
  unfold strtabIndex at h2
  have h5 : ifn (needB o) 1 ≤ 1 := by unfold ifn; split <;> omega
  omega

theorem finalIx_getD (o : Object) (hv : Valid o) (i : Nat) : ((finalIx o)[i]?).getD 0 < U32 := by
  by_cases h : i < o.symbols.length
  · rw [finalIx_get o i h]
    have := (symIndex_pos o h).2
    have := hv.symbols
    have hn : num o = 1 + o.symbols.length := rfl
    simp only [Option.getD_some]; omega
  · rw [List.getElem?_eq_none (by rw [length_finalIx]; omega)]; simp

theorem allHdrs_fits (o : Object) (hv : Valid o) (c : Cfg) (r : Bool) (x : Strs) (hx : StrsOk o r x) (hf : ElfO.Fits o c.is64 r)
    (hM : L8 o c r (needB o) x.data.length x.shd.length < wordMax c.is64) : ∀ h ∈ allHdrs o c r x, ShdrFits c.is64 h := by
  have hw : 2 ^ 32 ≤ wordMax c.is64 := by unfold wordMax; split <;> decide
  have ht := total_lt o hv
  have hte := total_eq o (needB o)
  have hst : strtabIndex o (needB o) = symtabIndex o + 1 + ifn (needB o) 1 := rfl
  have hsy := symtabIndex_eq o
  have hL1 : L1 o c = endOf c.ehdrSize (comdatSizes o.comdats) := rfl
  have hL2 : L2 o c = endOf (L1 o c) (secSizes o.sections) := rfl
  have hL2' := le_endOf (secSizes o.sections) (L1 o c)
  have hL6 : L6 o c r (needB o) x.data.length = endOf (L4 o c (needB o) + x.data.length) (relSizes c r o.sections) := rfl
  have hL6' := le_endOf (relSizes c r o.sections) (L4 o c (needB o) + x.data.length)
  have hL4' := le_endOf (shndxSizes (needB o) (num o)) (L3 o c)
  have hL4 : L4 o c (needB o) = endOf (L3 o c) (shndxSizes (needB o) (num o)) := rfl
  have hL3 : L3 o c = up (L2 o c) c.w + num o * c.symSize := rfl
  have hupL2 := le_up (L2 o c) c.w
  have hL8 : L8 o c r (needB o) x.data.length x.shd.length =
      up (L6 o c r (needB o) x.data.length + x.shd.length) c.w + total o (needB o) * c.shdrSize := rfl
  have hu8 := le_up (L6 o c r (needB o) x.data.length + x.shd.length) c.w
  generalize hMM : L8 o c r (needB o) x.data.length x.shd.length = M at *
  intro h hh
  unfold allHdrs at hh
  rcases List.mem_append.1 hh with hh | hh
  · by_cases he : o.comdats = []
    · rw [he] at hh; simp [comdatHdrs] at hh
    · obtain ⟨d, hd⟩ := List.exists_mem_of_ne_nil _ he
      exact comdatHdrs_fits c.is64 _ _ _ M hM (by intro n hn; simp only [List.mem_singleton] at hn; subst hn; exact (nm_lt hx (group_shNames hd)).1)
        (by omega) (finalIx_getD o hv) o.comdats _ (by omega) h hh
  rcases List.mem_append.1 hh with hh | hh
  · exact secHdrs_fits c r _ _ M hM (by omega) o.sections _ _ _
      (fun s hs => ⟨(nm_lt hx (sec_shNames hs).1).1, fun hr => (nm_lt hx ((sec_shNames hs).2 hr)).1⟩)
      hf.size hf.secFlags (by omega) (by omega) (by omega) h hh
  · have n1 := (nm_lt hx (tail_shNames (n := nSymtab) (by simp))).1
    have n2 := (nm_lt hx (tail_shNames (n := nStrtab) (by simp))).1
    have n3 := (nm_lt hx (tail_shNames (n := nShstrtab) (by simp))).1
    have hw8 : c.w ≤ 8 := by unfold Cfg.w; split <;> omega
    have hss : c.symSize ≤ 24 := by unfold Cfg.symSize; split <;> omega
    have hnl : nLocal o ≤ o.symbols.length := List.length_filter_le _ _
    have hsyl := hv.symbols
    unfold tailHdrs at hh
    rcases List.mem_append.1 hh with hh | hh
    · simp only [List.mem_singleton] at hh
      subst hh
      refine ⟨n1, ?_, ?_, ?_, ?_, ?_, ?_, ?_, ?_, ?_⟩ <;> simp only <;> omega
    rcases List.mem_append.1 hh with hh | hh
    · cases hb : needB o with
      | false => rw [hb] at hh; simp at hh
      | true =>
        have n4 := (nm_lt hx (tail_shNames (n := nShndx) (by rw [hb]; simp [shndxNames]))).1
        have hL4b : L4 o c (needB o) = up (L3 o c) 4 + num o * 4 := by rw [hb]; rfl
        rw [hb, if_pos rfl] at hh
        simp only [List.mem_singleton] at hh
        subst hh
        refine ⟨n4, ?_, ?_, ?_, ?_, ?_, ?_, ?_, ?_, ?_⟩ <;> simp only <;> omega
    · simp only [List.mem_cons, List.not_mem_nil, or_false] at hh
      rcases hh with rfl | rfl
      · refine ⟨n2, ?_, ?_, ?_, ?_, ?_, ?_, ?_, ?_, ?_⟩ <;> simp only <;> omega
      · refine ⟨n3, ?_, ?_, ?_, ?_, ?_, ?_, ?_, ?_, ?_⟩ <;> simp only <;> omega

/-! ## Header positions in the table -/

section Get
variable {o : Object} {c : Cfg} {r : Bool} {x : Strs} {null : Shdr}

theorem get_comdat {i : Nat} {d : Comdat} (h : o.comdats[i]? = some d) :
    (null :: allHdrs o c r x)[1 + i]? = some ⟨nmOf x.T nGroup, 17, 0, 0, up (endOf c.ehdrSize (comdatSizes (o.comdats.take i))) 4,
      (d.sections.length + 1) * 4, symtabIndex o, ((finalIx o)[d.symbol]?).getD 0, 4, 4⟩ := by
  rw [show 1 + i = i + 1 by omega, List.getElem?_cons_succ]
  unfold allHdrs
  rw [List.getElem?_append_left (by rw [length_comdatHdrs]; exact length_of_getElem? h), comdatHdrs_get _ _ _ _ _ _ _ h]

theorem get_hdrs (k : Nat) : (null :: allHdrs o c r x)[1 + o.comdats.length + k]? =
    (secHdrs c r (nmOf x.T) (symtabIndex o) (1 + o.comdats.length) (L1 o c) (L4 o c (needB o) + x.data.length) o.sections ++ tailHdrs o c r x)[k]? := by
  rw [show 1 + o.comdats.length + k = (o.comdats.length + k) + 1 by omega, List.getElem?_cons_succ]
  unfold allHdrs
  rw [List.getElem?_append_right (by rw [length_comdatHdrs]; omega), length_comdatHdrs, Nat.add_sub_cancel_left]

theorem get_section {i : Nat} {s : Section} (h : o.sections[i]? = some s) :
    (null :: allHdrs o c r x)[secIndex o i]? = some (secHdr (nmOf x.T) (endOf (L1 o c) (secSizes (o.sections.take i))) s) ∧
    (s.relocs ≠ [] → (null :: allHdrs o c r x)[secIndex o i + 1]? = some (relHdr c r (nmOf x.T) (symtabIndex o) (secIndex o i)
      (endOf (L4 o c (needB o) + x.data.length) (relSizes c r (o.sections.take i))) s)) := by
  obtain ⟨h1, h2⟩ := secHdrs_get c r (nmOf x.T) (symtabIndex o) (1 + o.comdats.length) (L1 o c) (L4 o c (needB o) + x.data.length) h
  refine ⟨?_, fun hr => ?_⟩
  · rw [secIndex_eq, get_hdrs, List.getElem?_append_left (length_of_getElem? h1), h1]
  · rw [secIndex_eq, Nat.add_assoc _ _ 1, get_hdrs, List.getElem?_append_left (length_of_getElem? (h2 hr)), h2 hr]

theorem get_tail (k : Nat) : (null :: allHdrs o c r x)[symtabIndex o + k]? = (tailHdrs o c r x)[k]? := by
  rw [symtabIndex_eq, Nat.add_assoc _ _ k, get_hdrs, List.getElem?_append_right (by rw [length_secHdrs]; omega), length_secHdrs, Nat.add_sub_cancel_left]

theorem get_symtab : (null :: allHdrs o c r x)[symtabIndex o]? =
    some ⟨nmOf x.T nSymtab, 2, 0, 0, up (L2 o c) c.w, num o * c.symSize, strtabIndex o (needB o), 1 + nLocal o, c.w, c.symSize⟩ :=
  get_tail 0

theorem get_strtab : (null :: allHdrs o c r x)[strtabIndex o (needB o)]? =
    some ⟨nmOf x.T nStrtab, 3, 0, 0, L4 o c (needB o), x.data.length, 0, 0, 1, 0⟩ := by
  have := get_tail (o := o) (c := c) (r := r) (x := x) (null := null) (1 + ifn (needB o) 1)
  rw [← Nat.add_assoc] at this
  show (null :: allHdrs o c r x)[symtabIndex o + 1 + ifn (needB o) 1]? = _
  rw [this]
  unfold tailHdrs ifn
  cases needB o <;> rfl

theorem get_shstrtab : (null :: allHdrs o c r x)[strtabIndex o (needB o) + 1]? =
    some ⟨nmOf x.T nShstrtab, 3, 0, 0, L6 o c r (needB o) x.data.length, x.shd.length, 0, 0, 1, 0⟩ := by
  have := get_tail (o := o) (c := c) (r := r) (x := x) (null := null) (1 + ifn (needB o) 1 + 1)
  rw [← Nat.add_assoc, ← Nat.add_assoc] at this
  show (null :: allHdrs o c r x)[symtabIndex o + 1 + ifn (needB o) 1 + 1]? = _
  rw [this]
  unfold tailHdrs ifn
  cases needB o <;> rfl

end Get

end Obj.ElfW

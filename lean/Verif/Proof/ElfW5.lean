import Verif.Proof.ElfW4

/-! The reserving phase of `elf_write`: the tables, the tail, and the whole plan. -/

namespace Obj.ElfW
open Obj Obj.Elf Obj.Reserve Obj.Parts Obj.Spec Obj.W Obj.Spec.ElfO

/-- Index of `.strtab`. -/
def strtabIndex (o : Object) (need : Bool) : Nat := symtabIndex o + 1 + ifn need 1

/-- The section names but the last. -/
def shNames3 (o : Object) (r need : Bool) : List (List UInt8) :=
  List.replicate o.comdats.length nGroup ++ (secNames r o.sections ++ ([nSymtab] ++ (shndxNames need ++ [nStrtab])))

theorem symtabIndex_eq (o : Object) : symtabIndex o = 1 + o.comdats.length + hdrs o.sections := by
  unfold symtabIndex; rw [secIndex_eq, List.take_length]

theorem nod (l : List (List UInt8)) : (addAll StrTab.new l).strings.Nodup := (StrTab.addAll_strings l StrTab.new List.nodup_nil).1

theorem tabw (o : Object) (hv : Valid o) (r need : Bool) (l m : List (List UInt8)) (k : Nat) (h : l ++ m = shNames o r need)
    (hk : k ≤ m.length) : TabW (addAll StrTab.new l) k := by
  have hsec := hv.sections
  have hh := hdrs_le o.sections
  have hn1 := ifn_le need 1
  have hl := length_shNames o r need
  rw [← h, List.length_append] at hl
  exact TabW.addAll l (TabW.new (by omega))

theorem pre (o : Object) (r need : Bool) (l m : List (List UInt8)) (h : l ++ m = shNames o r need) :
    (addAll StrTab.new l).strings <+: (shT o r need).strings := by
  unfold shT
  rw [← h, addAll_append]
  exact addAll_prefix (nod _) _

/-- The writer after the string table. -/
def W3 (o : Object) (c : Cfg) (r need : Bool) (U : StrTab) (data : List UInt8) : Wtr :=
  ⟨c, false, L4 o c need + data.length, [], ⟨0, 0, 0, strtabIndex o need + 1, 0⟩, 0,
    ⟨addAll StrTab.new (shNames3 o r need), none, 0, 0, 0, []⟩, true,
    ⟨U, some (idOf (shT o r need) nStrtab), strtabIndex o need, L4 o c need, data.length, data⟩,
    ⟨some (idOf (shT o r need) nSymtab), symtabIndex o, up (L2 o c) c.w, num o, 0⟩,
    ⟨need, if need then some (idOf (shT o r need) nShndx) else none, ifn need (up (L3 o c) 4), []⟩⟩

theorem symNames_nul (o : Object) (hv : Valid o) : ∀ s ∈ symNames o.symbols, (0 : UInt8) ∉ s := by
  intro n hn
  obtain ⟨s, hs, rfl⟩ := List.mem_map.1 hn
  obtain ⟨hs, hh⟩ := List.mem_filter.1 hs
  have := hv.symbolName s hs
  unfold storedName at this
  rwa [if_neg (by intro hk; unfold hasName at hh; rw [hk] at hh; revert hh; simp)] at this

theorem planTables_sat (o : Object) (hv : Valid o) (c : Cfg) (r need : Bool) (E : Prop)
    (hE : 2 ^ 32 ≤ storedSize (names o) + 64 → E) :
    Res.Sat E (planTables (W2 c (L2 o c) (adv 0 (o.comdats.length + hdrs o.sections))
        (addAll (addAll StrTab.new (List.replicate o.comdats.length nGroup)) (secNames r o.sections)) (stT o) (num o) need)) fun w =>
      ∃ U data, w = W3 o c r need U data ∧ U.strings = (stT o).strings ∧ Written U data ∧
        data.length ≤ 1 + storedSize (stT o).strings := by
  obtain ⟨b1, b2, b3, b4, b5, b6, b7, b8, b9⟩ := bounds o c r need 0 0
  have hroom := hv.room
  have hsec := hv.sections
  have hh := hdrs_le o.sections
  have hn1 := ifn_le need 1
  have hsx := symtabIndex_eq o
  have hnx : nx (adv 0 (o.comdats.length + hdrs o.sections)) = symtabIndex o := by
    rw [nx_adv, hsx]; show 1 + _ = _; omega
  rw [← addAll_append]
  unfold planTables
  rw [reserveSymtabIndex_eq (T := shT o r need) (k := 0) (by rfl) (by rfl) (by rfl)
    (by exact tabw o hv r need _ ([nSymtab] ++ (shndxNames need ++ ([nStrtab] ++ [nShstrtab]))) _
          (by unfold shNames; simp only [List.append_assoc]) (by simp))
    (by show nx (adv 0 (o.comdats.length + hdrs o.sections)) + 1 < U32; omega)
    (by show (addAll (addAll _ _) _).strings <+: _
        rw [← addAll_append]
        exact pre o r need _ (shndxNames need ++ ([nStrtab] ++ [nShstrtab])) (by unfold shNames; simp only [List.append_assoc]))]
  simp only [Res.bind_eq, Res.ok_bind]
  rw [reserveSymtab_eq (by rfl) (by show 1 + o.symbols.length ≠ 0; omega) (by show L2 o c + c.w + num o * c.symSize < U64; omega)]
  simp only [Res.ok_bind]
  rw [reserveShndxIndexIf_eq (T := shT o r need) (k := 0) (by rfl) (by rfl) (by rfl)
    (by show TabW (addAll (addAll _ _) _) _
        rw [← addAll_append]
        exact tabw o hv r need _ (shndxNames need ++ ([nStrtab] ++ [nShstrtab])) _
          (by unfold shNames; simp only [List.append_assoc]) (by simp))
    (by show nx (adv (adv 0 (o.comdats.length + hdrs o.sections)) 1) + 1 < U32; rw [nx_adv]; omega)
    (by show (addAll (addAll (addAll _ _) _) (shndxNames need)).strings <+: _
        rw [← addAll_append, ← addAll_append]
        exact pre o r need _ ([nStrtab] ++ [nShstrtab]) (by unfold shNames; simp only [List.append_assoc]))]
  simp only [Res.ok_bind]
  rw [reserveShndx_eq (by rfl) (by show L3 o c + 4 + num o * 4 < U64; omega)]
  simp only [Res.ok_bind]
  rw [reserveStrtabIndex_eq (T := shT o r need) (k := 0) (by rfl) (by rfl) (by rfl)
    (by show TabW (addAll (addAll (addAll _ _) _) (shndxNames need)) _
        rw [← addAll_append, ← addAll_append]
        exact tabw o hv r need _ ([nStrtab] ++ [nShstrtab]) _
          (by unfold shNames; simp only [List.append_assoc]) (by simp))
    (by show nx (adv (adv (adv 0 (o.comdats.length + hdrs o.sections)) 1) (ifn need 1)) + 1 < U32
        rw [nx_adv, nx_adv]; omega)
    (by show (addAll (addAll (addAll (addAll _ _) _) (shndxNames need)) _).strings <+: _
        rw [← addAll_append, ← addAll_append, ← addAll_append]
        exact pre o r need _ ([nShstrtab]) (by unfold shNames; simp only [List.append_assoc]))]
  simp only [Res.ok_bind]
  have hst := storedSize_tables o r need
  refine (reserveStrtab_sat (ss := symNames o.symbols) (by rfl) (by rfl) (by rfl) (symNames_nul o hv)
    (by show L4 o c need + 1 + U32 < U64; omega)).mono ?_ ?_
  · intro h
    apply hE
    have : storedSize (stT o).strings = storedSize (addAll StrTab.new (symNames o.symbols)).strings := rfl
    omega
  · rintro w ⟨U, data, rfl, h1, h2, h3⟩
    refine ⟨U, data, ?_, h1, h2, h3⟩
    have e1 : adv (adv (adv (adv 0 (o.comdats.length + hdrs o.sections)) 1) (ifn need 1)) 1 = strtabIndex o need + 1 := by
      rw [adv_adv, adv_adv, adv_adv]
      unfold strtabIndex
      rw [hsx]
      unfold adv
      rw [if_neg (by omega)]
      show 1 + _ = _
      omega
    have e2 : nx (adv (adv (adv 0 (o.comdats.length + hdrs o.sections)) 1) (ifn need 1)) = strtabIndex o need := by
      rw [nx_adv, nx_adv, hnx]; rfl
    have e3 : addAll (addAll (addAll (addAll StrTab.new (List.replicate o.comdats.length nGroup ++ secNames r o.sections)) [nSymtab])
        (shndxNames need)) [nStrtab] = addAll StrTab.new (shNames3 o r need) := by
      rw [← addAll_append, ← addAll_append, ← addAll_append]; unfold shNames3; simp only [List.append_assoc]
    show Wtr.mk c false (L4 o c need + data.length) [] ⟨0, 0, 0, adv (adv (adv (adv 0 _) 1) (ifn need 1)) 1, 0⟩ 0
      ⟨addAll (addAll (addAll (addAll StrTab.new _) [nSymtab]) (shndxNames need)) [nStrtab], none, 0, 0, 0, []⟩ true
      ⟨U, some (idOf (shT o r need) nStrtab), nx (adv (adv (adv 0 _) 1) (ifn need 1)), L4 o c need, data.length, data⟩
      ⟨some (idOf (shT o r need) nSymtab), nx (adv 0 _), up (L2 o c) c.w, num o, 0⟩
      ⟨need, if need then some (idOf (shT o r need) nShndx) else none, ifn need (up (L3 o c) 4), []⟩ = _
    rw [e1, e2, e3, hnx]
    rfl

/-- The writer at the end of the reserving phase. -/
def W4 (o : Object) (c : Cfg) (r need : Bool) (U : StrTab) (data : List UInt8) (T : StrTab) (shd : List UInt8) : Wtr :=
  ⟨c, false, L8 o c r need data.length shd.length, [],
    ⟨0, 0, up (L6 o c r need data.length + shd.length) c.w, total o need, strtabIndex o need + 1⟩, 0,
    ⟨T, some (idOf (shT o r need) nShstrtab), 0, L6 o c r need data.length, shd.length, shd⟩, true,
    ⟨U, some (idOf (shT o r need) nStrtab), strtabIndex o need, L4 o c need, data.length, data⟩,
    ⟨some (idOf (shT o r need) nSymtab), symtabIndex o, up (L2 o c) c.w, num o, 0⟩,
    ⟨need, if need then some (idOf (shT o r need) nShndx) else none, ifn need (up (L3 o c) 4), []⟩⟩

theorem secNames_nul {r : Bool} : ∀ ss : List Section, (∀ s ∈ ss, (0 : UInt8) ∉ s.name) → ∀ n ∈ secNames r ss, (0 : UInt8) ∉ n
  | [], _, n, hn => by simp [secNames] at hn
  | s :: ss, h, n, hn => by
    have ih := secNames_nul (r := r) ss (fun x hx => h x (by simp [hx]))
    unfold secNames at hn
    rcases List.mem_cons.1 hn with rfl | hn
    · exact h s (by simp)
    rcases List.mem_append.1 hn with hn | hn
    · split at hn
      · simp at hn
      · rw [List.mem_singleton] at hn; subst hn
        exact nul_relocName (h s (by simp))
    · exact ih n hn

theorem shNames_tail_nul (need : Bool) : ∀ n ∈ [nSymtab] ++ (shndxNames need ++ ([nStrtab] ++ [nShstrtab])), (0 : UInt8) ∉ n := by
  cases need <;> decide

theorem shNames_nul (o : Object) (hv : Valid o) (r need : Bool) : ∀ n ∈ shNames o r need, (0 : UInt8) ∉ n := by
  intro n hn
  unfold shNames at hn
  rcases List.mem_append.1 hn with hn | hn
  · rw [(List.mem_replicate.1 hn).2]; decide
  rcases List.mem_append.1 hn with hn | hn
  · exact secNames_nul o.sections hv.sectionName n hn
  · exact shNames_tail_nul need n hn

theorem total_eq (o : Object) (need : Bool) : total o need = strtabIndex o need + 2 := by
  have := symtabIndex_eq o
  unfold total strtabIndex; omega

theorem planTail_sat (o : Object) (hv : Valid o) (c : Cfg) (r need : Bool) (E : Prop)
    (hE : 2 ^ 32 ≤ storedSize (names o) + 64 → E) (U : StrTab) (data : List UInt8) (hd : data.length < U32) :
    Res.Sat E (planTail o r (secs0 o c r (shT o r need)) (W3 o c r need U data)) fun x =>
      ∃ T shd, x = (relOffs c r (L4 o c need + data.length) o.sections (secs0 o c r (shT o r need)), W4 o c r need U data T shd) ∧
        T.strings = (shT o r need).strings ∧ Written T shd ∧ shd.length ≤ 1 + storedSize (shT o r need).strings := by
  obtain ⟨b1, b2, b3, b4, b5, b6, b7, b8, b9⟩ := bounds o c r need data.length 0
  have hroom := hv.room
  have hsec := hv.sections
  have hh := hdrs_le o.sections
  have hn1 := ifn_le need 1
  have hsx := symtabIndex_eq o
  have hst : strtabIndex o need = symtabIndex o + 1 + ifn need 1 := rfl
  unfold planTail
  rw [reserveRelocs_eq c r o.sections _ _ (by rfl) (by show L4 o c need + data.length + _ < U64; omega)
    (by rw [secs0, length_secOffs])]
  simp only [Res.bind_eq, Res.ok_bind]
  rw [reserveShstrtabIndex_eq (T := shT o r need) (k := 0) (by rfl) (by rfl) (by rfl)
    (by exact tabw o hv r need _ [nShstrtab] _ (by unfold shNames3 shNames; simp only [List.append_assoc]) (by simp))
    (by show nx (strtabIndex o need + 1) + 1 < U32
        unfold nx; rw [if_neg (by omega)]; omega)
    (by show (addAll (addAll _ _) _).strings <+: _
        rw [← addAll_append]
        exact pre o r need _ [] (by unfold shNames3 shNames; simp only [List.append_assoc, List.append_nil]))]
  simp only [Res.ok_bind]
  have hst2 := storedSize_tables o r need
  refine Res.Sat.bind ((reserveShstrtab_sat (ss := shNames o r need) (by rfl)
    (by show adv (strtabIndex o need + 1) 1 ≠ 0; unfold adv; rw [if_neg (by omega)]; omega)
    (by show addAll (addAll _ _) _ = _
        rw [← addAll_append]
        unfold shNames3 shNames; simp only [List.append_assoc]) (shNames_nul o hv r need)
    (by show L6 o c r need data.length + 1 + U32 < U64; omega)).mono ?_ (fun a h => h)) ?_
  · intro h
    apply hE
    have : storedSize (shT o r need).strings = storedSize (addAll StrTab.new (shNames o r need)).strings := rfl
    omega
  · rintro w ⟨T, shd, rfl, h1, h2, h3⟩
    have hsl := h2.len
    have e1 : adv (strtabIndex o need + 1) 1 = total o need := by
      rw [total_eq]; unfold adv; rw [if_neg (by omega)]; unfold nx; rw [if_neg (by omega)]
    have e2 : nx (strtabIndex o need + 1) = strtabIndex o need + 1 := by
      unfold nx; rw [if_neg (by omega)]
    rw [reserveHeaders_eq (by rfl) (by show adv (strtabIndex o need + 1) 1 ≠ 0; rw [e1, total_eq]; omega)
      (by show L6 o c r need data.length + shd.length + c.w + adv (strtabIndex o need + 1) 1 * c.shdrSize < U64
          rw [e1]
          generalize total o need * c.shdrSize = y at *
          omega)]
    refine ⟨T, shd, ?_, h1, h2, h3⟩
    show (relOffs c r _ _ _, Wtr.mk c false (up (L6 o c r need data.length + shd.length) c.w + adv (strtabIndex o need + 1) 1 * c.shdrSize) []
      ⟨0, 0, up (L6 o c r need data.length + shd.length) c.w, adv (strtabIndex o need + 1) 1, nx (strtabIndex o need + 1)⟩ 0
      ⟨T, some (idOf (shT o r need) nShstrtab), 0, L6 o c r need data.length, shd.length, shd⟩ true _ _ _) = _
    rw [e1, e2]
    rfl

/-- What the reserving phase returns. -/
def planOf (o : Object) (c : Cfg) (r need : Bool) (a : Nat) : Plan :=
  ⟨comdatOffs (shT o r need) c.ehdrSize o.comdats,
    relOffs c r (L4 o c need + a) o.sections (secs0 o c r (shT o r need)),
    finalIx o, o.symbols.map (symId (stT o)), 1 + nLocal o⟩

theorem plan_sat (o : Object) (hv : Valid o) (c : Cfg) (r : Bool) (E : Prop) (hC : ∀ d ∈ o.comdats, d.kind ≠ 1 → E)
    (hE : 2 ^ 32 ≤ storedSize (names o) + 64 → E) :
    Res.Sat E (plan o r (Wtr.new c)) fun x => ∃ U data T shd,
      x = (planOf o c r (needB o) data.length, W4 o c r (needB o) U data T shd) ∧
      (U.strings = (stT o).strings ∧ Written U data ∧ data.length ≤ 1 + storedSize (stT o).strings) ∧
      (T.strings = (shT o r (needB o)).strings ∧ Written T shd ∧ shd.length ≤ 1 + storedSize (shT o r (needB o)).strings) ∧
      ∀ d ∈ o.comdats, d.kind = 1 := by
  unfold plan
  refine Res.Sat.bind (planSections_sat o hv c r (needB o) E hC) ?_
  rintro x ⟨rfl, hk⟩
  simp only
  rw [planSymbols_eq o hv]
  simp only [Res.bind_eq, Res.ok_bind]
  refine Res.Sat.bind (planTables_sat o hv c r (needB o) E hE) ?_
  rintro w ⟨U, data, rfl, h1, h2, h3⟩
  refine Res.Sat.bind (planTail_sat o hv c r (needB o) E hE U data h2.len) ?_
  rintro x ⟨T, shd, rfl, h4, h5, h6⟩
  exact ⟨U, data, T, shd, rfl, ⟨h1, h2, h3⟩, ⟨h4, h5, h6⟩, hk⟩

end Obj.ElfW

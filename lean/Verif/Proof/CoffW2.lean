import Verif.Proof.CoffW1
import Verif.Proof.StrTab

/-! The plan of `coff_write`. -/

namespace Obj.CoffW
open Obj Obj.Reserve Obj.Parts Obj.Spec Obj.Spec.CoffO
open Obj.ElfW (check tabAdd check_ok addU32_eq addU64_eq mulU64_eq idOf TabW tabAdd_eq length_of_getElem? storedSize_append storedSize_addAll
  storedSize_filter addAll_append addAll_cons)

/-- All names, in the order in which they are added. -/
def allNames (o : W.Object) : List (List UInt8) := o.sections.map (·.name) ++ o.symbols.flatMap (symNames (uniqueName o))

/-- The string table before it is written. -/
def tabOf (o : W.Object) : StrTab := addNms StrTab.new (allNames o)

/-! ## The unique name -/

theorem definedExternal_iff (s : W.Symbol) : definedExternal s = true ↔ StrongExternal s := by
  unfold definedExternal StrongExternal
  have h1 : s.section_.id?.isSome = true ↔ ∃ i, s.section_ = .inSec i := by
    cases s.section_ <;> simp [W.SymSection.id?]
  simp only [Bool.and_eq_true, Bool.not_eq_true', Bool.or_eq_true, beq_iff_eq, h1, and_assoc]

theorem uniqueName_cases (o : W.Object) : uniqueName o = [] ∨ ∃ x ∈ o.symbols, StrongExternal x ∧ uniqueName o = x.name := by
  have key : ∀ (p : W.Symbol → Bool) (s : W.Symbol), (o.symbols.filter definedExternal).find? p = some s → s ∈ o.symbols ∧ StrongExternal s := by
    intro p s hs
    have h := List.mem_of_find?_eq_some hs
    rw [List.mem_filter] at h
    exact ⟨h.1, (definedExternal_iff s).1 h.2⟩
  have second : ∀ r, (match (o.symbols.filter definedExternal).find? (fun s => s.section_.id?.isSome) with
      | some s => s.name
      | none => []) = r → r = [] ∨ ∃ x ∈ o.symbols, StrongExternal x ∧ r = x.name := by
    intro r hr
    cases h5 : (o.symbols.filter definedExternal).find? (fun s => s.section_.id?.isSome) with
    | none => rw [h5] at hr; exact .inl hr.symm
    | some s => rw [h5] at hr; exact .inr ⟨s, (key _ s h5).1, (key _ s h5).2, hr.symm⟩
  unfold uniqueName
  simp only
  cases h3 : (o.symbols.filter definedExternal).find? (outsideComdat o) with
  | some s =>
    simp only
    by_cases hn : s.name = []
    · rw [if_pos hn]; exact second _ rfl
    · rw [if_neg hn]; exact .inr ⟨s, (key _ s h3).1, (key _ s h3).2, rfl⟩
  | none =>
    simp only [if_true]
    exact second _ rfl

theorem uniqueName_ne (o : W.Object) (hx : ∃ x ∈ o.symbols, StrongExternal x) (hn : ∀ x ∈ o.symbols, x.name ≠ []) : uniqueName o ≠ [] := by
  obtain ⟨x, h1, h2⟩ := hx
  have hm : x ∈ o.symbols.filter definedExternal := by
    rw [List.mem_filter]; exact ⟨h1, (definedExternal_iff x).2 h2⟩
  have hnf : ∀ y ∈ o.symbols.filter definedExternal, y.name ≠ [] := fun y hy => hn y (List.mem_filter.1 hy).1
  unfold uniqueName
  simp only
  cases h3 : (o.symbols.filter definedExternal).find? (outsideComdat o) with
  | some s =>
    have h := hnf s (List.mem_of_find?_eq_some h3)
    simp only
    rw [if_neg h]; exact h
  | none =>
    simp only [if_true]
    have h4 := List.find?_eq_none.1 h3 x hm
    cases h5 : (o.symbols.filter definedExternal).find? (fun s => s.section_.id?.isSome) with
    | some s => exact hnf s (List.mem_of_find?_eq_some h5)
    | none =>
      have h6 := List.find?_eq_none.1 h5 x hm
      exfalso
      apply h4
      unfold outsideComdat
      cases hi : x.section_.id? with
      | none => rfl
      | some i => rw [hi] at h6; simp at h6

/-- The suffix of the names of default symbols. -/
def suffixOf (o : W.Object) : List UInt8 := if uniqueName o = [] then [] else 46 :: uniqueName o

theorem weakName_eq (o : W.Object) (s : W.Symbol) : weakName (uniqueName o) s = ".weak.".toUTF8.toList ++ s.name ++ suffixOf o := by
  have e : ".weak.".toUTF8.toList = nWeak := by decide +kernel
  rw [e]
  unfold weakName suffixOf
  split <;> simp

theorem suffixOk (o : W.Object) : SuffixOk o (suffixOf o) := by
  constructor
  · rcases uniqueName_cases o with h | ⟨x, h1, h2, h3⟩
    · exact .inl (if_pos h)
    · unfold suffixOf
      split
      · exact .inl rfl
      · exact .inr ⟨x, h1, h2, by rw [h3]⟩
  · intro hx hn
    have := uniqueName_ne o hx hn
    rcases uniqueName_cases o with h | ⟨x, h1, h2, h3⟩
    · exact absurd h this
    · exact ⟨x, h1, h2, by unfold suffixOf; rw [if_neg this, h3]⟩

theorem nul_uniqueName (o : W.Object) (hv : Valid o) : (0 : UInt8) ∉ uniqueName o := by
  rcases uniqueName_cases o with h | ⟨x, h1, -, h3⟩
  · rw [h]; simp
  · rw [h3]; exact hv.symbolName x h1

theorem nul_allNames (o : W.Object) (hv : Valid o) : ∀ s ∈ allNames o, (0 : UInt8) ∉ s := by
  intro s hs
  rcases List.mem_append.1 hs with h | h
  · obtain ⟨x, h1, rfl⟩ := List.mem_map.1 h
    exact hv.sectionName x h1
  · obtain ⟨x, h1, h2⟩ := List.mem_flatMap.1 h
    exact mem_symNames (hv.symbolName x h1) (nul_uniqueName o hv) s h2

/-! ## Size of the string table -/

theorem storedSize_cons (s : List UInt8) (l : List (List UInt8)) : storedSize (s :: l) = s.length + 1 + storedSize l := by simp [storedSize]

theorem length_le_storedSize {s : List UInt8} {l : List (List UInt8)} (h : s ∈ l) : s.length + 1 ≤ storedSize l := by
  induction l with
  | nil => simp at h
  | cons a l ih =>
    rw [storedSize_cons]
    rcases List.mem_cons.1 h with rfl | h
    · omega
    · have := ih h; omega

theorem length_uniqueName (o : W.Object) : (uniqueName o).length ≤ storedSize (o.symbols.map (·.name)) := by
  rcases uniqueName_cases o with h | ⟨x, h1, -, h3⟩
  · rw [h]; simp
  · rw [h3]
    have := length_le_storedSize (List.mem_map_of_mem (f := fun s : W.Symbol => s.name) h1)
    omega

theorem storedSize_long (s : W.Symbol) : storedSize ([storedName s].filter fun s => decide (8 < s.length)) ≤ s.name.length + 1 := by
  have e : nFile.length = 5 := by decide
  unfold storedName
  split
  · simp [storedSize, e]
  · by_cases h : 8 < s.name.length
    · simp [storedSize, h]
    · simp [storedSize, h]

theorem storedSize_syms (u : List UInt8) (m : Nat) (hm : u.length ≤ m) : ∀ (ss : List W.Symbol),
    storedSize ((ss.flatMap (symNames u)).filter fun s => decide (8 < s.length)) ≤
      storedSize (ss.map (·.name)) + (ss.map fun s => if s.weak then m + s.name.length + 16 else 0).sum
  | [] => by simp [storedSize]
  | s :: ss => by
    have ih := storedSize_syms u m hm ss
    have h1 := storedSize_long s
    simp only [List.flatMap_cons, List.filter_append, storedSize_append, List.map_cons, List.sum_cons, storedSize_cons]
    have h2 : storedSize ((symNames u s).filter fun s => decide (8 < s.length)) ≤
        s.name.length + 1 + (if s.weak then m + s.name.length + 16 else 0) := by
      unfold symNames
      rw [List.filter_append, storedSize_append]
      have h3 : storedSize ((if s.weak then [weakName u s] else []).filter fun s => decide (8 < s.length)) ≤
          if s.weak then m + s.name.length + 16 else 0 := by
        refine Nat.le_trans (storedSize_filter _ _) ?_
        split
        · have e : nWeak.length = 6 := by decide
          unfold weakName
          split <;> simp [storedSize, e] <;> omega
        · simp [storedSize]
      omega
    omega

theorem storedSize_tab (o : W.Object) : storedSize (tabOf o).strings ≤ nameBytes o := by
  unfold tabOf
  rw [addNms_table]
  have h1 := storedSize_addAll ((allNames o).filter fun s => decide (8 < s.length)) StrTab.new
  have h2 : storedSize StrTab.new.strings = 0 := rfl
  have h3 : storedSize ((allNames o).filter fun s => decide (8 < s.length)) ≤ nameBytes o := by
    unfold allNames nameBytes
    rw [List.filter_append, storedSize_append]
    have := storedSize_filter (fun s => decide (8 < s.length)) (o.sections.map (·.name))
    have := storedSize_syms (uniqueName o) _ (length_uniqueName o) o.symbols
    omega
  omega

theorem encStrtab_sat (o : W.Object) (hv : Valid o) :
    Res.Sat (2 ^ 32 ≤ nameBytes o + 4) (encStrtab (tabOf o)) fun r =>
      (tabOf o).write 4 = (.ok r.1, r.2.1, r.2.2) ∧ r.1 = 4 + r.2.2.length ∧ r.1 < U32 := by
  have hs := storedSize_tab o
  have hn := nul_allNames o hv
  unfold tabOf at hs ⊢
  rw [addNms_table] at hs ⊢
  generalize hF : (allNames o).filter (fun s => decide (8 < s.length)) = F at hs ⊢
  obtain ⟨offsets, out, h1, -, h3, h4⟩ := StrTab.write_merge_aux [0, 0, 0, 0] F
    (fun s h => hn s (by rw [← hF] at h; exact (List.mem_filter.1 h).1)) (.inr (.inl rfl))
  have h5 := storedSize_filter (fun s => decide (Maximal (addAll StrTab.new F).strings s)) (addAll StrTab.new F).strings
  have e : [(0 : UInt8), 0, 0, 0].length = 4 := rfl
  rw [e] at h1
  unfold encStrtab
  rw [h1]
  by_cases hb : 4 + out.length < U32
  · rw [if_pos hb]
    exact ⟨rfl, rfl, hb⟩
  · rw [if_neg hb]
    show 2 ^ 32 ≤ _
    omega

/-! ## The plan -/

/-- Where the symbol table starts. -/
def symtabAt (o : W.Object) : Nat := endOf (20 + 40 * o.sections.length) (o.sections.flatMap secSizes)

/-- Number of records of the symbol table. -/
def total (o : W.Object) : Nat := (o.symbols.map symRecords).sum

theorem symtab_room (o : W.Object) (hv : Valid o) : symtabAt o + 18 * total o < U32 ∧ 20 ≤ symtabAt o ∧
    20 + 40 * o.sections.length + (o.sections.map secRoom).sum < U32 := by
  have h1 := hv.room
  have h2 := endOf_flatMap_le o.sections (20 + 40 * o.sections.length)
  have h3 := le_endOf (o.sections.flatMap secSizes) (20 + 40 * o.sections.length)
  have h4 : room o = 20 + 40 * o.sections.length + (o.sections.map secRoom).sum + 18 * total o := rfl
  unfold symtabAt
  omega

theorem length_le_total (ss : List W.Symbol) : ss.length ≤ (ss.map symRecords).sum := by
  induction ss with
  | nil => simp
  | cons s ss ih =>
    simp only [List.length_cons, List.map_cons, List.sum_cons]
    have : 1 ≤ symRecords s := by unfold symRecords; omega
    omega

/-- The result of the planning phase. -/
structure Planned (o : W.Object) (p : Plan) (w : Wtr) (sels : List Sel) (size : Nat) (t : StrTab) (data : List UInt8) : Prop where
  write : (tabOf o).write 4 = (.ok size, t, data)
  sizeEq : size = 4 + data.length
  lt : size < U32
  selsOk : SelsOk o o.comdats sels
  groups : Disjoint o → ∀ (i : Nat) (x : Sel), sels[i]? = some x → GroupAt o o.comdats i x
  secs : p.secs = secOffs (o.sections.map fun s => nameOf (tabOf o) s.name) sels (secOffsFrom (20 + 40 * o.sections.length) o.sections)
  syms : p.syms = symOffs (tabOf o) (uniqueName o) 0 o.symbols
  wtr : w = ⟨symtabAt o + 18 * total o + size, [], o.sections.length, symtabAt o, total o, t, size, symtabAt o + 18 * total o, data⟩

theorem planRanges_sat (o : W.Object) (hv : Valid o) (w : Wtr) (hw : w = ⟨0, [], 0, 0, total o, tabOf o, 0, 0, []⟩) :
    Res.Sat (2 ^ 32 ≤ nameBytes o + 4) (planRanges o w) fun r => ∃ size t data, (tabOf o).write 4 = (.ok size, t, data) ∧ size = 4 + data.length ∧
      size < U32 ∧ r = (secOffsFrom (20 + 40 * o.sections.length) o.sections,
        ⟨symtabAt o + 18 * total o + size, [], o.sections.length, symtabAt o, total o, t, size, symtabAt o + 18 * total o, data⟩) := by
  obtain ⟨h1, h2, h3⟩ := symtab_room o hv
  have hu : U32 + U32 + U32 < U64 := by decide
  have hs := hv.sections
  unfold planRanges
  have e1 : w.reserveFileHeader = .ok { w with len := 20 } := by
    subst hw; rfl
  rw [e1]
  simp only [Res.bind_eq, Res.ok_bind]
  have e2 : Wtr.reserveSectionHeaders { w with len := 20 } (o.sections.length % U16) =
      .ok { w with len := 20 + 40 * o.sections.length, sectionNum := o.sections.length } := by
    unfold Wtr.reserveSectionHeaders
    rw [check_ok (by subst hw; rfl), Nat.mod_eq_of_lt (by omega)]
    simp only [Res.bind_eq, Res.ok_bind]
    unfold Wtr.reserve
    rw [coff_eq alignOk_1 (by show 20 + 1 + _ < _; omega)]
    simp only [Res.bind_eq, Res.ok_bind, up_one, Nat.mul_comm]
  rw [e2]
  simp only [Res.ok_bind]
  rw [reserveSections_eq o.sections _ (by exact h3)]
  simp only [Res.ok_bind]
  unfold Wtr.reserveSymtabStrtab
  rw [check_ok (by subst hw; rfl)]
  simp only [Res.bind_eq, Res.ok_bind]
  have e3 : ∀ w' : Wtr, w'.len = symtabAt o → w'.symtabNum = total o →
      w'.reserve (w'.symtabNum * 18) 1 = .ok (symtabAt o, { w' with len := symtabAt o + 18 * total o }) := by
    intro w' g1 g2
    unfold Wtr.reserve
    rw [g1, g2, coff_eq alignOk_1 (by omega), up_one, Nat.mod_eq_of_lt (by omega)]
    simp only [Res.bind_eq, Res.ok_bind, Nat.mul_comm]
  rw [e3 _ (by exact rfl) (by subst hw; rfl)]
  simp only [Res.ok_bind]
  rw [check_ok (by subst hw; rfl)]
  simp only [Res.ok_bind]
  have e4 : w.tab = tabOf o := by rw [hw]
  rw [e4]
  have hE := encStrtab_sat o hv
  cases hx : encStrtab (tabOf o) with
  | panic => rw [hx] at hE; exact hE.elim
  | err => rw [hx] at hE; exact hE
  | ok r =>
    obtain ⟨size, t, data⟩ := r
    obtain ⟨g1, g2, g3⟩ := hE.ok hx
    simp only at g1 g2 g3
    simp only [Res.ok_bind]
    unfold Wtr.reserve
    rw [coff_eq alignOk_1 (by show symtabAt o + 18 * total o + 1 + size < U64; omega)]
    simp only [Res.bind_eq, Res.ok_bind, up_one]
    rw [Nat.mod_eq_of_lt (by omega)]
    refine ⟨size, t, data, g1, g2, g3, ?_⟩
    subst hw
    rfl

theorem length_allNames (o : W.Object) (hv : Valid o) : (allNames o).length ≤ o.sections.length + 2 * o.symbols.length ∧
    o.sections.length + 2 * o.symbols.length ≤ U32 := by
  have h1 : ∀ ss : List W.Symbol, (ss.flatMap (symNames (uniqueName o))).length ≤ 2 * ss.length := by
    intro ss
    induction ss with
    | nil => simp
    | cons s ss ih =>
      rw [List.flatMap_cons, List.length_append, length_symNames, List.length_cons]
      split <;> omega
  have h2 := h1 o.symbols
  have h3 := (symtab_room o hv).1
  have h4 := length_le_total o.symbols
  have h5 := hv.sections
  unfold total at h3
  unfold allNames
  rw [List.length_append, List.length_map]
  omega

theorem plan_sat (o : W.Object) (sub : Option SubArch) (hv : Valid o) : Res.Sat (Refused o sub) (plan o Wtr.new) fun r =>
    ∃ sels size t data, Planned o r.1 r.2 sels size t data := by
  have hl := (length_allNames o hv).2
  have hT : TabW StrTab.new (o.sections.length + 2 * o.symbols.length) := TabW.new hl
  have hA : allNames o = o.sections.map (·.name) ++ o.symbols.flatMap (symNames (uniqueName o)) := rfl
  have hT1 : TabW (addNms StrTab.new (o.sections.map (·.name))) (2 * o.symbols.length) := by
    apply tabW_addNms
    rw [List.length_map]; exact hT
  have hP : tabOf o = addNms (addNms StrTab.new (o.sections.map (·.name))) (o.symbols.flatMap (symNames (uniqueName o))) := by
    unfold tabOf; rw [hA, addNms_append]
  unfold plan
  rw [addSectionNames_eq (T := tabOf o) o.sections Wtr.new (2 * o.symbols.length) hT rfl hv.sectionName
    (by rw [hP]; exact prefix_addNms hT1.nodup _)]
  simp only [Res.bind_eq, Res.ok_bind]
  refine (comdatSels_sat o sub hv o.comdats [] _ rfl ⟨by simp, ?_, ?_, by simp⟩ ?_).bind ?_
  · intro i x hx
    rw [List.getElem?_replicate] at hx
    split at hx <;> simp at hx
    subst hx; simp
  · intro i x hx
    rw [List.getElem?_replicate] at hx
    split at hx <;> simp at hx
    subst hx; simp
  · intro _ i x hx
    rw [List.getElem?_replicate] at hx
    split at hx <;> simp at hx
    subst hx
    exact .inr (.inr ⟨by simp, rfl⟩)
  · rintro sels ⟨s1, s2⟩
    have hlt := (symtab_room o hv).1
    rw [reserveSymbols_eq (T := tabOf o) (nul_uniqueName o hv) o.symbols _ 0 (by exact hT1) (by exact rfl) (by exact rfl) hv.symbolName hv.fileName
      (by show 0 + total o < U32; omega) (by rw [hP]; exact List.prefix_rfl)]
    simp only [Res.ok_bind]
    refine ((planRanges_sat o hv _ ?_).mono Refused.strings fun _ h => h).bind ?_
    · rw [hP]
      show (_ : Wtr) = _
      simp only [Wtr.new, total, Nat.zero_add]
    · rintro ⟨ranges, w⟩ ⟨size, t, data, g1, g2, g3, g4⟩
      simp only [Prod.mk.injEq] at g4
      obtain ⟨rfl, rfl⟩ := g4
      exact ⟨sels, size, t, data, g1, g2, g3, s1, s2, rfl, rfl, rfl⟩

end Obj.CoffW

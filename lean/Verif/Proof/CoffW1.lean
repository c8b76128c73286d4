import Verif.Proof.ElfW1
import Verif.Proof.Coff
import Verif.Spec.CoffWrite

/-! The reserving phase of `coff_write`. -/

namespace Obj.CoffW
open Obj Obj.Reserve Obj.Parts Obj.Spec Obj.Spec.CoffO
open Obj.ElfW (check tabAdd check_ok addU32_eq addU64_eq mulU64_eq idOf TabW tabAdd_eq length_of_getElem? storedSize_append storedSize_addAll
  storedSize_filter addAll_append addAll_cons)

/-! ## Names -/

/-- The name for a string, given the final table. -/
def nameOf (T : StrTab) (s : List UInt8) : Coff.Name :=
  if 8 < s.length then .long (idOf T s) else .short (s ++ List.replicate (8 - s.length) 0)

/-- The table after adding a name. -/
def addNm (t : StrTab) (s : List UInt8) : StrTab := if 8 < s.length then (t.add s).2 else t

/-- The table after adding names. -/
def addNms (t : StrTab) (ss : List (List UInt8)) : StrTab := ss.foldl addNm t

theorem addNms_nil (t : StrTab) : addNms t [] = t := rfl
theorem addNms_cons (t : StrTab) (s : List UInt8) (ss : List (List UInt8)) : addNms t (s :: ss) = addNms (addNm t s) ss := rfl
theorem addNms_append (t : StrTab) (a b : List (List UInt8)) : addNms t (a ++ b) = addNms (addNms t a) b := by
  unfold addNms; rw [List.foldl_append]

theorem addNames_snd (ss : List (List UInt8)) : ∀ t, (CoffS.addNames t ss).2 = addNms t ss := by
  induction ss with
  | nil => intro t; rfl
  | cons s ss ih =>
    intro t
    rw [addNms_cons]
    unfold CoffS.addNames
    have : (Coff.addName t s).2 = addNm t s := by
      unfold Coff.addName addNm; split <;> rfl
    simp only [this, ih]

theorem addNms_table (ss : List (List UInt8)) (t : StrTab) :
    addNms t ss = addAll t (ss.filter fun s => decide (8 < s.length)) := by
  rw [← addNames_snd, Coff.addNames_table]

theorem tabW_addNms {t : StrTab} {k : Nat} (ss : List (List UInt8)) (h : TabW t (ss.length + k)) : TabW (addNms t ss) k := by
  rw [addNms_table]
  exact TabW.addAll _ (h.mono (by have := List.length_filter_le (fun s : List UInt8 => decide (8 < s.length)) ss; omega))

theorem prefix_addNms {t : StrTab} (h : t.strings.Nodup) (ss : List (List UInt8)) : t.strings <+: (addNms t ss).strings := by
  rw [addNms_table]; exact ElfW.addAll_prefix h _

theorem tabW_addNm {t : StrTab} {k : Nat} {s : List UInt8} (h : TabW t (k + 1)) : TabW (addNm t s) k := by
  have := tabW_addNms (k := k) [s] (by simpa [Nat.add_comm] using h)
  exact this

theorem addName_eq {w : Wtr} {T : StrTab} {k : Nat} {s : List UInt8} (h : TabW w.tab (k + 1)) (h0 : w.strtabOffset = 0)
    (hs : (0 : UInt8) ∉ s) (hp : (addNm w.tab s).strings <+: T.strings) :
    w.addName s = .ok (nameOf T s, { w with tab := addNm w.tab s }) := by
  unfold Wtr.addName nameOf
  unfold addNm at hp ⊢
  by_cases hl : 8 < s.length
  · simp only [if_pos hl] at hp ⊢
    unfold Wtr.addString
    rw [check_ok h0, tabAdd_eq h hs hp]
    rfl
  · simp only [if_neg hl]

/-- The names that are added in order. -/
theorem addNames_get_nameOf {T : StrTab} {t : StrTab} {ss : List (List UInt8)} {k : Nat} (h : TabW t (ss.length + k))
    (hp : (addNms t ss).strings <+: T.strings) (i : Nat) (s : List UInt8) (hi : ss[i]? = some s) :
    (CoffS.addNames t ss).1[i]? = some (nameOf T s) := by
  obtain ⟨g1, g2⟩ := Coff.addNames_get t h.nodup ss i s hi
  unfold nameOf
  by_cases hl : 8 < s.length
  · rw [if_pos hl]
    obtain ⟨j, e1, e2⟩ := g1 hl
    rw [addNames_snd] at e2
    have hj : j < (addNms t ss).strings.length := length_of_getElem? (StrTab.indexOf_some e2)
    have hr := (tabW_addNms (k := k) ss h).room
    rw [e1, ElfW.idOf_of_prefix e2 hp, Nat.mod_eq_of_lt (by omega)]
  · rw [if_neg hl]; exact g2 (by omega)

theorem addSectionNames_eq {T : StrTab} : ∀ (ss : List W.Section) (w : Wtr) (k : Nat), TabW w.tab (ss.length + k) → w.strtabOffset = 0 →
    (∀ s ∈ ss, (0 : UInt8) ∉ s.name) → (addNms w.tab (ss.map (·.name))).strings <+: T.strings →
    addSectionNames w ss = .ok (ss.map fun s => nameOf T s.name, { w with tab := addNms w.tab (ss.map (·.name)) })
  | [], w, k, _, _, _, _ => rfl
  | s :: ss, w, k, h, h0, hs, hp => by
    have h1 : TabW w.tab (ss.length + k + 1) := h.mono (by simp; omega)
    have h2 := tabW_addNm (s := s.name) h1
    simp only [List.map_cons, addNms_cons] at hp ⊢
    unfold addSectionNames
    rw [addName_eq (T := T) h1 h0 (hs s (by simp)) ((prefix_addNms h2.nodup _).trans hp)]
    simp only [Res.bind_eq, Res.ok_bind]
    rw [addSectionNames_eq ss { w with tab := addNm w.tab s.name } k h2 h0 (fun x hx => hs x (by simp [hx])) hp]
    rfl

/-! ## Symbols -/

/-- The names of a symbol, in the order in which they are added. -/
def symNames (u : List UInt8) (s : W.Symbol) : List (List UInt8) :=
  (if s.weak then [weakName u s] else []) ++ [storedName s]

/-- The record of a symbol whose first index is `n`. -/
def symOffOf (T : StrTab) (u : List UInt8) (n : Nat) (s : W.Symbol) : SymOff :=
  ⟨nameOf T (storedName s), n + (if s.weak then 1 else 0), auxRecords s, if s.weak then some (nameOf T (weakName u s), n) else none⟩

/-- The records of all symbols. -/
def symOffs (T : StrTab) (u : List UInt8) : Nat → List W.Symbol → List SymOff
  | _, [] => []
  | n, s :: ss => symOffOf T u n s :: symOffs T u (n + symRecords s) ss

theorem length_symNames (u : List UInt8) (s : W.Symbol) : (symNames u s).length = (if s.weak then 1 else 0) + 1 := by
  unfold symNames; split <;> simp

theorem nul_storedName {s : W.Symbol} (h : (0 : UInt8) ∉ s.name) : (0 : UInt8) ∉ storedName s := by
  unfold storedName; split
  · decide
  · exact h

theorem nul_weakName {u : List UInt8} {s : W.Symbol} (h : (0 : UInt8) ∉ s.name) (hu : (0 : UInt8) ∉ u) : (0 : UInt8) ∉ weakName u s := by
  have e : (0 : UInt8) ∉ nWeak := by decide
  unfold weakName; split
  · simp [e, h]
  · simp [e, h, hu]

theorem mem_symNames {u : List UInt8} {s : W.Symbol} (h : (0 : UInt8) ∉ s.name) (hu : (0 : UInt8) ∉ u) :
    ∀ x ∈ symNames u s, (0 : UInt8) ∉ x := by
  intro x hx
  unfold symNames at hx
  simp only [List.mem_append, List.mem_singleton] at hx
  rcases hx with hx | rfl
  · split at hx
    · simp only [List.mem_singleton] at hx
      subst hx; exact nul_weakName h hu
    · simp at hx
  · exact nul_storedName h

theorem reserveDefault_eq {T : StrTab} {u : List UInt8} {s : W.Symbol} {w : Wtr} {k : Nat} (h : TabW w.tab (k + 1))
    (h0 : w.strtabOffset = 0) (h1 : w.symtabOffset = 0) (hn : (0 : UInt8) ∉ s.name) (hu : (0 : UInt8) ∉ u)
    (hr : w.symtabNum + 1 < U32) (hp : (addNms w.tab (if s.weak then [weakName u s] else [])).strings <+: T.strings) :
    reserveDefault u s w = .ok (if s.weak then some (nameOf T (weakName u s), w.symtabNum) else none,
      { w with tab := addNms w.tab (if s.weak then [weakName u s] else []), symtabNum := w.symtabNum + if s.weak then 1 else 0 }) := by
  unfold reserveDefault
  cases hw : s.weak with
  | false => rfl
  | true =>
    simp only [hw, if_true] at hp ⊢
    rw [addName_eq (T := T) h h0 (nul_weakName hn hu) hp]
    simp only [Res.bind_eq, Res.ok_bind]
    unfold Wtr.reserveSymbolIndex
    rw [check_ok (by exact h1)]
    simp only [Res.bind_eq, Res.ok_bind]
    rw [addU32_eq (by exact hr)]
    rfl

theorem reserveAux_eq {s : W.Symbol} {w : Wtr} (h1 : w.symtabOffset = 0) (hf : s.kind = .file → s.name.length ≤ 255 * 18)
    (hr : w.symtabNum + auxRecords s < U32) :
    reserveAux s w = .ok (auxRecords s, { w with symtabNum := w.symtabNum + auxRecords s }) := by
  unfold reserveAux
  unfold auxRecords at hr ⊢
  cases hw : s.weak with
  | true =>
    simp only [hw, if_true] at hr ⊢
    unfold Wtr.reserveAuxOne
    rw [check_ok h1]
    simp only [Res.bind_eq, Res.ok_bind]
    rw [addU32_eq hr]; rfl
  | false =>
    simp only [hw, Bool.false_eq_true, if_false] at hr ⊢
    by_cases hk : s.kind = .file
    · simp only [hk, if_true] at hr ⊢
      have := hf hk
      unfold Wtr.reserveAuxFileName Coff.auxFileNameCount
      rw [check_ok h1]
      simp only [Res.bind_eq, Res.ok_bind]
      rw [Nat.mod_eq_of_lt (by omega), addU32_eq hr]
      simp only [Res.ok_bind]
      rw [Nat.mod_eq_of_lt (by omega)]
    · rw [if_neg hk]
      by_cases hk2 : s.kind = .sectionSym
      · cases hs : s.section_ with
        | inSec i =>
          simp only [hk2, hs] at hr ⊢
          simp only [W.SymSection.id?, Option.isSome_some, and_self, if_true]
          unfold Wtr.reserveAuxOne
          rw [check_ok h1]
          simp only [Res.bind_eq, Res.ok_bind]
          rw [addU32_eq hr]; rfl
        | none => simp [hk2, W.SymSection.id?]
        | undefined => simp [hk2, W.SymSection.id?]
        | absolute => simp [hk2, W.SymSection.id?]
        | common => simp [hk2, W.SymSection.id?]
      · have e : auxRecords s = 0 := by
          unfold auxRecords
          rw [hw]
          cases hk3 : s.kind <;> simp_all
        unfold auxRecords at e
        simp only [hw, Bool.false_eq_true, if_false] at e
        rw [e, if_neg (fun h => hk2 h.1)]
        rfl

theorem auxRecords_le {s : W.Symbol} (hf : s.kind = .file → s.name.length ≤ 255 * 18) : auxRecords s ≤ 255 := by
  unfold auxRecords
  cases s.weak with
  | true => simp
  | false =>
    simp only [Bool.false_eq_true, if_false]
    split
    · rename_i h; have := hf h; omega
    · omega
    · omega

theorem reserveSymbol_eq {T : StrTab} {u : List UInt8} {s : W.Symbol} {w : Wtr} {k : Nat} (h : TabW w.tab (k + 2))
    (h0 : w.strtabOffset = 0) (h1 : w.symtabOffset = 0) (hn : (0 : UInt8) ∉ s.name) (hu : (0 : UInt8) ∉ u)
    (hf : s.kind = .file → s.name.length ≤ 255 * 18)
    (hr : w.symtabNum + symRecords s < U32) (hp : (addNms w.tab (symNames u s)).strings <+: T.strings) :
    reserveSymbol u s w = .ok (symOffOf T u w.symtabNum s,
      { w with tab := addNms w.tab (symNames u s), symtabNum := w.symtabNum + symRecords s }) := by
  unfold symRecords at hr ⊢
  unfold symNames at hp ⊢
  rw [addNms_append] at hp ⊢
  have hT1 : TabW (addNms w.tab (if s.weak then [weakName u s] else [])) (k + 1) := by
    apply tabW_addNms
    refine h.mono ?_
    split
    · simp; omega
    · simp
  have hp1 := (prefix_addNms hT1.nodup [storedName s]).trans hp
  unfold reserveSymbol
  rw [reserveDefault_eq (T := T) (h.mono (show k + 1 + 1 ≤ _ by omega)) h0 h1 hn hu (by omega) hp1]
  simp only [Res.bind_eq, Res.ok_bind]
  unfold Wtr.reserveSymbolIndex
  rw [check_ok (by exact h1)]
  simp only [Res.bind_eq, Res.ok_bind]
  rw [addU32_eq (by show w.symtabNum + (if s.weak then 1 else 0) + 1 < U32; omega)]
  simp only [Res.ok_bind]
  rw [reserveAux_eq (by exact h1) hf (by show w.symtabNum + (if s.weak then 1 else 0) + 1 + auxRecords s < U32; omega)]
  simp only [Res.ok_bind]
  rw [addName_eq (T := T) (by exact hT1) (by exact h0) (nul_storedName hn) (by exact hp)]
  simp only [Res.ok_bind]
  have e : w.symtabNum + (if s.weak then 1 else 0) + 1 + auxRecords s = w.symtabNum + ((if s.weak then 1 else 0) + 1 + auxRecords s) := by omega
  rw [e]
  rfl

theorem reserveSymbols_eq {T : StrTab} {u : List UInt8} (hu : (0 : UInt8) ∉ u) : ∀ (ss : List W.Symbol) (w : Wtr) (k : Nat),
    TabW w.tab (2 * ss.length + k) → w.strtabOffset = 0 → w.symtabOffset = 0 → (∀ s ∈ ss, (0 : UInt8) ∉ s.name) →
    (∀ s ∈ ss, s.kind = .file → s.name.length ≤ 255 * 18) → w.symtabNum + (ss.map symRecords).sum < U32 →
    (addNms w.tab (ss.flatMap (symNames u))).strings <+: T.strings →
    reserveSymbols u w ss = .ok (symOffs T u w.symtabNum ss,
      { w with tab := addNms w.tab (ss.flatMap (symNames u)), symtabNum := w.symtabNum + (ss.map symRecords).sum })
  | [], w, k, _, _, _, _, _, _, _ => rfl
  | s :: ss, w, k, h, h0, h1, hn, hf, hr, hp => by
    simp only [List.flatMap_cons, addNms_append, List.map_cons, List.sum_cons] at hp hr ⊢
    have h2 : TabW w.tab (2 * ss.length + k + 2) := h.mono (by simp only [List.length_cons]; omega)
    have h3 : TabW (addNms w.tab (symNames u s)) (2 * ss.length + k) := by
      apply tabW_addNms
      refine h2.mono ?_
      rw [length_symNames]; split <;> omega
    unfold reserveSymbols
    rw [reserveSymbol_eq (T := T) h2 h0 h1 (hn s (by simp)) hu (hf s (by simp)) (by omega) ((prefix_addNms h3.nodup _).trans hp)]
    simp only [Res.bind_eq, Res.ok_bind]
    rw [reserveSymbols_eq hu ss { w with tab := addNms w.tab (symNames u s), symtabNum := w.symtabNum + symRecords s } k h3 h0 h1
      (fun x hx => hn x (by simp [hx])) (fun x hx => hf x (by simp [hx])) (by show w.symtabNum + symRecords s + _ < _; omega) hp]
    simp only [Res.ok_bind, symOffs]
    rw [Nat.add_assoc]

/-! ## Ranges -/

/-- The parts of a section: contents and relocations. -/
def secSizes (s : W.Section) : List (Nat × Nat) :=
  (if s.data = [] then [] else [(4, s.data.length)]) ++ (if s.relocs = [] then [] else [(1, Coff.relocationsLen s.relocs.length)])

/-- The offsets of the parts of a section from `n` on. -/
def secOff (n : Nat) (s : W.Section) : Nat × Nat :=
  (if s.data = [] then 0 else up n 4,
   if s.relocs = [] then 0 else endOf n (if s.data = [] then [] else [(4, s.data.length)]))

/-- The offsets of all sections. -/
def secOffsFrom : Nat → List W.Section → List (Nat × Nat)
  | _, [] => []
  | n, s :: ss => secOff n s :: secOffsFrom (endOf n (secSizes s)) ss

/-- A bound for the parts of a section. -/
def secRoom (s : W.Section) : Nat := 4 + s.data.length + 10 * (s.relocs.length + 1)

theorem relocationsLen_le (n : Nat) : Coff.relocationsLen n ≤ 10 * (n + 1) := by
  unfold Coff.relocationsLen
  repeat' split
  all_goals omega

theorem endOf_secSizes_le (n : Nat) (s : W.Section) : endOf n (secSizes s) ≤ n + secRoom s := by
  have h1 := relocationsLen_le s.relocs.length
  have h2 := up_le n 4
  unfold secSizes secRoom
  rw [endOf_append]
  by_cases hd : s.data = []
  · by_cases hr : s.relocs = []
    · simp only [hd, hr, if_true, endOf]; omega
    · simp only [hd, hr, if_true, if_false, endOf, up_one]; omega
  · by_cases hr : s.relocs = []
    · simp only [hd, hr, if_true, if_false, endOf]; omega
    · simp only [hd, hr, if_false, endOf, up_one]; omega

theorem endOf_flatMap_le : ∀ (ss : List W.Section) (n : Nat), endOf n (ss.flatMap secSizes) ≤ n + (ss.map secRoom).sum
  | [], n => by simp [endOf]
  | s :: ss, n => by
    have h1 := endOf_secSizes_le n s
    have h2 := endOf_flatMap_le ss (endOf n (secSizes s))
    simp only [List.flatMap_cons, List.map_cons, List.sum_cons, endOf_append]
    omega

theorem coff_eq {len size align : Nat} (ha : AlignOk align) (h : len + align + size < U64) :
    Reserve.coff len size align = .ok (up len align % U32, up len align + size) := by
  have := up_le len align
  unfold Reserve.coff
  rw [alignIf_eq ha (by omega) (by omega)]
  simp only [Res.bind_eq, Res.ok_bind]
  rw [addU64_eq (by omega)]
  rfl

theorem reserveSections_eq : ∀ (ss : List W.Section) (w : Wtr), w.len + (ss.map secRoom).sum < U32 →
    reserveSections w ss = .ok (secOffsFrom w.len ss, { w with len := endOf w.len (ss.flatMap secSizes) })
  | [], w, _ => rfl
  | s :: ss, w, h => by
    simp only [List.map_cons, List.sum_cons] at h
    have hu : U32 + U32 < U64 := by decide
    have h1 := relocationsLen_le s.relocs.length
    have h2 := up_le w.len 4
    have hS := endOf_secSizes_le w.len s
    have hR : secRoom s = 4 + s.data.length + 10 * (s.relocs.length + 1) := rfl
    have e1 : w.reserveSection s.data.length = .ok (if s.data = [] then 0 else up w.len 4,
        { w with len := endOf w.len (if s.data = [] then [] else [(4, s.data.length)]) }) := by
      unfold Wtr.reserveSection coffSection
      by_cases hd : s.data = []
      · simp [hd, endOf]
      · have : s.data.length ≠ 0 := by simpa using hd
        simp only [hd, this, if_false]
        rw [coff_eq alignOk_4 (by omega), Nat.mod_eq_of_lt (by omega)]
        rfl
    have hE : endOf w.len (if s.data = [] then [] else [(4, s.data.length)]) ≤ w.len + 4 + s.data.length := by
      split <;> simp only [endOf] <;> omega
    have e2 : Wtr.reserveRelocations { w with len := endOf w.len (if s.data = [] then [] else [(4, s.data.length)]) } s.relocs.length =
        .ok (if s.relocs = [] then 0 else endOf w.len (if s.data = [] then [] else [(4, s.data.length)]),
        { w with len := endOf w.len (secSizes s) }) := by
      unfold Wtr.reserveRelocations coffRelocations secSizes
      rw [endOf_append]
      generalize endOf w.len (if s.data = [] then [] else [(4, s.data.length)]) = n at *
      by_cases hr : s.relocs = []
      · simp [hr, endOf]
      · have hz : s.relocs.length ≠ 0 := by simpa using hr
        have hc : coffCount s.relocs.length = .ok (if 0xffff < s.relocs.length then s.relocs.length + 1 else s.relocs.length) := by
          unfold coffCount
          split
          · rw [addU64_eq (by omega)]
          · rfl
        have hl : Coff.relocationsLen s.relocs.length = (if 0xffff < s.relocs.length then s.relocs.length + 1 else s.relocs.length) * 10 := by
          unfold Coff.relocationsLen
          rw [if_neg hz]
          split <;> rfl
        simp only [hr, hz, if_false, hc, Res.bind_eq, Res.ok_bind]
        rw [mulU64_eq (by rw [← hl]; omega), ← hl]
        simp only [Res.ok_bind]
        rw [coff_eq alignOk_1 (by omega), up_one, Nat.mod_eq_of_lt (by omega)]
        rfl
    unfold reserveSections
    rw [e1]
    simp only [Res.bind_eq, Res.ok_bind]
    rw [e2]
    simp only [Res.ok_bind]
    rw [reserveSections_eq ss _ (by show endOf w.len (secSizes s) + _ < _; omega)]
    simp only [Res.ok_bind, secOffsFrom, secOff, List.flatMap_cons, endOf_append]

theorem length_secOffsFrom : ∀ (ss : List W.Section) (n : Nat), (secOffsFrom n ss).length = ss.length
  | [], _ => rfl
  | s :: ss, n => by simp [secOffsFrom, length_secOffsFrom ss]

theorem get_secOffsFrom : ∀ (ss : List W.Section) (n i : Nat) (s : W.Section), ss[i]? = some s →
    (secOffsFrom n ss)[i]? = some (secOff (endOf n ((ss.take i).flatMap secSizes)) s)
  | [], _, _, _, h => by simp at h
  | a :: ss, n, 0, s, h => by
    simp only [List.getElem?_cons_zero, Option.some.injEq] at h
    subst h; rfl
  | a :: ss, n, i + 1, s, h => by
    simp only [List.getElem?_cons_succ] at h
    simp only [secOffsFrom, List.getElem?_cons_succ, List.take_succ_cons, List.flatMap_cons, endOf_append]
    exact get_secOffsFrom ss _ i s h

/-! ## COMDATs -/

/-- What the COMDAT loop has established after the groups `ds`. -/
structure SelsOk (o : W.Object) (ds : List W.Comdat) (sel : List Sel) : Prop where
  length : sel.length = o.sections.length
  selected : ∀ (i : Nat) (x : Sel), sel[i]? = some x → (x.selection ≠ 0 ↔ ∃ d ∈ ds, Belongs o d i)
  small : ∀ (i : Nat) (x : Sel), sel[i]? = some x → x.selection < 2 ^ 8 ∧ x.associative < 2 ^ 16 + 1
  accepted : ∀ d ∈ ds, (∃ i, Leads o d i) ∧ (∃ k, selectionCode d.kind k) ∧ ∀ i ∈ d.sections, ∃ s, o.sections[i]? = some s ∧ s.symbol ≠ none

/-- Group data if the groups are disjoint. -/
def GroupAt (o : W.Object) (ds : List W.Comdat) (i : Nat) (x : Sel) : Prop :=
  (∃ d ∈ ds, Leads o d i ∧ selectionCode d.kind x.selection ∧ x.associative = 0) ∨
  (∃ d ∈ ds, ∃ j, i ∈ d.sections ∧ Leads o d j ∧ i ≠ j ∧ x = ⟨5, j + 1⟩) ∨
  ((∀ d ∈ ds, ¬ Belongs o d i) ∧ x = ⟨0, 0⟩)

theorem selectionOf_spec (k : Nat) : (∀ s, selectionOf k = some s → selectionCode k s ∧ s ≠ 0 ∧ s < 256) ∧
    (selectionOf k = none → k = 0 ∨ 6 < k) := by
  by_cases h : k < 7
  · have : ∀ k : Fin 7, (∀ s, selectionOf k = some s → selectionCode k s ∧ s ≠ 0 ∧ s < 256) ∧ (selectionOf k = none → k.val = 0) := by
      intro k
      constructor
      · intro s hs
        unfold selectionCode
        revert k s
        decide +kernel
      · revert k; decide +kernel
    exact ⟨(this ⟨k, h⟩).1, fun h2 => .inl ((this ⟨k, h⟩).2 h2)⟩
  · refine ⟨fun s hs => ?_, fun _ => .inr (by omega)⟩
    unfold selectionOf at hs
    rw [if_neg (by omega), if_neg (by omega), if_neg (by omega), if_neg (by omega), if_neg (by omega), if_neg (by omega)] at hs
    simp at hs

theorem comdatMembers_sat (o : W.Object) (E : Prop) (leader : Nat) (hl : leader + 1 < U32) : ∀ (is : List Nat) (sel : List Sel),
    (∀ i ∈ is, ∀ s, o.sections[i]? = some s → s.symbol = none → E) → (∀ i ∈ is, i < o.sections.length) →
    Res.Sat E (comdatMembers o leader sel is) fun r => r.length = sel.length ∧
      (∀ i ∈ is, ∃ s, o.sections[i]? = some s ∧ s.symbol ≠ none) ∧
      ∀ (i : Nat) (x : Sel), r[i]? = some x → (i ∈ is ∧ i ≠ leader ∧ x = ⟨5, leader + 1⟩) ∨ (¬ (i ∈ is ∧ i ≠ leader) ∧ sel[i]? = some x)
  | [], sel, _, _ => ⟨rfl, by simp, fun i x h => .inr ⟨by simp, h⟩⟩
  | j :: is, sel, hE, hi => by
    have hj := hi j (by simp)
    have he : o.sections[j]? = some o.sections[j] := List.getElem?_eq_getElem hj
    unfold comdatMembers
    rw [he]
    simp only
    by_cases h1 : o.sections[j].symbol = none
    · rw [if_pos h1]; exact hE j (by simp) _ he h1
    · rw [if_neg h1]
      by_cases h2 : j ≠ leader
      · rw [if_pos h2, Nat.mod_eq_of_lt (by omega), if_neg (by omega)]
        refine (comdatMembers_sat o E leader hl is _ (fun i h => hE i (by simp [h])) (fun i h => hi i (by simp [h]))).mono id ?_
        rintro r ⟨r1, r3, r2⟩
        refine ⟨by simpa using r1, fun i hi => ?_, fun i x hx => ?_⟩
        · rcases List.mem_cons.1 hi with rfl | hi
          · exact ⟨_, he, h1⟩
          · exact r3 i hi
        rcases r2 i x hx with ⟨a1, a2, a3⟩ | ⟨a1, a2⟩
        · exact .inl ⟨by simp [a1], a2, a3⟩
        · by_cases hij : i = j
          · subst hij
            rw [List.getElem?_set_self' ] at a2
            cases hs : sel[i]? with
            | none => rw [hs] at a2; simp at a2
            | some y =>
              rw [hs] at a2
              simp only [Option.map_eq_map, Option.map_some, Option.some.injEq] at a2
              exact .inl ⟨by simp, h2, a2.symm⟩
          · rw [List.getElem?_set_ne (by omega)] at a2
            refine .inr ⟨fun h => a1 ⟨?_, h.2⟩, a2⟩
            rcases List.mem_cons.1 h.1 with h | h
            · exact absurd h hij
            · exact h
      · rw [if_neg h2]
        have h2 : j = leader := by simpa using h2
        refine (comdatMembers_sat o E leader hl is _ (fun i h => hE i (by simp [h])) (fun i h => hi i (by simp [h]))).mono id ?_
        rintro r ⟨r1, r3, r2⟩
        refine ⟨r1, fun i hi => ?_, fun i x hx => ?_⟩
        · rcases List.mem_cons.1 hi with rfl | hi
          · exact ⟨_, he, h1⟩
          · exact r3 i hi
        rcases r2 i x hx with ⟨a1, a2, a3⟩ | ⟨a1, a2⟩
        · exact .inl ⟨by simp [a1], a2, a3⟩
        · refine .inr ⟨fun h => a1 ⟨?_, h.2⟩, a2⟩
          rcases List.mem_cons.1 h.1 with h' | h'
          · exact absurd (h'.trans h2) h.2
          · exact h'

theorem id?_eq (s : W.Symbol) (i : Nat) : s.section_.id? = some i ↔ s.section_ = .inSec i := by
  cases s.section_ <;> simp [W.SymSection.id?]

theorem id?_none (s : W.Symbol) : s.section_.id? = none ↔ ∀ i, s.section_ ≠ .inSec i := by
  cases s.section_ <;> simp [W.SymSection.id?]

theorem leads_unique {o : W.Object} {d : W.Comdat} {i j : Nat} (h1 : Leads o d i) (h2 : Leads o d j) : i = j := by
  obtain ⟨s, a1, a2⟩ := h1
  obtain ⟨t, b1, b2⟩ := h2
  rw [a1] at b1
  cases b1
  rw [a2] at b2
  exact W.SymSection.inSec.inj b2

theorem comdatOne_sat (o : W.Object) (sub : Option SubArch) (hv : Valid o) (d : W.Comdat) (hd : d ∈ o.comdats) (sel : List Sel)
    (hlen : sel.length = o.sections.length) :
    Res.Sat (Refused o sub) (comdatOne o sel d) fun r => r.length = sel.length ∧ ∃ leader k, Leads o d leader ∧ selectionOf d.kind = some k ∧
      leader < o.sections.length ∧ (∀ i ∈ d.sections, ∃ s, o.sections[i]? = some s ∧ s.symbol ≠ none) ∧
      ∀ (i : Nat) (x : Sel), r[i]? = some x → (i ∈ d.sections ∧ i ≠ leader ∧ x = ⟨5, leader + 1⟩) ∨
        (i = leader ∧ ∃ y, sel[i]? = some y ∧ x = { y with selection := k }) ∨ (¬ Belongs o d i ∧ sel[i]? = some x) := by
  have h1 := hv.comdatSymbol d hd
  have he : o.symbols[d.symbol]? = some o.symbols[d.symbol] := List.getElem?_eq_getElem h1
  unfold comdatOne
  rw [he]
  simp only
  cases hid : o.symbols[d.symbol].section_.id? with
  | none => exact .comdatSymbol d _ hd he ((id?_none _).1 hid)
  | some leader =>
    have hin := (id?_eq _ _).1 hid
    have hlead : Leads o d leader := ⟨_, he, hin⟩
    have hll := hv.symbolSection _ (List.getElem_mem h1) _ hin
    simp only
    cases hk : selectionOf d.kind with
    | none => exact .comdatKind d hd ((selectionOf_spec _).2 hk)
    | some k =>
      have hg : sel[leader]? = some (sel[leader]'(by omega)) := List.getElem?_eq_getElem (by omega)
      simp only [setSelection, hg, Res.ok_bind]
      refine (comdatMembers_sat o (Refused o sub) leader (by have := hv.sections; omega) d.sections _ ?_ (hv.comdatSections d hd)).mono id ?_
      · intro i hi s hs hsy
        exact .comdatSection d i s hd hi hs hsy
      · rintro r ⟨r1, r3, r2⟩
        refine ⟨by simpa using r1, leader, k, hlead, rfl, hll, r3, fun i x hx => ?_⟩
        rcases r2 i x hx with h | ⟨a1, a2⟩
        · exact .inl h
        · by_cases hi : i = leader
          · subst hi
            rw [List.getElem?_set_self' ] at a2
            rw [hg] at a2
            simp only [Option.map_eq_map, Option.map_some, Option.some.injEq] at a2
            exact .inr (.inl ⟨rfl, _, hg, a2.symm⟩)
          · rw [List.getElem?_set_ne (by omega)] at a2
            refine .inr (.inr ⟨?_, a2⟩)
            rintro (hb | hb)
            · exact hi (leads_unique hb hlead)
            · exact a1 ⟨hb, hi⟩

theorem comdatSels_sat (o : W.Object) (sub : Option SubArch) (hv : Valid o) : ∀ (ds pre : List W.Comdat) (sel : List Sel),
    o.comdats = pre ++ ds → SelsOk o pre sel → (Disjoint o → ∀ (i : Nat) (x : Sel), sel[i]? = some x → GroupAt o pre i x) →
    Res.Sat (Refused o sub) (comdatSels o sel ds) fun r => SelsOk o o.comdats r ∧
      (Disjoint o → ∀ (i : Nat) (x : Sel), r[i]? = some x → GroupAt o o.comdats i x)
  | [], pre, sel, hp, h1, h2 => by
    rw [List.append_nil] at hp
    unfold comdatSels
    rw [hp]
    exact ⟨h1, h2⟩
  | d :: ds, pre, sel, hp, h1, h2 => by
    have hmem : d ∈ o.comdats := by rw [hp]; simp
    unfold comdatSels
    refine (comdatOne_sat o sub hv d hmem sel h1.length).bind ?_
    rintro r ⟨r1, leader, k, r2, r3, r4, r6, r5⟩
    obtain ⟨k1, k2, k3⟩ := (selectionOf_spec d.kind).1 k r3
    have hsec := hv.sections
    refine comdatSels_sat o sub hv ds (pre ++ [d]) r (by rw [hp]; simp) ⟨by rw [r1]; exact h1.length, ?_, ?_, ?_⟩ ?_
    · intro i x hx
      rcases r5 i x hx with ⟨a1, a2, rfl⟩ | ⟨rfl, y, a2, rfl⟩ | ⟨a1, a2⟩
      · exact ⟨fun _ => ⟨d, by simp, .inr a1⟩, fun _ => by simp⟩
      · exact ⟨fun _ => ⟨d, by simp, .inl r2⟩, fun _ => k2⟩
      · rw [h1.selected i x a2]
        constructor
        · rintro ⟨e, he, hb⟩; exact ⟨e, by simp [he], hb⟩
        · rintro ⟨e, he, hb⟩
          rcases List.mem_append.1 he with he | he
          · exact ⟨e, he, hb⟩
          · rw [List.mem_singleton] at he
            subst he; exact absurd hb a1
    · intro i x hx
      rcases r5 i x hx with ⟨a1, a2, rfl⟩ | ⟨rfl, y, a2, rfl⟩ | ⟨a1, a2⟩
      · exact ⟨by simp, by show leader + 1 < _; omega⟩
      · exact ⟨k3, (h1.small _ y a2).2⟩
      · exact h1.small i x a2
    · intro e he
      rcases List.mem_append.1 he with he | he
      · exact h1.accepted e he
      · rw [List.mem_singleton] at he
        subst he
        exact ⟨⟨_, r2⟩, ⟨_, k1⟩, r6⟩
    · intro hdj i x hx
      have hfresh : Belongs o d i → ∀ y, sel[i]? = some y → y = ⟨0, 0⟩ := by
        intro hb y hy
        have hno : ∀ e ∈ pre, ¬ Belongs o e i := by
          intro e he hbe
          obtain ⟨a, ha⟩ := List.getElem?_of_mem he
          have hal := length_of_getElem? ha
          have g1 : o.comdats[a]? = some e := by rw [hp, List.getElem?_append_left hal, ha]
          have g2 : o.comdats[pre.length]? = some d := by rw [hp, List.getElem?_append_right (by omega)]; simp
          have := hdj _ _ _ _ i g1 g2 hbe hb
          omega
        rcases h2 hdj i y hy with ⟨e, he, hle, -⟩ | ⟨e, he, j, hi, -⟩ | ⟨-, h⟩
        · exact absurd (.inl hle) (hno e he)
        · exact absurd (.inr hi) (hno e he)
        · exact h
      rcases r5 i x hx with ⟨a1, a2, rfl⟩ | ⟨rfl, y, a2, rfl⟩ | ⟨a1, a2⟩
      · exact .inr (.inl ⟨d, by simp, leader, a1, r2, a2, rfl⟩)
      · have := hfresh (.inl r2) y a2
        subst this
        exact .inl ⟨d, by simp, r2, k1, rfl⟩
      · rcases h2 hdj i x a2 with ⟨e, he, b1, b2⟩ | ⟨e, he, j, b1, b2⟩ | ⟨b1, b2⟩
        · exact .inl ⟨e, by simp [he], b1, b2⟩
        · exact .inr (.inl ⟨e, by simp [he], j, b1, b2⟩)
        · refine .inr (.inr ⟨fun e he => ?_, b2⟩)
          rcases List.mem_append.1 he with he | he
          · exact b1 e he
          · rw [List.mem_singleton] at he
            subst he; exact a1

end Obj.CoffW

import Verif.Spec.XcoffWrite
import Verif.Proof.EmitParts
import Verif.Proof.ElfW1
import Verif.Proof.CoffW2
import Verif.Proof.MachoW2

/-! The plan of `xcoff_write`. -/

namespace Obj.XcoffW
open Obj Obj.Reserve Obj.Parts Obj.Spec Obj.Spec.XcoffO Obj.Xcoff
open Obj.ElfW (check tabAdd check_ok addU32_eq addU64_eq mulU64_eq idOf TabW tabAdd_eq length_of_getElem? storedSize_append storedSize_addAll
  addAll_append addAll_cons)

/-! ## Sections -/

/-- The section has an address. -/
def loaded (s : W.Section) : Bool := decide (s.kind = .data ∨ s.kind = .text ∨ s.kind = .uninitializedData)

theorem loaded_iff (s : W.Section) : loaded s = true ↔ Loaded s.kind := by
  unfold loaded Loaded
  rw [decide_eq_true_iff]
  constructor
  · rintro (h | h | h)
    · exact .inr (.inl h)
    · exact .inl h
    · exact .inr (.inr h)
  · rintro (h | h | h)
    · exact .inr (.inl h)
    · exact .inl h
    · exact .inr (.inr h)

/-- The address after a section. -/
def nextAddr (a : Nat) (s : W.Section) : Nat := if loaded s = true then up (a + s.data.length) 4 else a

/-- The contents of a section as parts of the file. -/
def datParts (s : W.Section) : List (Nat × List UInt8) := if s.data.length ≠ 0 then [(4, s.data)] else []

/-- Address and data offset of the sections. -/
def places : Nat → Nat → List W.Section → List (Nat × Nat)
  | _, _, [] => []
  | a, off, s :: ss => (if loaded s = true then a else 0, if s.data.length ≠ 0 then up off 4 else 0) ::
      places (nextAddr a s) (endOf off (sizes (datParts s))) ss

theorem align4 {n : Nat} (h : n + 4 < U64) : align64 n 4 = .ok (up n 4) := by
  have := alignIf_eq (n := n) alignOk_4 (by have := up_le n 4; omega) (by omega)
  unfold alignIf at this
  rw [if_pos (by decide)] at this
  exact this

theorem up4_le (n : Nat) : up n 4 ≤ n + 3 := by
  have := up_lt n 4 (by decide)
  omega

theorem datParts_le (off : Nat) (s : W.Section) : endOf off (sizes (datParts s)) ≤ off + (3 + s.data.length) := by
  unfold datParts
  have := up4_le off
  split
  · show up off 4 + s.data.length ≤ _; omega
  · show off ≤ _; omega

theorem placeAll_eq : ∀ (ss : List W.Section) (a off : Nat),
    a + (ss.map fun s => 4 + s.data.length).sum + 4 < U64 → off + (ss.map fun s => 4 + s.data.length).sum + 4 < U64 →
    placeAll a off ss = .ok (places a off ss, endOf off (sizes (ss.flatMap datParts)))
  | [], a, off, _, _ => rfl
  | s :: ss, a, off, h1, h2 => by
    simp only [List.map_cons, List.sum_cons] at h1 h2
    have hu1 := up4_le (a + s.data.length)
    have hu2 := up4_le off
    have e1 : placeAddress s a = .ok (if loaded s = true then a else 0, nextAddr a s) := by
      unfold placeAddress nextAddr loaded
      by_cases h : s.kind = .data ∨ s.kind = .text ∨ s.kind = .uninitializedData
      · rw [if_pos h, decide_eq_true h]
        simp only [Res.bind_eq, if_true]
        rw [addU64_eq (by omega), Res.ok_bind, align4 (by omega), Res.ok_bind]
      · rw [if_neg h, decide_eq_false h]
        simp
    have e2 : placeData s off = .ok (if s.data.length ≠ 0 then up off 4 else 0, endOf off (sizes (datParts s))) := by
      unfold placeData datParts
      by_cases h : s.data.length ≠ 0
      · rw [if_pos h, if_pos h, if_pos h]
        simp only [Res.bind_eq]
        rw [align4 (by omega), Res.ok_bind, addU64_eq (by omega), Res.ok_bind]
        rfl
      · rw [if_neg h, if_neg h, if_neg h]; rfl
    have h3 : nextAddr a s ≤ a + (4 + s.data.length) := by
      unfold nextAddr; split <;> omega
    have h4 := datParts_le off s
    unfold placeAll
    rw [e1]
    simp only [Res.bind_eq, Res.ok_bind]
    rw [e2]
    simp only [Res.ok_bind]
    rw [placeAll_eq ss _ _ (by omega) (by omega)]
    simp only [Res.ok_bind, List.flatMap_cons, sizes_append, endOf_append]
    rfl

/-- The offsets of the relocations. -/
def relOffs (is64 : Bool) : Nat → List W.Section → List Nat
  | _, [] => []
  | off, s :: ss => (if s.relocs.length ≠ 0 then off else 0) :: relOffs is64 (off + relSize is64 * s.relocs.length) ss

/-- The total number of relocations. -/
def relCount (ss : List W.Section) : Nat := (ss.map fun s => s.relocs.length).sum

theorem placeRelocs_eq (is64 : Bool) : ∀ (ss : List W.Section) (off : Nat), off + relSize is64 * relCount ss < U64 →
    placeRelocs is64 off ss = .ok (relOffs is64 off ss, off + relSize is64 * relCount ss)
  | [], off, _ => rfl
  | s :: ss, off, h => by
    have hc : relCount (s :: ss) = s.relocs.length + relCount ss := by simp [relCount]
    rw [hc, Nat.mul_add] at h
    unfold placeRelocs relOffs
    by_cases h0 : s.relocs.length ≠ 0
    · rw [if_pos h0, if_pos h0]
      simp only [Res.bind_eq]
      rw [mulU64_eq (by rw [Nat.mul_comm]; omega), Res.ok_bind, addU64_eq (by rw [Nat.mul_comm]; omega), Res.ok_bind,
        Nat.mul_comm s.relocs.length, placeRelocs_eq is64 ss _ (by omega), Res.ok_bind, hc, Nat.mul_add, Nat.add_assoc]
    · rw [if_neg h0, if_neg h0]
      have : s.relocs.length = 0 := by omega
      simp only [Res.bind_eq]
      rw [this, Nat.mul_zero, Nat.add_zero, placeRelocs_eq is64 ss _ (by omega), Res.ok_bind, hc, this, Nat.zero_add]

/-! ## Symbols -/

/-- The flags of a symbol that has some. -/
def fl (o : W.Object) (s : W.Symbol) : Flags :=
  match symbolFlags o s with
  | .ok (some f) => f
  | _ => ⟨0, 1, 0, 0, none⟩

/-- The strings of a symbol. -/
def strNames (is64 : Bool) (c : Nat) (name : List UInt8) : List (List UInt8) :=
  if c = 103 then (if is64 = true then [nFile] else []) ++ if 8 < name.length then [name] else []
  else if is64 = true ∨ 8 < name.length then [name] else []

/-- The string id of a symbol. -/
def strIdOf (T : StrTab) (is64 : Bool) (c : Nat) (name : List UInt8) : Option Nat :=
  if c = 103 then (if 8 < name.length then some (idOf T name) else none)
  else if is64 = true ∨ 8 < name.length then some (idOf T name) else none

/-- The entries of `symbol_offsets`, from index `n` on. -/
def symOffs (T : StrTab) (is64 : Bool) (o : W.Object) : Nat → List W.Symbol → List SymOff
  | _, [] => []
  | n, s :: ss => ⟨n, strIdOf T is64 (fl o s).sclass s.name, auxCount (fl o s).sclass, fl o s⟩ ::
      symOffs T is64 o (n + 1 + auxCount (fl o s).sclass) ss

/-- All strings. -/
def allStrs (is64 : Bool) (o : W.Object) (ss : List W.Symbol) : List (List UInt8) := ss.flatMap fun s => strNames is64 (fl o s).sclass s.name

/-- A file symbol of a 64-bit file is among these symbols. -/
def hasFile (is64 : Bool) (o : W.Object) (ss : List W.Symbol) : Bool := is64 && ss.any fun s => decide ((fl o s).sclass = 103)

theorem add_of_mem {t : StrTab} {s : List UInt8} (h : s ∈ t.strings) : (t.add s).2 = t := by
  unfold StrTab.add
  cases hi : StrTab.indexOf s t.strings with
  | some i => rfl
  | none => exact absurd h (StrTab.indexOf_none hi)

theorem add_mem (t : StrTab) (s : List UInt8) : s ∈ (t.add s).2.strings := by
  obtain ⟨i, h1, -⟩ := StrTab.add_id t s
  exact List.mem_of_getElem? (StrTab.indexOf_some h1)

/-- The records of a symbol. -/
def recs (o : W.Object) (s : W.Symbol) : Nat := 1 + auxCount (fl o s).sclass

/-- The state of `file_str_id`. -/
def FileId (T : StrTab) (t : StrTab) (file : Option Nat) : Prop :=
  file = none ∨ (file = some (idOf T nFile) ∧ nFile ∈ t.strings)

theorem mem_addAll {t : StrTab} (h : t.strings.Nodup) {s : List UInt8} (hs : s ∈ t.strings) (ss : List (List UInt8)) :
    s ∈ (addAll t ss).strings := (ElfW.addAll_prefix h ss).subset hs

theorem nul_nFile : (0 : UInt8) ∉ nFile := by decide

theorem addStrings_eq {T t : StrTab} {k : Nat} (is64 : Bool) (c : Nat) (name : List UInt8) (file : Option Nat) (ht : TabW t (k + 2))
    (hn : (0 : UInt8) ∉ name) (hf : FileId T t file) (hp : (addAll t (strNames is64 c name)).strings <+: T.strings) :
    ∃ file', addStrings is64 c name t file = .ok (strIdOf T is64 c name, file', addAll t (strNames is64 c name)) ∧
      FileId T (addAll t (strNames is64 c name)) file' ∧ (c = 103 → is64 = true → file' ≠ none) ∧ (file ≠ none → file' ≠ none) := by
  unfold addStrings strIdOf
  by_cases hc : c = 103
  · have e : strNames is64 c name = (if is64 = true then [nFile] else []) ++ if 8 < name.length then [name] else [] := by
      unfold strNames; rw [if_pos hc]
    rw [if_pos hc, if_pos hc]
    rw [e] at hp ⊢
    have hpre : (addAll t (if is64 = true then [nFile] else [])).strings <+: T.strings := by
      refine List.IsPrefix.trans ?_ hp
      rw [addAll_append]
      exact ElfW.addAll_prefix (StrTab.addAll_strings _ t ht.nodup).1 _
    have e1 : ∃ file', addFile is64 t file = .ok (file', addAll t (if is64 = true then [nFile] else [])) ∧
        FileId T (addAll t (if is64 = true then [nFile] else [])) file' ∧ (is64 = true → file' ≠ none) ∧ (file ≠ none → file' ≠ none) := by
      unfold addFile
      by_cases h64 : is64 = true
      · rw [if_pos h64] at hpre ⊢
        by_cases hfile : file = none
        · rw [if_pos ⟨h64, hfile⟩]
          simp only [Res.bind_eq]
          rw [tabAdd_eq (T := T) (k := k + 1) ht nul_nFile (by exact hpre), Res.ok_bind]
          exact ⟨some (idOf T nFile), rfl, .inr ⟨rfl, add_mem t nFile⟩, by simp, by simp⟩
        · rw [if_neg (fun h => hfile h.2)]
          rcases hf with hf | ⟨hf, hm⟩
          · exact absurd hf hfile
          · refine ⟨file, ?_, ?_, fun _ => hfile, fun h => h⟩
            · show Res.ok (file, t) = .ok (file, (t.add nFile).2)
              rw [add_of_mem hm]
            · exact .inr ⟨hf, add_mem t nFile⟩
      · rw [if_neg h64] at hpre ⊢
        rw [if_neg (fun h => h64 h.1)]
        exact ⟨file, rfl, hf, fun h => absurd h h64, fun h => h⟩
    obtain ⟨file', g1, g2, g3, g4⟩ := e1
    simp only [Res.bind_eq]
    rw [g1]
    simp only [Res.ok_bind]
    have ht' : TabW (addAll t (if is64 = true then [nFile] else [])) (k + 1) := by
      apply TabW.addAll
      refine ht.mono ?_
      split <;> simp
      omega
    by_cases h8 : 8 < name.length
    · rw [if_pos h8] at hp
      rw [if_pos h8, if_pos h8, if_pos h8]
      rw [addAll_append] at hp ⊢
      rw [tabAdd_eq (T := T) (k := k) ht' hn (by exact hp), Res.ok_bind]
      refine ⟨file', rfl, ?_, fun _ h => g3 h, g4⟩
      rcases g2 with h | ⟨h, hm⟩
      · exact .inl h
      · exact .inr ⟨h, mem_addAll ht'.nodup hm [name]⟩
    · rw [if_neg h8, if_neg h8, if_neg h8, List.append_nil]
      exact ⟨file', rfl, g2, fun _ h => g3 h, g4⟩
  · have e : strNames is64 c name = if is64 = true ∨ 8 < name.length then [name] else [] := by
      unfold strNames; rw [if_neg hc]
    rw [if_neg hc, if_neg hc]
    rw [e] at hp ⊢
    by_cases h : is64 = true ∨ 8 < name.length
    · rw [if_pos h] at hp
      rw [if_pos h, if_pos h, if_pos h]
      simp only [Res.bind_eq]
      rw [tabAdd_eq (T := T) (k := k + 1) ht hn (by exact hp), Res.ok_bind]
      refine ⟨file, rfl, ?_, fun h => absurd h hc, fun h => h⟩
      rcases hf with hf | ⟨hf, hm⟩
      · exact .inl hf
      · exact .inr ⟨hf, mem_addAll ht.nodup hm [name]⟩
    · rw [if_neg h, if_neg h, if_neg h]
      exact ⟨file, rfl, hf, fun h => absurd h hc, fun h => h⟩

theorem length_strNames (is64 : Bool) (c : Nat) (name : List UInt8) : (strNames is64 c name).length ≤ 2 := by
  unfold strNames
  split
  · rw [List.length_append]
    split <;> split <;> simp
  · split <;> simp

theorem kindOfSection_ok (o : W.Object) (s : W.Symbol) (h : ∀ i, s.section_ = .inSec i → i < o.sections.length) : ∃ k, kindOfSection o s = .ok k := by
  unfold kindOfSection
  split
  · rename_i i hi
    rw [List.getElem?_eq_getElem (h i hi)]
    exact ⟨_, rfl⟩
  · exact ⟨_, rfl⟩

theorem symbolFlags_no_panic (o : W.Object) (s : W.Symbol) (h : ∀ i, s.section_ = .inSec i → i < o.sections.length) : symbolFlags o s ≠ .panic := by
  obtain ⟨k, hk⟩ := kindOfSection_ok o s h
  unfold symbolFlags
  split
  · unfold defaultSymbolFlags
    split
    · simp
    · split
      · rw [hk, Res.ok_bind]
        split <;> simp
      · simp
  · simp
  · simp

theorem symbolFlags_no_err (o : W.Object) (s : W.Symbol) : symbolFlags o s ≠ .err := by
  have hk : kindOfSection o s ≠ .err := by
    unfold kindOfSection
    split
    · split <;> simp
    · simp
  unfold symbolFlags
  split
  · unfold defaultSymbolFlags
    split
    · simp
    · split
      · cases h : kindOfSection o s with
        | err => exact absurd h hk
        | panic => simp
        | ok k => rw [Res.ok_bind]; split <;> simp
      · simp
  · simp
  · simp

theorem fl_eq {o : W.Object} {s : W.Symbol} {f : Flags} (h : symbolFlags o s = .ok (some f)) : fl o s = f := by
  unfold fl; rw [h]

theorem planSymbols_sat {o : W.Object} {E : Prop} {T : StrTab} (is64 : Bool) : ∀ (ss : List W.Symbol) (st : SymSt),
    (∀ s ∈ ss, ∀ i, s.section_ = .inSec i → i < o.sections.length) → (∀ s ∈ ss, (0 : UInt8) ∉ s.name) →
    (∀ s ∈ ss, symbolFlags o s = .ok none → E) →
    TabW st.tab (2 * ss.length) → FileId T st.tab st.file → (addAll st.tab (allStrs is64 o ss)).strings <+: T.strings →
    st.count + 2 * ss.length < U64 →
    Res.Sat E (planSymbols is64 o ss st) fun r =>
      (∀ s ∈ ss, ∃ f, symbolFlags o s = .ok (some f)) ∧
      r.1 = symOffs T is64 o st.count ss ∧ r.2.tab = addAll st.tab (allStrs is64 o ss) ∧ r.2.count = st.count + (ss.map (recs o)).sum ∧
      FileId T r.2.tab r.2.file ∧ (st.file ≠ none → r.2.file ≠ none) ∧
      (is64 = true → ∀ s ∈ ss, (fl o s).sclass = 103 → r.2.file ≠ none)
  | [], st, _, _, _, _, hf, _, _ => ⟨by simp, rfl, rfl, rfl, hf, fun h => h, by simp⟩
  | s :: ss, st, h1, h2, h3, h4, h5, h6, h7 => by
    have hl : 2 * (s :: ss).length = 2 * ss.length + 2 := by simp; omega
    rw [hl] at h4 h7
    have hA : allStrs is64 o (s :: ss) = strNames is64 (fl o s).sclass s.name ++ allStrs is64 o ss := by simp [allStrs]
    rw [hA, addAll_append] at h6
    unfold planSymbols planSymbol
    simp only [Res.bind_eq]
    cases hs : symbolFlags o s with
    | panic => exact absurd hs (symbolFlags_no_panic o s (h1 s (by simp)))
    | err => exact absurd hs (symbolFlags_no_err o s)
    | ok of =>
      cases of with
      | none => exact h3 s (by simp) hs
      | some f =>
        have hfl := fl_eq hs
        have htn : TabW (addAll st.tab (strNames is64 (fl o s).sclass s.name)) (2 * ss.length) := by
          apply TabW.addAll
          exact h4.mono (by have := length_strNames is64 (fl o s).sclass s.name; omega)
        have hp : (addAll st.tab (strNames is64 (fl o s).sclass s.name)).strings <+: T.strings :=
          (ElfW.addAll_prefix htn.nodup _).trans h6
        obtain ⟨file', g1, g2, g3, g4⟩ := addStrings_eq (T := T) (k := 2 * ss.length) is64 (fl o s).sclass s.name st.file h4 (h2 s (by simp)) h5 hp
        simp only [Res.ok_bind]
        rw [← hfl, g1]
        simp only [Res.ok_bind]
        have hx : auxCount (fl o s).sclass ≤ 1 := by unfold auxCount; split <;> omega
        rw [addU64_eq (by omega)]
        simp only [Res.ok_bind]
        rw [addU64_eq (by omega)]
        simp only [Res.ok_bind]
        refine (planSymbols_sat is64 ss ⟨_, file', _⟩ (fun x hx => h1 x (by simp [hx])) (fun x hx => h2 x (by simp [hx]))
          (fun x hx => h3 x (by simp [hx])) htn g2 h6 (by show _ + _ + _ + _ < _; omega)).bind ?_
        rintro ⟨ys, st'⟩ ⟨k1, k2, k3, k4, k5, k6, k7⟩
        simp only at k2 k3 k4 k5 k6 k7
        refine ⟨?_, ?_, ?_, ?_, k5, ?_, ?_⟩
        · intro x hx
          rcases List.mem_cons.1 hx with rfl | hx
          · exact ⟨f, hs⟩
          · exact k1 x hx
        · simp only [symOffs]
          rw [k2]
        · show st'.tab = _
          rw [k3, hA, addAll_append]
          rfl
        · rw [k4]
          simp only [List.map_cons, List.sum_cons, recs]
          omega
        · intro h; exact k6 (g4 h)
        · intro h64 x hx hc
          rcases List.mem_cons.1 hx with rfl | hx
          · exact k6 (g3 hc h64)
          · exact k7 h64 x hx hc

/-! ## The string table -/

/-- The string table before it is written. -/
def tabOf (is64 : Bool) (o : W.Object) : StrTab := addAll StrTab.new (allStrs is64 o o.symbols)

/-- The string table after it was written. -/
structure Written (T t : StrTab) (len : Nat) (data : List UInt8) : Prop where
  lenEq : len = 4 + data.length
  lt : len < U32
  offset : ∀ s ∈ T.strings, ∃ p, t.getOffset (idOf T s) = .ok p ∧ p < U32 ∧
    ((s ≠ [] ∨ ∃ u ∈ T.strings, u ≠ []) → StringAt (wr .big 4 len ++ data) s p)

theorem stringAt_pre {a b out s : List UInt8} {p : Nat} (ha : a = [0, 0, 0, 0]) (hb : b.length = 4) (hs : s ≠ []) (hn : (0 : UInt8) ∉ s)
    (h : StringAt (a ++ out) s p) : StringAt (b ++ out) s p := by
  obtain ⟨x, y, h1, h2⟩ := h
  have h4 : 4 ≤ x.length := by
    apply Classical.byContradiction
    intro hlt
    have hg : (a ++ out)[x.length]? = some 0 := by
      rw [List.getElem?_append_left (by rw [ha]; show _ < 4; omega), ha]
      have : x.length = 0 ∨ x.length = 1 ∨ x.length = 2 ∨ x.length = 3 := by omega
      rcases this with h | h | h | h <;> rw [h] <;> rfl
    rw [h1] at hg
    cases s with
    | nil => exact hs rfl
    | cons c s =>
      rw [List.append_assoc, List.getElem?_append_right (Nat.le_refl _), Nat.sub_self] at hg
      simp only [List.cons_append, List.getElem?_cons_zero, Option.some.injEq] at hg
      exact hn (by rw [hg]; simp)
  have hx : x = a ++ x.drop 4 := by
    have : (a ++ out).take 4 = (x ++ s ++ 0 :: y).take 4 := by rw [h1]
    rw [List.take_left' (by rw [ha]; rfl), List.append_assoc, List.take_append_of_le_length h4] at this
    rw [this, List.take_append_drop]
  refine ⟨b ++ x.drop 4, y, ?_, ?_⟩
  · rw [hx, List.append_assoc, List.append_assoc] at h1
    have := List.append_cancel_left h1
    rw [this]
    simp
  · rw [List.length_append, List.length_drop, hb]; omega

theorem strings_mem_nul {is64 : Bool} {o : W.Object} (hv : ∀ s ∈ o.symbols, (0 : UInt8) ∉ s.name) :
    ∀ s ∈ allStrs is64 o o.symbols, (0 : UInt8) ∉ s := by
  intro s hs
  obtain ⟨x, h1, h2⟩ := List.mem_flatMap.1 hs
  unfold strNames at h2
  split at h2
  · rcases List.mem_append.1 h2 with h | h
    · split at h
      · simp only [List.mem_singleton] at h; rw [h]; exact nul_nFile
      · simp at h
    · split at h
      · simp only [List.mem_singleton] at h; rw [h]; exact hv x h1
      · simp at h
  · split at h2
    · simp only [List.mem_singleton] at h2; rw [h2]; exact hv x h1
    · simp at h2

theorem storedSize_nodup_file (is64 : Bool) (o : W.Object) : ∀ (ss : List W.Symbol) (t : StrTab),
    storedSize (addAll t (allStrs is64 o ss)).strings ≤ storedSize t.strings + (if nFile ∈ t.strings then 0 else 6) + storedSize (ss.map (·.name)) ∧
    True
  | [], t => ⟨by show storedSize t.strings ≤ _; omega, trivial⟩
  | s :: ss, t => by
    refine ⟨?_, trivial⟩
    have hA : allStrs is64 o (s :: ss) = strNames is64 (fl o s).sclass s.name ++ allStrs is64 o ss := by simp [allStrs]
    rw [hA, addAll_append]
    have ih := (storedSize_nodup_file is64 o ss (addAll t (strNames is64 (fl o s).sclass s.name))).1
    have hadd : ∀ (t : StrTab) (n : List UInt8), storedSize (t.add n).2.strings ≤ storedSize t.strings + (n.length + 1) := by
      intro t n
      have := storedSize_addAll [n] t
      simpa [storedSize, addAll] using this
    have hmono : ∀ (t : StrTab) (n : List UInt8), nFile ∈ t.strings → nFile ∈ (t.add n).2.strings := by
      intro t n h
      unfold StrTab.add
      split
      · exact h
      · simp only
        split <;> simp [h]
    have hfile : ∀ (t : StrTab), storedSize (t.add nFile).2.strings + (if nFile ∈ (t.add nFile).2.strings then 0 else 6) ≤
        storedSize t.strings + (if nFile ∈ t.strings then 0 else 6) := by
      intro t
      rw [if_pos (add_mem t nFile)]
      split
      · rename_i h; rw [add_of_mem h]; omega
      · have := hadd t nFile
        have e : nFile.length = 5 := rfl
        omega
    have hname : ∀ (t : StrTab) (n : List UInt8), storedSize (t.add n).2.strings + (if nFile ∈ (t.add n).2.strings then 0 else 6) ≤
        storedSize t.strings + (if nFile ∈ t.strings then 0 else 6) + (n.length + 1) := by
      intro t n
      have := hadd t n
      have := hmono t n
      split <;> split <;> first | omega | (exfalso; rename_i h1 h2; exact h1 (this h2)) 
    have hstep : storedSize (addAll t (strNames is64 (fl o s).sclass s.name)).strings +
        (if nFile ∈ (addAll t (strNames is64 (fl o s).sclass s.name)).strings then 0 else 6) ≤
        storedSize t.strings + (if nFile ∈ t.strings then 0 else 6) + (s.name.length + 1) := by
      unfold strNames
      split
      · rw [addAll_append]
        have h1 : storedSize (addAll t (if is64 = true then [nFile] else [])).strings +
            (if nFile ∈ (addAll t (if is64 = true then [nFile] else [])).strings then 0 else 6) ≤
            storedSize t.strings + (if nFile ∈ t.strings then 0 else 6) := by
          by_cases h : is64 = true
          · rw [if_pos h]; exact hfile t
          · rw [if_neg h]; exact Nat.le_refl _
        generalize addAll t (if is64 = true then [nFile] else []) = t1 at h1 ⊢
        by_cases h : 8 < s.name.length
        · rw [if_pos h]
          have := hname t1 s.name
          have e : addAll t1 [s.name] = (t1.add s.name).2 := rfl
          rw [e]; omega
        · rw [if_neg h]
          have e : addAll t1 [] = t1 := rfl
          rw [e]; omega
      · split
        · exact hname t s.name
        · have e : addAll t [] = t := rfl
          rw [e]; omega
    have e : storedSize ((s :: ss).map (·.name)) = s.name.length + 1 + storedSize (ss.map (·.name)) := by simp [storedSize]
    rw [e]
    omega

theorem encStrtab_sat (is64 : Bool) (o : W.Object) (hv : ∀ s ∈ o.symbols, (0 : UInt8) ∉ s.name) :
    Res.Sat (2 ^ 32 ≤ nameBytes o) (encStrtab (tabOf is64 o)) fun r => Written (tabOf is64 o) r.2.1 r.1 r.2.2 := by
  have hn := strings_mem_nul (is64 := is64) hv
  have hsz := (storedSize_nodup_file is64 o o.symbols StrTab.new).1
  have e0 : storedSize StrTab.new.strings = 0 := rfl
  have e1 : (if nFile ∈ StrTab.new.strings then 0 else 6) = 6 := by decide
  rw [e0, e1] at hsz
  unfold tabOf
  generalize hF : allStrs is64 o o.symbols = F at hn hsz
  obtain ⟨offsets, out, h1, -, h3, h4⟩ := StrTab.write_merge_aux [0, 0, 0, 0] F hn (.inr (.inl rfl))
  have h5 := ElfW.storedSize_filter (fun s => decide (Maximal (addAll StrTab.new F).strings s)) (addAll StrTab.new F).strings
  have e : [(0 : UInt8), 0, 0, 0].length = 4 := rfl
  rw [e] at h1
  obtain ⟨a1, a2, a3, -⟩ := StrTab.addAll_strings F StrTab.new (by simp [StrTab.new])
  unfold encStrtab
  rw [h1]
  by_cases hb : 4 + out.length < U32
  · rw [if_pos hb]
    refine ⟨rfl, hb, ?_⟩
    intro s hs
    simp only at hs ⊢
    have hs' : s ∈ F := by
      have := (a3 s).1 hs
      simpa [StrTab.new] using this
    obtain ⟨i, hi⟩ := StrTab.indexOf_isSome hs
    have hid : idOf (addAll StrTab.new F) s = i := by unfold idOf; rw [hi]; rfl
    obtain ⟨p, hp1, hp2⟩ := h3 i s (StrTab.indexOf_some hi)
    have hpl := StrTab.stringAt_lt hp1
    rw [List.length_append, e] at hpl
    rw [Nat.mod_eq_of_lt (by omega)] at hp2
    refine ⟨p, ?_, by omega, ?_⟩
    · rw [hid]
      show StrTab.getOffset { addAll StrTab.new F with offsets := offsets } i = _
      unfold StrTab.getOffset
      show (match offsets[i]? with | some o => Res.ok o | none => .panic) = _
      rw [hp2]
    · intro hor
      by_cases hne : s ≠ []
      · exact stringAt_pre rfl (length_wr .big 4 _) hne (hn s hs') hp1
      · rcases hor with h | ⟨u, hu, hun⟩
        · exact absurd h hne
        · have hu' : u ∈ F := by
            have := (a3 u).1 hu
            simpa [StrTab.new] using this
          obtain ⟨offsets2, out2, k1, -, k3, -⟩ := StrTab.write_merge_aux (wr .big 4 (4 + out.length)) F hn (.inl ⟨u, hu', hun⟩)
          rw [length_wr, h1, if_pos hb] at k1
          simp only [Prod.mk.injEq] at k1
          obtain ⟨-, k4, k5⟩ := k1
          have k6 : offsets = offsets2 := congrArg StrTab.offsets k4
          subst k6 k5
          obtain ⟨q, hq1, hq2⟩ := k3 i s (StrTab.indexOf_some hi)
          have hql := StrTab.stringAt_lt hq1
          rw [List.length_append, length_wr] at hql
          rw [Nat.mod_eq_of_lt (by omega), hp2] at hq2
          simp only [Option.some.injEq] at hq2
          subst hq2
          exact hq1
  · rw [if_neg hb]
    show 2 ^ 32 ≤ _
    unfold nameBytes
    omega

end Obj.XcoffW

import Verif.Proof.ElfW3

/-! The reserving phase of `elf_write`: the state at its end. -/

namespace Obj.ElfW
open Obj Obj.Elf Obj.Reserve Obj.Parts Obj.Spec Obj.W Obj.Spec.ElfO

/-- The writer after the sections. -/
def W1 (c : Cfg) (len n : Nat) (T : StrTab) : Wtr :=
  ⟨c, false, len, [], ⟨0, 0, 0, n, 0⟩, 0, ⟨T, none, 0, 0, 0, []⟩, false, ⟨StrTab.new, none, 0, 0, 0, []⟩, ⟨none, 0, 0, 0, 0⟩,
    ⟨false, none, 0, []⟩⟩

/-- The writer after the symbols. -/
def W2 (c : Cfg) (len n : Nat) (T U : StrTab) (num : Nat) (need : Bool) : Wtr :=
  ⟨c, false, len, [], ⟨0, 0, 0, n, 0⟩, 0, ⟨T, none, 0, 0, 0, []⟩, true, ⟨U, none, 0, 0, 0, []⟩, ⟨none, 0, 0, num, 0⟩,
    ⟨need, none, 0, []⟩⟩

/-- The section offsets, without those of relocations. -/
def secs0 (o : Object) (c : Cfg) (r : Bool) (T : StrTab) : List SecOff := secOffs T r (L1 o c) (1 + o.comdats.length) o.sections

theorem length_shNames (o : Object) (r need : Bool) : (shNames o r need).length = o.comdats.length + hdrs o.sections + 3 + ifn need 1 := by
  unfold shNames
  simp only [List.length_append, List.length_replicate, length_secNames]
  cases need <;> simp [shndxNames, ifn] <;> omega

theorem hdrs_le : ∀ ss : List Section, hdrs ss ≤ 2 * ss.length
  | [] => by simp [hdrs]
  | s :: ss => by
    have := hdrs_le ss
    have h4 : hdrCount s ≤ 2 := by unfold hdrCount; split <;> omega
    rw [hdrs_cons, List.length_cons]; omega

theorem ifn_le (b : Bool) (k : Nat) : ifn b k ≤ k := by unfold ifn; split <;> omega

theorem planSections_sat (o : Object) (hv : Valid o) (c : Cfg) (r need : Bool) (E : Prop) (hE : ∀ d ∈ o.comdats, d.kind ≠ 1 → E) :
    Res.Sat E (planSections o r (Wtr.new c)) fun x =>
      x = (comdatOffs (shT o r need) c.ehdrSize o.comdats, secs0 o c r (shT o r need),
        W1 c (L2 o c) (adv 0 (o.comdats.length + hdrs o.sections))
          (addAll (addAll StrTab.new (List.replicate o.comdats.length nGroup)) (secNames r o.sections))) ∧
      ∀ d ∈ o.comdats, d.kind = 1 := by
  obtain ⟨b1, b2, b3, b4, b5, b6, b7, b8, b9⟩ := bounds o c r need 0 0
  have hroom := hv.room
  have hsec := hv.sections
  have hh := hdrs_le o.sections
  have hn1 := ifn_le need 1
  have he := ehdrSize_le c
  have hT : TabW StrTab.new ((shNames o r need).length + 1) := TabW.new (by rw [length_shNames]; omega)
  have hnod : ∀ l, (addAll StrTab.new l).strings.Nodup := fun l => (StrTab.addAll_strings l StrTab.new List.nodup_nil).1
  unfold planSections
  have h0 : (Wtr.new c).reserveFileHeader = .ok { (Wtr.new c) with len := c.ehdrSize } := by
    unfold Wtr.reserveFileHeader
    rw [check_ok (show (Wtr.new c).len = 0 from rfl)]
    simp only [Res.bind_eq, Res.ok_bind]
    rw [reserve_eq alignOk_1 (by show 0 + 1 + c.ehdrSize < U64; omega)]
    have e : up (Wtr.new c).len 1 + (Wtr.new c).c.ehdrSize = c.ehdrSize := by rw [up_one]; exact Nat.zero_add _
    show Res.ok { (Wtr.new c) with len := up (Wtr.new c).len 1 + (Wtr.new c).c.ehdrSize } = _
    rw [e]
  rw [h0]
  simp only [Res.bind_eq, Res.ok_bind]
  refine Res.Sat.bind (reserveComdats_sat o E (shT o r need) (hdrs o.sections + 1) o.comdats _ hv.comdatSymbol hE (by rfl) (by rfl)
    (by exact hT.mono (by rw [length_shNames]; omega)) (by show 1 + _ + 1 < U32; omega) (by show c.ehdrSize + _ < U64; omega) ?_) ?_
  · show (addAll StrTab.new (List.replicate o.comdats.length nGroup)).strings <+: _
    unfold shT shNames
    rw [addAll_append]
    exact addAll_prefix (hnod _) _
  · rintro x ⟨rfl, hk⟩
    have hT1 : TabW (addAll StrTab.new (List.replicate o.comdats.length nGroup)) (hdrs o.sections + 0 + 1) :=
      TabW.addAll _ (hT.mono (by rw [length_shNames, List.length_replicate]; omega))
    simp only
    rw [reserveSections_eq r (shT o r need) 0 o.sections _ hv.sectionName hv.align (by rfl) (by rfl) (by exact hT1)
      (by show nx (adv 0 o.comdats.length) + _ + 1 < U32
          rw [nx_adv]; show 1 + _ + _ + 1 < U32; omega)
      (by show L1 o c + _ < U64; omega)
      (by show (addAll (addAll StrTab.new (List.replicate o.comdats.length nGroup)) (secNames r o.sections)).strings <+: _
          unfold shT shNames
          rw [← addAll_append, ← List.append_assoc, addAll_append _ (_ ++ _)]
          exact addAll_prefix (hnod _) _)]
    simp only [Res.ok_bind]
    refine ⟨?_, hk⟩
    show (_, _, _) = (_, _, _)
    simp only [adv_adv, nx_adv]
    rfl

/-! ## Symbols -/

theorem secIndex_eq (o : Object) (i : Nat) : secIndex o i = 1 + o.comdats.length + hdrs (o.sections.take i) := rfl

/-- The section header index of the section of a symbol. -/
def symSec (o : Object) (s : Symbol) : Option Nat :=
  match s.section_ with
  | .inSec i => some (secIndex o i)
  | _ => none

theorem secIx_secs0 (o : Object) (c : Cfg) (r : Bool) (T : StrTab) {s : Symbol}
    (h : ∀ i, s.section_ = .inSec i → i < o.sections.length) : secIx (secs0 o c r T) s = symSec o s := by
  unfold secIx symSec
  cases hs : s.section_ with
  | inSec i =>
    have := h i hs
    simp only [SymSection.id?, secs0, secOffs_get, List.getElem?_eq_getElem this, Option.map_some, secIndex_eq]
  | none => rfl
  | undefined => rfl
  | absolute => rfl
  | common => rfl

theorem big_eq (p : Symbol → Bool) (secs : List SecOff) (l : List (Symbol × Nat)) :
    big p secs l = (l.map (·.1)).any fun s => p s && largeIndex (secIx secs s) := by
  unfold big; rw [List.any_map]; rfl

theorem length_ixs (p : Symbol → Bool) : ∀ (l : List (Symbol × Nat)) (n : Nat), (ixs p n l).length = l.length
  | [], _ => rfl
  | (s, i) :: l, n => by
    unfold ixs
    split
    · simp [length_ixs p l]
    · simp [length_ixs p l]

theorem any_split {α : Type} (p q : α → Bool) : ∀ l : List α,
    ((l.any fun x => p x && q x) || (l.any fun x => !p x && q x)) = l.any q
  | [] => rfl
  | a :: l => by
    have := any_split p q l
    simp only [List.any_cons]
    rw [← this]
    cases p a <;> cases q a <;> simp

theorem needB_eq (o : Object) : needB o = o.symbols.any fun s => largeIndex (symSec o s) := by
  unfold needB
  congr 1
  funext s
  unfold symSec
  cases s.section_ <;> rfl

/-- Number of local symbols. -/
def nLocal (o : Object) : Nat := (o.symbols.filter isLocal).length

/-- The symbol indices. -/
def finalIx (o : Object) : List Nat :=
  ixs (fun s => !isLocal s) (1 + nLocal o) (o.symbols.zip (ixs isLocal 1 (o.symbols.map fun s => (s, 0))))

theorem cnt_eq (p : Symbol → Bool) (l : List (Symbol × Nat)) : cnt p l = ((l.map (·.1)).filter p).length := by
  unfold cnt; rw [List.filter_map]; simp; rfl

theorem any_congr_mem {α : Type} {p q : α → Bool} : ∀ {l : List α}, (∀ x ∈ l, p x = q x) → l.any p = l.any q
  | [], _ => rfl
  | a :: l, h => by
    simp only [List.any_cons]
    rw [h a (by simp), any_congr_mem fun x hx => h x (by simp [hx])]

theorem planSymbols_eq (o : Object) (hv : Valid o) (c : Cfg) (r : Bool) (T : StrTab) (len n : Nat) (T1 : StrTab) :
    planSymbols o (secs0 o c r T) (W1 c len n T1) =
      .ok (finalIx o, o.symbols.map (symId (stT o)), 1 + nLocal o, W2 c len n T1 (stT o) (num o) (needB o)) := by
  have hsy := hv.symbols
  have hr1 : ∀ s ∈ o.symbols, ∀ i, s.section_ = .inSec i → i < (secs0 o c r T).length := by
    intro s hs i hi
    rw [secs0, length_secOffs]; exact hv.symbolSection s hs i hi
  have hm1 : ((o.symbols.map fun s => (s, 0)).map (·.1) : List Symbol) = o.symbols := by
    rw [List.map_map]; exact List.map_id _
  have hm2 : ∀ ix : List Nat, ix.length = o.symbols.length → (o.symbols.zip ix).map (·.1) = o.symbols := by
    intro ix h
    exact List.map_fst_zip (by omega)
  have hl := length_ixs isLocal (o.symbols.map fun s => (s, 0)) 1
  rw [List.length_map] at hl
  have hf1 : nLocal o ≤ o.symbols.length := List.length_filter_le _ _
  have hf2 : (o.symbols.filter fun s => !isLocal s).length + nLocal o = o.symbols.length := by
    unfold nLocal
    have : ∀ l : List Symbol, (l.filter fun s => !isLocal s).length + (l.filter isLocal).length = l.length := by
      intro l
      induction l with
      | nil => rfl
      | cons a l ih =>
        simp only [List.filter_cons, List.length_cons]
        cases isLocal a <;> simp <;> omega
    exact this _
  unfold planSymbols
  have h0 : (W1 c len n T1).reserveNullSymbol = .ok { (W1 c len n T1) with sy := ⟨none, 0, 0, 1, 0⟩, needStr := true } := by
    unfold Wtr.reserveNullSymbol
    rw [check_ok (show (W1 c len n T1).sy.offset = 0 from rfl), check_ok (show (W1 c len n T1).sy.num = 0 from rfl)]; rfl
  rw [h0]
  simp only [Res.bind_eq, Res.ok_bind]
  rw [reserveSymbols_eq isLocal _ _ _ (by
    intro x hx
    obtain ⟨s, hs, rfl⟩ := List.mem_map.1 hx
    exact hr1 s hs) (by rfl) (by rfl) (by show (1 : Nat) ≠ 0; omega)
    (by show 1 + cnt isLocal _ + 1 < U32
        rw [cnt_eq, hm1]; show 1 + nLocal o + 1 < _; omega)]
  simp only [Res.ok_bind]
  rw [reserveSymbols_eq (fun s => !isLocal s) _ _ _ (by
    intro x hx
    exact hr1 x.1 (List.of_mem_zip hx).1) (by rfl) (by rfl) (by show 1 + _ ≠ 0; omega)
    (by show 1 + cnt isLocal _ + cnt _ _ + 1 < U32
        rw [cnt_eq, hm1, cnt_eq, hm2 _ hl]; show 1 + nLocal o + _ + 1 < _; omega)]
  simp only [Res.ok_bind]
  have hU : TabW StrTab.new (o.symbols.length + 0) := TabW.new (by omega)
  rw [addSymbolNames_eq (stT o) 0 o.symbols _ (by
    intro s hs hn
    have := hv.symbolName s hs
    unfold storedName at this
    rwa [if_neg (by intro hk; unfold hasName at hn; rw [hk] at hn; revert hn; simp)] at this)
    (by rfl) (by exact hU) (by exact List.prefix_refl _)]
  simp only [Res.ok_bind, cnt_eq, hm1, hm2 _ hl, big_eq]
  have e1 : 1 + (o.symbols.filter isLocal).length + (o.symbols.filter fun s => !isLocal s).length = num o := by
    show 1 + nLocal o + _ = 1 + _; omega
  have e2 : (false || (o.symbols.any fun s => isLocal s && largeIndex (secIx (secs0 o c r T) s)) ||
      (o.symbols.any fun s => !isLocal s && largeIndex (secIx (secs0 o c r T) s))) = needB o := by
    rw [Bool.false_or, any_split isLocal (fun s => largeIndex (secIx (secs0 o c r T) s)), needB_eq]
    apply any_congr_mem
    intro s hs
    rw [secIx_secs0 o c r T (hv.symbolSection s hs)]
  show Res.ok (finalIx o, _, 1 + nLocal o, _) = _
  congr 4
  show Wtr.mk _ _ _ _ _ _ _ _ _ _ _ = Wtr.mk _ _ _ _ _ _ _ _ _ _ _
  congr 2
  
end Obj.ElfW

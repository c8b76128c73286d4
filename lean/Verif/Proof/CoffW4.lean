import Verif.Proof.CoffW3

/-! The symbols written by `coff_write`. -/

namespace Obj.CoffW
open Obj Obj.Reserve Obj.Parts Obj.Spec Obj.Spec.CoffO Obj.Spec.CoffS
open Obj.ElfW (check tabAdd check_ok length_of_getElem?)

/-- The auxiliary records of a symbol. -/
def auxE (crc : List UInt8 → Nat) (o : W.Object) (sels : List Sel) (n : Nat) (s : W.Symbol) : Aux :=
  if s.weak then .weak n 3
  else if s.kind = .file then .file s.name
  else if s.kind = .sectionSym then match s.section_ with
    | .inSec i => match o.sections[i]?, sels[i]? with
      | some sec, some x => .section (auxOf crc sec x)
      | _, _ => .none
    | _ => .none
  else .none

/-- The section number of the default of a weak symbol. -/
def defSec (s : W.Symbol) : Int :=
  match s.section_ with
  | .inSec i => i + 1
  | .undefined => -1
  | _ => 0

/-- The default of a weak symbol. -/
def defEntry (o : W.Object) (t : StrTab) (s : W.Symbol) : Entry :=
  ⟨symNm o t (weakName (uniqueName o) s), s.value % U32, defSec s, 0, 2, .none⟩

/-- The symbol itself. -/
def mainEntry (crc : List UInt8 → Nat) (o : W.Object) (sels : List Sel) (t : StrTab) (n : Nat) (s : W.Symbol) : Entry :=
  ⟨symNm o t (storedName s), symbolValue s, if s.weak then 0 else sectionNumberOf s.section_,
   ((symbolFlags s).getD (0, 0)).1, ((symbolFlags s).getD (0, 0)).2, auxE crc o sels n s⟩

/-- The entries of a symbol whose first record is `n`. -/
def entriesOf (crc : List UInt8 → Nat) (o : W.Object) (sels : List Sel) (t : StrTab) (n : Nat) (s : W.Symbol) : List Entry :=
  (if s.weak then [defEntry o t s] else []) ++ [mainEntry crc o sels t n s]

/-- All entries. -/
def allEntries (crc : List UInt8 → Nat) (o : W.Object) (sels : List Sel) (t : StrTab) : Nat → List W.Symbol → List Entry
  | _, [] => []
  | n, s :: ss => entriesOf crc o sels t n s ++ allEntries crc o sels t (n + symRecords s) ss

/-- The bytes of entries. -/
def imgs (es : List Entry) : List UInt8 := es.flatMap fun e => Coff.symImg e ++ Coff.auxImg e.aux

theorem imgs_append (a b : List Entry) : imgs (a ++ b) = imgs a ++ imgs b := by simp [imgs]

theorem count_auxE (crc : List UInt8 → Nat) (o : W.Object) (sels : List Sel) (n : Nat) (s : W.Symbol) (hs : sels.length = o.sections.length)
    (hi : ∀ i, s.section_ = .inSec i → i < o.sections.length) : (auxE crc o sels n s).count = auxRecords s := by
  unfold auxE auxRecords
  cases hw : s.weak with
  | true => rfl
  | false =>
    simp only [Bool.false_eq_true, if_false]
    cases hk : s.kind with
    | file => rfl
    | sectionSym =>
      simp only [reduceCtorEq, if_false, if_true]
      cases hc : s.section_ with
      | inSec i =>
        have := hi i hc
        simp only [List.getElem?_eq_getElem this, List.getElem?_eq_getElem (show i < sels.length by omega)]
        rfl
      | _ => rfl
    | _ => rfl

theorem records_entriesOf (crc : List UInt8 → Nat) (o : W.Object) (sels : List Sel) (t : StrTab) (n : Nat) (s : W.Symbol)
    (hs : sels.length = o.sections.length) (hi : ∀ i, s.section_ = .inSec i → i < o.sections.length) :
    records (entriesOf crc o sels t n s) = symRecords s := by
  have h := count_auxE crc o sels n s hs hi
  unfold entriesOf symRecords records
  cases hw : s.weak with
  | true =>
    have h2 : (defEntry o t s).aux.count = 0 := rfl
    have h3 : (mainEntry crc o sels t n s).aux.count = auxRecords s := h
    simp only [if_true, List.cons_append, List.nil_append, List.map_cons, List.map_nil, List.sum_cons, List.sum_nil, h2, h3]
    omega
  | false =>
    have h3 : (mainEntry crc o sels t n s).aux.count = auxRecords s := h
    simp [h3]

theorem records_append (a b : List Entry) : records (a ++ b) = records a + records b := by simp [records]

theorem records_allEntries (crc : List UInt8 → Nat) (o : W.Object) (sels : List Sel) (t : StrTab) (hs : sels.length = o.sections.length) :
    ∀ (ss : List W.Symbol) (n : Nat), (∀ s ∈ ss, ∀ i, s.section_ = .inSec i → i < o.sections.length) →
    records (allEntries crc o sels t n ss) = (ss.map symRecords).sum
  | [], _, _ => rfl
  | s :: ss, n, hi => by
    rw [allEntries, records_append, records_entriesOf crc o sels t n s hs (hi s (by simp)),
      records_allEntries crc o sels t hs ss _ (fun x hx => hi x (by simp [hx]))]
    rfl

theorem length_imgs {es : List Entry} (h : ∀ e ∈ es, e.name.length = 8) : (imgs es).length = 18 * records es := by
  induction es with
  | nil => rfl
  | cons e es ih =>
    have h1 := ih fun x hx => h x (by simp [hx])
    unfold imgs records at h1 ⊢
    rw [List.flatMap_cons, List.length_append, List.length_append, h1, Coff.length_symImg e (h e (by simp)), Coff.length_auxImg,
      List.map_cons, List.sum_cons]
    omega

theorem writeSymbol_eq {w : Wtr} {o : W.Object} {t : StrTab} {nm : List UInt8} {e : Entry} {aux : Nat}
    (hn : Coff.symbolName w.tab (nameOf (tabOf o) nm) = .ok (symNm o t nm)) (h8 : (symNm o t nm).length = 8) (he : e.name = symNm o t nm)
    (ha : aux = e.aux.count) (hl : w.out.length + 18 < U64) :
    w.writeSymbol ⟨nameOf (tabOf o) nm, e.value, e.sectionNumber, e.typ, e.storageClass, aux⟩ =
      .ok { w with out := w.out ++ Coff.symImg e } := by
  unfold Wtr.writeSymbol Coff.writeSymbol
  simp only [hn, Res.ok_bind, Res.bind_eq]
  rw [← he, ha]
  have hl2 := Coff.length_symImg e (by rw [he]; exact h8)
  exact write_eq (b := Coff.symImg e) (by omega)

/-- What makes a symbol acceptable. -/
structure SymAccepted (s : W.Symbol) : Prop where
  flags : ∃ x, symbolFlags s = some x
  weak : s.weak = true → s.section_ = .undefined ∨ ∃ i, s.section_ = .inSec i

theorem defaultSection_eq {s : W.Symbol} (h : s.section_ = .undefined ∨ ∃ i, s.section_ = .inSec i) :
    defaultSection s = .ok (defSec s) := by
  unfold defaultSection defSec
  rcases h with h | ⟨i, h⟩ <;> rw [h]

theorem sectionNumber_eq {s : W.Symbol} (h : s.section_ = .none → s.kind = .file ∨ s.weak = true) :
    sectionNumber s = .ok (if s.weak then 0 else sectionNumberOf s.section_) := by
  unfold sectionNumber sectionNumberOf
  cases hw : s.weak with
  | true => rfl
  | false =>
    simp only [Bool.false_eq_true, if_false]
    cases hs : s.section_ with
    | none =>
      rcases h hs with h | h
      · simp [h]
      · rw [hw] at h; cases h
    | _ => rfl

theorem writeDefault_eq {s : W.Symbol} {o : W.Object} {t : StrTab} {w : Wtr} {n : Nat}
    (hn : s.weak = true → Coff.symbolName w.tab (nameOf (tabOf o) (weakName (uniqueName o) s)) = .ok (symNm o t (weakName (uniqueName o) s)) ∧
      (symNm o t (weakName (uniqueName o) s)).length = 8)
    (hl : w.out.length + 18 < U64) (hw : s.weak = true → s.section_ = .undefined ∨ ∃ i, s.section_ = .inSec i) :
    writeDefault s (symOffOf (tabOf o) (uniqueName o) n s) w = .ok { w with out := w.out ++ imgs (if s.weak then [defEntry o t s] else []) } := by
  unfold writeDefault
  cases hk : s.weak with
  | false => simp [imgs]
  | true =>
    simp only [if_true, symOffOf, hk]
    rw [defaultSection_eq (hw hk)]
    simp only [Res.bind_eq, Res.ok_bind]
    have := writeSymbol_eq (w := w) (o := o) (t := t) (nm := weakName (uniqueName o) s) (e := defEntry o t s) (aux := 0) (hn hk).1 (hn hk).2 rfl rfl hl
    have e2 : imgs [defEntry o t s] = Coff.symImg (defEntry o t s) := by simp [imgs, defEntry, Coff.auxImg]
    rw [e2]
    exact this

theorem writeAux_eq (crc : List UInt8 → Nat) {o : W.Object} {sels : List Sel} {secs : List SecOff} {s : W.Symbol} {w : Wtr} {n : Nat}
    (hsec : ∀ i : Nat, secs[i]?.map SecOff.sel = sels[i]?) (hs : sels.length = o.sections.length)
    (hi : ∀ i, s.section_ = .inSec i → i < o.sections.length) (hf : s.kind = .file → s.name.length ≤ 255 * 18)
    (hl : w.out.length + 18 * 255 < U64) :
    writeAux crc o secs s (symOffOf (tabOf o) (uniqueName o) n s) w =
      .ok { w with out := w.out ++ Coff.auxImg (auxE crc o sels n s) } := by
  have hcount := count_auxE crc o sels n s hs hi
  have hle := auxRecords_le hf
  have hlen := Coff.length_auxImg (auxE crc o sels n s)
  rw [hcount] at hlen
  unfold writeAux
  have e1 : (symOffOf (tabOf o) (uniqueName o) n s).auxCount = auxRecords s := rfl
  rw [e1]
  cases hk : s.weak with
  | true =>
    simp only [if_true, symOffOf, hk]
    have : auxE crc o sels n s = .weak n 3 := by unfold auxE; rw [hk]; rfl
    rw [this] at hlen ⊢
    exact write_eq (by show _ + (Coff.auxImg (.weak n 3)).length < _; omega)
  | false =>
    simp only [Bool.false_eq_true, if_false]
    have hA : auxE crc o sels n s = if s.kind = .file then .file s.name
      else if s.kind = .sectionSym then match s.section_ with
        | .inSec i => match o.sections[i]?, sels[i]? with
          | some sec, some x => .section (auxOf crc sec x)
          | _, _ => .none
        | _ => .none
      else .none := by unfold auxE; rw [hk]; rfl
    by_cases h1 : s.kind = .file
    · rw [if_pos h1] at hA ⊢
      have hc : auxRecords s = (s.name.length + 17) / 18 := by
        rw [← hcount, hA]; rfl
      unfold Wtr.writeAuxFileName Coff.auxFileName
      rw [hc, if_neg (by omega)]
      simp only [Res.bind_eq, Res.ok_bind]
      rw [hA] at hlen ⊢
      exact write_eq (by show _ + (Coff.auxImg (.file s.name)).length < _; omega)
    · rw [if_neg h1] at hA ⊢
      by_cases h2 : s.kind = .sectionSym
      · rw [if_pos h2] at hA ⊢
        have hnone : ∀ (h : auxE crc o sels n s = .none), ((check (auxRecords s = 0)).bind fun _ => Res.ok w) =
            .ok { w with out := w.out ++ Coff.auxImg (auxE crc o sels n s) } := by
          intro h
          rw [h] at hcount ⊢
          have hc0 : auxRecords s = 0 := hcount.symm
          rw [check_ok hc0]
          simp [Coff.auxImg]
        cases hc : s.section_ with
        | inSec i =>
          have hil := hi i hc
          have g1 : o.sections[i]? = some o.sections[i] := List.getElem?_eq_getElem hil
          have g2 : sels[i]? = some (sels[i]'(by omega)) := List.getElem?_eq_getElem (by omega)
          have hx := hsec i
          rw [g2] at hx
          obtain ⟨y, hy1, hy2⟩ := Option.map_eq_some_iff.1 hx
          rw [hc] at hA
          simp only [g1, g2] at hA
          simp only [W.SymSection.id?]
          have hone : auxRecords s = 1 := by rw [← hcount, hA]; rfl
          unfold writeAuxSection
          rw [check_ok (by rw [e1]; exact hone)]
          simp only [Res.bind_eq, Res.ok_bind, g1, hy1]
          rw [hy2, hA]
          rw [hA] at hlen
          exact write_eq (by show _ + (Coff.auxImg (.section _)).length < _; omega)
        | _ =>
          rw [hc] at hA
          exact hnone hA
      · rw [if_neg h2] at hA ⊢
        rw [hA] at hcount ⊢
        have hc0 : auxRecords s = 0 := hcount.symm
        rw [check_ok hc0]
        simp [Coff.auxImg]

theorem writeOneSymbol_sat (E : Prop) (crc : List UInt8 → Nat) {o : W.Object} {sels : List Sel} {secs : List SecOff} {s : W.Symbol} {w : Wtr} {n : Nat}
    (hn : ∀ x ∈ symNames (uniqueName o) s, Coff.symbolName w.tab (nameOf (tabOf o) x) = .ok (symNm o w.tab x) ∧ (symNm o w.tab x).length = 8)
    (hsec : ∀ i : Nat, secs[i]?.map SecOff.sel = sels[i]?) (hs : sels.length = o.sections.length)
    (hi : ∀ i, s.section_ = .inSec i → i < o.sections.length) (hno : s.section_ = .none → s.kind = .file ∨ s.weak = true)
    (hf : s.kind = .file → s.name.length ≤ 255 * 18) (hE1 : symbolFlags s = none → E)
    (hE2 : s.weak = true → s.section_ ≠ .undefined → (∀ i, s.section_ ≠ .inSec i) → E)
    (hl : w.out.length + 18 * 257 < U64) :
    Res.Sat E (writeOneSymbol crc o secs s (symOffOf (tabOf o) (uniqueName o) n s) w) fun r =>
      r = { w with out := w.out ++ imgs (entriesOf crc o sels w.tab n s) } ∧ SymAccepted s := by
  unfold writeOneSymbol
  cases hfl : symbolFlags s with
  | none => exact hE1 hfl
  | some p =>
    obtain ⟨typ, cls⟩ := p
    simp only
    rw [sectionNumber_eq hno]
    simp only [Res.bind_eq, Res.ok_bind]
    by_cases hacc : s.weak = true → s.section_ = .undefined ∨ ∃ i, s.section_ = .inSec i
    · rw [writeDefault_eq (t := w.tab) (fun hk => hn _ (by unfold symNames; rw [if_pos hk]; simp)) (by omega) hacc]
      simp only [Res.ok_bind]
      have h18 : (imgs (if s.weak then [defEntry o w.tab s] else [])).length ≤ 18 := by
        split
        · rename_i hk
          rw [length_imgs (by
            intro e he
            rw [List.mem_singleton] at he
            subst he
            exact (hn _ (by unfold symNames; rw [if_pos hk]; simp)).2)]
          simp [records, defEntry, Aux.count]
        · simp [imgs]
      have hst := hn (storedName s) (by unfold symNames; simp)
      have hme := writeSymbol_eq (w := { w with out := w.out ++ imgs (if s.weak then [defEntry o w.tab s] else []) })
        (o := o) (t := w.tab) (nm := storedName s) (e := mainEntry crc o sels w.tab n s) (aux := auxRecords s) hst.1 hst.2 rfl
        (count_auxE crc o sels n s hs hi).symm (by show (w.out ++ _).length + _ < _; rw [List.length_append]; omega)
      have e1 : symOffOf (tabOf o) (uniqueName o) n s = ⟨nameOf (tabOf o) (storedName s), (symOffOf (tabOf o) (uniqueName o) n s).index, auxRecords s,
        (symOffOf (tabOf o) (uniqueName o) n s).default⟩ := rfl
      have e2 : (mainEntry crc o sels w.tab n s).typ = typ := by unfold mainEntry; rw [hfl]; rfl
      have e3 : (mainEntry crc o sels w.tab n s).storageClass = cls := by unfold mainEntry; rw [hfl]; rfl
      rw [e2, e3] at hme
      show Res.Sat E ((Wtr.writeSymbol { w with out := w.out ++ imgs (if s.weak then [defEntry o w.tab s] else []) }
        ⟨nameOf (tabOf o) (storedName s), (mainEntry crc o sels w.tab n s).value, (mainEntry crc o sels w.tab n s).sectionNumber, typ, cls, auxRecords s⟩).bind _) _
      rw [hme]
      simp only [Res.ok_bind]
      rw [writeAux_eq crc hsec hs hi hf (by
        show (w.out ++ imgs _ ++ Coff.symImg (mainEntry crc o sels w.tab n s)).length + _ < _
        rw [List.length_append, List.length_append, Coff.length_symImg _ hst.2]; omega)]
      refine ⟨?_, ⟨_, hfl⟩, hacc⟩
      unfold entriesOf
      rw [imgs_append]
      have : imgs [mainEntry crc o sels w.tab n s] = Coff.symImg (mainEntry crc o sels w.tab n s) ++ Coff.auxImg (auxE crc o sels n s) := by
        simp [imgs]; rfl
      rw [this]
      simp only [List.append_assoc]
    · have hk : s.weak = true := by
        cases hk : s.weak with
        | true => rfl
        | false => exact absurd (fun h => by rw [hk] at h; cases h) hacc
      have h1 : s.section_ ≠ .undefined := fun h => hacc fun _ => .inl h
      have h2 : ∀ i, s.section_ ≠ .inSec i := fun i h => hacc fun _ => .inr ⟨i, h⟩
      have hd : defaultSection s = .err := by
        unfold defaultSection
        cases hc : s.section_ with
        | inSec i => exact absurd hc (h2 i)
        | undefined => exact absurd hc h1
        | _ => rfl
      unfold writeDefault
      rw [if_pos hk]
      simp only [symOffOf, hk, if_true, hd]
      exact hE2 hk h1 h2

theorem writeSymbols_sat (E : Prop) (crc : List UInt8 → Nat) {o : W.Object} {sels : List Sel} {secs : List SecOff}
    (hsec : ∀ i : Nat, secs[i]?.map SecOff.sel = sels[i]?) (hs : sels.length = o.sections.length) : ∀ (ss : List W.Symbol) (w : Wtr) (n : Nat),
    (∀ s ∈ ss, ∀ x ∈ symNames (uniqueName o) s, Coff.symbolName w.tab (nameOf (tabOf o) x) = .ok (symNm o w.tab x) ∧ (symNm o w.tab x).length = 8) →
    (∀ s ∈ ss, ∀ i, s.section_ = .inSec i → i < o.sections.length) → (∀ s ∈ ss, s.section_ = .none → s.kind = .file ∨ s.weak = true) →
    (∀ s ∈ ss, s.kind = .file → s.name.length ≤ 255 * 18) → (∀ s ∈ ss, symbolFlags s = none → E) →
    (∀ s ∈ ss, s.weak = true → s.section_ ≠ .undefined → (∀ i, s.section_ ≠ .inSec i) → E) →
    w.out.length + 18 * (ss.map symRecords).sum + 18 * 257 < U64 →
    Res.Sat E (writeSymbols crc o secs w (ss.zip (symOffs (tabOf o) (uniqueName o) n ss))) fun r =>
      r = { w with out := w.out ++ imgs (allEntries crc o sels w.tab n ss) } ∧ ∀ s ∈ ss, SymAccepted s
  | [], w, n, _, _, _, _, _, _, _ => ⟨by simp [imgs, allEntries], by simp⟩
  | s :: ss, w, n, h1, h2, h3, h4, h5, h6, h7 => by
    simp only [List.map_cons, List.sum_cons] at h7
    unfold symOffs
    rw [List.zip_cons_cons]
    unfold writeSymbols
    have hrec : (imgs (entriesOf crc o sels w.tab n s)).length = 18 * symRecords s := by
      rw [length_imgs, records_entriesOf crc o sels w.tab n s hs (h2 s (by simp))]
      intro e he
      unfold entriesOf at he
      rcases List.mem_append.1 he with he | he
      · split at he
        · rename_i hk
          rw [List.mem_singleton] at he; subst he
          exact (h1 s (by simp) _ (by unfold symNames; rw [if_pos hk]; simp)).2
        · simp at he
      · rw [List.mem_singleton] at he; subst he
        exact (h1 s (by simp) (storedName s) (by unfold symNames; simp)).2
    simp only [Res.bind_eq]
    refine (writeOneSymbol_sat E crc (h1 s (by simp)) hsec hs (h2 s (by simp)) (h3 s (by simp)) (h4 s (by simp)) (h5 s (by simp)) (h6 s (by simp))
      (by omega)).bind ?_
    rintro w1 ⟨r1, r2⟩
    subst r1
    refine (writeSymbols_sat E crc hsec hs ss _ (n + symRecords s) (by exact fun x hx => h1 x (by simp [hx])) (fun x hx => h2 x (by simp [hx]))
      (fun x hx => h3 x (by simp [hx])) (fun x hx => h4 x (by simp [hx])) (fun x hx => h5 x (by simp [hx])) (fun x hx => h6 x (by simp [hx]))
      (by show (w.out ++ _).length + _ + _ < _; rw [List.length_append, hrec]; omega)).mono id ?_
    rintro r ⟨r3, r4⟩
    refine ⟨?_, ?_⟩
    · rw [r3, allEntries, imgs_append]
      simp only [List.append_assoc]
    · intro x hx
      rcases List.mem_cons.1 hx with rfl | hx
      · exact r2
      · exact r4 x hx

end Obj.CoffW

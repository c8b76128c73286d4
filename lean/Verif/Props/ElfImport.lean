import Verif.Spec.ElfImport
import Verif.Drain
import Verif.Proof.Util
import Verif.Proof.MachoReloc
import Verif.Props.ElfTables
import Verif.Props.ElfVersion
import Verif.Props.Note

/-! # C79: imports, exports and needed libraries of ELF files; C80: build ID and debug links -/

namespace Obj.Props
open Obj Obj.Elf Obj.Spec Obj.Spec.ElfI

private theorem strGet (t : StrTable) (data : List UInt8) (o : Nat) : t.get data o ≠ .panic := by
  unfold StrTable.get stringTableGet
  cases t with
  | none => simp
  | some p =>
    simp only
    split
    · simp
    · unfold ReadRef.readBytesAtUntil
      split
      · dsimp only
        split <;> simp
      · simp

private theorem and7fff (n : Nat) : n &&& 0x7fff = n % 0x8000 := Nat.and_two_pow_sub_one_eq_mod n 15

private theorem weak_iff (y : Sym) : ElfV.isWeak y = true ↔ y.info / 16 = 2 := by
  simp [ElfV.isWeak, ElfV.stBind, Nat.shiftRight_eq_div_pow]

private theorem version_cases (versions : Option VersionTable) (i : Nat) :
    (∃ v, importVersion versions i = .ok v ∧ VersionIs versions i v) ∨
    (importVersion versions i = .err ∧ ¬ ∃ v, VersionIs versions i v) := by
  cases versions with
  | none => exact .inl ⟨none, rfl, .noTable⟩
  | some t =>
    unfold importVersion
    simp only
    unfold VersionTable.versionIndex
    cases hs : t.symbols[i]? with
    | none => left; exact ⟨none, rfl, .uncovered hs⟩
    | some s =>
      simp only
      unfold VersionTable.version versionSpecial versymIndex
      rw [and7fff]
      by_cases h : s % 0x8000 ≤ 1
      · left; refine ⟨none, ?_, .base hs h⟩
        rw [if_pos (by simpa using h)]
      · rw [if_neg (by simpa using h)]
        cases hv : t.versions[s % 0x8000]? with
        | none =>
          right; refine ⟨rfl, ?_⟩
          rintro ⟨v, hh⟩
          cases hh with
          | uncovered h1 => rw [hs] at h1; simp at h1
          | base h1 h2 => rw [hs] at h1; simp at h1; omega
          | named h1 h2 h3 h4 => rw [hs] at h1; simp at h1; subst h1; rw [hv] at h3; simp at h3
        | some v =>
          dsimp only
          cases hb : v.valid with
          | true => left; exact ⟨some v, by simp, .named hs (by omega) hv hb⟩
          | false =>
            right; refine ⟨by simp, ?_⟩
            rintro ⟨w, hh⟩
            cases hh with
            | uncovered h1 => rw [hs] at h1; simp at h1
            | base h1 h2 => rw [hs] at h1; simp at h1; omega
            | named h1 h2 h3 h4 => rw [hs] at h1; simp at h1; subst h1; rw [hv] at h3; simp at h3; subst h3; rw [hb] at h4; simp at h4

/-- A loop over the symbols that skips some: `f` is what it does with one. -/
private structure Loop {β : Type} (next : Nat → Res (Option β) × Nat) (symbols : List Sym) (f : Nat → Sym → Option (Res β)) : Prop where
  stop : ∀ i, symbols.length ≤ i → next i = (.ok none, i)
  skip : ∀ i y, symbols[i]? = some y → f i y = none → next i = next (i + 1)
  item : ∀ i y x, symbols[i]? = some y → f i y = some (.ok x) → next i = (.ok (some x), i + 1)
  err : ∀ i y, symbols[i]? = some y → f i y = some .err → next i = (.err, i + 1)
  noPanic : ∀ i y, symbols[i]? = some y → f i y ≠ some .panic

private theorem Loop.drains {β : Type} {next : Nat → Res (Option β) × Nat} {symbols : List Sym} {f : Nat → Sym → Option (Res β)}
    (h : Loop next symbols f) (P : Nat → Sym → Option (Res β) → Prop) (hP : ∀ i y, symbols[i]? = some y → P i y (f i y)) (i : Nat) :
    ∃ outcomes : List (Option (Res β)), outcomes.length = symbols.length - i ∧
      (∀ j y r, symbols[i + j]? = some y → outcomes[j]? = some r → P (i + j) y r) ∧ Drains next i (outcomes.filterMap id) := by
  generalize hn : symbols.length - i = n
  induction n generalizing i with
  | zero => exact ⟨[], rfl, by simp, .done (h.stop i (by omega))⟩
  | succ n ih =>
    obtain ⟨o, h1, h2, h3⟩ := ih (i + 1) (by omega)
    have hi : i < symbols.length := by omega
    have hy : symbols[i]? = some symbols[i] := List.getElem?_eq_getElem hi
    refine ⟨f i symbols[i] :: o, by simp [h1], ?_, ?_⟩
    · intro j y r hj hr
      cases j with
      | zero =>
        simp at hr; subst hr
        rw [Nat.add_zero] at hj ⊢
        rw [hy] at hj; cases hj
        exact hP i _ hy
      | succ j =>
        simp only [List.getElem?_cons_succ] at hr
        have e : i + (j + 1) = i + 1 + j := by omega
        rw [e] at hj ⊢
        exact h2 j y r hj hr
    · cases hf : f i symbols[i] with
      | none =>
        simp only [List.filterMap_cons_none, id]
        exact Drains.congr (h.skip i _ hy hf) h3
      | some r =>
        rw [List.filterMap_cons_some (by rfl)]
        cases r with
        | ok x => exact .item (h.item i _ x hy hf) h3
        | err => exact .err (h.err i _ hy hf) h3
        | panic => exact absurd hf (h.noPanic i _ hy)

private def importStep (versions : Option VersionTable) (strings : StrTable) (data : List UInt8) (i : Nat) (y : Sym) : Option (Res Import) :=
  if ElfV.isUndefined y = false then none
  else match strings.get data y.name with
    | .ok [] => none
    | .ok name => some (importOf versions i y name)
    | .err => some .err
    | .panic => some .panic

/-- **C79.** `imports()`: going through all symbols of the dynamic symbol table after the null symbol, each undefined one with a name
is an import, with its version and the library that version is from; a bad name or version is an error for that symbol only, and
the iteration goes on. -/
theorem C79_imports (versions : Option VersionTable) (t : SymTab) (data : List UInt8) :
    ∃ outcomes, PerSymbol (Imports versions t.strings data) t.symbols outcomes ∧
      Drains (importNext versions t data) 1 (outcomes.filterMap id) := by
  have hL : Loop (importNext versions t data) t.symbols (importStep versions t.strings data) := by
    have hd : ∀ i y, t.symbols[i]? = some y → t.symbols.drop i = y :: t.symbols.drop (i + 1) := by
      intro i y h
      obtain ⟨hi, rfl⟩ := List.getElem?_eq_some_iff.1 h
      exact List.drop_eq_getElem_cons hi
    constructor
    · intro i h
      unfold importNext
      rw [List.drop_of_length_le h]; rfl
    · intro i y h hf
      unfold importNext
      rw [hd i y h]
      rw [importLoop]
      unfold importStep at hf
      split
      · rfl
      · rename_i hu
        rw [if_neg hu] at hf
        cases hg : t.strings.get data y.name with
        | ok n => cases n with
          | nil => rfl
          | cons b bs => rw [hg] at hf; simp at hf
        | err => rw [hg] at hf; simp at hf
        | panic => rw [hg] at hf; simp at hf
    · intro i y x h hf
      unfold importNext
      rw [hd i y h]
      rw [importLoop]
      unfold importStep at hf
      split
      · rename_i hu; rw [if_pos hu] at hf; simp at hf
      · rename_i hu
        rw [if_neg hu] at hf
        split at hf
        · simp at hf
        · rename_i hne hg
          rw [hg]
          simp only [Option.some.injEq] at hf
          split
          · rename_i h0; simp at h0; exact absurd h0 hne
          · rename_i h0; simp at h0; subst h0; rw [hf]; rfl
          · rename_i h0; simp at h0
          · rename_i h0; simp at h0
        · simp at hf
        · simp at hf
    · intro i y h hf
      unfold importNext
      rw [hd i y h]
      rw [importLoop]
      unfold importStep at hf
      split
      · rename_i hu; rw [if_pos hu] at hf; simp at hf
      · rename_i hu
        rw [if_neg hu] at hf
        split at hf
        · simp at hf
        · rename_i hne hg
          rw [hg]
          simp only [Option.some.injEq] at hf
          split
          · rename_i h0; simp at h0; exact absurd h0 hne
          · rename_i h0; simp at h0; subst h0; rw [hf]; rfl
          · rename_i h0; simp at h0
          · rename_i h0; simp at h0
        · rename_i hg; rw [hg]
        · simp at hf
    · intro i y h
      unfold importStep
      split
      · simp
      · split
        · simp
        · unfold importOf
          rcases version_cases versions i with ⟨v, hv, _⟩ | ⟨hv, _⟩ <;> rw [hv] <;> simp
        · simp
        · rename_i hg; exact absurd hg (strGet _ _ _)
  obtain ⟨o, h1, h2, h3⟩ := hL.drains (Imports versions t.strings data) (by
    intro i y _
    unfold importStep
    by_cases hu : y.shndx = 0
    · rw [if_neg (by simp [ElfV.isUndefined, hu])]
      cases hg : t.strings.get data y.name with
      | panic => exact absurd hg (strGet _ _ _)
      | err => exact .badName hu hg
      | ok name =>
        cases name with
        | nil => exact .unnamed hu hg
        | cons b bs =>
          unfold importOf
          rcases version_cases versions i with ⟨v, hv, hv'⟩ | ⟨hv, hv'⟩
          · simp only [hv, Res.ok_bind]
            refine .item hu hg (by simp) hv' (weak_iff y) ?_
            rcases v with _ | ⟨_, _, _, _ | _⟩ <;> rfl
          · simp only [hv, Res.err_bind]
            exact .badVersion hu hg (by simp) hv'
    · rw [if_pos (by simp [ElfV.isUndefined, hu])]
      exact .isDefined hu) 1
  refine ⟨o, ⟨h1, ?_⟩, h3⟩
  intro i y r hy hr
  rw [Nat.add_comm] at hy ⊢
  exact h2 i y r hy hr

private theorem target_iff (y : Sym) (t : Target) : exportTarget y = some t ↔ Exported y t := by
  have e1 : ElfV.isLocal y = true ↔ y.info / 16 = 0 := by simp [ElfV.isLocal, ElfV.stBind, Nat.shiftRight_eq_div_pow]
  have e2 : ElfV.stType y = y.info % 16 := Nat.and_two_pow_sub_one_eq_mod y.info 4
  have e3 : shndxSpecial y.shndx = true ↔ y.shndx = 0 ∨ 0xff00 ≤ y.shndx := by simp [shndxSpecial]
  unfold exportTarget
  rw [e2]
  by_cases c1 : y.info / 16 = 0
  · rw [if_pos (e1.2 c1)]
    simp only [reduceCtorEq, false_iff]
    exact fun h => h.notLocal c1
  rw [if_neg (fun h => c1 (e1.1 h))]
  by_cases c2 : (y.shndx = 0 ∨ 0xff00 ≤ y.shndx) ∧ y.shndx ≠ 0xfff1 ∧ y.shndx ≠ 0xffff
  · rw [if_pos ⟨e3.2 c2.1, c2.2⟩]
    simp only [reduceCtorEq, false_iff]
    intro h
    have := h.place
    omega
  rw [if_neg (fun h => c2 ⟨e3.1 h.1, h.2⟩)]
  have hp : (y.shndx ≠ 0 ∧ y.shndx < 0xff00) ∨ y.shndx = 0xffff ∨ y.shndx = 0xfff1 := by omega
  by_cases c3 : y.info % 16 ≤ 2
  · rw [if_pos (by omega)]
    by_cases c4 : y.shndx = 0xfff1
    · rw [if_pos c4, Option.some.injEq]
      constructor
      · rintro rfl; exact ⟨c1, hp, .absolute c3 c4⟩
      · intro h; rcases h with ⟨_, _, h⟩
        cases h with
        | absolute => rfl
        | address _ h => exact absurd c4 h
        | tls h => omega
        | resolver h => omega
    · rw [if_neg c4, Option.some.injEq]
      constructor
      · rintro rfl; exact ⟨c1, hp, .address c3 c4⟩
      · intro h; rcases h with ⟨_, _, h⟩
        cases h with
        | absolute _ h => exact absurd h c4
        | address => rfl
        | tls h => omega
        | resolver h => omega
  rw [if_neg (by omega)]
  by_cases c5 : y.info % 16 = 6
  · rw [if_pos c5, Option.some.injEq]
    constructor
    · rintro rfl; exact ⟨c1, hp, .tls c5⟩
    · intro h; rcases h with ⟨_, _, h⟩
      cases h with
      | tls => rfl
      | absolute => omega
      | address => omega
      | resolver => omega
  rw [if_neg c5]
  by_cases c6 : y.info % 16 = 10
  · rw [if_pos c6, Option.some.injEq]
    constructor
    · rintro rfl; exact ⟨c1, hp, .resolver c6⟩
    · intro h; rcases h with ⟨_, _, h⟩
      cases h with
      | tls => omega
      | absolute => omega
      | address => omega
      | resolver => rfl
  rw [if_neg c6]
  simp only [reduceCtorEq, false_iff]
  intro h; rcases h with ⟨_, _, h⟩
  cases h <;> omega

private theorem hidden_iff (t : VersionTable) (i : Nat) : versymHidden (t.versionIndex i) = true ↔ Hidden (some t) i := by
  have hb : ∀ s : Nat, versymHidden s = true ↔ s / 0x8000 % 2 = 1 := by
    intro s
    unfold versymHidden
    have e : s &&& 0x8000 = 2 ^ 15 * (s / 2 ^ 15 % 2) := by
      refine Nat.eq_of_testBit_eq (x := s &&& 2 ^ 15) (y := 2 ^ 15 * (s / 2 ^ 15 % 2)) ?_
      intro j
      rw [Nat.testBit_and, Nat.testBit_two_pow, Nat.testBit_two_pow_mul]
      by_cases hj : 15 = j
      · subst hj
        simp only [decide_true, Bool.and_true, Nat.le_refl, Nat.sub_self, Bool.true_and]
        rw [Nat.testBit_zero, Nat.testBit_eq_decide_div_mod_eq]
        simp
      · simp only [hj, decide_false, Bool.and_false]
        by_cases hj2 : 15 ≤ j
        · have : (s / 2 ^ 15 % 2).testBit (j - 15) = false := by
            apply Nat.testBit_lt_two_pow
            have : 2 ≤ 2 ^ (j - 15) := by
              have : 2 ^ 1 ≤ 2 ^ (j - 15) := Nat.pow_le_pow_right (by decide) (by omega)
              simpa using this
            omega
          simp [this]
        · simp [hj2]
    rw [e]; simp; omega
  unfold VersionTable.versionIndex Hidden
  cases hs : t.symbols[i]? with
  | none => dsimp only; rw [hb]; simp [hs]
  | some s => dsimp only; rw [hb]; simp [hs]

/-- **C79.** `exports()`: each symbol after the null symbol that is not local, is in a section or absolute, and has a supported type is
an export, with the target by its type, and its version; errors concern one symbol only. -/
theorem C79_exports (versions : Option VersionTable) (t : SymTab) (data : List UInt8) :
    ∃ outcomes, PerSymbol (Exports versions t.strings data) t.symbols outcomes ∧
      Drains (exportNext versions t data) 1 (outcomes.filterMap id) := by
  have hE : ∀ i y tg, exportOf versions t.strings data i y tg ≠ .panic := by
    intro i y tg
    unfold exportOf
    refine Res.bind_no_panic (strGet _ _ _) fun n _ => Res.bind_no_panic ?_ (by simp)
    have := version_cases versions i
    unfold importVersion at this
    unfold exportVersion
    cases versions with
    | none => simp
    | some v =>
      dsimp only at this ⊢
      rcases this with ⟨v, hv, _⟩ | ⟨hv, _⟩ <;> rw [hv] <;> simp
  have hL : Loop (exportNext versions t data) t.symbols
      (fun i y => (exportTarget y).map (exportOf versions t.strings data i y)) := by
    have hd : ∀ i y, t.symbols[i]? = some y → t.symbols.drop i = y :: t.symbols.drop (i + 1) := by
      intro i y h
      obtain ⟨hi, rfl⟩ := List.getElem?_eq_some_iff.1 h
      exact List.drop_eq_getElem_cons hi
    constructor
    · intro i h
      unfold exportNext
      rw [List.drop_of_length_le h]; rfl
    · intro i y h hf
      unfold exportNext
      rw [hd i y h]
      rw [exportLoop]
      cases ht : exportTarget y with
      | none => rfl
      | some x => rw [ht] at hf; simp at hf
    · intro i y x h hf
      unfold exportNext
      rw [hd i y h]
      rw [exportLoop]
      cases ht : exportTarget y with
      | none => rw [ht] at hf; simp at hf
      | some z =>
        rw [ht] at hf
        simp only [Option.map_some, Option.some.injEq] at hf
        simp only [hf, Res.ok_bind]
    · intro i y h hf
      unfold exportNext
      rw [hd i y h]
      rw [exportLoop]
      cases ht : exportTarget y with
      | none => rw [ht] at hf; simp at hf
      | some z =>
        rw [ht] at hf
        simp only [Option.map_some, Option.some.injEq] at hf
        simp only [hf, Res.err_bind]
    · intro i y h
      cases ht : exportTarget y with
      | none => simp
      | some z => simp; exact hE i y z
  obtain ⟨o, h1, h2, h3⟩ := hL.drains (Exports versions t.strings data) (by
    intro i y _
    cases ht : exportTarget y with
    | none =>
      refine .no ?_
      rintro ⟨x, hx⟩
      rw [(target_iff y x).2 hx] at ht; simp at ht
    | some x =>
      have hx := (target_iff y x).1 ht
      simp only [Option.map_some]
      unfold exportOf
      cases hg : t.strings.get data y.name with
      | panic => exact absurd hg (strGet _ _ _)
      | err => exact .bad hx (.inl hg)
      | ok name =>
        simp only [Res.ok_bind]
        have hv := version_cases versions i
        unfold importVersion at hv
        unfold exportVersion
        cases versions with
        | none =>
          exact .item hx hg .noTable (weak_iff y) (by simp [Hidden])
        | some v =>
          dsimp only at hv ⊢
          rcases hv with ⟨v, hv, hv'⟩ | ⟨hv, hv'⟩
          · simp only [hv, Res.ok_bind]
            exact .item hx hg hv' (weak_iff y) (hidden_iff _ _)
          · simp only [hv, Res.err_bind]
            exact .bad hx (.inr hv')) 1
  refine ⟨o, ⟨h1, ?_⟩, h3⟩
  intro i y r hy hr
  rw [Nat.add_comm] at hy ⊢
  exact h2 i y r hy hr

/-- **C79.** `import_libraries()`: the names of the `DT_NEEDED` entries before the first `DT_NULL`, in order, each an error by itself
if its value is no string. -/
theorem C79_libraries (strings : StrTable) (data : List UInt8) (dynamics : List Dyn) :
    Drains (libraryNext strings data) dynamics
      (((dynamics.takeWhile fun d => d.tag ≠ 0).filter fun d => d.tag = 1).map fun d =>
        if d.val < 2 ^ 32 then strings.get data d.val else .err) := by
  induction dynamics with
  | nil => exact .done rfl
  | cons d rest ih =>
    by_cases h0 : d.tag = 0
    · have : (d :: rest).takeWhile (fun d => decide (d.tag ≠ 0)) = [] := by simp [h0]
      rw [this]
      refine .done (s' := []) ?_
      unfold libraryNext
      rw [if_pos h0]
    · have e0 : (d :: rest).takeWhile (fun d => decide (d.tag ≠ 0)) = d :: rest.takeWhile (fun d => decide (d.tag ≠ 0)) := by simp [h0]
      rw [e0]
      by_cases h1 : d.tag = 1
      · rw [List.filter_cons_of_pos (by simp [h1]), List.map_cons]
        have hn : libraryNext strings data (d :: rest) = ((d.string strings data).bind fun s => .ok (some s), rest) := by
          show (if d.tag = 0 then _ else _) = _
          rw [if_neg h0, if_neg (by simp [h1])]
        have hstr : d.string strings data = if d.val < 2 ^ 32 then strings.get data d.val else .err := rfl
        rw [← hstr]
        cases hg : d.string strings data with
        | ok s => exact .item (by rw [hn, hg]; rfl) ih
        | err => exact .err (by rw [hn, hg]; rfl) ih
        | panic =>
          rw [hstr] at hg
          split at hg
          · exact absurd hg (strGet _ _ _)
          · simp at hg
      · rw [List.filter_cons_of_neg (by simp [h1])]
        refine Drains.congr ?_ ih
        show (if d.tag = 0 then _ else _) = _
        rw [if_neg h0, if_pos (by simpa using h1)]

/-- **C79.** Getting at the imports, exports and libraries never panics, whatever the file. -/
theorem C79_no_panic (c : Cfg) (t : SectionTable) (data : List UInt8) (hlen : data.length < 2 ^ 64) :
    importLibraries c t data ≠ .panic ∧ imports c t data ≠ .panic := by
  constructor
  · unfold importLibraries
    refine Res.bind_no_panic ?_ (by simp)
    unfold SectionTable.dynamicTable
    cases hf : t.sections.find? (fun s => s.type == 6) with
    | none => simp
    | some s =>
      have : s.type = 6 := by simpa using List.find?_some hf
      dsimp only
      rw [if_neg (by omega)]
      refine Res.bind_no_panic (dataAsArray_no_panic _ _ _) fun _ _ => Res.bind_no_panic (stringsAt_no_panic _ _) (by simp)
  · unfold imports
    refine Res.bind_no_panic ?_ (by simp)
    unfold SectionTable.versions
    have hd : ∀ o : Option Shdr, (match o with
      | some s => (s.data data).bind fun d => .ok (some d)
      | none => .ok none : Res (Option (List UInt8))) ≠ .panic := by
      intro o
      cases o with
      | none => simp
      | some s => exact Res.bind_no_panic (data_no_panic _ _) (by simp)
    cases t.firstOfType 0x6fffffff with
    | none => simp
    | some s =>
      have hs : SectionTable.symbolTableByIndex c data t s.link ≠ .panic :=
        ((C42_no_panic c true ⟨0, 0, 0, 0, 0, 0, 0, 0, 0, 0, 0, 0, 0, 0, 0⟩ data t s ⟨0, 0, 0, 0, 0, 0, 0, 0⟩ s.link 0 0 hlen).2.2.2.2.2.2.2.2.2.2.1)
      refine Res.bind_no_panic (dataAsArray_no_panic _ _ _) fun _ _ => Res.bind_no_panic hs fun _ _ =>
        Res.bind_no_panic (hd _) fun _ _ => Res.bind_no_panic (hd _) fun _ _ => Res.bind_no_panic (C36_table_no_panic _ _ _ _ _ _) (by simp)

/-- **C79.** The same for a file: `import_libraries()`, `imports()` and `exports()` go through all entries of the dynamic table and all
symbols after the null symbol, with the versions of the file; they fail exactly if the table or the versions are bad. -/
theorem C79_file (c : Cfg) (t : SectionTable) (y : SymTab) (data : List UInt8) :
    (∀ d, t.dynamicTable c data = .ok d → ∃ x, importLibraries c t data = .ok x ∧ Drains (libraryNext x.1 data) x.2
      (((d.dynamics.takeWhile fun d => d.tag ≠ 0).filter fun d => d.tag = 1).map fun e =>
        if e.val < 2 ^ 32 then d.strings.get data e.val else .err)) ∧
    (∀ v, t.versions c data = .ok v →
      (∃ x outcomes, imports c t data = .ok x ∧ PerSymbol (Imports v y.strings data) y.symbols outcomes ∧
        Drains (importNext x.1 y data) x.2 (outcomes.filterMap id)) ∧
      ∃ x outcomes, exports c t data = .ok x ∧ PerSymbol (Exports v y.strings data) y.symbols outcomes ∧
        Drains (exportNext x.1 y data) x.2 (outcomes.filterMap id)) ∧
    (t.dynamicTable c data = .err → importLibraries c t data = .err) ∧
    (t.versions c data = .err → imports c t data = .err ∧ exports c t data = .err) := by
  refine ⟨fun d hd => ?_, fun v hv => ⟨?_, ?_⟩, fun h => ?_, fun h => ⟨?_, ?_⟩⟩
  · unfold importLibraries
    rw [hd]
    exact ⟨_, rfl, C79_libraries _ _ _⟩
  · unfold imports
    rw [hv]
    obtain ⟨o, h1, h2⟩ := C79_imports v y data
    exact ⟨_, o, rfl, h1, h2⟩
  · unfold exports
    rw [hv]
    obtain ⟨o, h1, h2⟩ := C79_exports v y data
    exact ⟨_, o, rfl, h1, h2⟩
  · unfold importLibraries; rw [h]; rfl
  · unfold imports; rw [h]; rfl
  · unfold exports; rw [h]; rfl

/-! ## Build ID -/

private theorem go_zeros (k : Nat) (l : List UInt8) : Note.trimmedName.go (List.replicate k 0 ++ l) = Note.trimmedName.go l := by
  induction k with
  | zero => rfl
  | succ k ih => rw [List.replicate_succ, List.cons_append, Note.trimmedName.go, if_pos rfl, ih]

private theorem isBuildId_iff (n : Note) : n.isBuildId = true ↔ IsBuildId n := by
  have e : "GNU".toUTF8.toList = [0x47, 0x4e, 0x55] := by decide +kernel
  unfold Note.isBuildId IsBuildId
  rw [e, decide_eq_true_eq]
  constructor
  · rintro ⟨h1, h2⟩
    obtain ⟨k, h3, _⟩ := C20_trimmed_name n
    exact ⟨h2, k, by rw [h3, h1]⟩
  · rintro ⟨h1, k, h2⟩
    refine ⟨?_, h1⟩
    unfold Note.trimmedName
    rw [h2, List.reverse_append, List.reverse_replicate, go_zeros]
    rfl

private theorem noteAt_unique {en : Endianness} {align : Nat} (ha : align = 4 ∨ align = 8) {d : List UInt8} {pos : Nat} (hp : pos ≤ d.length)
    {n m : Note} {a b : Nat} (h1 : NoteAt en align d pos n a) (h2 : NoteAt en align d pos m b) : n = m ∧ a = b := by
  have e1 := (parseNote_drop_iff en align ha d pos hp n _).2 ⟨a, h1, rfl⟩
  have e2 := (parseNote_drop_iff en align ha d pos hp m _).2 ⟨b, h2, rfl⟩
  rw [e1] at e2
  have : n = m := by simpa using (congrArg Prod.fst e2)
  subst this
  exact ⟨rfl, by rw [h1.next, h2.next]⟩

private theorem find_spec (en : Endianness) (align : Nat) (ha : align = 4 ∨ align = 8) (d : List UInt8) (fuel pos : Nat)
    (hf : d.length - pos < fuel) :
    findBuildId en align fuel (d.drop pos) ≠ .panic ∧
    (∀ id, findBuildId en align fuel (d.drop pos) = .ok (some id) ↔
      ∃ ns n stop, NotesFrom en align d pos (ns ++ [n]) stop ∧ (∀ m ∈ ns, ¬ IsBuildId m) ∧ IsBuildId n ∧ n.desc = id) ∧
    (findBuildId en align fuel (d.drop pos) = .ok none ↔
      ∃ ns stop, NotesFrom en align d pos ns stop ∧ d.length ≤ stop ∧ ∀ n ∈ ns, ¬ IsBuildId n) := by
  induction fuel generalizing pos with
  | zero => omega
  | succ fuel ih =>
    by_cases h0 : d.length ≤ pos
    · rw [List.drop_of_length_le h0]
      have e : findBuildId en align (fuel + 1) [] = .ok none := by
        rw [findBuildId]; unfold nextNote; rw [fuseNext_nil]
      rw [e]
      refine ⟨by simp, ?_, ?_⟩
      · intro id
        simp only [Res.ok.injEq, reduceCtorEq, false_iff]
        rintro ⟨ns, n, stop, h, -⟩
        cases ns with
        | nil => cases h with | cons h _ _ => omega
        | cons m ns => cases h with | cons h _ _ => omega
      · simp only [true_iff]
        exact ⟨[], pos, .nil pos, h0, by simp⟩
    · have hne : d.drop pos ≠ [] := by simp; omega
      match hp : parseNote en align (d.drop pos) with
      | (.ok n, d') =>
        obtain ⟨next, hn, rfl⟩ := (parseNote_drop_iff en align ha d pos (by omega) n d').1 hp
        have hlt : pos < next := by
          have := C20_disjoint en align ha d pos next n hn
          omega
        have e : findBuildId en align (fuel + 1) (d.drop pos) =
            if n.isBuildId then .ok (some n.desc) else findBuildId en align fuel (d.drop next) := by
          rw [findBuildId]; unfold nextNote; rw [fuseNext_item hne hp]
        rw [e]
        by_cases hb : n.isBuildId = true
        · rw [if_pos hb]
          have hb' := (isBuildId_iff n).1 hb
          refine ⟨by simp, ?_, ?_⟩
          · intro id
            simp only [Res.ok.injEq, Option.some.injEq]
            constructor
            · intro h
              exact ⟨[], n, next, .cons (by omega) hn (.nil _), by simp, hb', h⟩
            · rintro ⟨ns, m, stop, h, h1, h2, h3⟩
              cases ns with
              | nil =>
                cases h with
                | cons _ h _ =>
                  obtain ⟨rfl, rfl⟩ := noteAt_unique ha (by omega) hn h
                  exact h3
              | cons x ns =>
                cases h with
                | cons _ h _ =>
                  obtain ⟨rfl, rfl⟩ := noteAt_unique ha (by omega) hn h
                  exact absurd hb' (h1 n (by simp))
          · simp only [Res.ok.injEq, reduceCtorEq, false_iff]
            rintro ⟨ns, stop, h, h1, h2⟩
            cases h with
            | nil => omega
            | cons _ h _ =>
              obtain ⟨rfl, rfl⟩ := noteAt_unique ha (by omega) hn h
              exact absurd hb' (h2 n (by simp))
        · rw [if_neg hb]
          have hb' : ¬ IsBuildId n := fun h => hb ((isBuildId_iff n).2 h)
          obtain ⟨i1, i2, i3⟩ := ih next (by omega)
          refine ⟨i1, ?_, ?_⟩
          · intro id
            rw [i2]
            constructor
            · rintro ⟨ns, m, stop, h, h1, h2, h3⟩
              exact ⟨n :: ns, m, stop, .cons (by omega) hn h, by
                intro x hx; simp at hx; rcases hx with rfl | hx
                · exact hb'
                · exact h1 x hx, h2, h3⟩
            · rintro ⟨ns, m, stop, h, h1, h2, h3⟩
              cases ns with
              | nil =>
                cases h with
                | cons _ h _ =>
                  obtain ⟨rfl, rfl⟩ := noteAt_unique ha (by omega) hn h
                  exact absurd h2 hb'
              | cons x ns =>
                cases h with
                | cons _ h hr =>
                  obtain ⟨rfl, rfl⟩ := noteAt_unique ha (by omega) hn h
                  exact ⟨ns, m, stop, hr, fun y hy => h1 y (by simp [hy]), h2, h3⟩
          · rw [i3]
            constructor
            · rintro ⟨ns, stop, h, h1, h2⟩
              exact ⟨n :: ns, stop, .cons (by omega) hn h, h1, by
                intro x hx; simp at hx; rcases hx with rfl | hx
                · exact hb'
                · exact h2 x hx⟩
            · rintro ⟨ns, stop, h, h1, h2⟩
              cases h with
              | nil => omega
              | cons _ h hr =>
                obtain ⟨rfl, rfl⟩ := noteAt_unique ha (by omega) hn h
                exact ⟨_, stop, hr, h1, fun y hy => h2 y (by simp [hy])⟩
      | (.err, d') =>
        have e : findBuildId en align (fuel + 1) (d.drop pos) = .err := by
          rw [findBuildId]
          have : nextNote en align (d.drop pos) = (.err, []) := by simp [nextNote, fuseNext, hne, hp]
          rw [this]
        rw [e]
        have hno : ∀ n next, ¬ NoteAt en align d pos n next := by
          intro n next hn
          have := (parseNote_drop_iff en align ha d pos (by omega) n _).2 ⟨next, hn, rfl⟩
          rw [hp] at this; cases this
        refine ⟨by simp, ?_, ?_⟩
        · intro id
          simp only [reduceCtorEq, false_iff]
          rintro ⟨ns, n, stop, h, -⟩
          cases ns with
          | nil => cases h with | cons _ h _ => exact hno _ _ h
          | cons m ns => cases h with | cons _ h _ => exact hno _ _ h
        · simp only [reduceCtorEq, false_iff]
          rintro ⟨ns, stop, h, h1, h2⟩
          cases h with
          | nil => omega
          | cons _ h _ => exact hno _ _ h
      | (.panic, d') =>
        exfalso
        obtain ⟨d'', hd⟩ := parseNote_eq en align ha (d.drop pos)
        rw [hp] at hd
        dsimp only at hd
        split at hd <;> cases hd

private theorem loop_spec (en : Endianness) {α : Type} (notes : α → Res (Option (Nat × List UInt8)))
    (hn : ∀ s, notes s ≠ .panic) (ha : ∀ s a d, notes s = .ok (some (a, d)) → a = 4 ∨ a = 8) (l : List α) :
    buildIdLoop en notes l ≠ .panic ∧
    (∀ id, buildIdLoop en notes l = .ok (some id) ↔
      ∃ pre s post, l = pre ++ s :: post ∧ (∀ p ∈ pre, NoBuildId en (notes p)) ∧ HasBuildId en id (notes s)) ∧
    (buildIdLoop en notes l = .ok none ↔ ∀ s ∈ l, NoBuildId en (notes s)) := by
  induction l with
  | nil => simp [buildIdLoop]
  | cons s l ih =>
    obtain ⟨i1, i2, i3⟩ := ih
    -- a place with no build ID is passed over
    have pass : NoBuildId en (notes s) → (∀ id, ¬ HasBuildId en id (notes s)) → buildIdLoop en notes (s :: l) = buildIdLoop en notes l →
        buildIdLoop en notes (s :: l) ≠ .panic ∧
        (∀ id, buildIdLoop en notes (s :: l) = .ok (some id) ↔
          ∃ pre x post, s :: l = pre ++ x :: post ∧ (∀ p ∈ pre, NoBuildId en (notes p)) ∧ HasBuildId en id (notes x)) ∧
        (buildIdLoop en notes (s :: l) = .ok none ↔ ∀ x ∈ s :: l, NoBuildId en (notes x)) := by
      intro h1 h2 h3
      rw [h3]
      refine ⟨i1, ?_, ?_⟩
      · intro id
        rw [i2]
        constructor
        · rintro ⟨pre, x, post, rfl, a, b⟩
          exact ⟨s :: pre, x, post, rfl, by
            intro p hp
            rcases List.mem_cons.1 hp with rfl | hp
            · exact h1
            · exact a p hp, b⟩
        · rintro ⟨pre, x, post, e, a, b⟩
          cases pre with
          | nil => simp at e; obtain ⟨rfl, rfl⟩ := e; exact absurd b (h2 id)
          | cons p pre => simp at e; obtain ⟨rfl, rfl⟩ := e; exact ⟨pre, x, post, rfl, fun q hq => a q (by simp [hq]), b⟩
      · rw [i3]; simp [h1]
    have stop : ∀ r : Res (Option (List UInt8)), r ≠ .panic → r ≠ .ok none → buildIdLoop en notes (s :: l) = r → ¬ NoBuildId en (notes s) →
        (∀ id, r = .ok (some id) ↔ HasBuildId en id (notes s)) →
        buildIdLoop en notes (s :: l) ≠ .panic ∧
        (∀ id, buildIdLoop en notes (s :: l) = .ok (some id) ↔
          ∃ pre x post, s :: l = pre ++ x :: post ∧ (∀ p ∈ pre, NoBuildId en (notes p)) ∧ HasBuildId en id (notes x)) ∧
        (buildIdLoop en notes (s :: l) = .ok none ↔ ∀ x ∈ s :: l, NoBuildId en (notes x)) := by
      intro r hr1 hr2 h3 h1 h2
      rw [h3]
      refine ⟨hr1, ?_, ?_⟩
      · intro id
        rw [h2]
        constructor
        · intro h; exact ⟨[], s, l, rfl, by simp, h⟩
        · rintro ⟨pre, x, post, e, a, b⟩
          cases pre with
          | nil => simp at e; obtain ⟨rfl, rfl⟩ := e; exact b
          | cons p pre => simp at e; obtain ⟨rfl, rfl⟩ := e; exact absurd (a s (by simp)) h1
      · constructor
        · intro h; exact absurd h hr2
        · intro h; exact absurd (h s (by simp)) h1
    cases hs : notes s with
    | panic => exact absurd hs (hn s)
    | err =>
      refine stop .err (by simp) (by simp) ?_ ?_ ?_
      · rw [buildIdLoop, hs]
      · rw [hs]; exact id
      · rw [hs]; intro id; simp [HasBuildId]
    | ok o =>
      cases o with
      | none =>
        refine pass ?_ ?_ ?_
        · rw [hs]; trivial
        · rw [hs]; exact fun id h => h
        · rw [buildIdLoop, hs]
      | some p =>
        obtain ⟨a, d⟩ := p
        obtain ⟨f1, f2, f3⟩ := find_spec en a (ha s a d hs) d (d.length + 1) 0 (by omega)
        rw [List.drop_zero] at f1 f2 f3
        cases hr : findBuildId en a (d.length + 1) d with
        | panic => exact absurd hr f1
        | err =>
          refine stop .err (by simp) (by simp) ?_ ?_ ?_
          · rw [buildIdLoop, hs]; simp only [hr]
          · rw [hs]; intro h; rw [f3.2 h] at hr; simp at hr
          · rw [hs]; intro id
            simp only [reduceCtorEq, false_iff]
            intro h; rw [(f2 id).2 h] at hr; simp at hr
        | ok o =>
          cases o with
          | none =>
            refine pass ?_ ?_ ?_
            · rw [hs]; exact f3.1 hr
            · rw [hs]; intro id h; rw [(f2 id).2 h] at hr; simp at hr
            · rw [buildIdLoop, hs]; simp only [hr]
          | some id =>
            refine stop (.ok (some id)) (by simp) (by simp) ?_ ?_ ?_
            · rw [buildIdLoop, hs]; simp only [hr]
            · rw [hs]; intro h; rw [f3.2 h] at hr; simp at hr
            · rw [hs]; intro id'
              rw [← hr]; exact f2 id'

/-- **C80.** `build_id()` never panics; it is the contents of the first build ID note in the note sections, or, if there are no sections,
in the note segments, provided everything before it can be read; it is absent exactly if all notes can be read and none is a
build ID. -/
theorem C80_build_id (c : Cfg) (t : SectionTable) (segments : List Phdr) (data : List UInt8) :
    buildId c t segments data ≠ .panic ∧
    (t.sections ≠ [] →
      (∀ id, buildId c t segments data = .ok (some id) ↔ ∃ pre s post, t.sections = pre ++ s :: post ∧
        (∀ p ∈ pre, NoBuildId c.en (p.notes data)) ∧ HasBuildId c.en id (s.notes data)) ∧
      (buildId c t segments data = .ok none ↔ ∀ s ∈ t.sections, NoBuildId c.en (s.notes data))) ∧
    (t.sections = [] →
      (∀ id, buildId c t segments data = .ok (some id) ↔ ∃ pre p post, segments = pre ++ p :: post ∧
        (∀ q ∈ pre, NoBuildId c.en (q.notes data)) ∧ HasBuildId c.en id (p.notes data)) ∧
      (buildId c t segments data = .ok none ↔ ∀ p ∈ segments, NoBuildId c.en (p.notes data))) := by
  have al : ∀ a, noteAlign a ≠ .panic := by
    intro a; unfold noteAlign; repeat' split
    all_goals simp
  have pd : ∀ p : Phdr, p.data data ≠ .panic := fun p => readRef_readBytesAt_no_panic _ _ _
  have s1 := loop_spec c.en (fun s => Shdr.notes s data) (by
      intro s; unfold Shdr.notes; split
      · simp
      · exact Res.bind_no_panic (data_no_panic _ _) fun _ _ => Res.bind_no_panic (al _) (by simp)) (by
      intro s a d h
      unfold Shdr.notes at h
      split at h
      · simp at h
      · obtain ⟨x, h1, h⟩ := (Res.bind_eq_ok ..).1 h
        obtain ⟨y, h2, h⟩ := (Res.bind_eq_ok ..).1 h
        simp at h
        obtain ⟨rfl, rfl⟩ := h
        exact noteAlign_cases h2) t.sections
  have s2 := loop_spec c.en (fun s => Phdr.notes s data) (by
      intro s; unfold Phdr.notes; split
      · simp
      · exact Res.bind_no_panic (pd _) fun _ _ => Res.bind_no_panic (al _) (by simp)) (by
      intro s a d h
      unfold Phdr.notes at h
      split at h
      · simp at h
      · obtain ⟨x, h1, h⟩ := (Res.bind_eq_ok ..).1 h
        obtain ⟨y, h2, h⟩ := (Res.bind_eq_ok ..).1 h
        simp at h
        obtain ⟨rfl, rfl⟩ := h
        exact noteAlign_cases h2) segments
  unfold buildId
  cases ht : t.sections with
  | nil =>
    rw [if_neg (by simp)]
    exact ⟨s2.1, fun h => absurd rfl h, fun _ => s2.2⟩
  | cons x l =>
    rw [if_pos (by simp), ← ht]
    exact ⟨s1.1, fun _ => s1.2, fun h => by rw [ht] at h; simp at h⟩

/-- **C80.** Where notes come from: note sections and segments whose data is in the file, with alignment up to 4 or 8. -/
theorem C80_places (s : Shdr) (p : Phdr) (data : List UInt8) (a : Nat) (d : List UInt8) :
    (s.notes data = .ok (some (a, d)) ↔ s.type = 7 ∧ s.data data = .ok d ∧ (s.addralign ≤ 4 ∧ a = 4 ∨ s.addralign = 8 ∧ a = 8)) ∧
    (p.notes data = .ok (some (a, d)) ↔ p.type = 4 ∧ p.data data = .ok d ∧ (p.align ≤ 4 ∧ a = 4 ∨ p.align = 8 ∧ a = 8)) ∧
    (s.notes data = .ok none ↔ s.type ≠ 7) ∧ (p.notes data = .ok none ↔ p.type ≠ 4) := by
  have al : ∀ x y, noteAlign x = .ok y ↔ (x ≤ 4 ∧ y = 4 ∨ x = 8 ∧ y = 8) := by
    intro x y; unfold noteAlign
    repeat' split
    all_goals simp
    all_goals omega
  have gen : ∀ (t k al' : Nat) (r : Res (List UInt8)) (o : Option (Nat × List UInt8)),
      (if t ≠ k then Res.ok none else r.bind fun d => (noteAlign al').bind fun a => .ok (some (a, d))) = .ok o ↔
      (t ≠ k ∧ o = none) ∨ (t = k ∧ ∃ d a, r = .ok d ∧ (al' ≤ 4 ∧ a = 4 ∨ al' = 8 ∧ a = 8) ∧ o = some (a, d)) := by
    intro t k al' r o
    by_cases h : t = k
    · rw [if_neg (by simpa using h), Res.bind_eq_ok]
      constructor
      · rintro ⟨d, h1, h2⟩
        obtain ⟨a, h3, h4⟩ := (Res.bind_eq_ok ..).1 h2
        simp at h4
        exact .inr ⟨h, d, a, h1, (al _ _).1 h3, h4.symm⟩
      · rintro (⟨h1, _⟩ | ⟨_, d, a, h1, h2, rfl⟩)
        · exact absurd h h1
        · exact ⟨d, h1, by rw [(al _ _).2 h2]; rfl⟩
    · rw [if_pos h]
      simp [h, eq_comm]
  refine ⟨?_, ?_, ?_, ?_⟩
  · refine (gen s.type 7 s.addralign (s.data data) _).trans ?_
    constructor
    · rintro (⟨_, h⟩ | ⟨h1, d', a', h2, h3, h4⟩)
      · simp at h
      · simp at h4; obtain ⟨rfl, rfl⟩ := h4; exact ⟨h1, h2, h3⟩
    · rintro ⟨h1, h2, h3⟩; exact .inr ⟨h1, d, a, h2, h3, rfl⟩
  · refine (gen p.type 4 p.align (p.data data) _).trans ?_
    constructor
    · rintro (⟨_, h⟩ | ⟨h1, d', a', h2, h3, h4⟩)
      · simp at h
      · simp at h4; obtain ⟨rfl, rfl⟩ := h4; exact ⟨h1, h2, h3⟩
    · rintro ⟨h1, h2, h3⟩; exact .inr ⟨h1, d, a, h2, h3, rfl⟩
  · refine (gen s.type 7 s.addralign (s.data data) _).trans ?_
    simp
  · refine (gen p.type 4 p.align (p.data data) _).trans ?_
    simp

/-! ## Debug links -/

private theorem readStringAt_zero (d : List UInt8) : Bytes.readStringAt d 0 = (Bytes.readString d).1 := by
  unfold Bytes.readStringAt Bytes.skip
  simp

/-- **C80.** `gnu_debuglink()` never panics; its contents are a zero terminated file name and, at the next multiple of 4, the checksum. -/
theorem C80_debuglink (c : Cfg) (t : SectionTable) (data : List UInt8) (hlen : data.length < 2 ^ 63) :
    gnuDebuglink c t data ≠ .panic ∧
    (gnuDebuglink c t data = .ok none ↔ t.sectionByName data ".gnu_debuglink".toUTF8.toList = none) ∧
    ∀ name crc, gnuDebuglink c t data = .ok (some (name, crc)) ↔ ∃ i s d, t.sectionByName data ".gnu_debuglink".toUTF8.toList = some (i, s) ∧
      s.data data = .ok d ∧ At d 0 (name ++ [0]) ∧ (0 : UInt8) ∉ name ∧ roundUp (name.length + 1) 4 + 4 ≤ d.length ∧
      field c.en d (roundUp (name.length + 1) 4) 4 = crc := by
  have hp : ∀ d : List UInt8, d.length < 2 ^ 63 → parseDebugLink c.en d ≠ .panic ∧ ∀ name crc, parseDebugLink c.en d = .ok (name, crc) ↔
      At d 0 (name ++ [0]) ∧ (0 : UInt8) ∉ name ∧ roundUp (name.length + 1) 4 + 4 ≤ d.length ∧
      field c.en d (roundUp (name.length + 1) 4) 4 = crc := by
    intro d hd
    unfold parseDebugLink
    rw [readStringAt_zero]
    rcases readString_cases d with ⟨s, tl, h1, h2, h3⟩ | ⟨h1, h2⟩
    · rw [h3]
      have hl : s.length + 1 ≤ d.length := by rw [h1]; simp
      simp only [Res.ok_bind]
      rw [alignUsize_4_8 (.inl rfl) (by show _ < 2 ^ 64; omega), Res.ok_bind, bytes_readAt_eq]
      have er : (s.length + 1 + (4 - 1)) / 4 * 4 = roundUp (s.length + 1) 4 := rfl
      rw [er]
      have hat : ∀ name, At d 0 (name ++ [0]) ∧ (0 : UInt8) ∉ name ↔ name = s := by
        intro name
        constructor
        · rintro ⟨a, b⟩
          unfold At slice at a
          rw [List.drop_zero] at a
          have hpre : name ++ [0] <+: d := by rw [← a]; exact List.take_prefix _ _
          obtain ⟨tl', ht⟩ := hpre
          have e1 : Bytes.readString d = (.ok name, tl') := by
            rw [← ht, List.append_assoc]; exact readString_append b
          rw [h3] at e1; simp at e1; exact e1.1.symm
        · rintro rfl
          refine ⟨?_, h2⟩
          unfold At slice
          have e : d = (name ++ [0]) ++ tl := by rw [h1]; simp
          rw [List.drop_zero, e, List.take_left' rfl]
      by_cases hb : roundUp (s.length + 1) 4 + 4 ≤ d.length
      · rw [if_pos hb, Res.ok_bind]
        refine ⟨by simp, ?_⟩
        intro name crc
        simp only [Res.ok.injEq, Prod.mk.injEq]
        constructor
        · rintro ⟨rfl, rfl⟩
          obtain ⟨a, b⟩ := (hat s).2 rfl
          exact ⟨a, b, hb, rfl⟩
        · rintro ⟨a, b, _, e⟩
          obtain rfl := (hat name).1 ⟨a, b⟩
          exact ⟨rfl, e⟩
      · rw [if_neg hb]
        refine ⟨by simp, ?_⟩
        intro name crc
        simp only [Res.err_bind, reduceCtorEq, false_iff]
        rintro ⟨a, b, e, _⟩
        obtain rfl := (hat name).1 ⟨a, b⟩
        exact hb e
    · rw [h2]
      refine ⟨by simp, ?_⟩
      intro name crc
      simp only [Res.err_bind, reduceCtorEq, false_iff]
      rintro ⟨a, b, _, _⟩
      unfold At slice at a
      rw [List.drop_zero] at a
      have hpre : name ++ [0] <+: d := by rw [← a]; exact List.take_prefix _ _
      exact h1 (hpre.subset (by simp))
  unfold gnuDebuglink
  show (match t.sectionByName data ".gnu_debuglink".toUTF8.toList with | none => Res.ok none | some (_, s) => _) ≠ _ ∧ _
  cases hs : t.sectionByName data nDebugLink with
  | none =>
    have hs' : t.sectionByName data ".gnu_debuglink".toUTF8.toList = none := hs
    rw [hs']
    simp
  | some p =>
    obtain ⟨i, s⟩ := p
    have hs' : t.sectionByName data ".gnu_debuglink".toUTF8.toList = some (i, s) := hs
    rw [hs']
    dsimp only
    cases hd : s.data data with
    | panic => exact absurd hd (data_no_panic _ _)
    | err => simp [hd]
    | ok d =>
      have hl : d.length < 2 ^ 63 := by
        rw [C42_section_data] at hd
        split at hd
        · simp at hd; subst hd; simp
        · split at hd
          · simp at hd; subst hd; exact Nat.lt_of_le_of_lt (by simp [slice]; omega) hlen
          · simp at hd
      obtain ⟨p1, p2⟩ := hp d hl
      simp only [Res.ok_bind]
      refine ⟨Res.bind_no_panic p1 (by simp), ?_, ?_⟩
      · cases parseDebugLink c.en d <;> simp
      · intro name crc
        rw [Res.bind_eq_ok]
        constructor
        · rintro ⟨x, h1, h2⟩
          simp only [Res.ok.injEq, Option.some.injEq] at h2
          subst h2
          exact ⟨i, s, d, rfl, hd, (p2 name crc).1 h1⟩
        · rintro ⟨i', s', d', h1, h2, h3⟩
          simp only [Option.some.injEq, Prod.mk.injEq] at h1
          obtain ⟨rfl, rfl⟩ := h1
          rw [hd] at h2; simp at h2; subst h2
          exact ⟨(name, crc), (p2 name crc).2 h3, rfl⟩

/-- **C80.** `gnu_debugaltlink()` never panics; it is a zero terminated file name and all that follows. -/
theorem C80_debugaltlink (t : SectionTable) (data : List UInt8) :
    gnuDebugaltlink t data ≠ .panic ∧
    (gnuDebugaltlink t data = .ok none ↔ t.sectionByName data ".gnu_debugaltlink".toUTF8.toList = none) ∧
    ∀ name id, gnuDebugaltlink t data = .ok (some (name, id)) ↔ ∃ i s, t.sectionByName data ".gnu_debugaltlink".toUTF8.toList = some (i, s) ∧
      (0 : UInt8) ∉ name ∧ s.data data = .ok (name ++ [0] ++ id) := by
  unfold gnuDebugaltlink
  show (match t.sectionByName data ".gnu_debugaltlink".toUTF8.toList with | none => Res.ok none | some (_, s) => _) ≠ _ ∧ _
  cases hs : t.sectionByName data nDebugAltLink with
  | none =>
    have hs' : t.sectionByName data ".gnu_debugaltlink".toUTF8.toList = none := hs
    rw [hs']
    simp
  | some p =>
    obtain ⟨i, s⟩ := p
    have hs' : t.sectionByName data ".gnu_debugaltlink".toUTF8.toList = some (i, s) := hs
    rw [hs']
    dsimp only
    cases hd : s.data data with
    | panic => exact absurd hd (data_no_panic _ _)
    | err => simp [hd]
    | ok d =>
      simp only [Res.ok_bind]
      rcases readString_cases d with ⟨x, tl, h1, h2, h3⟩ | ⟨h1, h2⟩
      · rw [h3]
        simp only [Res.ok_bind]
        refine ⟨by simp, by simp, ?_⟩
        intro name id
        simp only [Res.ok.injEq, Option.some.injEq, Prod.mk.injEq]
        constructor
        · rintro ⟨rfl, rfl⟩
          exact ⟨i, s, ⟨rfl, rfl⟩, h2, by rw [hd, h1]; simp⟩
        · rintro ⟨i', s', ⟨rfl, rfl⟩, g1, g2⟩
          rw [hd] at g2; simp only [Res.ok.injEq] at g2
          have e : Bytes.readString d = (.ok name, id) := by
            rw [g2, List.append_assoc]; exact readString_append g1
          rw [h3] at e; simp at e
          exact e
      · rw [h2]
        refine ⟨by simp, by simp, ?_⟩
        intro name id
        simp only [Res.err_bind, reduceCtorEq, false_iff]
        rintro ⟨i', s', h, g1, g2⟩
        simp only [Option.some.injEq, Prod.mk.injEq] at h
        obtain ⟨rfl, rfl⟩ := h
        rw [hd] at g2; simp only [Res.ok.injEq] at g2
        exact h1 (by rw [g2]; simp)

/-! ## Examples -/

/-- A string table with `f`, `g` and `v`, the null symbol, an undefined weak function and a defined TLS symbol with a hidden version. -/
private def sampleTab : SymTab :=
  ⟨0, 0, 0, [⟨0, 0, 0, 0, 0, 0⟩, ⟨1, 0x22, 0, 0, 0, 0⟩, ⟨3, 0x16, 0, 5, 0x40, 8⟩, ⟨3, 0x02, 0, 5, 0x40, 8⟩, ⟨9, 0x12, 0, 0, 0, 0⟩], some (0, 7), []⟩
private def sampleStrings : List UInt8 := [0, 0x66, 0, 0x67, 0, 0x76, 0]
private def sampleVersions : VersionTable := ⟨[0, 2, 0x8003, 0, 1], [.dflt, .dflt, ⟨[0x76], 1, true, some [0x6c]⟩, ⟨[0x77], 2, true, none⟩]⟩

example : Drains (importNext (some sampleVersions) sampleTab sampleStrings) 1
      [.ok ⟨[0x6c], [0x66], true, 0x22, 0, some [0x76]⟩, .err] ∧
    Drains (exportNext (some sampleVersions) sampleTab sampleStrings) 1
      [.ok ⟨[0x67], .tls 0x40, false, 0x16, 0, some [0x77], true⟩] := by
  refine ⟨.item (s' := 2) ?_ (.err (s' := 5) ?_ (.done (s' := 5) ?_)), .item (s' := 3) ?_ (.done (s' := 5) ?_)⟩ <;> decide +kernel

example : VersionIs (some sampleVersions) 2 (some ⟨[0x77], 2, true, none⟩) ∧ Hidden (some sampleVersions) 2 ∧ Exported ⟨3, 0x16, 0, 5, 0x40, 8⟩ (.tls 0x40) :=
  ⟨.named (s := 0x8003) (by decide) (by decide) (by decide) rfl, ⟨0x8003, by decide, by decide⟩, ⟨by decide, by decide, .tls (by decide)⟩⟩

/-- Two needed libraries, one of them with a bad name, an entry of another kind, and one after the end. -/
example : Drains (libraryNext (some (0, 7)) sampleStrings) [⟨1, 1⟩, ⟨30, 8⟩, ⟨1, 100⟩, ⟨0, 0⟩, ⟨1, 1⟩] [.ok [0x66], .err] :=
  C79_libraries (some (0, 7)) sampleStrings [⟨1, 1⟩, ⟨30, 8⟩, ⟨1, 100⟩, ⟨0, 0⟩, ⟨1, 1⟩]

/-- A note section with another note and the build ID `[1, 2]`. -/
private def sampleNotes : List UInt8 :=
  noteBytes .little 4 ⟨1, [0x47, 0x4e, 0x55, 0], [9, 9, 9, 9]⟩ ++ noteBytes .little 4 ⟨3, [0x47, 0x4e, 0x55, 0], [1, 2]⟩
private def sampleSections : SectionTable := ⟨[⟨0, 0, 0, 0, 0, 0, 0, 0, 0, 0⟩, ⟨0, 7, 0, 0, 0, sampleNotes.length, 0, 0, 4, 0⟩], none⟩

example : buildId ⟨true, .little⟩ sampleSections [] sampleNotes = .ok (some [1, 2]) ∧
    buildId ⟨true, .little⟩ ⟨[], none⟩ [] sampleNotes = .ok none := by
  constructor <;> decide +kernel

example : IsBuildId ⟨3, [0x47, 0x4e, 0x55, 0], [1, 2]⟩ ∧ ¬ IsBuildId ⟨1, [0x47, 0x4e, 0x55, 0], [1, 2]⟩ :=
  ⟨⟨rfl, 1, by decide +kernel⟩, fun h => by cases h.1⟩

example : parseDebugLink .little [0x61, 0, 0, 0, 1, 2, 0, 0] = .ok ([0x61], 0x201) ∧ parseDebugLink .little [0x61, 0, 0, 0, 1, 2, 0] = .err := by
  constructor <;> decide +kernel

end Obj.Props

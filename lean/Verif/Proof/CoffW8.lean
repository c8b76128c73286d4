import Verif.Proof.CoffW7

/-! The symbol table of the file written by `coff_write`. -/

namespace Obj.CoffW
open Obj Obj.Reserve Obj.Parts Obj.Spec Obj.Spec.CoffO Obj.Spec.CoffS
open Obj.ElfW (check tabAdd check_ok length_of_getElem?)

/-! ## Lists of entries -/

theorem entriesBytes_imgs (T : StrTab) : ∀ (es : List Entry), (∀ e ∈ es, e.Fits) → entriesBytes T es = .ok (imgs es)
  | [], _ => rfl
  | e :: es, h => by
    rw [entriesBytes, Coff.entry_bytes T e (h e (by simp)), entriesBytes_imgs T es (fun x hx => h x (by simp [hx]))]
    simp [imgs]

theorem indexed_append : ∀ (a b : List Entry) (n : Nat), indexed n (a ++ b) = indexed n a ++ indexed (n + records a) b
  | [], b, n => by simp [indexed, records]
  | e :: a, b, n => by
    rw [List.cons_append, indexed, indexed_append a b, indexed, List.cons_append]
    have : n + (1 + e.aux.count) + records a = n + records (e :: a) := by simp [records]; omega
    rw [this]

section
variable (crc : List UInt8 → Nat) (o : W.Object) (sels : List Sel) (t : StrTab)

theorem indexed_entriesOf (n : Nat) (s : W.Symbol) : indexed n (entriesOf crc o sels t n s) =
    (if s.weak then [(n, defEntry o t s)] else []) ++ [(n + if s.weak then 1 else 0, mainEntry crc o sels t n s)] := by
  unfold entriesOf
  cases s.weak <;> simp [indexed]
  rfl

theorem indices_allEntries (hs : sels.length = o.sections.length) : ∀ (ss : List W.Symbol) (n : Nat),
    (∀ s ∈ ss, ∀ i, s.section_ = .inSec i → i < o.sections.length) →
    (indexed n (allEntries crc o sels t n ss)).map (·.1) = indices n ss
  | [], _, _ => rfl
  | s :: ss, n, hi => by
    rw [allEntries, indexed_append, records_entriesOf crc o sels t n s hs (hi s (by simp)), List.map_append,
      indices_allEntries hs ss _ (fun x hx => hi x (by simp [hx])), indexed_entriesOf, indices]
    cases s.weak <;> rfl

theorem mem_indexed (hs : sels.length = o.sections.length) : ∀ (ss : List W.Symbol) (n : Nat),
    (∀ s ∈ ss, ∀ i, s.section_ = .inSec i → i < o.sections.length) → ∀ (i : Nat) (s : W.Symbol), ss[i]? = some s →
    (s.weak = true → (n + ((ss.take i).map symRecords).sum, defEntry o t s) ∈ indexed n (allEntries crc o sels t n ss)) ∧
    (n + ((ss.take i).map symRecords).sum + (if s.weak then 1 else 0), mainEntry crc o sels t (n + ((ss.take i).map symRecords).sum) s) ∈
      indexed n (allEntries crc o sels t n ss)
  | [], _, _, _, _, h => by simp at h
  | a :: ss, n, hi, 0, s, h => by
    simp only [List.getElem?_cons_zero, Option.some.injEq] at h
    subst h
    rw [allEntries, indexed_append, indexed_entriesOf]
    simp only [List.take_zero, List.map_nil, List.sum_nil, Nat.add_zero]
    constructor
    · intro hw
      apply List.mem_append_left
      rw [if_pos hw]; simp
    · apply List.mem_append_left
      simp
  | a :: ss, n, hi, i + 1, s, h => by
    simp only [List.getElem?_cons_succ] at h
    have ih := mem_indexed hs ss (n + symRecords a) (fun x hx => hi x (by simp [hx])) i s h
    rw [allEntries, indexed_append, records_entriesOf crc o sels t n a hs (hi a (by simp))]
    simp only [List.take_succ_cons, List.map_cons, List.sum_cons, ← Nat.add_assoc]
    exact ⟨fun hw => List.mem_append_right _ (ih.1 hw), List.mem_append_right _ ih.2⟩

theorem mem_allEntries : ∀ (ss : List W.Symbol) (n : Nat) (e : Entry), e ∈ allEntries crc o sels t n ss →
    ∃ (i : Nat) (s : W.Symbol), ss[i]? = some s ∧ ((s.weak = true ∧ e = defEntry o t s) ∨ e = mainEntry crc o sels t (n + ((ss.take i).map symRecords).sum) s)
  | [], _, _, h => by simp [allEntries] at h
  | a :: ss, n, e, h => by
    rw [allEntries] at h
    rcases List.mem_append.1 h with h | h
    · refine ⟨0, a, rfl, ?_⟩
      unfold entriesOf at h
      rcases List.mem_append.1 h with h | h
      · split at h
        · rename_i hw
          rw [List.mem_singleton] at h
          exact .inl ⟨hw, h⟩
        · simp at h
      · rw [List.mem_singleton] at h
        exact .inr (by rw [h]; simp)
    · obtain ⟨i, s, h1, h2⟩ := mem_allEntries ss _ e h
      refine ⟨i + 1, s, by simpa using h1, ?_⟩
      simp only [List.take_succ_cons, List.map_cons, List.sum_cons, ← Nat.add_assoc]
      exact h2

end

section
variable {crc : List UInt8 → Nat} {o : W.Object} {sub : Option SubArch} {flags : Option Nat} {p : Plan} {w : Wtr} {sels : List Sel}
  {size : Nat} {t : StrTab} {strs : List UInt8} {machine : Nat} {data : List UInt8}

theorem mem_symNames_stored (u : List UInt8) (s : W.Symbol) : storedName s ∈ symNames u s := by unfold symNames; simp

theorem mem_symNames_weak (u : List UInt8) {s : W.Symbol} (h : s.weak = true) : weakName u s ∈ symNames u s := by
  unfold symNames; rw [if_pos h]; simp

theorem Image.auxFits (h : Image crc o sub flags p w sels size t strs machine data) (hf : CoffO.Fits o crc flags) (hv : Valid o)
    {i : Nat} {s : W.Symbol} (hs : o.symbols[i]? = some s) : (auxE crc o sels (firstIndex o i) s).Fits := by
  have hsm := List.mem_of_getElem? hs
  unfold auxE
  split
  · have := firstIndex_lt hv hs
    exact ⟨by omega, by decide⟩
  · split
    · rename_i hk
      exact ⟨hv.fileName s hsm hk, hv.symbolName s hsm⟩
    · split
      · split
        · split
          · rename_i j _ _ _ sec x h1 h2
            obtain ⟨k1, k2⟩ := h.planned.selsOk.small j x h2
            refine ⟨Nat.mod_lt _ (by decide), Nat.mod_lt _ (by decide), by show 0 < _; decide, ?_, ?_, k1⟩
            · show (if _ then _ else _) < _
              split
              · decide
              · exact hf.crc _
            · show x.associative < _; omega
          · trivial
        · trivial
      · trivial

theorem Image.entryFits (h : Image crc o sub flags p w sels size t strs machine data) (hv : Valid o) (hf : CoffO.Fits o crc flags) :
    ∀ e ∈ allEntries crc o sels t 0 o.symbols, e.Fits := by
  intro e he
  have hnames := names_len hv h.planned
  have hsec := hf.sections
  obtain ⟨i, s, h1, h2⟩ := mem_allEntries crc o sels t o.symbols 0 e he
  have hsm := List.mem_of_getElem? h1
  rcases h2 with ⟨hw, rfl⟩ | rfl
  · refine ⟨(hnames _ (mem_allNames_sym hsm (mem_symNames_weak _ hw))).2.2, Nat.mod_lt _ (by decide), ?_, by show 0 < _; decide, by show 2 < _; decide, trivial⟩
    show -256 ≤ defSec s ∧ defSec s < 0xff00
    unfold defSec
    split
    · rename_i j hj
      have := hv.symbolSection s hsm j hj
      omega
    · omega
    · omega
  · rw [Nat.zero_add]
    obtain ⟨⟨x, hx⟩, -⟩ := h.symbols s hsm
    obtain ⟨f1, f2⟩ := hf.symFlags s hsm x.1 x.2 hx
    refine ⟨(hnames _ (mem_allNames_sym hsm (mem_symNames_stored _ s))).2.2, ?_, ?_, ?_, ?_, h.auxFits hf hv h1⟩
    · show symbolValue s < _
      unfold symbolValue
      split
      · decide
      · split <;> exact Nat.mod_lt _ (by decide)
    · show -256 ≤ (if _ then _ else _ : Int) ∧ (if _ then _ else _ : Int) < 0xff00
      split
      · omega
      · unfold sectionNumberOf
        split
        · omega
        · omega
        · omega
        · omega
        · rename_i j hj
          have := hv.symbolSection s hsm j hj
          show -256 ≤ ((j : Int) + 1) ∧ ((j : Int) + 1) < 65280
          omega
    · show ((symbolFlags s).getD (0, 0)).1 < _
      rw [hx]; exact f1
    · show ((symbolFlags s).getD (0, 0)).2 < _
      rw [hx]; exact f2

/-- The symbol table that is read. -/
theorem Image.symtab (h : Image crc o sub flags p w sels size t strs machine data) (hv : Valid o) (hf : CoffO.Fits o crc flags) :
    ∃ T, Coff.SymTab.parse (hdrOf o machine) data = .ok T ∧
      T.strings = some (symtabAt o + 18 * total o, symtabAt o + 18 * total o + size) ∧
      Runs T.next 0 ((indexed 0 (allEntries crc o sels t 0 o.symbols)).map fun p => (p.1, p.2.symbol)) .done ∧
      ∀ p ∈ indexed 0 (allEntries crc o sels t 0 o.symbols), T.symbol p.1 = .ok p.2.symbol ∧ AuxRead T p.1 p.2.aux := by
  obtain ⟨r1, r2, -⟩ := symtab_room o hv
  have hfit := h.entryFits hv hf
  have hrec := records_allEntries crc o sels t h.planned.selsOk.length o.symbols 0 hv.symbolSection
  obtain ⟨bs, b1, b2, b3⟩ := Props.C53_symbol_table StrTab.new _ hfit (hdrOf o machine) rfl (by show symtabAt o ≠ 0; omega) (by rw [hrec]; rfl)
    size strs data h.planned.lt (h.length_lt hv) (by show symtabAt o < _; omega)
  rw [entriesBytes_imgs _ _ hfit] at b1
  cases b1
  obtain ⟨T, t1, t2, t3, t4⟩ := b3 (h.at_symbols hv).1
  refine ⟨T, t1, ?_, t3, t4⟩
  rw [t2, h.entries_len hv]
  rfl

theorem Image.symbolBack (h : Image crc o sub flags p w sels size t strs machine data) (hv : Valid o) (hf : CoffO.Fits o crc flags)
    {T : Coff.SymTab} (hstr : T.strings = some (symtabAt o + 18 * total o, symtabAt o + 18 * total o + size))
    (hT : ∀ p ∈ indexed 0 (allEntries crc o sels t 0 o.symbols), T.symbol p.1 = .ok p.2.symbol ∧ AuxRead T p.1 p.2.aux)
    {i : Nat} {s : W.Symbol} (hs : o.symbols[i]? = some s) : ∃ y, SymbolBack crc o data (suffixOf o) T i s y := by
  have hsm := List.mem_of_getElem? hs
  have hsl := h.planned.selsOk.length
  obtain ⟨m1, m2⟩ := mem_indexed crc o sels t hsl o.symbols 0 hv.symbolSection i s hs
  simp only [Nat.zero_add] at m1 m2
  have hidx := symIndex_eq hs
  have hfirst : ((o.symbols.take i).map symRecords).sum = firstIndex o i := rfl
  rw [hfirst] at m1 m2
  rw [← hidx] at m2
  obtain ⟨g1, g2⟩ := hT _ m2
  have hcount := count_auxE crc o sels (firstIndex o i) s hsl (hv.symbolSection s hsm)
  obtain ⟨hA, hDl⟩ := h.at_symbols hv
  have hlen := h.length_lt hv
  rw [Elf.at_append, h.entries_len hv] at hA
  have hnm := nm_ok o hv h.planned.write (by omega) hA.2
  obtain ⟨⟨⟨typ, cls⟩, hx⟩, hacc⟩ := h.symbols s hsm
  obtain ⟨v1, v2⟩ := hf.value s hsm
  refine ⟨_, ⟨g1, ?_, ?_, ?_, rfl, hcount, ?_, ?_⟩⟩
  · intro hne hcl
    have hc := hcl typ cls hx
    have ecls : (mainEntry crc o sels t (firstIndex o i) s).storageClass = cls := by
      show ((symbolFlags s).getD (0, 0)).2 = cls
      rw [hx]; rfl
    unfold Coff.SymTab.nameBytes Coff.Symbol.hasAuxFileName
    show (if (decide (0 < (auxE crc o sels (firstIndex o i) s).count) && (mainEntry crc o sels t (firstIndex o i) s).storageClass == 0x67) = true
      then T.auxFileName _ (auxE crc o sels (firstIndex o i) s).count else Coff.readSymbolName T.strings data (symNm o t (storedName s))) = _
    rw [ecls]
    by_cases hfile : s.kind = .file ∧ s.weak = false
    · have haux : auxE crc o sels (firstIndex o i) s = .file s.name := by
        unfold auxE; rw [hfile.2, hfile.1]; rfl
      have g3 : AuxRead T (symIndex o i) (.file s.name) := by rw [← haux]; exact g2
      have hpos : 0 < (s.name.length + 17) / 18 := by
        have : 0 < s.name.length := List.length_pos_iff.2 hne
        omega
      rw [haux, hc.2 hfile]
      have : (Aux.file s.name).count = (s.name.length + 17) / 18 := rfl
      rw [this]
      simp only [hpos, decide_true, beq_self_eq_true, Bool.and_self, if_true]
      exact g3
    · have hcne : cls ≠ 0x67 := fun e => hfile (hc.1 e)
      have hst : storedName s = s.name := by
        unfold storedName
        rw [if_neg]
        intro hb
        simp only [Bool.and_eq_true, Bool.not_eq_true', beq_iff_eq] at hb
        exact hfile ⟨hb.2, hb.1⟩
      have : (cls == 0x67) = false := by simpa using hcne
      rw [this, Bool.and_false, if_neg (by simp), hstr, hst]
      have := (hnm (storedName s) (mem_allNames_sym hsm (mem_symNames_stored _ s))).2.2.2
      rw [hst] at this
      exact this hne
  · show _ = some (((symbolFlags s).getD (0, 0)).1, ((symbolFlags s).getD (0, 0)).2)
    rw [hx]; rfl
  · show symbolValue s = _
    unfold symbolValue
    split
    · rfl
    · split
      · exact Nat.mod_eq_of_lt v2
      · exact Nat.mod_eq_of_lt v1
  · intro hw
    obtain ⟨d1, d2⟩ := hT _ (m1 hw)
    refine ⟨_, ⟨d1, ?_, ?_, ?_, ⟨rfl, rfl, rfl⟩, ?_⟩⟩
    · unfold Coff.SymTab.nameBytes Coff.Symbol.hasAuxFileName
      show (if (decide (0 < 0) && _ ) = true then _ else Coff.readSymbolName T.strings data (symNm o t (weakName (uniqueName o) s))) = _
      rw [if_neg (by simp), hstr, ← weakName_eq]
      refine (hnm _ (mem_allNames_sym hsm (mem_symNames_weak _ hw))).2.2.2 ?_
      unfold weakName nWeak
      split <;> simp
    · exact Nat.mod_eq_of_lt v1
    · constructor
      · intro j hj
        show defSec s = _
        unfold defSec
        rw [hj]
      · intro hu
        show defSec s = _
        unfold defSec
        rw [hu]
    · have haux : auxE crc o sels (firstIndex o i) s = .weak (firstIndex o i) 3 := by
        unfold auxE; rw [hw]; rfl
      have g3 : AuxRead T (symIndex o i) (.weak (firstIndex o i) 3) := by rw [← haux]; exact g2
      rw [hidx, if_pos hw] at g3
      exact g3
  · intro hw hk j hj
    have hjl := hv.symbolSection s hsm j hj
    have e1 : o.sections[j]? = some o.sections[j] := List.getElem?_eq_getElem hjl
    have e2 : sels[j]? = some (sels[j]'(by omega)) := List.getElem?_eq_getElem (by omega)
    refine ⟨_, e1, ?_⟩
    generalize o.sections[j] = sec at e1
    generalize sels[j]'(by omega) = x at e2
    have haux : auxE crc o sels (firstIndex o i) s = .section (auxOf crc sec x) := by
      unfold auxE
      rw [hw, hk, hj]
      simp only [e1, e2]
      rfl
    have g3 : AuxRead T (symIndex o i) (.section (auxOf crc sec x)) := by rw [← haux]; exact g2
    have hsecm := List.mem_of_getElem? e1
    have hrl : s.weak = s.weak := rfl
    have hrel : sec.relocs.length < U32 := (secOff_lt hv e1).2.2.2 |> (fun h => by omega)
    refine ⟨_, g3, Nat.mod_eq_of_lt (hf.size sec hsecm), ?_, rfl, rfl, ?_⟩
    · show min (sec.relocs.length % U32) 0xffff = _
      rw [Nat.mod_eq_of_lt hrel]
    · intro hdis
      have hsec := hf.sections
      rcases h.planned.groups hdis j x e2 with ⟨d, q1, q2, q3, q4⟩ | ⟨d, q1, k, q2, q3, q4, q5⟩ | ⟨q1, q2⟩
      · show GroupInfo o j x.selection (x.associative % 2 ^ 16)
        rw [q4]
        exact .leader d _ q1 q2 q3
      · subst q5
        obtain ⟨z, z1, z2⟩ := q3
        have hkl := hv.symbolSection z (List.mem_of_getElem? z1) k z2
        show GroupInfo o j 5 ((k + 1) % 2 ^ 16)
        rw [Nat.mod_eq_of_lt (by omega)]
        exact .member d k q1 q2 ⟨z, z1, z2⟩ q4
      · subst q2
        exact .outside q1

theorem Image.readsBack (h : Image crc o sub flags p w sels size t strs machine data) (hv : Valid o) (hf : CoffO.Fits o crc flags) :
    ∃ hd ss T suffix, ReadsBack crc o machine flags data hd ss T suffix := by
  obtain ⟨T, t1, t2, t3, t4⟩ := h.symtab hv hf
  obtain ⟨p1, p2⟩ := h.header hv hf.fileFlags
  refine ⟨hdrOf o machine, _, T, suffixOf o, p1, ⟨rfl, rfl⟩, p2, h.sections hv, ?_, ?_, t1, ⟨_, t3, ?_⟩, suffixOk o, ?_⟩
  · rw [List.length_map, List.length_zip, h.planned.length]; simp
  · intro i s hs
    rw [t2]
    exact h.sectionBack hv hf hs
  · rw [List.map_map]
    exact indices_allEntries crc o sels t h.planned.selsOk.length o.symbols 0 hv.symbolSection
  · intro i s hs
    exact h.symbolBack hv hf t2 t4 hs

end

end Obj.CoffW

import Verif.Proof.ElfW7

/-! The writing phase of `elf_write`: the whole file. -/

namespace Obj.ElfW
open Obj Obj.Elf Obj.Reserve Obj.Parts Obj.Spec Obj.W Obj.Spec.ElfO

/-- The string tables and their data. -/
structure Strs where
  U : StrTab
  data : List UInt8
  T : StrTab
  shd : List UInt8

/-- The string tables hold the names of the object. -/
structure StrsOk (o : Object) (r : Bool) (x : Strs) : Prop where
  u : x.U.strings = (stT o).strings
  wu : Written x.U x.data
  lu : x.data.length ≤ 1 + storedSize (stT o).strings
  t : x.T.strings = (shT o r (needB o)).strings
  wt : Written x.T x.shd
  lt : x.shd.length ≤ 1 + storedSize (shT o r (needB o)).strings

/-- A state of the writing phase. -/
def WE (o : Object) (c : Cfg) (r : Bool) (x : Strs) (mips : Bool) (out : List UInt8) (written syw : Nat) (sxd : List UInt8) : Wtr :=
  ⟨c, mips, L8 o c r (needB o) x.data.length x.shd.length, out,
    ⟨0, 0, up (L6 o c r (needB o) x.data.length + x.shd.length) c.w, total o (needB o), strtabIndex o (needB o) + 1⟩, written,
    ⟨x.T, some (idOf (shT o r (needB o)) nShstrtab), 0, L6 o c r (needB o) x.data.length, x.shd.length, x.shd⟩, true,
    ⟨x.U, some (idOf (shT o r (needB o)) nStrtab), strtabIndex o (needB o), L4 o c (needB o), x.data.length, x.data⟩,
    ⟨some (idOf (shT o r (needB o)) nSymtab), symtabIndex o, up (L2 o c) c.w, num o, syw⟩,
    ⟨needB o, if needB o then some (idOf (shT o r (needB o)) nShndx) else none, ifn (needB o) (up (L3 o c) 4), sxd⟩⟩

/-- The symbols in table order. -/
def wsyms (o : Object) (U : StrTab) : List WSym :=
  ((o.symbols.filter isLocal) ++ (o.symbols.filter fun s => !isLocal s)).map (wsymOf o U)

theorem length_filters (o : Object) : (o.symbols.filter isLocal).length + (o.symbols.filter fun s => !isLocal s).length = o.symbols.length := by
  have : ∀ l : List Symbol, (l.filter isLocal).length + (l.filter fun s => !isLocal s).length = l.length := by
    intro l
    induction l with
    | nil => rfl
    | cons a l ih =>
      simp only [List.filter_cons, List.length_cons]
      cases isLocal a <;> simp <;> omega
  exact this _

theorem length_wsyms (o : Object) (U : StrTab) : (wsyms o U).length = o.symbols.length := by
  unfold wsyms; rw [List.length_map, List.length_append, length_filters]

theorem length_symtabBytes (c : Cfg) (ws : List WSym) : (symtabBytes c ws).length = (1 + ws.length) * c.symSize := by
  unfold symtabBytes
  rw [List.length_append, Sym.length_encode, length_writeSymbols, Nat.add_mul, Nat.one_mul]

theorem length_symtabShndxBytes (c : Cfg) (ws : List WSym) : (symtabShndxBytes c ws).length = (1 + ws.length) * 4 := by
  unfold symtabShndxBytes
  rw [List.length_append, length_wr, length_flatMap_const _ 4 ws (by intro a _; simp)]
  omega

/-- The section offsets in the writing phase. -/
def secsW (o : Object) (c : Cfg) (r : Bool) (a : Nat) : List SecOff :=
  relOffs c r (L4 o c (needB o) + a) o.sections (secs0 o c r (shT o r (needB o)))

theorem length_secsW (o : Object) (c : Cfg) (r : Bool) (a : Nat) : (secsW o c r a).length = o.sections.length := by
  unfold secsW; rw [length_relOffs _ _ _ _ _ (by rw [secs0, length_secOffs])]

theorem secsW_index (o : Object) (c : Cfg) (r : Bool) (a i : Nat) (hi : i < o.sections.length) :
    ∃ so, (secsW o c r a)[i]? = some so ∧ so.index = secIndex o i := by
  unfold secsW
  rw [relOffs_get _ _ _ _ _ _ (by rw [secs0, length_secOffs]), List.getElem?_eq_getElem hi]
  simp only [Option.bind_some, secs0, secOffs_get, List.getElem?_eq_getElem hi, Option.map_some]
  exact ⟨_, rfl, (secIndex_eq o i).symm⟩

theorem ixOf_secsW (o : Object) (c : Cfg) (r : Bool) (a i : Nat) (hi : i < o.sections.length) : ixOf (secsW o c r a) i = secIndex o i := by
  obtain ⟨so, h1, h2⟩ := secsW_index o c r a i hi
  unfold ixOf; rw [h1]; exact h2

theorem secsOk_secsW (o : Object) (c : Cfg) (r : Bool) (a : Nat) :
    SecsOk c (shT o r (needB o)) r (1 + o.comdats.length) (L1 o c) (L4 o c (needB o) + a) (o.sections.zip (secsW o c r a)) :=
  secsOk_plan c _ r o.sections _ _ _

theorem zip_fst (o : Object) (c : Cfg) (r : Bool) (a : Nat) : (o.sections.zip (secsW o c r a)).map (·.1) = o.sections :=
  List.map_fst_zip (by rw [length_secsW]; omega)

/-- The parts between the header and the relocations. -/
def dataParts (o : Object) (c : Cfg) (x : Strs) : List (Nat × List UInt8) :=
  (o.comdats.map fun d => (4, comdatBytes c (d.sections.map (secIndex o)))) ++ (secParts o.sections ++
    ((c.w, symtabBytes c (wsyms o x.U)) :: ((if needB o then [(4, symtabShndxBytes c (wsyms o x.U))] else []) ++ [(1, x.data)])))

theorem comdatParts_eq (o : Object) (hv : Valid o) (c : Cfg) (r : Bool) (a : Nat) :
    comdatParts c (secsW o c r a) o.comdats = o.comdats.map fun d => (4, comdatBytes c (d.sections.map (secIndex o))) := by
  unfold comdatParts
  apply List.map_congr_left
  intro d hd
  congr 2
  apply List.map_congr_left
  intro i hi
  exact ixOf_secsW o c r a i (hv.comdatSections d hd i hi)

theorem symName_mem (o : Object) : ∀ s ∈ o.symbols, hasName s = true → s.name ∈ (stT o).strings := by
  intro s hs hn
  have := (StrTab.addAll_strings (symNames o.symbols) StrTab.new List.nodup_nil).2.2.1
  exact (this _).2 (.inr (List.mem_map.2 ⟨s, List.mem_filter.2 ⟨hs, hn⟩, rfl⟩))

theorem emit_one (out : List UInt8) (a : Nat) (b : List UInt8) : emit out [(a, b)] = pad out a ++ b := rfl

theorem emit_cons (out : List UInt8) (a : Nat) (b : List UInt8) (q : List (Nat × List UInt8)) :
    emit out ((a, b) :: q) = emit (emit out [(a, b)]) q := rfl

theorem pad_one (out : List UInt8) : pad out 1 = out := pad_of_le_one out 1 (by decide)

theorem shNames_mem (o : Object) (r need : Bool) {n : List UInt8} (h : n ∈ shNames o r need) : n ∈ (shT o r need).strings :=
  ((StrTab.addAll_strings (shNames o r need) StrTab.new List.nodup_nil).2.2.1 n).2 (.inr h)

theorem strings_length (o : Object) (hv : Valid o) (r : Bool) {T : StrTab} (h : T.strings = (shT o r (needB o)).strings) :
    T.strings.length ≤ U32 := by
  have h1 := (tabw o hv r (needB o) (shNames o r (needB o)) [] 0 (by simp) (by simp)).room
  rw [h]
  have : (shT o r (needB o)).strings.length = (addAll StrTab.new (shNames o r (needB o))).strings.length := rfl
  omega

theorem emitData_sat (o : Object) (hv : Valid o) (c : Cfg) (r : Bool) (E : Prop) (hE : ∀ s ∈ o.symbols, symbolFlags s = none → E)
    (x : Strs) (hx : StrsOk o r x) (mips : Bool) (hdr : List UInt8) (hh : hdr.length = c.ehdrSize) :
    Res.Sat E (emitData o (planOf o c r (needB o) x.data.length) (WE o c r x mips hdr 0 0 [])) fun w =>
      w = WE o c r x mips (emit hdr (dataParts o c x)) 0 (num o) [] ∧ ∀ s ∈ o.symbols, symbolFlags s ≠ none := by
  obtain ⟨b1, b2, b3, b4, b5, b6, b7, b8, b9⟩ := bounds o c r (needB o) x.data.length x.shd.length
  have hroom := hv.room
  have hdl := hx.wu.len
  have hsl := hx.wt.len
  have he := ehdrSize_le c
  have hsy := hv.symbols
  have hfl := length_filters o
  have hlw := length_wsyms o x.U
  have hL2 : 0 < L2 o c := by omega
  have hupL2 := le_up (L2 o c) c.w
  have hupL3 := le_up (L3 o c) 4
  have hL3 : L3 o c = up (L2 o c) c.w + num o * c.symSize := rfl
  have hL4 : L4 o c (needB o) = endOf (L3 o c) (shndxSizes (needB o) (num o)) := rfl
  have hu2 := up_le (L2 o c) c.w
  have hu3 := up_le (L3 o c) 4
  have hnum : num o = 1 + o.symbols.length := rfl
  have hsecs : (planOf o c r (needB o) x.data.length).secs = secsW o c r x.data.length := rfl
  unfold emitData
  rw [hsecs]
  -- groups
  rw [writeComdats_eq c _ o.comdats _ (by rfl) (by rw [length_secsW]; exact hv.comdatSections) (by show hdr.length + _ < U64; omega)]
  simp only [Res.bind_eq, Res.ok_bind]
  rw [comdatParts_eq o hv]
  generalize hO1 : emit hdr (o.comdats.map fun d => ((4 : Nat), comdatBytes c (d.sections.map (secIndex o)))) = O1
  have hlen1 : O1.length = L1 o c := by
    rw [← hO1, length_emit, ← comdatParts_eq o hv c r x.data.length, sizes_comdatParts, hh]; rfl
  -- sections
  show Res.Sat E (Res.bind (writeSections (WE o c r x mips (emit hdr (o.comdats.map fun d => ((4 : Nat), comdatBytes c (d.sections.map (secIndex o))))) 0 0 []) _) _) _
  rw [hO1]
  rw [writeSections_eq c (shT o r (needB o)) r _ _ (1 + o.comdats.length) (L4 o c (needB o) + x.data.length)
    (by show SecsOk c _ r _ O1.length _ _; rw [hlen1]; exact secsOk_secsW o c r x.data.length)
    (by intro p hp; exact hv.align p.1 (List.of_mem_zip hp).1)
    (by show O1.length + _ < U64; rw [zip_fst, hlen1]; omega)]
  simp only [Res.ok_bind]
  rw [zip_fst]
  show Res.Sat E (Res.bind (Wtr.writeNullSymbol (WE o c r x mips (emit O1 (secParts o.sections)) 0 0 [])) _) _
  generalize hO2 : emit O1 (secParts o.sections) = O2
  have hlen2 : O2.length = L2 o c := by rw [← hO2, length_emit, sizes_secParts, hlen1]; rfl
  -- symbols
  have hss : c.symSize ≤ num o * c.symSize := by
    have := Nat.mul_le_mul_right c.symSize (show 1 ≤ num o by omega)
    omega
  have hTl := strings_length o hv r hx.t
  rw [writeNullSymbol_eq (c := c) (by rfl) (by show up (L2 o c) c.w ≠ 0; omega) (by show up (L2 o c) c.w = up O2.length c.w; rw [hlen2])
    (by show nSymtab ∈ x.T.strings; rw [hx.t]; apply shNames_mem; unfold shNames; simp) (by exact hTl)
    (by show some _ = some _; rw [← idOf_congr hx.t]; rfl) (by show 1 ≤ num o; omega)
    (by show O2.length + c.w + c.symSize < U64; rw [hlen2]; omega) (by rfl)]
  simp only [Res.ok_bind]
  generalize hO3 : pad O2 c.w ++ Sym.encode c ⟨0, 0, 0, 0, 0, 0⟩ = O3
  have hlen3 : O3.length = up (L2 o c) c.w + c.symSize := by rw [← hO3, List.length_append, length_pad, Sym.length_encode, hlen2]
  generalize hsx0 : (if ifn (needB o) (up (L3 o c) 4) ≠ 0 then [] ++ wr c.en 4 0 else []) = sx0
  show Res.Sat E (Res.bind (writeSymbols isLocal _ (WE o c r x mips (pad O2 c.w ++ Sym.encode c ⟨0, 0, 0, 0, 0, 0⟩) 0 1
    (if ifn (needB o) (up (L3 o c) 4) ≠ 0 then [] ++ wr c.en 4 0 else [])) (o.symbols.zip (o.symbols.map (symId (stT o))))) _) _
  rw [hO3, hsx0]
  have hid : o.symbols.map (symId (stT o)) = o.symbols.map (symId x.U) := by
    apply List.map_congr_left
    intro s _
    unfold symId
    rw [idOf_congr hx.u]
  have hstr : (planOf o c r (needB o) x.data.length).symStr = o.symbols.map (symId x.U) := hid
  rw [hid, hstr]
  have hnone : ∀ s ∈ o.symbols, s.section_ = .none → s.kind = .file := hv.noSection
  have hin : ∀ s ∈ o.symbols, ∀ i, s.section_ = .inSec i → ∃ so, (secsW o c r x.data.length)[i]? = some so ∧ so.index = secIndex o i :=
    fun s hs i hi => secsW_index o c r _ i (hv.symbolSection s hs i hi)
  have hnm : ∀ s ∈ o.symbols, hasName s = true → s.name ∈ x.U.strings := by rw [hx.u]; exact symName_mem o
  have hne : ifn (needB o) (up (L3 o c) 4) ≠ 0 → needB o = true := by
    intro h
    cases hb : needB o with
    | true => rfl
    | false => rw [hb] at h; exact absurd rfl h
  have hm1 : (o.symbols.filter isLocal).length * c.symSize + (o.symbols.filter fun s => !isLocal s).length * c.symSize + c.symSize = num o * c.symSize := by
    rw [← Nat.add_mul, hfl, hnum, Nat.add_mul]; omega
  refine Res.Sat.bind (writeSymbols_sat o E c x.U x.data hx.wu isLocal _ o.symbols _ (by rfl) (by rfl) hnone hin hE hnm (by exact hne)
    (by show O3.length + _ < U64; omega) (by show 1 + _ ≤ num o; omega) (by show num o < U32; omega)) ?_
  rintro w ⟨rfl, hq1⟩
  generalize hO4 : O3 ++ (((o.symbols.filter isLocal).map (wsymOf o x.U)).flatMap fun s => (writeSymbol c s).1) = O4
  have hlen4 : O4.length = O3.length + (o.symbols.filter isLocal).length * c.symSize := by
    rw [← hO4, List.length_append, length_writeSymbols, List.length_map]
  generalize hsx1 : sxData c (ifn (needB o) (up (L3 o c) 4)) sx0 ((o.symbols.filter isLocal).map (wsymOf o x.U)) = sx1
  show Res.Sat E (Res.bind (writeSymbols _ _ (WE o c r x mips (O3 ++ (((o.symbols.filter isLocal).map (wsymOf o x.U)).flatMap fun s => (writeSymbol c s).1)) 0
    (1 + (o.symbols.filter isLocal).length)
    (sxData c (ifn (needB o) (up (L3 o c) 4)) sx0 ((o.symbols.filter isLocal).map (wsymOf o x.U)))) _) _) _
  rw [hO4, hsx1]
  refine Res.Sat.bind (writeSymbols_sat o E c x.U x.data hx.wu (fun s => !isLocal s) _ o.symbols _ (by rfl) (by rfl) hnone hin hE hnm (by exact hne)
    (by show O4.length + _ < U64; omega) (by show 1 + (o.symbols.filter isLocal).length + _ ≤ num o; omega)
    (by show num o < U32; omega)) ?_
  rintro w ⟨rfl, hq2⟩
  have hsymb : O4 ++ (((o.symbols.filter fun s => !isLocal s).map (wsymOf o x.U)).flatMap fun s => (writeSymbol c s).1) =
      emit O2 [(c.w, symtabBytes c (wsyms o x.U))] := by
    rw [← hO4, ← hO3, emit_one]
    unfold symtabBytes wsyms
    rw [List.map_append, List.flatMap_append]
    simp only [List.append_assoc]
  have hsx2 : sxData c (ifn (needB o) (up (L3 o c) 4)) sx1 ((o.symbols.filter fun s => !isLocal s).map (wsymOf o x.U)) =
      if needB o then symtabShndxBytes c (wsyms o x.U) else [] := by
    rw [← hsx1, ← hsx0]
    unfold sxData
    cases hb : needB o with
    | true =>
      have : ifn true (up (L3 o c) 4) ≠ 0 := by show up (L3 o c) 4 ≠ 0; omega
      simp only [if_pos this, if_true]
      unfold symtabShndxBytes wsyms
      rw [List.map_append, List.flatMap_append]
      simp only [List.append_assoc, List.nil_append]
    | false =>
      have : ¬ ifn false (up (L3 o c) 4) ≠ 0 := by simp [ifn]
      simp only [if_neg this]
      rfl
  have hwn : 1 + (o.symbols.filter isLocal).length + (o.symbols.filter fun s => !isLocal s).length = num o := by omega
  show Res.Sat E (Res.bind (Wtr.writeShndx (WE o c r x mips
    (O4 ++ (((o.symbols.filter fun s => !isLocal s).map (wsymOf o x.U)).flatMap fun s => (writeSymbol c s).1)) 0
    (1 + (o.symbols.filter isLocal).length + (o.symbols.filter fun s => !isLocal s).length)
    (sxData c (ifn (needB o) (up (L3 o c) 4)) sx1 ((o.symbols.filter fun s => !isLocal s).map (wsymOf o x.U))))) _) _
  rw [hsymb, hsx2, hwn]
  generalize hO5 : emit O2 [(c.w, symtabBytes c (wsyms o x.U))] = O5
  have hlen5 : O5.length = L3 o c := by
    rw [← hO5, length_emit, hlen2]
    show up (L2 o c) c.w + (symtabBytes c (wsyms o x.U)).length = _
    rw [length_symtabBytes, hlw]; rfl
  -- extended indices
  have hsxl : (if needB o then symtabShndxBytes c (wsyms o x.U) else []).length ≤ num o * 4 := by
    split
    · rw [length_symtabShndxBytes, hlw]; exact Nat.le_refl _
    · simp
  rw [writeShndx_eq (c := c) (by rfl)
    (by intro h; have hb : needB o = true := h
        show ifn (needB o) (up (L3 o c) 4) = up O5.length 4; rw [hlen5, hb]; rfl)
    (by intro h; have hb : needB o = true := h
        show nShndx ∈ x.T.strings; rw [hx.t]; apply shNames_mem; rw [hb]; unfold shNames shndxNames; simp)
    (by exact hTl)
    (by intro h; have hb : needB o = true := h
        show (if needB o then some (idOf (shT o r (needB o)) nShndx) else none) = some (idOf x.T nShndx)
        rw [if_pos hb, idOf_congr hx.t])
    (by show O5.length + 4 + (if needB o then symtabShndxBytes c (wsyms o x.U) else []).length < U64; omega)]
  simp only [Res.ok_bind]
  show Res.Sat E (Wtr.writeStrtab (WE o c r x mips (emit O5 (if needB o then [(4, if needB o then symtabShndxBytes c (wsyms o x.U) else [])] else [])) 0 (num o) [])) _
  have hsx3 : (if needB o then [((4 : Nat), if needB o then symtabShndxBytes c (wsyms o x.U) else [])] else []) =
      (if needB o then [(4, symtabShndxBytes c (wsyms o x.U))] else []) := by
    cases needB o <;> rfl
  rw [hsx3]
  generalize hO6 : emit O5 (if needB o then [((4 : Nat), symtabShndxBytes c (wsyms o x.U))] else []) = O6
  have hlen6 : O6.length = L4 o c (needB o) := by
    rw [← hO6, length_emit, hlen5, hL4]
    congr 1
    unfold shndxSizes sizes
    split
    · simp only [List.map_cons, List.map_nil, length_symtabShndxBytes, hlw]; rfl
    · rfl
  have hL4' := le_endOf (shndxSizes (needB o) (num o)) (L3 o c)
  -- strings
  rw [writeStrtab_eq (by show L4 o c (needB o) ≠ 0; omega) (by exact hlen6.symm) (by show O6.length + x.data.length < U64; omega)]
  refine ⟨?_, ?_⟩
  · show WE o c r x mips (O6 ++ x.data) 0 (num o) [] = _
    congr 1
    rw [← hO6, ← hO5, ← hO2, ← hO1]
    unfold dataParts
    rw [emit_append, emit_append, emit_cons _ c.w (symtabBytes c (wsyms o x.U)) (_ ++ _), emit_append, emit_one _ 1, pad_one]
  · intro s hs
    cases hl : isLocal s with
    | true => exact hq1 s hs hl
    | false => exact hq2 s hs (by simp [hl])

end Obj.ElfW

import Verif.Proof.CoffW4
import Verif.Proof.RelocMap

/-! The file written by `coff_write`. -/

namespace Obj.CoffW
open Obj Obj.Reserve Obj.Parts Obj.Spec Obj.Spec.CoffO Obj.Spec.CoffS
open Obj.ElfW (check tabAdd check_ok length_of_getElem?)

theorem length_secOffs : ∀ (ns : List Coff.Name) (ss : List Sel) (ps : List (Nat × Nat)), ns.length = ss.length → ss.length = ps.length →
    (secOffs ns ss ps).length = ns.length
  | [], _, _, _, _ => by simp [secOffs]
  | n :: ns, [], _, h, _ => by simp at h
  | n :: ns, s :: ss, [], _, h => by simp at h
  | n :: ns, s :: ss, p :: ps, h1, h2 => by
    simp only [secOffs, List.length_cons] at h1 h2 ⊢
    rw [length_secOffs ns ss ps (by omega) (by omega)]

theorem get_secOffs : ∀ (ns : List Coff.Name) (ss : List Sel) (ps : List (Nat × Nat)) (i : Nat) (n : Coff.Name) (s : Sel) (p : Nat × Nat),
    ns[i]? = some n → ss[i]? = some s → ps[i]? = some p → (secOffs ns ss ps)[i]? = some ⟨n, s, p.1, p.2⟩
  | [], _, _, _, _, _, _, h, _, _ => by simp at h
  | _ :: _, [], _, _, _, _, _, _, h, _ => by simp at h
  | _ :: _, _ :: _, [], _, _, _, _, _, _, h => by simp at h
  | n :: ns, s :: ss, p :: ps, 0, _, _, _, h1, h2, h3 => by
    simp only [List.getElem?_cons_zero, Option.some.injEq] at h1 h2 h3
    subst h1 h2 h3; rfl
  | n :: ns, s :: ss, p :: ps, i + 1, _, _, _, h1, h2, h3 => by
    simp only [List.getElem?_cons_succ] at h1 h2 h3
    simp only [secOffs, List.getElem?_cons_succ]
    exact get_secOffs ns ss ps i _ _ _ h1 h2 h3

/-- The `section_offsets` entry of section `i`. -/
theorem Planned.sec {o : W.Object} {p : Plan} {w : Wtr} {sels : List Sel} {size : Nat} {t : StrTab} {strs : List UInt8}
    (h : Planned o p w sels size t strs) {i : Nat} {s : W.Section} (hs : o.sections[i]? = some s) :
    ∃ x, sels[i]? = some x ∧ p.secs[i]? = some ⟨nameOf (tabOf o) s.name, x,
      (secOff (endOf (20 + 40 * o.sections.length) ((o.sections.take i).flatMap secSizes)) s).1,
      (secOff (endOf (20 + 40 * o.sections.length) ((o.sections.take i).flatMap secSizes)) s).2⟩ := by
  have hi := length_of_getElem? hs
  have hl := h.selsOk.length
  have g2 : sels[i]? = some (sels[i]'(by omega)) := List.getElem?_eq_getElem (by omega)
  refine ⟨_, g2, ?_⟩
  rw [h.secs]
  exact get_secOffs _ _ _ i _ _ _ (by rw [List.getElem?_map, hs]; rfl) g2 (get_secOffsFrom _ _ i s hs)

theorem Planned.length {o : W.Object} {p : Plan} {w : Wtr} {sels : List Sel} {size : Nat} {t : StrTab} {strs : List UInt8}
    (h : Planned o p w sels size t strs) : p.secs.length = o.sections.length := by
  have hl := h.selsOk.length
  rw [h.secs, length_secOffs _ _ _ (by rw [List.length_map]; omega) (by rw [length_secOffsFrom]; exact hl), List.length_map]

theorem Planned.sel {o : W.Object} {p : Plan} {w : Wtr} {sels : List Sel} {size : Nat} {t : StrTab} {strs : List UInt8}
    (h : Planned o p w sels size t strs) (i : Nat) : p.secs[i]?.map SecOff.sel = sels[i]? := by
  have hl := h.selsOk.length
  have hp := h.length
  by_cases hi : i < o.sections.length
  · obtain ⟨x, h1, h2⟩ := h.sec (List.getElem?_eq_getElem hi)
    rw [h1, h2]; rfl
  · rw [List.getElem?_eq_none (by omega), List.getElem?_eq_none (by omega)]; rfl

theorem length_symOffs (T : StrTab) (u : List UInt8) : ∀ (ss : List W.Symbol) (n : Nat), (symOffs T u n ss).length = ss.length
  | [], _ => rfl
  | s :: ss, n => by simp [symOffs, length_symOffs T u ss]

theorem get_symOffs (T : StrTab) (u : List UInt8) : ∀ (ss : List W.Symbol) (n i : Nat) (s : W.Symbol), ss[i]? = some s →
    (symOffs T u n ss)[i]? = some (symOffOf T u (n + ((ss.take i).map symRecords).sum) s)
  | [], _, _, _, h => by simp at h
  | a :: ss, n, 0, s, h => by
    simp only [List.getElem?_cons_zero, Option.some.injEq] at h
    subst h; rfl
  | a :: ss, n, i + 1, s, h => by
    simp only [List.getElem?_cons_succ] at h
    simp only [symOffs, List.getElem?_cons_succ, List.take_succ_cons, List.map_cons, List.sum_cons]
    rw [get_symOffs T u ss _ i s h, Nat.add_assoc]

/-- The parts of the file. -/
def fileParts (crc : List UInt8 → Nat) (o : W.Object) (machine : Nat) (flags : Option Nat) (p : Plan) (sels : List Sel) (size : Nat) (t : StrTab)
    (strs : List UInt8) : List (Nat × List UInt8) :=
  [(1, Coff.FileHeader.encode ⟨machine, o.sections.length, 0, symtabAt o, total o, 0, flags.getD 0⟩),
   (1, (o.sections.zip p.secs).flatMap (hdrBytes t))] ++ o.sections.flatMap (secParts p.syms) ++
  [(1, imgs (allEntries crc o sels t 0 o.symbols)), (1, Coff.strtabBytes size strs)]

/-- The file that was written. -/
structure Image (crc : List UInt8 → Nat) (o : W.Object) (sub : Option SubArch) (flags : Option Nat) (p : Plan) (w : Wtr) (sels : List Sel)
    (size : Nat) (t : StrTab) (strs : List UInt8) (machine : Nat) (data : List UInt8) : Prop where
  planned : Planned o p w sels size t strs
  machineOk : machineOf o.arch sub o.endian = .ok machine
  bytes : data = emit [] (fileParts crc o machine flags p sels size t strs)
  headers : ∀ x ∈ o.sections.zip p.secs, ∃ h, sectionHeader x.1 x.2 = .ok h ∧ Coff.writeSection t h = .ok (hdrBytes t x) ∧ (hdrBytes t x).length = 40
  relocs : ∀ s ∈ o.sections, ∀ r ∈ s.relocs, ∃ t, r.flags = .coff t
  symbols : ∀ s ∈ o.symbols, SymAccepted s

theorem coffMachine_no_panic (a : Arch) (e : Endianness) : coffMachine a e ≠ .panic := by
  cases a <;> cases e <;> decide

theorem machineOf_no_panic (a : Arch) (s : Option SubArch) (e : Endianness) : machineOf a s e ≠ .panic := by
  unfold machineOf
  split
  · exact coffMachine_no_panic a e
  · split <;> simp
  · simp

theorem names_len {o : W.Object} {p : Plan} {w : Wtr} {sels : List Sel} {size : Nat} {t : StrTab} {strs : List UInt8}
    (hv : Valid o) (h : Planned o p w sels size t strs) : ∀ s ∈ allNames o,
    (Coff.sectionName t (nameOf (tabOf o) s) = .ok (secNm o t s) ∧ (secNm o t s).length = 8) ∧
    (Coff.symbolName t (nameOf (tabOf o) s) = .ok (symNm o t s) ∧ (symNm o t s).length = 8) :=
  nm_len o hv h.write h.sizeEq h.lt

theorem mem_allNames_sec {o : W.Object} {s : W.Section} (h : s ∈ o.sections) : s.name ∈ allNames o := by
  unfold allNames
  exact List.mem_append_left _ (List.mem_map_of_mem (f := fun s : W.Section => s.name) h)

theorem mem_allNames_sym {o : W.Object} {s : W.Symbol} (h : s ∈ o.symbols) {x : List UInt8} (hx : x ∈ symNames (uniqueName o) s) : x ∈ allNames o := by
  unfold allNames
  exact List.mem_append_right _ (List.mem_flatMap.2 ⟨s, h, hx⟩)

theorem length_fileHeader (h : Coff.FileHeader) : h.encode.length = 20 := by simp [Coff.FileHeader.encode]

theorem entries_names (crc : List UInt8 → Nat) {o : W.Object} (sels : List Sel) {t : StrTab} : ∀ (ss : List W.Symbol) (n : Nat),
    (∀ s ∈ ss, ∀ x ∈ symNames (uniqueName o) s, (symNm o t x).length = 8) → ∀ e ∈ allEntries crc o sels t n ss, e.name.length = 8
  | [], _, _, e, he => by simp [allEntries] at he
  | s :: ss, n, h, e, he => by
    unfold allEntries entriesOf at he
    rcases List.mem_append.1 he with he | he
    · rcases List.mem_append.1 he with he | he
      · split at he
        · rename_i hk
          rw [List.mem_singleton] at he; subst he
          exact h s (by simp) _ (by unfold symNames; rw [if_pos hk]; simp)
        · simp at he
      · rw [List.mem_singleton] at he; subst he
        exact h s (by simp) (storedName s) (by unfold symNames; simp)
    · exact entries_names crc sels ss _ (fun x hx => h x (by simp [hx])) e he

theorem emitAll_sat (crc : List UInt8 → Nat) (o : W.Object) (sub : Option SubArch) (flags : Option Nat) (hv : Valid o)
    {p : Plan} {w : Wtr} {sels : List Sel} {size : Nat} {t : StrTab} {strs : List UInt8} (h : Planned o p w sels size t strs) :
    Res.Sat (Refused o sub) (emitAll crc o sub flags p w) fun r => ∃ machine, Image crc o sub flags p w sels size t strs machine r.out := by
  obtain ⟨hr1, hr2, hr3⟩ := symtab_room o hv
  have hu : U32 + U32 + U32 < U64 := by decide
  have hsz := h.lt
  have hsq := h.sizeEq
  have hnames := names_len hv h
  have hpl := h.length
  have hw := h.wtr
  have hzl : (o.sections.zip p.secs).length = o.sections.length := by rw [List.length_zip]; omega
  unfold emitAll
  cases hm : machineOf o.arch sub o.endian with
  | panic => exact absurd hm (machineOf_no_panic _ _ _)
  | err => exact Refused.arch fun m => by rw [hm]; simp
  | ok machine =>
    simp only [Res.bind_eq, Res.ok_bind]
    have e1 : w.writeFileHeader machine 0 (flags.getD 0) = .ok { w with
        out := Coff.FileHeader.encode ⟨machine, o.sections.length, 0, symtabAt o, total o, 0, flags.getD 0⟩ } := by
      unfold Wtr.writeFileHeader
      rw [check_ok (by rw [hw]; rfl)]
      simp only [Res.bind_eq, Res.ok_bind]
      rw [write_eq (by rw [length_fileHeader, hw]; show 0 + 20 < U64; decide)]
      rw [hw]; rfl
    rw [e1]
    simp only [Res.ok_bind]
    have ht : w.tab = t := by rw [hw]
    generalize hFH : Coff.FileHeader.encode ⟨machine, o.sections.length, 0, symtabAt o, total o, 0, flags.getD 0⟩ = FH
    have hFHl : FH.length = 20 := by rw [← hFH]; exact length_fileHeader _
    refine (writeHeaders_sat (Refused o sub) (o.sections.zip p.secs) { w with out := FH } ?_ ?_ ?_).bind ?_
    · intro x hx
      obtain ⟨i, hi⟩ := List.getElem?_of_mem hx
      rw [List.getElem?_zip_eq_some] at hi
      obtain ⟨y, -, hy⟩ := h.sec hi.1
      rw [hy] at hi
      have hxe := Option.some.inj hi.2
      obtain ⟨g1, g2⟩ := (hnames _ (mem_allNames_sec (List.mem_of_getElem? hi.1))).1
      refine ⟨_, ?_, g2⟩
      show Coff.sectionName w.tab _ = _
      rw [ht, ← hxe]
      exact g1
    · intro x hx
      have hx1 : x.1 ∈ o.sections := by
        obtain ⟨i, hi⟩ := List.getElem?_of_mem hx
        rw [List.getElem?_zip_eq_some] at hi
        exact List.mem_of_getElem? hi.1
      exact ⟨Refused.section_ _ hx1, Refused.align _ hx1⟩
    · show FH.length + _ < _; omega
    · rintro w1 ⟨q1, q2⟩
      replace q1 : w1 = { w with out := FH ++ (o.sections.zip p.secs).flatMap (hdrBytes t) } := by rw [q1]; show _ = ({ w with out := _ } : Wtr); rw [← ht]
      replace q2 : ∀ x ∈ o.sections.zip p.secs, ∃ h, sectionHeader x.1 x.2 = .ok h ∧ Coff.writeSection t h = .ok (hdrBytes t x) ∧ (hdrBytes t x).length = 40 := by
        rw [← ht]; exact q2
      have hHl : ((o.sections.zip p.secs).flatMap (hdrBytes t)).length = 40 * o.sections.length := by
        rw [length_flatMap_hdr (fun x hx => by obtain ⟨-, -, -, g⟩ := q2 x hx; exact g), hzl]
      subst q1
      have hsl : p.syms.length = o.symbols.length := by rw [h.syms, length_symOffs]
      refine (writeSections_sat (Refused o sub) p.syms o.sections _ ?_ ?_ ?_).bind ?_
      · intro s hs r hr; rw [hsl]; exact hv.relocSymbol s hs r hr
      · intro s hs r hr; exact Refused.reloc s r hs hr
      · show (FH ++ _).length + _ < _; rw [List.length_append, hHl]; omega
      · rintro w2 ⟨q3, q4⟩
        replace q3 : w2 = { w with out := emit (FH ++ (o.sections.zip p.secs).flatMap (hdrBytes t)) (o.sections.flatMap (secParts p.syms)) } := q3
        generalize hO2 : emit (FH ++ (o.sections.zip p.secs).flatMap (hdrBytes t)) (o.sections.flatMap (secParts p.syms)) = O2 at q3
        have hO2l : O2.length = symtabAt o := by
          rw [← hO2, length_emit, sizes_flatMap, List.length_append, hHl, hFHl]; rfl
        subst q3
        rw [h.syms]
        refine (writeSymbols_sat (Refused o sub) crc h.sel h.selsOk.length o.symbols { w with out := O2 } 0 ?_ hv.symbolSection hv.noSection hv.fileName
          (fun s hs => Refused.symbol s hs) (fun s hs => Refused.weak s hs) ?_).bind ?_
        · intro s hs x hx
          show Coff.symbolName w.tab _ = _ ∧ (symNm o w.tab x).length = 8
          rw [ht]; exact (hnames x (mem_allNames_sym hs hx)).2
        · show O2.length + 18 * total o + _ < _; omega
        · rintro w3 ⟨q5, q6⟩
          replace q5 : w3 = { w with out := O2 ++ imgs (allEntries crc o sels t 0 o.symbols) } := by rw [q5]; show _ = ({ w with out := _ } : Wtr); rw [← ht]
          have hIl : (imgs (allEntries crc o sels t 0 o.symbols)).length = 18 * total o := by
            rw [length_imgs (entries_names crc sels o.symbols 0 fun s hs x hx => (hnames x (mem_allNames_sym hs hx)).2.2),
              records_allEntries crc o sels t h.selsOk.length o.symbols 0 hv.symbolSection]
            rfl
          generalize hI : imgs (allEntries crc o sels t 0 o.symbols) = I at q5 hIl
          have hSl : (Coff.strtabBytes size strs).length = size := by unfold Coff.strtabBytes; simp; omega
          have e5 : w3.writeStrtab = .ok { w with out := O2 ++ I ++ Coff.strtabBytes size strs } := by
            subst q5
            unfold Wtr.writeStrtab
            rw [check_ok (by show w.strtabOffset = (O2 ++ I).length; rw [List.length_append, hO2l, hIl, hw])]
            simp only [Res.bind_eq, Res.ok_bind]
            have g1 : w.strtabLen = size := by rw [hw]
            have g2 : w.strtabData = strs := by rw [hw]
            rw [g1, g2, write_eq (by show (O2 ++ I).length + _ < _; rw [List.length_append, hSl]; omega)]
          rw [e5]
          simp only [Res.ok_bind]
          rw [check_ok (by
            show w.len = (O2 ++ I ++ Coff.strtabBytes size strs).length
            rw [List.length_append, List.length_append, hO2l, hIl, hSl, hw])]
          refine ⟨machine, h, hm, ?_, q2, q4, q6⟩
          show O2 ++ I ++ Coff.strtabBytes size strs = _
          unfold fileParts
          rw [hI, ← hO2, hFH, emit_append, emit_append]
          simp only [emit, pad_of_le_one _ 1 (by decide), List.nil_append]

theorem coffWrite_sat (crc : List UInt8 → Nat) (o : W.Object) (sub : Option SubArch) (flags : Option Nat) (hv : Valid o) :
    Res.Sat (Refused o sub) (coffWrite crc o sub flags) fun data => ∃ p w sels size t strs machine,
      Image crc o sub flags p w sels size t strs machine data := by
  unfold coffWrite
  refine (plan_sat o sub hv).bind ?_
  rintro ⟨p, w⟩ ⟨sels, size, t, strs, h⟩
  refine (emitAll_sat crc o sub flags hv h).bind ?_
  rintro r ⟨machine, hr⟩
  exact ⟨p, w, sels, size, t, strs, machine, hr⟩

end Obj.CoffW

import Verif.Proof.XcoffW2

/-! The symbols that `xcoff_write` emits, and the whole file. -/

namespace Obj.XcoffW
open Obj Obj.Reserve Obj.Parts Obj.Spec Obj.Spec.XcoffO Obj.Xcoff
open Obj.Elf (length_flatMap_const at_append at_read readSliceAt_flatMap)
open Obj.ElfW (check tabAdd check_ok addU32_eq addU64_eq mulU64_eq idOf TabW tabAdd_eq length_of_getElem? storedSize_append storedSize_addAll
  addAll_append addAll_cons)

/-- The address of section `i`. -/
def addrOf (is64 : Bool) (o : W.Object) (i : Nat) : Nat := (((secOffs is64 o)[i]?).map (·.address)).getD 0

/-- The value of a symbol. -/
def valOf (is64 : Bool) (o : W.Object) (s : W.Symbol) : Nat :=
  match s.section_ with
  | .inSec i => addrOf is64 o i + s.value
  | _ => s.value

/-- The section number of a symbol. -/
def numOf (s : W.Symbol) : Nat :=
  match s.section_ with
  | .none => 65534
  | .undefined | .common => 0
  | .absolute => 65535
  | .inSec i => i + 1

/-- A name in a field of 8 bytes. -/
def name8 (T t : StrTab) (name : List UInt8) : List UInt8 :=
  if name.length ≤ 8 then name ++ List.replicate (8 - name.length) 0 else [0, 0, 0, 0] ++ wr .big 4 (offOf T t name)

/-- The name of the record of a symbol. -/
def recName (is64 : Bool) (T t : StrTab) (c : Nat) (name : List UInt8) : List UInt8 :=
  if is64 then wr .big 4 (offOf T t (if c = 103 then nFile else name))
  else if c = 103 then nFile ++ [0, 0, 0] else name8 T t name

/-- The record of a symbol. -/
def symRec (is64 : Bool) (t : StrTab) (o : W.Object) (s : W.Symbol) : Sym :=
  ⟨recName is64 (tabOf is64 o) t (fl o s).sclass s.name, valOf is64 o s, numOf s, (fl o s).typ, (fl o s).sclass, auxCount (fl o s).sclass⟩

/-- The length in a csect record. -/
def scn (o : W.Object) (s : W.Symbol) : Nat :=
  match (fl o s).csect with
  | some j => indexOf o j
  | none => s.size

/-- The auxiliary record of a symbol. -/
def auxB (is64 : Bool) (t : StrTab) (o : W.Object) (s : W.Symbol) : List UInt8 :=
  if (fl o s).sclass = 103 then FileAux.encode is64 ⟨name8 (tabOf is64 o) t s.name, 0⟩
  else if external (fl o s).sclass = true then CsectAux.encode is64 ⟨scn o s, (fl o s).smtyp, (fl o s).smclas⟩
  else []

/-- The records of a symbol. -/
def symB (is64 : Bool) (t : StrTab) (o : W.Object) (s : W.Symbol) : List UInt8 := (symRec is64 t o s).encode is64 ++ auxB is64 t o s

theorem length_name8 (T t : StrTab) (name : List UInt8) : (name8 T t name).length = 8 := by
  unfold name8
  split
  · rw [List.length_append, List.length_replicate]; omega
  · simp

theorem length_recName (is64 : Bool) (T t : StrTab) (c : Nat) (name : List UInt8) : (recName is64 T t c name).length = if is64 then 4 else 8 := by
  unfold recName
  cases is64
  · simp only [Bool.false_eq_true, if_false]
    split
    · rfl
    · exact length_name8 T t name
  · simp

theorem length_sym {is64 : Bool} {s : Sym} (h : s.name.length = if is64 then 4 else 8) : (s.encode is64).length = 18 := by
  unfold Sym.encode
  rw [List.length_append, length_encode]
  cases is64
  · simp only [Bool.false_eq_true, if_false] at h ⊢
    rw [List.length_append, h, length_wr]; rfl
  · simp only [if_true] at h ⊢
    rw [List.length_append, h, length_wr]; rfl

theorem length_symRec (is64 : Bool) (t : StrTab) (o : W.Object) (s : W.Symbol) : ((symRec is64 t o s).encode is64).length = 18 :=
  length_sym (length_recName _ _ _ _ _)

theorem length_csect (is64 : Bool) (a : CsectAux) : (a.encode is64).length = 18 := by
  unfold CsectAux.encode
  cases is64 <;> simp

theorem length_fileAux (is64 : Bool) (a : FileAux) (h : a.fname.length = 8) : (a.encode is64).length = 18 := by
  unfold FileAux.encode
  cases is64 <;> simp [h]

theorem length_auxB (is64 : Bool) (t : StrTab) (o : W.Object) (s : W.Symbol) : (auxB is64 t o s).length = 18 * auxCount (fl o s).sclass := by
  unfold auxB auxCount
  by_cases h1 : (fl o s).sclass = 103
  · rw [if_pos h1, if_pos (.inl h1), length_fileAux _ _ (length_name8 _ _ _)]
  · rw [if_neg h1]
    by_cases h2 : external (fl o s).sclass = true
    · rw [if_pos h2, if_pos (.inr h2), length_csect]
    · rw [if_neg h2, if_neg (fun h => h.elim h1 h2)]; rfl

theorem length_symB (is64 : Bool) (t : StrTab) (o : W.Object) (s : W.Symbol) : (symB is64 t o s).length = 18 * recs o s := by
  unfold symB recs
  rw [List.length_append, length_symRec, length_auxB]; omega

theorem length_symBs (is64 : Bool) (t : StrTab) (o : W.Object) : ∀ ss : List W.Symbol,
    (ss.flatMap (symB is64 t o)).length = 18 * (ss.map (recs o)).sum
  | [] => rfl
  | s :: ss => by
    simp only [List.flatMap_cons, List.length_append, length_symB, length_symBs is64 t o ss, List.map_cons, List.sum_cons]
    omega

/-! ## Strings -/

theorem mem_tabOf {is64 : Bool} {o : W.Object} {n : List UInt8} : n ∈ (tabOf is64 o).strings ↔ n ∈ allStrs is64 o o.symbols := by
  have := (StrTab.addAll_strings (allStrs is64 o o.symbols) StrTab.new (by simp [StrTab.new])).2.2.1 n
  unfold tabOf
  rw [this]
  simp [StrTab.new]

theorem name_mem {is64 : Bool} {o : W.Object} {s : W.Symbol} (hs : s ∈ o.symbols) (h : (is64 = true ∧ (fl o s).sclass ≠ 103) ∨ 8 < s.name.length) :
    s.name ∈ (tabOf is64 o).strings := by
  rw [mem_tabOf]
  refine List.mem_flatMap.2 ⟨s, hs, ?_⟩
  unfold strNames
  by_cases hc : (fl o s).sclass = 103
  · rw [if_pos hc]
    rcases h with h | h
    · exact absurd hc h.2
    · rw [if_pos h]; simp
  · rw [if_neg hc]
    rw [if_pos (h.elim (fun h => .inl h.1) .inr)]; simp

theorem file_mem {is64 : Bool} {o : W.Object} {s : W.Symbol} (hs : s ∈ o.symbols) (h : is64 = true) (hc : (fl o s).sclass = 103) :
    nFile ∈ (tabOf is64 o).strings := by
  rw [mem_tabOf]
  refine List.mem_flatMap.2 ⟨s, hs, ?_⟩
  unfold strNames
  rw [if_pos hc, if_pos h]; simp

/-! ## Symbols -/

theorem addr_le : ∀ (ss : List W.Section) (a off : Nat), ∀ p ∈ places a off ss, p.1 ≤ a + (ss.map fun s => 4 + s.data.length).sum
  | [], _, _, p, h => by simp [places] at h
  | s :: ss, a, off, p, h => by
    simp only [List.map_cons, List.sum_cons]
    rcases List.mem_cons.1 h with rfl | h
    · simp only; split <;> omega
    · have := addr_le ss _ _ p h
      have h3 : nextAddr a s ≤ a + (4 + s.data.length) := by
        unfold nextAddr
        have := up4_le (a + s.data.length)
        split <;> omega
      omega

theorem addrOf_le (is64 : Bool) (o : W.Object) (i : Nat) : addrOf is64 o i ≤ (o.sections.map fun s => 4 + s.data.length).sum := by
  unfold addrOf
  cases h : (secOffs is64 o)[i]? with
  | none => simp
  | some x =>
    simp only [Option.map_some, Option.getD_some]
    have := List.mem_of_getElem? h
    unfold secOffs at this
    obtain ⟨p, h1, h2⟩ := List.mem_map.1 this
    have h3 := addr_le o.sections 0 (headersEnd is64 o) p.1 (List.of_mem_zip h1).1
    rw [← h2]
    simp only
    omega

theorem length_secOffs (is64 : Bool) (o : W.Object) : (secOffs is64 o).length = o.sections.length := by
  unfold secOffs
  rw [List.length_map, List.length_zip, length_places, length_relOffs, Nat.min_self]

theorem symbolValue_eq {is64 : Bool} {o : W.Object} {p : Plan} (hp : Planned is64 o p) (hv : Valid o) {s : W.Symbol} (hs : s ∈ o.symbols) :
    symbolValue p.sections s = .ok (valOf is64 o s) := by
  have hb := (bounds is64 o).2.2.2.1
  have hr := hv.room
  have hrm : room o = 24 + 72 * o.sections.length + ((o.sections.map fun s => 4 + s.data.length).sum + 14 * relCount o.sections) +
    36 * o.symbols.length := by unfold room; rw [room_split]
  unfold symbolValue valOf
  cases hsec : s.section_ with
  | inSec i =>
    simp only
    have hi := hv.symbolSection s hs i hsec
    have hl : i < (secOffs is64 o).length := by rw [length_secOffs]; exact hi
    rw [hp.sections, List.getElem?_eq_getElem hl]
    simp only
    have ha := addrOf_le is64 o i
    have e : addrOf is64 o i = (secOffs is64 o)[i].address := by
      unfold addrOf; rw [List.getElem?_eq_getElem hl]; rfl
    have hval := hv.value s hs
    rw [e] at ha ⊢
    exact addU64_eq (by omega)
  | _ => rfl

theorem sectionNumber_eq {o : W.Object} (hv : Valid o) {s : W.Symbol} (hs : s ∈ o.symbols) : sectionNumber s = .ok (numOf s) := by
  unfold sectionNumber numOf
  cases hsec : s.section_ with
  | inSec i =>
    have hi := hv.symbolSection s hs i hsec
    have := hv.sections
    simp only
    rw [Nat.mod_eq_of_lt (by omega), if_neg (by omega), Nat.mod_eq_of_lt (by omega)]
  | none =>
    simp only
    rw [check_ok (hv.noSection s hs hsec), Res.ok_bind]
  | _ => rfl

theorem nameField_eq {is64 : Bool} {o : W.Object} {p : Plan} (hp : Planned is64 o p) {s : W.Symbol} (hs : s ∈ o.symbols) :
    nameField p.tab s.name (strIdOf (tabOf is64 o) is64 (fl o s).sclass s.name) = .ok (name8 (tabOf is64 o) p.tab s.name) := by
  unfold nameField name8
  by_cases h : s.name.length ≤ 8
  · rw [if_pos h, if_pos h]
  · rw [if_neg h, if_neg h]
    have h8 : 8 < s.name.length := by omega
    have e : strIdOf (tabOf is64 o) is64 (fl o s).sclass s.name = some (idOf (tabOf is64 o) s.name) := by
      unfold strIdOf
      split
      · rfl
      · rw [if_pos (.inr h8)]
    rw [e]
    unfold strOffset
    simp only
    rw [(getOffset_offOf hp.written (name_mem hs (.inr h8))).1, Res.ok_bind]

theorem symbolName_eq {is64 : Bool} {o : W.Object} {p : Plan} (hp : Planned is64 o p) {s : W.Symbol} (hs : s ∈ o.symbols) (n : Nat) :
    symbolName is64 p s ⟨n, strIdOf (tabOf is64 o) is64 (fl o s).sclass s.name, auxCount (fl o s).sclass, fl o s⟩ =
      .ok (recName is64 (tabOf is64 o) p.tab (fl o s).sclass s.name) := by
  unfold symbolName recName
  by_cases h : is64 = true
  · rw [if_pos h, if_pos h]
    simp only
    by_cases hc : (fl o s).sclass = 103
    · rw [if_pos hc, if_pos hc, hp.file h s hs hc]
      unfold strOffset
      simp only
      rw [(getOffset_offOf hp.written (file_mem hs h hc)).1, Res.ok_bind]
    · rw [if_neg hc, if_neg hc]
      unfold strIdOf
      rw [if_neg hc, if_pos (.inl h)]
      unfold strOffset
      simp only
      rw [(getOffset_offOf hp.written (name_mem hs (.inl ⟨h, hc⟩))).1, Res.ok_bind]
  · rw [if_neg h, if_neg h]
    simp only
    by_cases hc : (fl o s).sclass = 103
    · rw [if_pos hc, if_pos hc]
    · rw [if_neg hc, if_neg hc]
      exact nameField_eq hp hs

theorem fl_csect {o : W.Object} (hv : Valid o) {s : W.Symbol} (hs : s ∈ o.symbols) {f : Flags} (hf : symbolFlags o s = .ok (some f)) {i : Nat}
    (hi : f.csect = some i) : i < o.symbols.length := by
  unfold symbolFlags at hf
  split at hf
  · exfalso
    unfold defaultSymbolFlags at hf
    split at hf
    · cases hf
    · split at hf
      · cases hk : kindOfSection o s with
        | err => rw [hk] at hf; cases hf
        | panic => rw [hk] at hf; cases hf
        | ok k =>
          rw [hk, Res.ok_bind] at hf
          split at hf
          · simp only [Res.ok.injEq, Option.some.injEq] at hf
            rw [← hf] at hi; cases hi
          · cases hf
      · simp only [Res.ok.injEq, Option.some.injEq] at hf
        rw [← hf] at hi; cases hi
  · rename_i a b c d e he
    simp only [Res.ok.injEq, Option.some.injEq] at hf
    rw [← hf] at hi
    simp only at hi
    subst hi
    exact hv.csect s hs _ _ _ _ _ he
  · cases hf

theorem auxOf_eq {is64 : Bool} {o : W.Object} {p : Plan} (hp : Planned is64 o p) (hv : Valid o) {s : W.Symbol} (hs : s ∈ o.symbols) (n : Nat) :
    auxOf is64 p s ⟨n, strIdOf (tabOf is64 o) is64 (fl o s).sclass s.name, auxCount (fl o s).sclass, fl o s⟩ = .ok (auxB is64 p.tab o s) := by
  unfold auxOf auxB
  simp only
  by_cases hc : (fl o s).sclass = 103
  · rw [if_pos hc, if_pos hc]
    have e : auxCount (fl o s).sclass = 1 := by unfold auxCount; rw [if_pos (.inl hc)]
    rw [check_ok e]
    simp only [Res.bind_eq, Res.ok_bind]
    rw [nameField_eq hp hs]
    simp only [Res.ok_bind]
  · rw [if_neg hc, if_neg hc]
    by_cases hx : external (fl o s).sclass = true
    · rw [if_pos hx, if_pos hx]
      have e : auxCount (fl o s).sclass = 1 := by unfold auxCount; rw [if_pos (.inr hx)]
      rw [check_ok e]
      simp only [Res.bind_eq, Res.ok_bind]
      have e2 : csectLen p.symbols s ⟨n, strIdOf (tabOf is64 o) is64 (fl o s).sclass s.name, auxCount (fl o s).sclass, fl o s⟩ = .ok (scn o s) := by
        unfold csectLen scn
        simp only
        cases hcs : (fl o s).csect with
        | none => rfl
        | some i =>
          simp only
          obtain ⟨f, hf⟩ := hp.flags s hs
          have hi : i < o.symbols.length := fl_csect hv hs hf (by rw [← fl_eq hf]; exact hcs)
          rw [hp.symbols, symOffs_get, List.getElem?_eq_getElem hi]
          simp only [Option.map_some]
          rw [Nat.zero_add, indexOf_recs hp.flags]
      rw [e2]
      simp only [Res.ok_bind]
    · rw [if_neg hx, if_neg hx]

theorem writeSymbols_eq {is64 : Bool} {o : W.Object} {p : Plan} (hp : Planned is64 o p) (hv : Valid o) : ∀ (ss : List W.Symbol) (n : Nat) (out : List UInt8),
    (∀ s ∈ ss, s ∈ o.symbols) → out.length + 18 * (ss.map (recs o)).sum < U64 →
    writeSymbols is64 p out (ss.zip (symOffs (tabOf is64 o) is64 o n ss)) = .ok (out ++ ss.flatMap (symB is64 p.tab o))
  | [], n, out, _, _ => by simp [symOffs, writeSymbols]
  | s :: ss, n, out, h1, h2 => by
    simp only [List.map_cons, List.sum_cons] at h2
    have hr : recs o s = 1 + auxCount (fl o s).sclass := rfl
    have hm := h1 s (by simp)
    simp only [symOffs, List.zip_cons_cons, writeSymbols, Res.bind_eq]
    have e : symbolOf is64 p s ⟨n, strIdOf (tabOf is64 o) is64 (fl o s).sclass s.name, auxCount (fl o s).sclass, fl o s⟩ = .ok (symRec is64 p.tab o s) := by
      unfold symbolOf
      rw [symbolValue_eq hp hv hm]
      simp only [Res.bind_eq, Res.ok_bind]
      rw [sectionNumber_eq hv hm]
      simp only [Res.ok_bind]
      rw [symbolName_eq hp hm]
      rfl
    have l1 := length_symRec is64 p.tab o s
    have l2 := length_auxB is64 p.tab o s
    rw [e, Res.ok_bind, bufBytes_eq _ _ (by omega), Res.ok_bind, auxOf_eq hp hv hm, Res.ok_bind,
      bufBytes_eq _ _ (by rw [List.length_append]; omega), Res.ok_bind]
    rw [writeSymbols_eq hp hv ss _ _ (fun x hx => h1 x (by simp [hx])) (by simp only [List.length_append]; omega)]
    simp [symB]

/-! ## The file -/

/-- The file header. -/
def hdrOf (is64 : Bool) (o : W.Object) (flags : Option Nat) : Hdr := ⟨o.sections.length, 0, symtabAt is64 o, total o, 0, flags.getD 0⟩

/-- The headers. -/
def headB (is64 : Bool) (o : W.Object) (flags : Option Nat) : List UInt8 :=
  (hdrOf is64 o flags).encode is64 ++ (o.sections.zip (secOffs is64 o)).flatMap fun p => (sectOf p.1 p.2).encode is64

/-- The file. -/
def fileB (is64 : Bool) (o : W.Object) (flags : Option Nat) (t : StrTab) (len : Nat) (data : List UInt8) : List UInt8 :=
  Parts.emit (headB is64 o flags) (o.sections.flatMap datParts) ++ o.sections.flatMap (relBytes is64 o) ++
    o.symbols.flatMap (symB is64 t o) ++ (wr .big 4 len ++ data)

/-- What is known about a file that was written. -/
structure Image (is64 : Bool) (o : W.Object) (flags : Option Nat) (t : StrTab) (len : Nat) (data file : List UInt8) : Prop where
  symbolFlags : ∀ s ∈ o.symbols, ∃ f, symbolFlags o s = .ok (some f)
  names : ∀ s ∈ o.sections, s.name.length ≤ 8
  sectionFlags : ∀ s ∈ o.sections, ∃ f, sectionFlags s = some f
  relocs : ∀ s ∈ o.sections, ∀ r ∈ s.relocs, ∃ t n, r.flags = .xcoff t n
  written : Written (tabOf is64 o) t len data
  file : file = fileB is64 o flags t len data

theorem length_hdr (is64 : Bool) (h : Hdr) : (h.encode is64).length = hdrSize is64 := by
  unfold Hdr.encode
  cases is64 <;> simp <;> rfl

theorem length_headB {is64 : Bool} {o : W.Object} (flags : Option Nat) (hn : ∀ s ∈ o.sections, s.name.length ≤ 8) :
    (headB is64 o flags).length = headersEnd is64 o := by
  unfold headB headersEnd
  rw [List.length_append, length_hdr, length_flatMap_const _ (sectSize is64) _ (fun p hp => length_sectOf (hn _ (List.of_mem_zip hp).1) _ _),
    List.length_zip, length_secOffs, Nat.min_self, Nat.mul_comm]

theorem length_rels (is64 : Bool) (o : W.Object) : ∀ ss : List W.Section, (ss.flatMap (relBytes is64 o)).length = relSize is64 * relCount ss
  | [] => rfl
  | s :: ss => by
    have hc : relCount (s :: ss) = s.relocs.length + relCount ss := by simp [relCount]
    rw [List.flatMap_cons, List.length_append, length_relBytes, length_rels is64 o ss, hc, Nat.mul_add]

theorem emit_sat {is64 : Bool} {o : W.Object} {p : Plan} (hp : Planned is64 o p) (hv : Valid o) (flags : Option Nat) :
    Res.Sat (Refused o) (emit is64 o flags p) fun file => Image is64 o flags p.tab p.strLen p.strData file := by
  obtain ⟨b1, b2, b3, b4, b5, b6, b7⟩ := bounds is64 o
  have hr := hv.room
  have hrm : room o = 24 + 72 * o.sections.length + ((o.sections.map fun s => 4 + s.data.length).sum + 14 * relCount o.sections) +
    36 * o.symbols.length := by unfold room; rw [room_split]
  have hh : (⟨o.sections.length, 0, p.symtab, p.count, 0, flags.getD 0⟩ : Hdr) = hdrOf is64 o flags := by
    unfold hdrOf; rw [hp.symtab, hp.count]
  unfold emit
  rw [hh]
  simp only [Res.bind_eq]
  have l0 := length_hdr is64 (hdrOf is64 o flags)
  have hhs : hdrSize is64 ≤ 24 := by cases is64 <;> decide
  rw [bufBytes_eq _ _ (by rw [l0]; show 0 + _ < _; omega), Res.ok_bind, List.nil_append, hp.sections]
  have lz : (o.sections.zip (secOffs is64 o)).length = o.sections.length := by rw [List.length_zip, length_secOffs, Nat.min_self]
  refine (writeHeaders_sat is64 _ _ (fun q hq h => Refused.name q.1 (List.of_mem_zip hq).1 h)
    (fun q hq h => Refused.section_ q.1 (List.of_mem_zip hq).1 h) (by rw [l0, lz]; show headersEnd is64 o < _; omega)).bind ?_
  rintro out ⟨rfl, g1⟩
  have hn : ∀ s ∈ o.sections, s.name.length ≤ 8 ∧ ∃ f, sectionFlags s = some f := by
    intro s hs
    obtain ⟨i, hi⟩ := List.getElem?_of_mem hs
    have hil : i < (secOffs is64 o).length := by rw [length_secOffs]; exact length_of_getElem? hi
    exact g1 (s, (secOffs is64 o)[i]) (List.mem_of_getElem? (i := i) (List.getElem?_zip_eq_some.2 ⟨hi, List.getElem?_eq_getElem hil⟩))
  have lH := length_headB (is64 := is64) flags (fun s hs => (hn s hs).1)
  show Res.Sat _ ((writeData (headB is64 o flags) (o.sections.zip (secOffs is64 o))).bind _) _
  have e1 : writeData (headB is64 o flags) (o.sections.zip (secOffs is64 o)) = .ok (Parts.emit (headB is64 o flags) (o.sections.flatMap datParts)) := by
    have := writeData_eq o.sections (relOffs is64 (dataEnd is64 o) o.sections) 0 (headB is64 o flags) (length_relOffs _ _ _) (by rw [lH]; omega)
    rw [lH] at this
    exact this
  rw [e1, Res.ok_bind]
  have lD : (Parts.emit (headB is64 o flags) (o.sections.flatMap datParts)).length = dataEnd is64 o := by
    rw [length_emit, lH]; rfl
  have hRel := writeRelocs_sat (E := Refused o) hp o.sections (places 0 (headersEnd is64 o) o.sections)
    (Parts.emit (headB is64 o flags) (o.sections.flatMap datParts)) (length_places _ _ _) hv.relocSymbol
    (fun s hs r hr h => Refused.reloc s r hs hr h) (by rw [lD]; show symtabAt is64 o < _; omega)
  rw [lD] at hRel
  refine Res.Sat.bind hRel ?_
  rintro out ⟨rfl, g2⟩
  have lR : (Parts.emit (headB is64 o flags) (o.sections.flatMap datParts) ++ o.sections.flatMap (relBytes is64 o)).length = symtabAt is64 o := by
    rw [List.length_append, lD, length_rels]; rfl
  rw [check_ok (by rw [hp.symtab, lR]), Res.ok_bind, hp.symbols, writeSymbols_eq hp hv o.symbols 0 _ (fun s h => h)
    (by rw [lR]; show symtabAt is64 o + 18 * total o < _; omega), Res.ok_bind]
  have lS : (Parts.emit (headB is64 o flags) (o.sections.flatMap datParts) ++ o.sections.flatMap (relBytes is64 o) ++
      o.symbols.flatMap (symB is64 p.tab o)).length = symtabAt is64 o + 18 * total o := by
    rw [List.length_append, lR, length_symBs]; rfl
  have hlt := hp.written.lt
  have hle := hp.written.lenEq
  rw [check_ok (by rw [hp.strtab, lS]), Res.ok_bind, bufBytes_eq _ _ (by rw [lS, length_wr]; omega), Res.ok_bind,
    bufBytes_eq _ _ (by rw [List.length_append, lS, length_wr]; omega), Res.ok_bind,
    check_ok (by rw [List.length_append, List.length_append, lS, length_wr, hp.len, hp.strtab]; omega), Res.ok_bind]
  refine ⟨hp.flags, fun s hs => (hn s hs).1, fun s hs => (hn s hs).2, g2, hp.written, ?_⟩
  unfold fileB
  rw [List.append_assoc (Parts.emit _ _ ++ _ ++ _)]

theorem xcoffWrite_sat (o : W.Object) (hv : Valid o) (flags : Option Nat) :
    Res.Sat (Refused o) (xcoffWrite o flags) fun file => ∃ is64 t len data, elfIs64 o.arch = some is64 ∧ Image is64 o flags t len data file := by
  unfold xcoffWrite
  have ha : ∃ n, o.arch.addressSize = some n := by
    have := hv.arch
    cases h : o.arch <;> first | exact ⟨_, rfl⟩ | exact absurd h this
  obtain ⟨n, hn⟩ := ha
  rw [hn]
  simp only [Res.bind_eq]
  refine (plan_sat (decide (n = 8)) o hv).bind ?_
  intro p hp
  refine (emit_sat hp hv flags).mono (fun h => h) ?_
  intro file hi
  exact ⟨decide (n = 8), p.tab, p.strLen, p.strData, by unfold elfIs64; rw [hn]; rfl, hi⟩

end Obj.XcoffW

import Verif.Proof.ElfW10

/-! Positions in the output of `elf_write`. -/

namespace Obj.ElfW
open Obj Obj.Elf Obj.Reserve Obj.Parts Obj.Spec Obj.W Obj.Spec.ElfO

theorem split_at {α : Type} {l : List α} {i : Nat} {a : α} (h : l[i]? = some a) : l = l.take i ++ a :: l.drop (i + 1) := by
  obtain ⟨hi, rfl⟩ := List.getElem?_eq_some_iff.1 h
  rw [← List.drop_eq_getElem_cons hi, List.take_append_drop]

theorem isLocal_eq : isLocal = localSym := rfl

/-! ## Symbol indices -/

theorem ixs_get (p : Symbol → Bool) : ∀ (l : List (Symbol × Nat)) (n k : Nat) (s : Symbol) (i : Nat), l[k]? = some (s, i) →
    (ixs p n l)[k]? = some (if p s then n + (((l.take k).map (·.1)).filter p).length else i)
  | [], _, _, _, _, h => by simp at h
  | (s', i') :: l, n, 0, s, i, h => by
    simp only [List.getElem?_cons_zero, Option.some.injEq, Prod.mk.injEq] at h
    obtain ⟨rfl, rfl⟩ := h
    unfold ixs
    cases hp : p s' <;> simp
  | (s', i') :: l, n, k + 1, s, i, h => by
    have ih := fun n => ixs_get p l n k s i (by simpa using h)
    unfold ixs
    cases hp : p s'
    · simp only [Bool.false_eq_true, if_false, List.getElem?_cons_succ, List.take_succ_cons, List.map_cons, List.filter_cons, hp]
      exact ih n
    · simp only [if_true, List.getElem?_cons_succ, List.take_succ_cons, List.map_cons, List.filter_cons, hp, List.length_cons]
      rw [ih (n + 1)]
      congr 2
      omega

theorem finalIx_get (o : Object) (i : Nat) (hi : i < o.symbols.length) : (finalIx o)[i]? = some (symIndex o i) := by
  have hs : o.symbols[i]? = some o.symbols[i] := List.getElem?_eq_getElem hi
  generalize o.symbols[i] = s at hs
  have h1 := ixs_get isLocal (o.symbols.map fun s => (s, 0)) 1 i s 0 (by simp [hs])
  have h2 := ixs_get (fun s => !isLocal s) (o.symbols.zip (ixs isLocal 1 (o.symbols.map fun s => (s, 0)))) (1 + nLocal o) i s
    (if isLocal s then 1 + ((((o.symbols.map fun s => (s, 0)).take i).map (·.1)).filter isLocal).length else 0)
    (List.getElem?_zip_eq_some.2 ⟨hs, h1⟩)
  have e1 : ((o.symbols.map fun s => (s, 0)).take i).map (·.1) = o.symbols.take i := by
    rw [← List.map_take, List.map_map]
    conv => rhs; rw [← List.map_id (o.symbols.take i)]
    rfl
  have e2 : ((o.symbols.zip (ixs isLocal 1 (o.symbols.map fun s => (s, 0)))).take i).map (·.1) = o.symbols.take i := by
    rw [List.map_take, List.map_fst_zip (by rw [length_ixs, List.length_map])]
  unfold finalIx
  rw [h2, e1, e2]
  unfold symIndex
  rw [hs, ← isLocal_eq]
  simp only
  cases isLocal s <;> simp [nLocal]

theorem filter_get {α : Type} (p : α → Bool) {l : List α} {i : Nat} {a : α} (h : l[i]? = some a) (hp : p a = true) :
    (l.filter p)[((l.take i).filter p).length]? = some a := by
  conv => lhs; rw [split_at h]
  rw [List.filter_append, List.take_append_of_le_length (by simp; have := length_of_getElem? h; omega)]
  rw [List.take_of_length_le (l := l.take i) (by simp)]
  simp [hp]

theorem symIndex_pos (o : Object) {i : Nat} (hi : i < o.symbols.length) : 1 ≤ symIndex o i ∧ symIndex o i < num o := by
  have hs : o.symbols[i]? = some o.symbols[i] := List.getElem?_eq_getElem hi
  generalize o.symbols[i] = s at hs
  have hf := length_filters o
  unfold symIndex
  rw [hs, ← isLocal_eq]
  simp only
  have hn : num o = 1 + o.symbols.length := rfl
  cases hl : isLocal s
  · have := length_of_getElem? (filter_get (fun s => !isLocal s) hs (by simp [hl]))
    simp only [Bool.false_eq_true, if_false]
    omega
  · have := length_of_getElem? (filter_get isLocal hs hl)
    simp only [if_true]
    omega

theorem wsyms_get (o : Object) (U : StrTab) {i : Nat} {s : Symbol} (h : o.symbols[i]? = some s) :
    (wsyms o U)[symIndex o i - 1]? = some (wsymOf o U s) := by
  unfold wsyms
  rw [List.getElem?_map]
  have : (o.symbols.filter isLocal ++ o.symbols.filter fun s => !isLocal s)[symIndex o i - 1]? = some s := by
    unfold symIndex
    rw [h, ← isLocal_eq]
    simp only
    cases hl : isLocal s
    · have hg := filter_get (fun s => !isLocal s) h (by simp [hl])
      simp only [Bool.false_eq_true, if_false]
      rw [List.getElem?_append_right (by omega)]
      rw [show 1 + (o.symbols.filter isLocal).length + ((o.symbols.take i).filter fun s => !isLocal s).length - 1 - (o.symbols.filter isLocal).length
        = ((o.symbols.take i).filter fun s => !isLocal s).length by omega]
      exact hg
    · have hg := filter_get isLocal h hl
      simp only [if_true]
      rw [show 1 + ((o.symbols.take i).filter isLocal).length - 1 = ((o.symbols.take i).filter isLocal).length by omega,
        List.getElem?_append_left (length_of_getElem? hg)]
      exact hg
  rw [this]; rfl

/-! ## Headers -/

theorem comdatHdrs_get (nm : List UInt8 → Nat) (sy : Nat) (ix : List Nat) : ∀ (ds : List Comdat) (len i : Nat) (d : Comdat), ds[i]? = some d →
    (comdatHdrs nm sy ix len ds)[i]? = some ⟨nm nGroup, 17, 0, 0, up (endOf len (comdatSizes (ds.take i))) 4,
      (d.sections.length + 1) * 4, sy, (ix[d.symbol]?).getD 0, 4, 4⟩
  | [], _, _, _, h => by simp at h
  | a :: ds, len, 0, d, h => by
    simp only [List.getElem?_cons_zero, Option.some.injEq] at h
    subst h
    rfl
  | a :: ds, len, i + 1, d, h => by
    have ih := comdatHdrs_get nm sy ix ds (up len 4 + (a.sections.length + 1) * 4) i d (by simpa using h)
    rw [comdatHdrs.eq_2, List.getElem?_cons_succ, ih]
    rfl

theorem secHdrs_append (c : Cfg) (r : Bool) (nm : List UInt8 → Nat) (sy : Nat) : ∀ (ss tt : List Section) (n len rlen : Nat),
    secHdrs c r nm sy n len rlen (ss ++ tt) = secHdrs c r nm sy n len rlen ss ++
      secHdrs c r nm sy (n + hdrs ss) (endOf len (secSizes ss)) (endOf rlen (relSizes c r ss)) tt
  | [], tt, n, len, rlen => by simp [secHdrs, hdrs, secSizes, relSizes, endOf]
  | s :: ss, tt, n, len, rlen => by
    rw [List.cons_append, secHdrs.eq_2, secHdrs.eq_2, secHdrs_append c r nm sy ss tt, hdrs_cons, List.append_assoc]
    have e1 : endOf len (secSizes (s :: ss)) = endOf (up len s.align + s.data.length) (secSizes ss) := rfl
    have e2 : endOf rlen (relSizes c r (s :: ss)) = endOf (endOf rlen (relSize1 c r s)) (relSizes c r ss) := by
      rw [relSizes.eq_2, endOf_append]
    rw [e1, e2, Nat.add_assoc]

theorem secHdrs_get (c : Cfg) (r : Bool) (nm : List UInt8 → Nat) (sy n len rlen : Nat) {ss : List Section} {i : Nat} {s : Section}
    (h : ss[i]? = some s) :
    (secHdrs c r nm sy n len rlen ss)[hdrs (ss.take i)]? = some (secHdr nm (endOf len (secSizes (ss.take i))) s) ∧
    (s.relocs ≠ [] → (secHdrs c r nm sy n len rlen ss)[hdrs (ss.take i) + 1]? =
      some (relHdr c r nm sy (n + hdrs (ss.take i)) (endOf rlen (relSizes c r (ss.take i))) s)) := by
  have hs := split_at h
  generalize ss.take i = pre at *
  generalize ss.drop (i + 1) = post at *
  subst hs
  rw [secHdrs_append, secHdrs.eq_2]
  have hl := length_secHdrs c r nm sy pre n len rlen
  constructor
  · rw [List.getElem?_append_right (by omega), hl, Nat.sub_self]
    rfl
  · intro hr
    rw [List.getElem?_append_right (by omega), hl, show hdrs pre + 1 - hdrs pre = 1 by omega]
    unfold secHdr1
    rw [if_neg hr]
    rfl

/-! ## Positions -/

theorem sizes_comdatPart (o : Object) (c : Cfg) (ds : List Comdat) :
    sizes (ds.map fun d => ((4 : Nat), comdatBytes c (d.sections.map (secIndex o)))) = comdatSizes ds := by
  unfold sizes comdatSizes
  rw [List.map_map]
  apply List.map_congr_left
  intro d _
  simp only [Function.comp, length_comdatBytes, List.length_map]

section Pos
variable {o : Object} {c : Cfg} {r mips : Bool} {x : Strs} {hdr : List UInt8}

/-- The file. -/
abbrev fileOf (o : Object) (c : Cfg) (mips r : Bool) (x : Strs) (hdr : List UInt8) : List UInt8 :=
  emit hdr (dataParts o c x ++ tailParts o c mips r x)

theorem at_hdr : At (fileOf o c mips r x hdr) 0 hdr := by
  obtain ⟨tl, h⟩ := emit_prefix (dataParts o c x ++ tailParts o c mips r x) hdr
  unfold fileOf
  rw [h]
  exact at_mid [] hdr tl

theorem at_comdat (hh : hdr.length = c.ehdrSize) {i : Nat} {d : Comdat} (h : o.comdats[i]? = some d) :
    At (fileOf o c mips r x hdr) (up (endOf c.ehdrSize (comdatSizes (o.comdats.take i))) 4) (comdatBytes c (d.sections.map (secIndex o))) := by
  have := at_emit ((o.comdats.take i).map fun d => ((4 : Nat), comdatBytes c (d.sections.map (secIndex o))))
    (((o.comdats.drop (i + 1)).map fun d => ((4 : Nat), comdatBytes c (d.sections.map (secIndex o)))) ++ (secParts o.sections ++
    ((c.w, symtabBytes c (wsyms o x.U)) :: ((if needB o then [(4, symtabShndxBytes c (wsyms o x.U))] else []) ++ [(1, x.data)]))) ++ tailParts o c mips r x)
    4 (comdatBytes c (d.sections.map (secIndex o))) hdr
  rw [sizes_comdatPart, hh] at this
  unfold fileOf dataParts
  conv => arg 1; arg 2; arg 1; arg 1; rw [split_at h]
  simp only [List.map_append, List.map_cons, List.append_assoc, List.cons_append] at this ⊢
  exact this

theorem at_section (hh : hdr.length = c.ehdrSize) {i : Nat} {s : Section} (h : o.sections[i]? = some s) :
    At (fileOf o c mips r x hdr) (up (endOf (L1 o c) (secSizes (o.sections.take i))) s.align) s.data := by
  have := at_emit ((o.comdats.map fun d => ((4 : Nat), comdatBytes c (d.sections.map (secIndex o)))) ++ secParts (o.sections.take i))
    (secParts (o.sections.drop (i + 1)) ++
    ((c.w, symtabBytes c (wsyms o x.U)) :: ((if needB o then [(4, symtabShndxBytes c (wsyms o x.U))] else []) ++ [(1, x.data)])) ++ tailParts o c mips r x)
    s.align s.data hdr
  rw [sizes_append, sizes_comdatPart, sizes_secParts, endOf_append, hh] at this
  unfold fileOf dataParts
  have hsp : secParts o.sections = secParts (o.sections.take i) ++ (s.align, s.data) :: secParts (o.sections.drop (i + 1)) := by
    conv => lhs; rw [split_at h]
    unfold secParts
    rw [List.map_append, List.map_cons]
  rw [hsp]
  simp only [List.append_assoc, List.cons_append] at this ⊢
  exact this

theorem at_symtab (hh : hdr.length = c.ehdrSize) :
    At (fileOf o c mips r x hdr) (up (L2 o c) c.w) (symtabBytes c (wsyms o x.U)) := by
  have := at_emit ((o.comdats.map fun d => ((4 : Nat), comdatBytes c (d.sections.map (secIndex o)))) ++ secParts o.sections)
    ((if needB o then [(4, symtabShndxBytes c (wsyms o x.U))] else []) ++ [(1, x.data)] ++ tailParts o c mips r x)
    c.w (symtabBytes c (wsyms o x.U)) hdr
  rw [sizes_append, sizes_comdatPart, sizes_secParts, endOf_append, hh] at this
  unfold fileOf dataParts
  simp only [List.append_assoc, List.cons_append] at this ⊢
  exact this

theorem sizes_symtabPart : sizes [(c.w, symtabBytes c (wsyms o x.U))] = [(c.w, num o * c.symSize)] := by
  show [(c.w, (symtabBytes c (wsyms o x.U)).length)] = _
  rw [length_symtabBytes, length_wsyms]; rfl

theorem at_shndx (hh : hdr.length = c.ehdrSize) (hn : needB o = true) :
    At (fileOf o c mips r x hdr) (up (L3 o c) 4) (symtabShndxBytes c (wsyms o x.U)) := by
  have := at_emit ((o.comdats.map fun d => ((4 : Nat), comdatBytes c (d.sections.map (secIndex o)))) ++ secParts o.sections ++
    [(c.w, symtabBytes c (wsyms o x.U))])
    ([(1, x.data)] ++ tailParts o c mips r x)
    4 (symtabShndxBytes c (wsyms o x.U)) hdr
  rw [sizes_append, sizes_append, sizes_comdatPart, sizes_secParts, endOf_append, endOf_append, hh, sizes_symtabPart] at this
  unfold fileOf dataParts
  rw [if_pos hn]
  simp only [List.append_assoc, List.cons_append, List.nil_append] at this ⊢
  exact this

theorem at_strtab (hh : hdr.length = c.ehdrSize) : At (fileOf o c mips r x hdr) (L4 o c (needB o)) x.data := by
  have := at_emit ((o.comdats.map fun d => ((4 : Nat), comdatBytes c (d.sections.map (secIndex o)))) ++ secParts o.sections ++
    [(c.w, symtabBytes c (wsyms o x.U))] ++ (if needB o then [(4, symtabShndxBytes c (wsyms o x.U))] else []))
    (tailParts o c mips r x) 1 x.data hdr
  have e2 : sizes (if needB o then [((4 : Nat), symtabShndxBytes c (wsyms o x.U))] else []) = shndxSizes (needB o) (num o) := by
    unfold sizes shndxSizes
    split
    · simp only [List.map_cons, List.map_nil, length_symtabShndxBytes, length_wsyms]; rfl
    · rfl
  rw [sizes_append, sizes_append, sizes_append, sizes_comdatPart, sizes_secParts, endOf_append, endOf_append, endOf_append, hh,
    sizes_symtabPart, e2] at this
  unfold fileOf dataParts
  simp only [List.append_assoc, List.cons_append, List.nil_append] at this ⊢
  exact this

theorem at_relocs (hh : hdr.length = c.ehdrSize) {i : Nat} {s : Section} (h : o.sections[i]? = some s) (hr : s.relocs ≠ []) :
    At (fileOf o c mips r x hdr) (up (endOf (L4 o c (needB o) + x.data.length) (relSizes c r (o.sections.take i))) c.w)
      (relBytes c mips r (finalIx o) s.relocs) := by
  have := at_emit (dataParts o c x ++ relParts c mips r (finalIx o) (o.sections.take i))
    (relParts c mips r (finalIx o) (o.sections.drop (i + 1)) ++ [(1, x.shd),
    (c.w, nullSectionHeader c (layoutOf o c r x) ++ (allHdrs o c r x).flatMap (Shdr.encode c))])
    c.w (relBytes c mips r (finalIx o) s.relocs) hdr
  rw [sizes_append, sizes_relParts, endOf_append, hh, sizes_dataParts] at this
  unfold fileOf tailParts
  have hsp : relParts c mips r (finalIx o) o.sections = relParts c mips r (finalIx o) (o.sections.take i) ++
      (c.w, relBytes c mips r (finalIx o) s.relocs) :: relParts c mips r (finalIx o) (o.sections.drop (i + 1)) := by
    conv => lhs; rw [split_at h]
    unfold relParts
    rw [List.flatMap_append, List.flatMap_cons]
    congr 1
    unfold relPart1
    rw [if_neg hr]
    rfl
  rw [hsp]
  simp only [List.append_assoc, List.cons_append, List.nil_append] at this ⊢
  exact this

theorem at_shstrtab (hh : hdr.length = c.ehdrSize) : At (fileOf o c mips r x hdr) (L6 o c r (needB o) x.data.length) x.shd := by
  have := at_emit (dataParts o c x ++ relParts c mips r (finalIx o) o.sections)
    [(c.w, nullSectionHeader c (layoutOf o c r x) ++ (allHdrs o c r x).flatMap (Shdr.encode c))] 1 x.shd hdr
  rw [sizes_append, sizes_relParts, endOf_append, hh, sizes_dataParts] at this
  unfold fileOf tailParts
  simp only [List.append_assoc, List.cons_append, List.nil_append] at this ⊢
  exact this

theorem at_headers (hh : hdr.length = c.ehdrSize) : At (fileOf o c mips r x hdr) (up (L6 o c r (needB o) x.data.length + x.shd.length) c.w)
    (nullSectionHeader c (layoutOf o c r x) ++ (allHdrs o c r x).flatMap (Shdr.encode c)) := by
  have := at_emit (dataParts o c x ++ relParts c mips r (finalIx o) o.sections ++ [(1, x.shd)])
    [] c.w (nullSectionHeader c (layoutOf o c r x) ++ (allHdrs o c r x).flatMap (Shdr.encode c)) hdr
  rw [sizes_append, sizes_append, sizes_relParts, endOf_append, endOf_append, hh, sizes_dataParts] at this
  unfold fileOf tailParts
  simp only [List.append_assoc, List.cons_append, List.nil_append] at this ⊢
  exact this

end Pos

end Obj.ElfW

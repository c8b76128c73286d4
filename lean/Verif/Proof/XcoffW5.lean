import Verif.Proof.XcoffW4
import Verif.Proof.ElfW13

/-! Reading back the symbols of a file written by `xcoff_write`. -/

namespace Obj.XcoffW
open Obj Obj.Reserve Obj.Parts Obj.Spec Obj.Spec.XcoffO Obj.Xcoff Obj.Spec.XcoffS
open Obj.Elf (length_flatMap_const at_append at_read readSliceAt_flatMap)
open Obj.ElfW (check_ok idOf length_of_getElem?)

variable {is64 : Bool} {o : W.Object} {flags : Option Nat} {t : StrTab} {len : Nat} {data file : List UInt8}

/-! ## Records -/

theorem Image.total_eq (im : Image is64 o flags t len data file) : total o = indexOf o o.symbols.length := by
  rw [← indexOf_recs im.symbolFlags, List.take_length]; rfl

theorem Image.index_succ (im : Image is64 o flags t len data file) {i : Nat} {s : W.Symbol} (hs : o.symbols[i]? = some s) :
    indexOf o (i + 1) = indexOf o i + recs o s := by
  rw [← indexOf_recs im.symbolFlags, ← indexOf_recs im.symbolFlags]
  obtain ⟨hi, hx⟩ := List.getElem?_eq_some_iff.1 hs
  rw [List.take_succ_eq_append_getElem hi, hx]
  simp

theorem Image.index_mono (im : Image is64 o flags t len data file) {i j : Nat} (h : i ≤ j) : indexOf o i ≤ indexOf o j := by
  rw [← indexOf_recs im.symbolFlags, ← indexOf_recs im.symbolFlags]
  have e : o.symbols.take j = o.symbols.take i ++ (o.symbols.take j).drop i := by
    have := (List.take_append_drop i (o.symbols.take j)).symm
    rw [List.take_take, Nat.min_eq_left h] at this
    exact this
  rw [e, List.map_append, List.sum_append]; omega

theorem Image.index_lt (im : Image is64 o flags t len data file) {i : Nat} {s : W.Symbol} (hs : o.symbols[i]? = some s) :
    indexOf o i + recs o s ≤ total o := by
  rw [im.total_eq, ← im.index_succ hs]
  exact im.index_mono (length_of_getElem? hs)

theorem symtabAt_pos (is64 : Bool) (o : W.Object) : symtabAt is64 o ≠ 0 := by
  have := bounds is64 o; omega

/-- Record `k` of the symbol table. -/
theorem Image.record (_ : Image is64 o flags t len data file) {y : SymTab} (ht : TableAt is64 file (hdrOf is64 o flags) y) {k : Nat}
    (hk : k < total o) : y.records[k]? = some (slice file (symtabAt is64 o + 18 * k) 18) := by
  have hl : y.records.length = total o := ht.count (symtabAt_pos is64 o)
  have h1 : y.records[k]? = some y.records[k] := List.getElem?_eq_getElem (by omega)
  rw [h1, (ht.records k _ h1).1]; rfl

theorem Image.rec0 (im : Image is64 o flags t len data file) {y : SymTab} (ht : TableAt is64 file (hdrOf is64 o flags) y) {i : Nat} {s : W.Symbol}
    (hs : o.symbols[i]? = some s) : y.records[indexOf o i]? = some ((symRec is64 t o s).encode is64) := by
  have h1 := im.index_lt hs
  have hr : recs o s = 1 + auxCount (fl o s).sclass := rfl
  rw [im.record ht (by omega)]
  have h2 := im.at_sym hs
  unfold symB at h2
  exact congrArg some (at_slice (at_append.1 h2).1 (length_symRec _ _ _ _))

theorem Image.rec1 (im : Image is64 o flags t len data file) {y : SymTab} (ht : TableAt is64 file (hdrOf is64 o flags) y) {i : Nat} {s : W.Symbol}
    (hs : o.symbols[i]? = some s) (ha : auxCount (fl o s).sclass = 1) : y.records[indexOf o i + 1]? = some (auxB is64 t o s) := by
  have h1 := im.index_lt hs
  have hr : recs o s = 1 + auxCount (fl o s).sclass := rfl
  rw [im.record ht (by omega)]
  have h2 := im.at_sym hs
  unfold symB at h2
  have h3 := (at_append.1 h2).2
  rw [length_symRec] at h3
  have e : symtabAt is64 o + 18 * (indexOf o i + 1) = symtabAt is64 o + 18 * indexOf o i + 18 := by omega
  rw [e]
  exact congrArg some (at_slice h3 (by rw [length_auxB, ha]))

/-! ## Flags -/

theorem fl_bounds (hf : XcoffO.Fits is64 o flags) {s : W.Symbol} (hs : s ∈ o.symbols) {f : Flags} (h : symbolFlags o s = .ok (some f)) :
    f.typ < 2 ^ 16 ∧ 0 < f.sclass ∧ f.sclass < 2 ^ 8 ∧ f.smtyp < 2 ^ 8 ∧ f.smclas < 2 ^ 8 := by
  have hc : ∀ c, storageClass s = some c → 0 < c ∧ c < 2 ^ 8 := by
    intro c hc
    unfold storageClass at hc
    repeat' split at hc
    all_goals simp only [Option.some.injEq, reduceCtorEq] at hc
    all_goals subst hc; decide
  have ht : ∀ c, typeOf s.scope c < 2 ^ 16 := by
    intro c; unfold typeOf; split <;> decide
  have hcs : ∀ k a b, csectFlags s.kind k = some (a, b) → a < 2 ^ 8 ∧ b < 2 ^ 8 := by
    intro k a b h
    unfold csectFlags at h
    repeat' split at h
    all_goals simp only [Option.some.injEq, reduceCtorEq, Prod.mk.injEq] at h
    all_goals obtain ⟨rfl, rfl⟩ := h; decide
  unfold symbolFlags at h
  split at h
  · unfold defaultSymbolFlags at h
    split at h
    · cases h
    · rename_i c hc'
      obtain ⟨c1, c2⟩ := hc c hc'
      split at h
      · cases hk : kindOfSection o s with
        | err => rw [hk] at h; cases h
        | panic => rw [hk] at h; cases h
        | ok k =>
          rw [hk, Res.ok_bind] at h
          split at h
          · rename_i a b hab
            simp only [Res.ok.injEq, Option.some.injEq] at h
            obtain ⟨d1, d2⟩ := hcs k _ _ hab
            rw [← h]
            exact ⟨ht c, c1, c2, d1, d2⟩
          · cases h
      · simp only [Res.ok.injEq, Option.some.injEq] at h
        rw [← h]
        exact ⟨ht c, c1, c2, (by show 0 < _; decide), (by show 0 < _; decide)⟩
  · rename_i a b c d e he
    simp only [Res.ok.injEq, Option.some.injEq] at h
    rw [← h]
    exact hf.symbolFlags s hs _ _ _ _ _ he
  · cases h

/-! ## The symbol -/

theorem numOf_lt (hv : Valid o) {s : W.Symbol} (hs : s ∈ o.symbols) : numOf s < 2 ^ 16 := by
  have h1 := hv.sections
  unfold numOf
  split
  · decide
  · decide
  · decide
  · decide
  · rename_i i hi
    have := hv.symbolSection s hs i hi
    omega

theorem numOf_I (hv : Valid o) {s : W.Symbol} (hs : s ∈ o.symbols) (y : Sym) (hy : y.scnum = numOf s) : y.scnumI = numberOf s.section_ := by
  have h1 := hv.sections
  unfold Sym.scnumI numberOf
  rw [hy]
  unfold numOf
  cases hsec : s.section_ with
  | inSec i =>
    have := hv.symbolSection s hs i hsec
    simp only
    rw [if_pos (by omega)]; omega
  | _ => rfl

theorem decode_tail (a b c d : Nat) (ha : a < 2 ^ 16) (hb : b < 2 ^ 16) (hc : c < 2 ^ 8) (hd : d < 2 ^ 8) :
    Obj.decode .big [2, 2, 1, 1] (Obj.encode .big [(2, a), (2, b), (1, c), (1, d)]) = [a, b, c, d] := by
  have := decode_encode .big [(2, a), (2, b), (1, c), (1, d)] []
    (by intro p hp; simp only [List.mem_cons, List.not_mem_nil, or_false] at hp
        rcases hp with rfl | rfl | rfl | rfl <;> assumption)
  rw [List.append_nil] at this
  exact this

theorem sym_decode_encode (is64 : Bool) (s : Sym) (h0 : s.name.length = if is64 then 4 else 8) (h2 : s.scnum < 2 ^ 16)
    (h3 : s.typ < 2 ^ 16) (h4 : s.sclass < 2 ^ 8) (h5 : s.numaux < 2 ^ 8) :
    Sym.decode is64 (s.encode is64) = { s with value := s.value % 256 ^ word is64 } := by
  cases is64
  · simp only [Bool.false_eq_true, if_false] at h0
    unfold Sym.decode Sym.encode
    simp only [Bool.false_eq_true, if_false]
    have l : (s.name ++ wr .big 4 s.value).length = 12 := by rw [List.length_append, h0, length_wr]
    rw [List.drop_left' l, decode_tail _ _ _ _ h2 h3 h4 h5, List.append_assoc, List.take_left' h0, List.drop_left' h0,
      List.take_left' (length_wr _ _ _), rd_wr_mod]
    rfl
  · simp only [if_true] at h0
    unfold Sym.decode Sym.encode
    simp only [if_true]
    have l : (wr .big 8 s.value ++ s.name).length = 12 := by rw [List.length_append, h0, length_wr]
    rw [List.drop_left' l, decode_tail _ _ _ _ h2 h3 h4 h5, List.append_assoc, List.take_left' (length_wr _ _ _),
      List.drop_left' (length_wr _ _ _), List.take_left' h0, rd_wr_mod]
    rfl

/-- The symbol that is read. -/
def symBack (is64 : Bool) (t : StrTab) (o : W.Object) (s : W.Symbol) : Sym :=
  { symRec is64 t o s with value := valOf is64 o s % 256 ^ word is64 }

theorem Image.decode (im : Image is64 o flags t len data file) (hv : Valid o) (hf : XcoffO.Fits is64 o flags) {s : W.Symbol} (hs : s ∈ o.symbols) :
    Sym.decode is64 ((symRec is64 t o s).encode is64) = symBack is64 t o s := by
  obtain ⟨f, hfl⟩ := im.symbolFlags s hs
  obtain ⟨b1, b2, b3, b4, b5⟩ := fl_bounds hf hs hfl
  have e := fl_eq hfl
  have := sym_decode_encode is64 (symRec is64 t o s) (length_recName _ _ _ _ _) (numOf_lt hv hs)
    (by show (fl o s).typ < _; rw [e]; exact b1) (by show (fl o s).sclass < _; rw [e]; exact b3)
    (by show auxCount _ < _; unfold auxCount; split <;> decide)
  exact this

theorem Image.symbol (im : Image is64 o flags t len data file) (hv : Valid o) (hf : XcoffO.Fits is64 o flags) {y : SymTab}
    (ht : TableAt is64 file (hdrOf is64 o flags) y) {i : Nat} {s : W.Symbol} (hs : o.symbols[i]? = some s) :
    y.symbol (indexOf o i) = .ok (symBack is64 t o s) := by
  have hm := List.mem_of_getElem? hs
  have hok := Props.tableAt_ok (im.total_lt hv) ht
  have h0 := im.rec0 ht hs
  have hd := im.decode hv hf hm
  rw [symbol_iff hok]
  refine ⟨_, h0, ?_, by rw [ht.is64, hd]⟩
  have h1 := (Sym.decode_of is64 ((symRec is64 t o s).encode is64)).sclass
  rw [hd, field_one] at h1
  intro h
  rw [h] at h1
  obtain ⟨f, hfl⟩ := im.symbolFlags s hm
  have := (fl_bounds hf hm hfl).2.1
  rw [← fl_eq hfl] at this
  have e : (symBack is64 t o s).sclass = (fl o s).sclass := rfl
  rw [e] at h1
  rw [h1] at this
  exact absurd this (by decide)

/-! ## Names -/

theorem Image.stringIn (im : Image is64 o flags t len data file) (_ : Valid o) {y : SymTab}
    (ht : TableAt is64 file (hdrOf is64 o flags) y) {n : List UInt8} (hn : n ∈ (tabOf is64 o).strings) (h0 : (0 : UInt8) ∉ n)
    (he : n ≠ [] ∨ ∃ u ∈ (tabOf is64 o).strings, u ≠ []) : StringIn y.strings file (offOf (tabOf is64 o) t n) n := by
  obtain ⟨-, h2, h3⟩ := getOffset_offOf im.written hn
  obtain ⟨q1, q2⟩ := ElfW.at_string im.at_str (h3 he)
  have hs := (ht.strings (symtabAt_pos is64 o)).2
  have hlen : field .big file (symtabAt is64 o + 18 * total o) 4 = len := by
    have h4 := (at_append.1 im.at_str).1
    have : slice file (symtabAt is64 o + 18 * total o) 4 = wr .big 4 len := at_slice h4 (length_wr _ _ _)
    show rd .big (slice file (symtabAt is64 o + 18 * total o) 4) = len
    rw [this]
    exact rd_wr _ _ _ im.written.lt
  have hfl := im.length
  have hle := im.written.lenEq
  rw [List.length_append, length_wr] at q2
  refine ⟨_, _, hs, ?_, ?_, q1, h0⟩
  · show symtabAt is64 o + 18 * total o + field .big file (symtabAt is64 o + 18 * total o) 4 ≤ _
    rw [hlen]; omega
  · show symtabAt is64 o + 18 * total o + _ + _ < symtabAt is64 o + 18 * total o + field .big file (symtabAt is64 o + 18 * total o) 4
    rw [hlen]; omega

theorem Image.nameIn (im : Image is64 o flags t len data file) (hv : Valid o) {y : SymTab}
    (ht : TableAt is64 file (hdrOf is64 o flags) y) {s : W.Symbol} (hs : s ∈ o.symbols) (hne : s.name ≠ []) :
    NameIn y.strings file (name8 (tabOf is64 o) t s.name) s.name := by
  have h0 := hv.symbolName s hs
  unfold name8
  by_cases h : s.name.length ≤ 8
  · rw [if_pos h]
    refine .inr ⟨?_, h0, ?_⟩
    · cases hn : s.name with
      | nil => exact absurd hn hne
      | cons a l =>
        rw [hn] at h0
        simp only [List.cons_append, List.getD_cons_zero]
        rintro rfl
        simp at h0
    · cases h8 : 8 - s.name.length with
      | zero => left; simp
      | succ n => right; exact ⟨List.replicate n 0, by rw [List.replicate_succ]⟩
  · rw [if_neg h]
    have h8 : 8 < s.name.length := by omega
    have hm : s.name ∈ (tabOf is64 o).strings := name_mem hs (.inr h8)
    have := im.stringIn hv ht hm h0 (.inl hne)
    refine .inl ⟨rfl, ?_⟩
    have e : field .big ([0, 0, 0, 0] ++ wr .big 4 (offOf (tabOf is64 o) t s.name)) 4 4 = offOf (tabOf is64 o) t s.name := by
      unfold field
      have e4 : ([0, 0, 0, 0] ++ wr .big 4 (offOf (tabOf is64 o) t s.name)).drop 4 = wr .big 4 (offOf (tabOf is64 o) t s.name) := rfl
      rw [e4, List.take_of_length_le (by rw [length_wr])]
      exact rd_wr _ _ _ (getOffset_offOf im.written hm).2.1
    rw [e]; exact this

theorem nFile_eq : nFile = ".file".toUTF8.toList := by decide +kernel

theorem Image.name (im : Image is64 o flags t len data file) (hv : Valid o) (hf : XcoffO.Fits is64 o flags) {y : SymTab}
    (ht : TableAt is64 file (hdrOf is64 o flags) y) {i : Nat} {s : W.Symbol} (hs : o.symbols[i]? = some s)
    (h : s.name ≠ [] ∨ (is64 = true ∧ (fl o s).sclass ≠ 103 ∧ ∃ u ∈ o.symbols, u.name ≠ [])) :
    symName y file (indexOf o i) (symBack is64 t o s) = .ok s.name := by
  have hm := List.mem_of_getElem? hs
  have hlen : file.length < 2 ^ 64 := by have := im.lt hv; omega
  obtain ⟨-, g64, g32, gf⟩ := Props.C73_name is64 file hlen _ (im.total_lt hv) y ht _ _ (im.symbol hv hf ht hs) s.name
  have e1 : (symBack is64 t o s).sclass = (fl o s).sclass := rfl
  have e2 : (symBack is64 t o s).numaux = auxCount (fl o s).sclass := rfl
  have e3 : (symBack is64 t o s).name = recName is64 (tabOf is64 o) t (fl o s).sclass s.name := rfl
  by_cases hc : (fl o s).sclass = 103
  · have ha : auxCount (fl o s).sclass = 1 := by unfold auxCount; rw [if_pos (.inl hc)]
    have hne : s.name ≠ [] := h.elim (fun h => h) (fun h => absurd hc h.2.1)
    rw [gf (by rw [e1]; exact hc) (by rw [e2, ha]; decide)]
    refine ⟨_, im.rec1 ht hs ha, ?_, ?_⟩
    · intro h64
      unfold auxB FileAux.encode
      rw [if_pos hc, if_pos h64]
      rw [List.getD_eq_getElem?_getD, List.getElem?_append_right (by rw [length_name8]; decide), length_name8]
      simp
    · have e : slice (auxB is64 t o s) 0 8 = name8 (tabOf is64 o) t s.name := by
        unfold auxB FileAux.encode
        rw [if_pos hc]
        unfold slice
        rw [List.drop_zero, List.take_left' (length_name8 _ _ _)]
      rw [e]
      exact im.nameIn hv ht hm hne
  · have hnc : ¬ ((symBack is64 t o s).sclass = 103 ∧ 0 < (symBack is64 t o s).numaux) := fun h => hc h.1
    by_cases h64 : is64 = true
    · rw [g64 hnc h64, e3]
      have hn : s.name ∈ (tabOf is64 o).strings := name_mem hm (.inl ⟨h64, hc⟩)
      have hr : rd .big (recName is64 (tabOf is64 o) t (fl o s).sclass s.name) = offOf (tabOf is64 o) t s.name := by
        unfold recName
        rw [if_pos h64, if_neg hc]
        exact rd_wr _ _ _ (getOffset_offOf im.written hn).2.1
      rw [hr]
      apply im.stringIn hv ht hn (hv.symbolName s hm)
      rcases h with h | ⟨-, -, u, hu, hu'⟩
      · exact .inl h
      · right
        by_cases huc : (fl o u).sclass = 103
        · exact ⟨nFile, file_mem hu h64 huc, by decide⟩
        · exact ⟨u.name, name_mem hu (.inl ⟨h64, huc⟩), hu'⟩
    · have h32 : is64 = false := by simpa using h64
      have hne : s.name ≠ [] := h.elim (fun h => h) (fun h => absurd h.1 h64)
      rw [g32 hnc h32, e3]
      have hr : recName is64 (tabOf is64 o) t (fl o s).sclass s.name = name8 (tabOf is64 o) t s.name := by
        unfold recName
        rw [if_neg h64, if_neg hc]
      rw [hr]
      exact im.nameIn hv ht hm hne

theorem Image.fileName (im : Image is64 o flags t len data file) (hv : Valid o) {y : SymTab}
    (ht : TableAt is64 file (hdrOf is64 o flags) y) {s : W.Symbol} (hs : s ∈ o.symbols) (hc : (fl o s).sclass = 103) :
    y.name file (symBack is64 t o s) = .ok nFile := by
  have hlen : file.length < 2 ^ 64 := by have := im.lt hv; omega
  have e3 : (symBack is64 t o s).name = recName is64 (tabOf is64 o) t (fl o s).sclass s.name := rfl
  unfold SymTab.name
  rw [ht.is64, e3]
  unfold recName
  by_cases h64 : is64 = true
  · rw [if_pos h64, if_pos h64, if_pos hc]
    have hn := file_mem (is64 := is64) hs h64 hc
    rw [rd_wr _ _ _ (getOffset_offOf im.written hn).2.1]
    rw [(Props.C42_string_lookup y.strings file _ nFile hlen).1]
    exact im.stringIn hv ht hn (by decide) (.inl (by decide))
  · rw [if_neg h64, if_neg h64, if_pos hc]
    rfl

/-! ## Csect entries -/

theorem field_mod_zero (w v : Nat) (tl : List (Nat × Nat)) : field .big (Obj.encode .big ((w, v) :: tl)) 0 w = v % 256 ^ w := by
  unfold field Obj.encode
  rw [List.drop_zero, List.take_left' (length_wr _ _ _), rd_wr_mod]

theorem field_mod_succ (w v off w' : Nat) (tl : List (Nat × Nat)) :
    field .big (Obj.encode .big ((w, v) :: tl)) (w + off) w' = field .big (Obj.encode .big tl) off w' := by
  have := field_encode_succ .big w v tl [] (w + off) w' (by omega)
  simpa only [List.append_nil, Nat.add_sub_cancel_left] using this

theorem Image.csect (im : Image is64 o flags t len data file) (hv : Valid o) (hf : XcoffO.Fits is64 o flags) {y : SymTab}
    (ht : TableAt is64 file (hdrOf is64 o flags) y) {i : Nat} {s : W.Symbol} (hs : o.symbols[i]? = some s) (hc : Csect (fl o s).sclass) :
    csectOf y (indexOf o i) (symBack is64 t o s) = .ok (some ⟨scn o s, (fl o s).smtyp, (fl o s).smclas⟩) := by
  have hm := List.mem_of_getElem? hs
  obtain ⟨f, hfl⟩ := im.symbolFlags s hm
  obtain ⟨b1, b2, b3, b4, b5⟩ := fl_bounds hf hm hfl
  rw [← fl_eq hfl] at b4 b5
  have b4 : (fl o s).smtyp < 256 ^ 1 := b4
  have b5 : (fl o s).smclas < 256 ^ 1 := b5
  have hx : external (fl o s).sclass = true := by unfold external; rw [decide_eq_true_eq]; exact hc
  have ha : auxCount (fl o s).sclass = 1 := by unfold auxCount; rw [if_pos (.inr hx)]
  have hn : (fl o s).sclass ≠ 103 := by rcases hc with h | h | h <;> rw [h] <;> decide
  have e2 : (symBack is64 t o s).numaux = 1 := ha
  have hscn : scn o s < if is64 then 2 ^ 64 else 2 ^ 32 := by
    unfold scn
    split
    · rename_i j hj
      have h1 := indexOf_le im.symbolFlags j
      have h2 := hv.symbols
      cases is64
      · show _ < 2 ^ 32; omega
      · show _ < 2 ^ 64; omega
    · exact hf.symbolSize s hm
  obtain ⟨-, -, -, -, g, -⟩ := Props.C73_csect is64 file _ (im.total_lt hv) y ht _ _ (im.symbol hv hf ht hs)
  rw [g]
  refine ⟨hc, by rw [e2]; decide, _, by rw [e2]; exact im.rec1 ht hs ha, ?_⟩
  have e : auxB is64 t o s = CsectAux.encode is64 ⟨scn o s, (fl o s).smtyp, (fl o s).smclas⟩ := by
    unfold auxB; rw [if_neg hn, if_pos hx]
  rw [e]
  unfold CsectAux.encode
  cases is64
  · simp only [Bool.false_eq_true, if_false] at hscn ⊢
    refine ⟨?_, ?_, ?_, by simp⟩
    · rw [field_mod_zero]
      simp only [Bool.false_eq_true, if_false, Nat.add_zero]
      exact (Nat.mod_eq_of_lt hscn).symm
    · rw [show (10 : Nat) = 4 + (4 + (2 + 0)) from rfl, field_mod_succ, field_mod_succ, field_mod_succ, field_mod_zero, Nat.mod_eq_of_lt b4]
    · rw [show (11 : Nat) = 4 + (4 + (2 + (1 + 0))) from rfl, field_mod_succ, field_mod_succ, field_mod_succ, field_mod_succ, field_mod_zero,
        Nat.mod_eq_of_lt b5]
  · simp only [if_true] at hscn ⊢
    refine ⟨?_, ?_, ?_, ?_⟩
    · rw [field_mod_zero]
      simp only [if_true]
      rw [show (12 : Nat) = 4 + (4 + (2 + (1 + (1 + 0)))) from rfl, field_mod_succ, field_mod_succ, field_mod_succ, field_mod_succ,
        field_mod_succ, field_mod_zero, Nat.shiftRight_eq_div_pow]
      omega
    · rw [show (10 : Nat) = 4 + (4 + (2 + 0)) from rfl, field_mod_succ, field_mod_succ, field_mod_succ, field_mod_zero, Nat.mod_eq_of_lt b4]
    · rw [show (11 : Nat) = 4 + (4 + (2 + (1 + 0))) from rfl, field_mod_succ, field_mod_succ, field_mod_succ, field_mod_succ, field_mod_zero,
        Nat.mod_eq_of_lt b5]
    · intro _
      rw [show (17 : Nat) = 4 + (4 + (2 + (1 + (1 + (4 + (1 + 0)))))) from rfl]
      rw [field_mod_succ, field_mod_succ, field_mod_succ, field_mod_succ, field_mod_succ, field_mod_succ, field_mod_succ,
        field_mod_zero]
      rfl

/-! ## Iteration -/

theorem entries_unique {rs : List (List UInt8)} {i : Nat} {a b : List Nat} (ha : Entries rs i a) (hb : Entries rs i b) : a = b := by
  induction ha generalizing b with
  | done h =>
    cases hb with
    | done _ => rfl
    | deleted h1 => rw [List.getElem?_eq_none h] at h1; cases h1
    | symbol h1 => rw [List.getElem?_eq_none h] at h1; cases h1
  | deleted h1 h2 _ ih =>
    cases hb with
    | done h => rw [List.getElem?_eq_none h] at h1; cases h1
    | deleted g1 g2 g3 =>
      rw [h1] at g1; cases g1
      exact ih g3
    | symbol g1 g2 g3 g4 =>
      rw [h1] at g1; cases g1
      rw [h2] at g2; cases g2
      exact absurd rfl g3
  | symbol h1 h2 h3 _ ih =>
    cases hb with
    | done h => rw [List.getElem?_eq_none h] at h1; cases h1
    | deleted g1 g2 g3 =>
      rw [h1] at g1; cases g1
      rw [h2] at g2; cases g2
      exact absurd rfl h3
    | symbol g1 g2 g3 g4 =>
      rw [h1] at g1; cases g1
      rw [ih g4]

theorem Image.entries (im : Image is64 o flags t len data file) (hv : Valid o) (hf : XcoffO.Fits is64 o flags) {y : SymTab}
    (ht : TableAt is64 file (hdrOf is64 o flags) y) : ∀ (n j : Nat), j + n = o.symbols.length →
    Entries y.records (indexOf o j) ((List.range' j n).map (indexOf o))
  | 0, j, h => by
    have e : j = o.symbols.length := by omega
    have hl : y.records.length = total o := ht.count (symtabAt_pos is64 o)
    refine .done ?_
    rw [hl, im.total_eq, e]
  | n + 1, j, h => by
    have hj : j < o.symbols.length := by omega
    have hs : o.symbols[j]? = some o.symbols[j] := List.getElem?_eq_getElem hj
    have hm := List.mem_of_getElem? hs
    generalize o.symbols[j] = s at hs hm
    have hok := Props.tableAt_ok (im.total_lt hv) ht
    obtain ⟨r, h1, h2, h3⟩ := (symbol_iff hok _ _).1 (im.symbol hv hf ht hs)
    have hr := hok.1 r (List.mem_of_getElem? h1)
    have h17 : (r.getD 17 0).toNat = auxCount (fl o s).sclass := by
      have h4 := (Sym.decode_of y.is64 r).numaux
      rw [← h3, field_one] at h4
      exact h4.symm
    have ih := im.entries hv hf ht n (j + 1) (by omega)
    have hrec : recs o s = 1 + auxCount (fl o s).sclass := rfl
    rw [List.range'_succ, List.map_cons]
    have h16 : r[16]? = some (r.getD 16 0) := by
      rw [List.getD_eq_getElem?_getD, List.getElem?_eq_getElem (by omega)]; rfl
    refine .symbol h1 h16 h2 ?_
    rw [h17, show indexOf o j + 1 + auxCount (fl o s).sclass = indexOf o (j + 1) by rw [im.index_succ hs]; omega]
    exact ih

/-! ## The whole object -/

theorem Image.readsBack (im : Image is64 o flags t len data file) (ha : elfIs64 o.arch = some is64) (hv : Valid o) (hf : XcoffO.Fits is64 o flags) :
    ∃ f, ReadsBack o flags file f := by
  obtain ⟨f, hp, hh, h64, hcount, hsec, ht⟩ := im.parse hv hf
  have hsect : ∀ (i : Nat) (s : W.Section), o.sections[i]? = some s →
      ∃ p, (secOffs is64 o)[i]? = some p ∧ f.sections[i]? = some (sectOf s p) := by
    intro i s hs
    have hi := length_of_getElem? hs
    have hp := secOffs_get is64 o hs
    refine ⟨_, hp, ?_⟩
    have h1 : f.sections[i]? = some f.sections[i] := List.getElem?_eq_getElem (by omega)
    rw [h1, sectAt_unique (hsec i _ h1) (im.sect hv hf hs hp)]
  refine ⟨f, ⟨by rw [h64]; exact ⟨ha, hp⟩, by rw [hh]; exact ⟨rfl, rfl, rfl⟩, hcount, ?_, ?_, ?_, ?_, by rw [hh]; exact im.total_eq⟩⟩
  · intro i s hs
    obtain ⟨p, h1, h2⟩ := hsect i s hs
    exact ⟨_, h2, by rw [h64]; exact im.section_ hv hf hs h1⟩
  · intro i j s u x y hij hs hu ls lu hx hy
    obtain ⟨p, h1, h2⟩ := hsect i s hs
    obtain ⟨q, h3, h4⟩ := hsect j u hu
    rw [h2] at hx
    rw [h4] at hy
    simp only [Option.some.injEq] at hx hy
    rw [← hx, ← hy]
    rw [secOffs_get is64 o hs] at h1
    rw [secOffs_get is64 o hu] at h3
    simp only [Option.some.injEq] at h1 h3
    show p.address + s.data.length ≤ q.address
    rw [← h1, ← h3]
    simp only
    rw [if_pos ((loaded_iff s).2 ls), if_pos ((loaded_iff u).2 lu)]
    exact addrAt_lt o hij hs ((loaded_iff s).2 ls)
  · intro i s hs
    have hm := List.mem_of_getElem? hs
    obtain ⟨fl', hfl⟩ := im.symbolFlags s hm
    have efl := fl_eq hfl
    refine ⟨symBack is64 t o s, im.symbol hv hf ht hs, ?_⟩
    have e1 : (symBack is64 t o s).sclass = (fl o s).sclass := rfl
    have e2 : (symBack is64 t o s).numaux = auxCount (fl o s).sclass := rfl
    have hxe : ∀ c, external c = true ↔ Csect c := by
      intro c; unfold external Csect; rw [decide_eq_true_eq]
    refine ⟨?_, ⟨?_, ?_⟩, numOf_I hv hm _ rfl, ?_, ?_, ?_⟩
    · refine ⟨(fl o s).smtyp, (fl o s).smclas, (fl o s).csect, ?_, ?_⟩
      · rw [hfl, ← efl]; rfl
      · intro hc
        refine ⟨_, im.csect hv hf ht hs hc, rfl, rfl, ?_, ?_⟩
        · intro h
          show scn o s = _
          unfold scn; rw [h]
        · intro j h
          show scn o s = _
          unfold scn; rw [h]
    · intro h
      rw [e1] at h
      rw [e2]
      unfold auxCount
      rw [if_pos (h.imp (fun h => h) (fun h => (hxe _).2 h))]
    · intro h
      rw [e1] at h
      rw [e2]
      unfold auxCount
      rw [if_neg (fun g => h (g.imp (fun h => h) (fun h => (hxe _).1 h)))]
    · refine ⟨valOf is64 o s, ?_, ?_, ?_, ?_⟩
      · intro h
        have h64' : is64 = true := by rw [← h64]; exact h
        show valOf is64 o s % 256 ^ word is64 = _
        apply Nat.mod_eq_of_lt
        have hval := hv.value s hm
        have hr := hv.room
        have hrm : room o = 24 + 72 * o.sections.length + ((o.sections.map fun s => 4 + s.data.length).sum + 14 * relCount o.sections) +
          36 * o.symbols.length := by unfold room; rw [room_split]
        have : valOf is64 o s < 2 ^ 64 := by
          unfold valOf
          split
          · rename_i j hj
            have := addrOf_le is64 o j
            omega
          · omega
        rw [h64'] at this ⊢
        exact this
      · intro h
        show valOf is64 o s % 256 ^ word is64 = _
        apply Nat.mod_eq_of_lt
        refine Nat.lt_of_lt_of_le h ?_
        cases is64 <;> decide
      · intro j hj
        have hjl := hv.symbolSection s hm j hj
        obtain ⟨p, h1, h2⟩ := hsect j o.sections[j] (List.getElem?_eq_getElem hjl)
        refine ⟨_, h2, ?_⟩
        unfold valOf
        rw [hj]
        simp only
        unfold addrOf
        rw [h1]; rfl
      · intro h
        unfold valOf
        split
        · rename_i j hj; exact absurd hj (h j)
        · rfl
    · intro h
      refine im.name hv hf ht hs (h.imp (fun h => h) ?_)
      rintro ⟨h1, h2, h3⟩
      exact ⟨by rw [← h64]; exact h1, h2, h3⟩
    · intro h
      rw [← nFile_eq]
      exact im.fileName hv ht hm h
  · obtain ⟨xs, h1, h2, -⟩ := Props.C73_iterate is64 file _ (im.total_lt hv) f.symbols ht
    refine ⟨xs, h1, ?_⟩
    have h3 := im.entries hv hf ht o.symbols.length 0 (by omega)
    have e0 : indexOf o 0 = 0 := by unfold indexOf; simp
    rw [e0, ← List.range_eq_range'] at h3
    exact entries_unique h2 h3

end Obj.XcoffW

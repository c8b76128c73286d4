import Verif.Proof.XcoffW1
import Verif.Proof.Elf
import Verif.Proof.ElfW13

/-! What `xcoff_write` emits. -/

namespace Obj.XcoffW
open Obj Obj.Reserve Obj.Parts Obj.Spec Obj.Spec.XcoffO Obj.Xcoff 
open Obj.Elf (length_flatMap_const at_append at_read readSliceAt_flatMap)
open Obj.ElfW (check tabAdd check_ok addU32_eq addU64_eq mulU64_eq idOf TabW tabAdd_eq length_of_getElem? storedSize_append storedSize_addAll
  addAll_append addAll_cons)

/-- The end of the section headers. -/
def headersEnd (is64 : Bool) (o : W.Object) : Nat := hdrSize is64 + sectSize is64 * o.sections.length

/-- The end of the section contents. -/
def dataEnd (is64 : Bool) (o : W.Object) : Nat := endOf (headersEnd is64 o) (sizes (o.sections.flatMap datParts))

/-- The offset of the symbol table. -/
def symtabAt (is64 : Bool) (o : W.Object) : Nat := dataEnd is64 o + relSize is64 * relCount o.sections

/-- The number of records of the symbol table. -/
def total (o : W.Object) : Nat := (o.symbols.map (recs o)).sum

/-- The places of the sections. -/
def secOffs (is64 : Bool) (o : W.Object) : List SecOff :=
  ((places 0 (headersEnd is64 o) o.sections).zip (relOffs is64 (dataEnd is64 o) o.sections)).map fun p => ⟨p.1.1, p.1.2, p.2⟩

/-- What is known about a plan. -/
structure Planned (is64 : Bool) (o : W.Object) (p : Plan) : Prop where
  flags : ∀ s ∈ o.symbols, ∃ f, symbolFlags o s = .ok (some f)
  sections : p.sections = secOffs is64 o
  symbols : p.symbols = symOffs (tabOf is64 o) is64 o 0 o.symbols
  file : is64 = true → ∀ s ∈ o.symbols, (fl o s).sclass = 103 → p.file = some (idOf (tabOf is64 o) nFile)
  count : p.count = total o
  symtab : p.symtab = symtabAt is64 o
  strtab : p.strtab = symtabAt is64 o + 18 * total o
  len : p.len = p.strtab + p.strLen
  written : Written (tabOf is64 o) p.tab p.strLen p.strData

theorem recs_le (o : W.Object) (s : W.Symbol) : recs o s ≤ 2 := by
  unfold recs auxCount; split <;> omega

theorem sum_recs_le (o : W.Object) : ∀ ss : List W.Symbol, (ss.map (recs o)).sum ≤ 2 * ss.length
  | [] => by simp
  | s :: ss => by
    have := sum_recs_le o ss
    have := recs_le o s
    simp only [List.map_cons, List.sum_cons, List.length_cons]; omega

theorem dataEnd_le : ∀ (ss : List W.Section) (off : Nat), endOf off (sizes (ss.flatMap datParts)) ≤ off + (ss.map fun s => 4 + s.data.length).sum
  | [], off => by simp [sizes, endOf]
  | s :: ss, off => by
    have h1 := datParts_le off s
    have h2 := dataEnd_le ss (endOf off (sizes (datParts s)))
    simp only [List.flatMap_cons, sizes_append, endOf_append, List.map_cons, List.sum_cons]
    omega

theorem room_split (ss : List W.Section) : (ss.map fun s => 4 + s.data.length + 14 * s.relocs.length).sum =
    (ss.map fun s => 4 + s.data.length).sum + 14 * relCount ss := by
  induction ss with
  | nil => rfl
  | cons s ss ih =>
    have : relCount (s :: ss) = s.relocs.length + relCount ss := by simp [relCount]
    simp only [List.map_cons, List.sum_cons]
    rw [ih, this]; omega

/-- Bounds on the layout. -/
theorem bounds (is64 : Bool) (o : W.Object) :
    headersEnd is64 o ≤ 24 + 72 * o.sections.length ∧
    dataEnd is64 o ≤ 24 + 72 * o.sections.length + (o.sections.map fun s => 4 + s.data.length).sum ∧
    symtabAt is64 o ≤ 24 + 72 * o.sections.length + (o.sections.map fun s => 4 + s.data.length).sum + 14 * relCount o.sections ∧
    symtabAt is64 o + 18 * total o ≤ room o ∧ 20 ≤ headersEnd is64 o ∧ headersEnd is64 o ≤ dataEnd is64 o ∧ dataEnd is64 o ≤ symtabAt is64 o := by
  have h1 : headersEnd is64 o ≤ 24 + 72 * o.sections.length := by
    unfold headersEnd
    cases is64
    · show 20 + 40 * _ ≤ _; omega
    · show 24 + 72 * _ ≤ _; omega
  have h1' : 20 ≤ headersEnd is64 o := by
    unfold headersEnd
    cases is64
    · show _ ≤ 20 + 40 * _; omega
    · show _ ≤ 24 + 72 * _; omega
  have h2 := dataEnd_le o.sections (headersEnd is64 o)
  have h3 := le_endOf (sizes (o.sections.flatMap datParts)) (headersEnd is64 o)
  have h4 : relSize is64 * relCount o.sections ≤ 14 * relCount o.sections := Nat.mul_le_mul_right _ (by cases is64 <;> decide)
  have h5 := sum_recs_le o o.symbols
  have h6 := room_split o.sections
  refine ⟨h1, ?_, ?_, ?_, h1', h3, ?_⟩
  · unfold dataEnd; omega
  · unfold symtabAt dataEnd; omega
  · unfold symtabAt dataEnd total room; omega
  · unfold symtabAt; omega

theorem plan_sat (is64 : Bool) (o : W.Object) (hv : Valid o) : Res.Sat (Refused o) (plan is64 o) fun p => Planned is64 o p := by
  obtain ⟨b1, b2, b3, b4, b5, b6, b7⟩ := bounds is64 o
  have hr := hv.room
  have hs := hv.sections
  have hy := hv.symbols
  have hrm : room o = 24 + 72 * o.sections.length + ((o.sections.map fun s => 4 + s.data.length).sum + 14 * relCount o.sections) +
    36 * o.symbols.length := by unfold room; rw [room_split]
  unfold plan
  simp only [Res.bind_eq]
  have e1 : mulU64 o.sections.length (sectSize is64) = .ok (sectSize is64 * o.sections.length) := by
    rw [mulU64_eq, Nat.mul_comm]
    unfold headersEnd at b1
    rw [Nat.mul_comm]
    omega
  rw [e1, Res.ok_bind, addU64_eq (by unfold headersEnd at b1; omega), Res.ok_bind]
  show Res.Sat _ ((placeAll 0 (headersEnd is64 o) o.sections).bind _) _
  rw [placeAll_eq _ _ _ (by omega) (by omega)]
  simp only [Res.ok_bind]
  show Res.Sat _ ((placeRelocs is64 (dataEnd is64 o) o.sections).bind _) _
  rw [placeRelocs_eq is64 _ _ (by show symtabAt is64 o < _; omega)]
  simp only [Res.ok_bind]
  refine (planSymbols_sat (o := o) (T := tabOf is64 o) is64 o.symbols ⟨StrTab.new, none, 0⟩ hv.symbolSection hv.symbolName
    (fun s h1 h2 => Refused.symbol s h1 h2) (TabW.new (by omega)) (.inl rfl) List.prefix_rfl (by show 0 + _ < _; omega)).bind ?_
  rintro ⟨ys, st⟩ ⟨k1, k2, k3, k4, k5, k6, k7⟩
  simp only at k2 k3 k4 k5 k6 k7
  simp only [Nat.zero_add] at k4
  have k4 : st.count = total o := k4
  have hfold : dataEnd is64 o + relSize is64 * relCount o.sections = symtabAt is64 o := rfl
  simp only [hfold]
  rw [mulU64_eq (by omega), Res.ok_bind, addU64_eq (by omega), Res.ok_bind, k3]
  refine ((encStrtab_sat is64 o hv.symbolName).mono Refused.strings fun _ h => h).bind ?_
  rintro ⟨len, t, data⟩ hw
  have hlt := hw.lt
  simp only at hlt hw ⊢
  rw [addU64_eq (by omega), Res.ok_bind]
  refine ⟨k1, rfl, k2, ?_, k4, rfl, ?_, rfl, hw⟩
  · intro h64 s hs hc
    rcases k5 with h | ⟨h, -⟩
    · exact absurd h (k7 h64 s hs hc)
    · exact h
  · show symtabAt is64 o + st.count * 18 = _
    rw [k4]; omega

/-! ## Emission -/

/-- The offset of a string. -/
def offOf (T t : StrTab) (s : List UInt8) : Nat := t.offsets.getD (idOf T s) 0

theorem getOffset_offOf {T t : StrTab} {len : Nat} {data s : List UInt8} (h : Written T t len data) (hs : s ∈ T.strings) :
    t.getOffset (idOf T s) = .ok (offOf T t s) ∧ offOf T t s < U32 ∧
    ((s ≠ [] ∨ ∃ u ∈ T.strings, u ≠ []) → StringAt (wr .big 4 len ++ data) s (offOf T t s)) := by
  obtain ⟨p, h1, h2, h3⟩ := h.offset s hs
  have e : p = offOf T t s := by
    unfold StrTab.getOffset at h1
    unfold offOf
    rw [List.getD_eq_getElem?_getD]
    cases hg : t.offsets[idOf T s]? with
    | none => rw [hg] at h1; cases h1
    | some q => rw [hg] at h1; simp only [Res.ok.injEq] at h1; simp [h1]
  rw [← e]
  exact ⟨h1, h2, h3⟩

/-- The header of a section. -/
def sectOf (s : W.Section) (p : SecOff) : Sect :=
  ⟨s.name ++ List.replicate (8 - s.name.length) 0, p.address, p.address, s.data.length, p.data, p.reloc, 0, s.relocs.length, 0, (sectionFlags s).getD 0⟩

theorem sectionHeader_sat {E : Prop} (s : W.Section) (p : SecOff) (h1 : 8 < s.name.length → E) (h2 : sectionFlags s = none → E) :
    Res.Sat E (sectionHeader s p) fun h => h = sectOf s p ∧ s.name.length ≤ 8 ∧ ∃ f, sectionFlags s = some f := by
  unfold sectionHeader fixedName
  by_cases h : s.name.length ≤ 8
  · rw [if_pos h, Res.ok_bind]
    cases hf : sectionFlags s with
    | none => exact h2 hf
    | some f =>
      refine ⟨?_, h, f, rfl⟩
      unfold sectOf; rw [hf]; rfl
  · rw [if_neg h]
    exact h1 (by omega)

theorem length_sect {is64 : Bool} {s : Sect} (h : s.name.length = 8) : (s.encode is64).length = sectSize is64 := by
  unfold Sect.encode
  rw [List.length_append, length_encode, h]
  cases is64 <;> rfl

theorem length_sectOf {s : W.Section} (h : s.name.length ≤ 8) (p : SecOff) (is64 : Bool) : ((sectOf s p).encode is64).length = sectSize is64 := by
  apply length_sect
  show (s.name ++ List.replicate (8 - s.name.length) 0).length = 8
  rw [List.length_append, List.length_replicate]; omega

theorem writeHeaders_sat {E : Prop} (is64 : Bool) : ∀ (l : List (W.Section × SecOff)) (out : List UInt8),
    (∀ p ∈ l, 8 < p.1.name.length → E) → (∀ p ∈ l, sectionFlags p.1 = none → E) →
    out.length + sectSize is64 * l.length < U64 →
    Res.Sat E (writeHeaders is64 out l) fun r => r = out ++ l.flatMap (fun p => (sectOf p.1 p.2).encode is64) ∧
      ∀ p ∈ l, p.1.name.length ≤ 8 ∧ ∃ f, sectionFlags p.1 = some f
  | [], out, _, _, _ => ⟨by simp, by simp⟩
  | (s, p) :: l, out, h1, h2, h3 => by
    unfold writeHeaders
    simp only [Res.bind_eq]
    refine (sectionHeader_sat s p (h1 _ (.head _)) (h2 _ (.head _))).bind ?_
    rintro h ⟨rfl, h4, h5⟩
    have hl := length_sectOf h4 p is64
    rw [List.length_cons, Nat.mul_succ] at h3
    rw [bufBytes_eq _ _ (by omega), Res.ok_bind]
    refine (writeHeaders_sat is64 l _ (fun q hq => h1 q (.tail _ hq)) (fun q hq => h2 q (.tail _ hq))
      (by rw [List.length_append]; omega)).mono (fun h => h) ?_
    rintro r ⟨rfl, h6⟩
    refine ⟨by simp, ?_⟩
    intro q hq
    rcases List.mem_cons.1 hq with rfl | hq
    · exact ⟨h4, h5⟩
    · exact h6 q hq

theorem writeData_eq : ∀ (ss : List W.Section) (rs : List Nat) (a : Nat) (out : List UInt8), rs.length = ss.length →
    out.length + (ss.map fun s => 4 + s.data.length).sum + 4 < U64 →
    writeData out (ss.zip (((places a out.length ss).zip rs).map fun p => ⟨p.1.1, p.1.2, p.2⟩)) = .ok (Parts.emit out (ss.flatMap datParts))
  | [], rs, a, out, _, _ => rfl
  | s :: ss, [], a, out, h, _ => by simp at h
  | s :: ss, r :: rs, a, out, h, hb => by
    simp only [List.map_cons, List.sum_cons] at hb
    simp only [places, List.zip_cons_cons, List.map_cons, writeData]
    simp only [List.length_cons, Nat.add_right_cancel_iff] at h
    by_cases h0 : s.data.length ≠ 0
    · have e : datParts s = [(4, s.data)] := by unfold datParts; rw [if_pos h0]
      rw [if_pos h0]
      simp only [Res.bind_eq, if_pos h0]
      have hu := up4_le out.length
      rw [bufAlign_eq _ _ alignOk_4 (by decide) (by omega), Res.ok_bind, check_ok (by rw [length_pad]), Res.ok_bind,
        bufBytes_eq _ _ (by rw [length_pad]; omega), Res.ok_bind]
      have hl : (pad out 4 ++ s.data).length = endOf out.length (sizes (datParts s)) := by
        rw [e, List.length_append, length_pad]; rfl
      have := writeData_eq ss rs (nextAddr a s) (pad out 4 ++ s.data) h (by rw [List.length_append, length_pad]; omega)
      rw [hl] at this
      rw [this, List.flatMap_cons, emit_append, e]
      rfl
    · have e : datParts s = [] := by unfold datParts; rw [if_neg h0]
      rw [if_neg h0]
      have := writeData_eq ss rs (nextAddr a s) out h (by omega)
      rw [e]
      simp only [sizes, List.map_nil, endOf]
      rw [this, List.flatMap_cons, e]
      rfl

theorem length_relOffs (is64 : Bool) : ∀ (ss : List W.Section) (off : Nat), (relOffs is64 off ss).length = ss.length
  | [], _ => rfl
  | s :: ss, off => by simp [relOffs, length_relOffs is64 ss]

theorem length_places : ∀ (ss : List W.Section) (a off : Nat), (places a off ss).length = ss.length
  | [], _, _ => rfl
  | s :: ss, a, off => by simp [places, length_places ss]

/-- A relocation as it is written. -/
def relOf (o : W.Object) (r : W.Reloc) : Rel :=
  match r.flags with
  | .xcoff t n => ⟨r.offset, indexOf o r.symbol, n, t⟩
  | _ => ⟨r.offset, indexOf o r.symbol, 0, 0⟩

/-- The relocations of a section. -/
def relBytes (is64 : Bool) (o : W.Object) (s : W.Section) : List UInt8 := s.relocs.flatMap fun r => (relOf o r).encode is64

theorem length_rel (is64 : Bool) (r : Rel) : (r.encode is64).length = relSize is64 := by
  unfold Rel.encode
  rw [length_encode]
  cases is64 <;> rfl

theorem length_relBytes (is64 : Bool) (o : W.Object) (s : W.Section) : (relBytes is64 o s).length = relSize is64 * s.relocs.length := by
  unfold relBytes
  rw [length_flatMap_const _ (relSize is64) _ (fun r _ => length_rel is64 _), Nat.mul_comm]

theorem recs_eq {o : W.Object} {s : W.Symbol} (h : ∃ f, symbolFlags o s = .ok (some f)) : recs o s = recordsOf o s := by
  obtain ⟨f, hf⟩ := h
  unfold recs recordsOf auxCount external
  rw [fl_eq hf, hf]
  simp only [decide_eq_true_eq]
  split <;> rfl

theorem symOffs_get (T : StrTab) (is64 : Bool) (o : W.Object) : ∀ (ss : List W.Symbol) (n i : Nat),
    (symOffs T is64 o n ss)[i]? = (ss[i]?).map fun s =>
      ⟨n + ((ss.take i).map (recs o)).sum, strIdOf T is64 (fl o s).sclass s.name, auxCount (fl o s).sclass, fl o s⟩
  | [], n, i => by simp [symOffs]
  | s :: ss, n, 0 => by simp [symOffs]
  | s :: ss, n, i + 1 => by
    simp only [symOffs, List.getElem?_cons_succ]
    rw [symOffs_get T is64 o ss _ i]
    simp only [List.take_succ_cons, List.map_cons, List.sum_cons]
    have : n + 1 + auxCount (fl o s).sclass + ((ss.take i).map (recs o)).sum = n + (recs o s + ((ss.take i).map (recs o)).sum) := by
      unfold recs; omega
    rw [this]

theorem indexOf_recs {o : W.Object} (h : ∀ s ∈ o.symbols, ∃ f, symbolFlags o s = .ok (some f)) (i : Nat) :
    ((o.symbols.take i).map (recs o)).sum = indexOf o i := by
  unfold indexOf
  congr 1
  apply List.map_congr_left
  intro s hs
  exact recs_eq (h s (List.mem_of_mem_take hs))

theorem relocOf_sat {E : Prop} {is64 : Bool} {o : W.Object} {p : Plan} (hp : Planned is64 o p) (r : W.Reloc) (hr : r.symbol < o.symbols.length)
    (hE : (∀ t n, r.flags ≠ .xcoff t n) → E) :
    Res.Sat E (relocOf p.symbols r) fun x => x = relOf o r ∧ ∃ t n, r.flags = .xcoff t n := by
  unfold relocOf relOf
  cases hf : r.flags with
  | xcoff t n =>
    simp only
    rw [hp.symbols, symOffs_get, List.getElem?_eq_getElem hr]
    simp only [Option.map_some]
    rw [Nat.zero_add, indexOf_recs hp.flags]
    exact ⟨rfl, t, n, rfl⟩
  | _ => exact hE (by intro t n h; rw [hf] at h; cases h)

theorem writeRelocsOf_sat {E : Prop} {is64 : Bool} {o : W.Object} {p : Plan} (hp : Planned is64 o p) : ∀ (rs : List W.Reloc) (out : List UInt8),
    (∀ r ∈ rs, r.symbol < o.symbols.length) → (∀ r ∈ rs, (∀ t n, r.flags ≠ .xcoff t n) → E) →
    out.length + relSize is64 * rs.length < U64 →
    Res.Sat E (writeRelocsOf is64 p.symbols out rs) fun x => x = out ++ rs.flatMap (fun r => (relOf o r).encode is64) ∧
      ∀ r ∈ rs, ∃ t n, r.flags = .xcoff t n
  | [], out, _, _, _ => ⟨by simp, by simp⟩
  | r :: rs, out, h1, h2, h3 => by
    unfold writeRelocsOf
    simp only [Res.bind_eq]
    refine (relocOf_sat hp r (h1 r (by simp)) (h2 r (by simp))).bind ?_
    rintro x ⟨rfl, h4⟩
    have hl := length_rel is64 (relOf o r)
    rw [List.length_cons, Nat.mul_succ] at h3
    rw [bufBytes_eq _ _ (by omega), Res.ok_bind]
    refine (writeRelocsOf_sat hp rs _ (fun q hq => h1 q (.tail _ hq)) (fun q hq => h2 q (.tail _ hq))
      (by rw [List.length_append]; omega)).mono (fun h => h) ?_
    rintro x ⟨rfl, h5⟩
    refine ⟨by simp, ?_⟩
    intro q hq
    rcases List.mem_cons.1 hq with rfl | hq
    · exact h4
    · exact h5 q hq

theorem writeRelocs_sat {E : Prop} {is64 : Bool} {o : W.Object} {p : Plan} (hp : Planned is64 o p) :
    ∀ (ss : List W.Section) (ds : List (Nat × Nat)) (out : List UInt8), ds.length = ss.length →
    (∀ s ∈ ss, ∀ r ∈ s.relocs, r.symbol < o.symbols.length) → (∀ s ∈ ss, ∀ r ∈ s.relocs, (∀ t n, r.flags ≠ .xcoff t n) → E) →
    out.length + relSize is64 * relCount ss < U64 →
    Res.Sat E (writeRelocs is64 p.symbols out (ss.zip ((ds.zip (relOffs is64 out.length ss)).map fun p => ⟨p.1.1, p.1.2, p.2⟩))) fun x =>
      x = out ++ ss.flatMap (relBytes is64 o) ∧ ∀ s ∈ ss, ∀ r ∈ s.relocs, ∃ t n, r.flags = .xcoff t n
  | [], ds, out, _, _, _, _ => ⟨by simp, by simp⟩
  | s :: ss, [], out, h, _, _, _ => by simp at h
  | s :: ss, d :: ds, out, h, h1, h2, h3 => by
    have hc : relCount (s :: ss) = s.relocs.length + relCount ss := by simp [relCount]
    rw [hc, Nat.mul_add] at h3
    simp only [List.length_cons, Nat.add_right_cancel_iff] at h
    simp only [relOffs, List.zip_cons_cons, List.map_cons, writeRelocs]
    by_cases h0 : s.relocs ≠ []
    · have h0' : s.relocs.length ≠ 0 := by
        intro h; exact h0 (List.eq_nil_of_length_eq_zero h)
      rw [if_pos h0]
      simp only [if_pos h0', Res.bind_eq]
      rw [check_ok trivial, Res.ok_bind]
      refine (writeRelocsOf_sat hp s.relocs out (h1 s (by simp)) (h2 s (by simp)) (by omega)).bind ?_
      rintro x ⟨rfl, h4⟩
      have hl : (out ++ s.relocs.flatMap (fun r => (relOf o r).encode is64)).length = out.length + relSize is64 * s.relocs.length := by
        rw [List.length_append]
        congr 1
        exact length_relBytes is64 o s
      rw [← hl]
      refine (writeRelocs_sat hp ss ds _ h (fun q hq => h1 q (.tail _ hq)) (fun q hq => h2 q (.tail _ hq)) (by rw [hl]; omega)).mono (fun h => h) ?_
      rintro x ⟨rfl, h5⟩
      refine ⟨by simp [relBytes], ?_⟩
      intro q hq
      rcases List.mem_cons.1 hq with rfl | hq
      · exact h4
      · exact h5 q hq
    · have h0' : s.relocs = [] := Classical.byContradiction h0
      rw [if_neg h0, h0']
      simp only [List.length_nil, Nat.mul_zero, Nat.add_zero]
      refine (writeRelocs_sat hp ss ds out h (fun q hq => h1 q (.tail _ hq)) (fun q hq => h2 q (.tail _ hq)) (by omega)).mono (fun h => h) ?_
      rintro x ⟨rfl, h5⟩
      refine ⟨by simp [relBytes, h0'], ?_⟩
      intro q hq
      rcases List.mem_cons.1 hq with rfl | hq
      · rw [h0']; simp
      · exact h5 q hq

end Obj.XcoffW

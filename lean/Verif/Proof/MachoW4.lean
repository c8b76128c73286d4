import Verif.Proof.MachoW3
import Verif.Proof.MachoReloc

/-! The contents, relocations and symbols of `macho_write`. -/

namespace Obj.MachoW
open Obj Obj.Reserve Obj.Parts Obj.Spec Obj.Spec.MachoO Obj.MachoR
open Obj.ElfW (check tabAdd check_ok addU32_eq addU64_eq mulU64_eq idOf TabW tabAdd_eq length_of_getElem? storedSize_append storedSize_addAll
  storedSize_filter addAll_append addAll_cons Written nmOf nmOf_spec)
open Obj.MachoSpec (Arm64)

/-! ## Contents -/

/-- The contents of the sections with their alignments. -/
def dataParts (ss : List W.Section) : List (Nat × List UInt8) := (ss.filter fun s => !s.kind.isBss).map fun s => (s.align, s.data)

theorem dataParts_cons (s : W.Section) (ss : List W.Section) :
    dataParts (s :: ss) = if s.kind.isBss then dataParts ss else (s.align, s.data) :: dataParts ss := by
  unfold dataParts; rw [List.filter_cons]; cases s.kind.isBss <;> rfl

theorem sizes_dataParts (ss : List W.Section) (h : ∀ s ∈ ss, s.kind.isBss = false → s.data.length = s.size) :
    sizes (dataParts ss) = dataSizes ss := by
  induction ss with
  | nil => rfl
  | cons s ss ih =>
    rw [dataParts_cons, dataSizes_cons]
    have ih := ih (fun x hx => h x (by simp [hx]))
    cases hb : s.kind.isBss with
    | true => simpa using ih
    | false =>
      simp only [Bool.false_eq_true, if_false]
      show (s.align, s.data.length) :: sizes (dataParts ss) = _
      rw [ih, h s (by simp) hb]

theorem writeData_eq (H : List UInt8) : ∀ (ss : List W.Section) (ps : List (Nat × Nat)) (D : List UInt8),
    (∀ s ∈ ss, s.kind.isBss = false → s.data.length = s.size) →
    ps.map (·.2) = (dataPlaces H.length D.length ss).map (·.2) → H.length + D.length + cost (dataSizes ss) < U64 →
    writeData (H ++ D) (ss.zip ps) = .ok (H ++ emit D (dataParts ss))
  | [], _, _, _, _, _ => rfl
  | s :: ss, [], D, _, h, _ => by unfold dataPlaces at h; split at h <;> simp at h
  | s :: ss, p :: ps, D, hd, h, hl => by
    have hd' := fun x hx => hd x (List.mem_cons_of_mem s hx)
    rw [List.zip_cons_cons, dataParts_cons]
    rw [dataSizes_cons] at hl
    unfold dataPlaces at h
    unfold writeData
    cases hb : s.kind.isBss with
    | true =>
      simp only [hb, if_true, List.map_cons, List.cons.injEq] at h hl ⊢
      exact writeData_eq H ss ps D hd' h.2 hl
    | false =>
      simp only [hb, Bool.false_eq_true, if_false, List.map_cons, List.cons.injEq] at h hl ⊢
      simp only [cost] at hl
      obtain ⟨h1, h2⟩ := h
      have hle := le_up D.length s.align
      have hup := up_le D.length s.align
      have hs := hd s (by simp) hb
      have e : bufUntil (H ++ D) p.2 = .ok (H ++ pad D s.align) := by
        unfold bufUntil
        rw [if_neg (by rw [h1]; simp; omega), h1]
        unfold pad
        rw [List.append_assoc]
        congr 4
        rw [List.length_append]; omega
      rw [e]
      simp only [Res.bind_eq, Res.ok_bind]
      have hpl := length_pad D s.align
      rw [bufBytes_eq _ _ (by rw [List.length_append, hpl]; omega)]
      simp only [Res.ok_bind, emit]
      have hlen : (pad D s.align ++ s.data).length = up D.length s.align + s.size := by rw [List.length_append, hpl, hs]
      rw [List.append_assoc, writeData_eq H ss ps _ hd' (by rw [hlen]; exact h2) (by rw [hlen]; omega)]

/-! ## Relocations -/

/-- The records of a section. -/
def recsOf (o : W.Object) (s : W.Section) : List RelInfo :=
  match W.machoRecordsAll o.arch (indexIn (orderOf o)) (sectionNumber o) o.symbols (W.machoOrder s.relocs) with
  | .ok l => l
  | .err => []
  | .panic => []

/-- The records of the sections that have some. -/
def relParts (c : Cfg) (o : W.Object) (ss : List W.Section) : List (Nat × List UInt8) :=
  (ss.filter fun s => decide (cnt s ≠ 0)).map fun s => (c.w, (recsOf o s).flatMap (RelInfo.bytes o.endian))

theorem relParts_cons (c : Cfg) (o : W.Object) (s : W.Section) (ss : List W.Section) :
    relParts c o (s :: ss) = if cnt s ≠ 0 then (c.w, (recsOf o s).flatMap (RelInfo.bytes o.endian)) :: relParts c o ss else relParts c o ss := by
  unfold relParts
  rw [List.filter_cons]
  by_cases h : cnt s ≠ 0
  · rw [if_pos h, if_pos (by simpa using h)]; rfl
  · rw [if_neg h, if_neg (by simpa using h)]

theorem length_bytes (e : Endianness) (r : RelInfo) : (r.bytes e).length = 8 := by
  unfold RelInfo.bytes; simp

theorem length_recs (e : Endianness) (l : List RelInfo) : (l.flatMap (RelInfo.bytes e)).length = l.length * 8 :=
  Elf.length_flatMap_const _ _ _ fun r _ => length_bytes e r

/-- The records of one relocation: how many. -/
def one (r : W.Reloc) : Nat := 1 + (if r.addend ≠ 0 then 1 else 0) + (if r.subtractor.isSome then 1 else 0)

theorem length_records {a : Arch} {f g : Nat → Nat} {ys : List W.Symbol} {r : W.Reloc} {l : List RelInfo}
    (h : W.machoRecords a f g ys r = .ok l) : l.length = one r := by
  unfold W.machoRecords at h
  split at h
  · rename_i t p len hf
    obtain ⟨l1, h1, h⟩ := Res.bind_eq_ok.1 h
    obtain ⟨l2, h2, h⟩ := Res.bind_eq_ok.1 h
    obtain ⟨l3, h3, h⟩ := Res.bind_eq_ok.1 h
    simp only [Res.ok.injEq] at h
    subst h
    have k1 : l1.length = if r.subtractor.isSome then 1 else 0 := by
      unfold W.subRecord at h1
      cases hs : r.subtractor with
      | none => rw [hs] at h1; cases h1; rfl
      | some s =>
        rw [hs] at h1
        simp only at h1
        split at h1
        · cases h1; rfl
        · split at h1
          · cases h1; rfl
          · cases h1
    have k2 : l2.length = if r.addend ≠ 0 then 1 else 0 := by
      unfold W.addRecord at h2
      split at h2
      · rename_i h0; cases h2; rw [if_neg (by simpa using h0)]; rfl
      · rename_i h0
        rw [if_pos h0]
        split at h2
        · cases h2; rfl
        · cases h2
    have k3 : l3.length = 1 := by
      unfold W.mainRecord at h3
      split at h3
      · cases h3
      · split at h3
        · split at h3
          · cases h3
          · cases h3; rfl
        · cases h3; rfl
    rw [List.length_append, List.length_append, k1, k2, k3]
    unfold one; omega
  · cases h

theorem length_recordsAll {a : Arch} {f g : Nat → Nat} {ys : List W.Symbol} : ∀ {rs : List W.Reloc} {l : List RelInfo},
    W.machoRecordsAll a f g ys rs = .ok l → l.length = W.machoCount rs
  | [], l, h => by cases h; rfl
  | r :: rs, l, h => by
    unfold W.machoRecordsAll at h
    obtain ⟨l1, h1, h⟩ := Res.bind_eq_ok.1 h
    obtain ⟨l2, h2, h⟩ := Res.bind_eq_ok.1 h
    simp only [Res.ok.injEq] at h
    subst h
    rw [List.length_append, length_records h1, length_recordsAll h2, machoCount_cons]; rfl

theorem machoOrder_cases (rs : List W.Reloc) : W.machoOrder rs = rs ∨ W.machoOrder rs = rs.reverse := by
  unfold W.machoOrder
  split
  · split
    · exact .inr rfl
    · exact .inl rfl
  · exact .inl rfl

theorem mem_machoOrder {rs : List W.Reloc} {r : W.Reloc} : r ∈ W.machoOrder rs ↔ r ∈ rs := by
  rcases machoOrder_cases rs with h | h <;> rw [h] <;> simp

theorem count_machoOrder (rs : List W.Reloc) : W.machoCount (W.machoOrder rs) = W.machoCount rs := by
  rcases machoOrder_cases rs with h | h <;> rw [h]
  unfold W.machoCount
  rw [List.map_reverse, List.sum_reverse]

/-- What is known of the records. -/
structure Recs (o : W.Object) : Prop where
  all : ∀ s ∈ o.sections, W.machoRecordsAll o.arch (indexIn (orderOf o)) (sectionNumber o) o.symbols (W.machoOrder s.relocs) = .ok (recsOf o s)

theorem Recs.length {o : W.Object} (h : Recs o) {s : W.Section} (hs : s ∈ o.sections) : (recsOf o s).length = cnt s := by
  rw [length_recordsAll (h.all s hs), count_machoOrder]; rfl

theorem secIdx_eq (o : W.Object) : secIdx o = sectionNumber o := rfl

theorem symIdx_fun (o : W.Object) : symIdx (assign (List.replicate o.symbols.length 0) 0 (orderOf o)) = indexIn (orderOf o) :=
  funext fun i => symIdx_eq o i

theorem records_sat (o : W.Object) (hv : Valid o) {s : W.Section} (hs : s ∈ o.sections) {r : W.Reloc} (hr : r ∈ s.relocs) :
    Res.Sat (¬ Expressible o r) (records o (assign (List.replicate o.symbols.length 0) 0 (orderOf o)) r) fun l =>
      W.machoRecords o.arch (indexIn (orderOf o)) (sectionNumber o) o.symbols r = .ok l := by
  unfold records
  rw [symIdx_fun, secIdx_eq]
  cases hf : r.flags with
  | macho t p len =>
    simp only [Res.bind_eq]
    have e1 : checkSub o r = .ok () := by
      unfold checkSub
      cases hsub : r.subtractor with
      | none => rfl
      | some i =>
        simp only
        rw [if_neg]
        intro h
        have := hv.relocSub s hs r hr i hsub
        omega
    obtain ⟨y, hy, hy2⟩ := hv.relocSymbol s hs r hr
    have e2 : checkSec o r = .ok () := by
      unfold checkSec
      rw [hy]
      simp only
      split
      · split
        · rename_i i hi
          rw [if_neg]
          have := hv.symbolSection y (List.mem_of_getElem? hy) i hi
          omega
        · rfl
      · rfl
    rw [e1]
    simp only [Res.ok_bind]
    unfold W.machoRecords
    rw [hf]
    simp only
    have k1 : Res.Sat (¬ Expressible o r) (W.subRecord o.arch (indexIn (orderOf o)) r len) fun _ => True := by
      unfold W.subRecord
      cases hsub : r.subtractor with
      | none => exact trivial
      | some i =>
        simp only
        split
        · exact trivial
        · split
          · exact trivial
          · rename_i h1 h2
            rintro ⟨-, h3, -⟩
            rcases h3 (by simp [hsub]) with h3 | h3
            · exact h1 h3
            · exact h2 h3
    have k2 : Res.Sat (¬ Expressible o r) (W.addRecord o.arch r len) fun _ => True := by
      unfold W.addRecord
      split
      · exact trivial
      · split
        · exact trivial
        · rename_i h1 h2
          rintro ⟨-, -, h3⟩
          exact h2 (h3 h1)
    have k3 : ∃ l, W.mainRecord (indexIn (orderOf o)) (sectionNumber o) o.symbols r t p len = .ok l := by
      unfold W.mainRecord
      rw [hy]
      simp only
      split
      · rename_i hk
        obtain ⟨i, hi⟩ := hy2 hk
        rw [hi]
        exact ⟨_, rfl⟩
      · exact ⟨_, rfl⟩
    obtain ⟨l3, k3⟩ := k3
    rw [k3]
    generalize W.subRecord o.arch (indexIn (orderOf o)) r len = A at k1 ⊢
    generalize W.addRecord o.arch r len = B at k2 ⊢
    cases A with
    | panic => exact k1
    | err => exact k1
    | ok a =>
      cases B with
      | panic => exact k2
      | err => exact k2
      | ok b =>
        simp only [Res.ok_bind]
        rw [e2]
        rfl
  | generic => rintro ⟨⟨t, p, l, h⟩, -⟩; rw [hf] at h; cases h
  | elf => rintro ⟨⟨t, p, l, h⟩, -⟩; rw [hf] at h; cases h
  | coff => rintro ⟨⟨t, p, l, h⟩, -⟩; rw [hf] at h; cases h
  | xcoff => rintro ⟨⟨t, p, l, h⟩, -⟩; rw [hf] at h; cases h

theorem writeRelocsOf_sat (o : W.Object) (hv : Valid o) {s : W.Section} (hs : s ∈ o.sections) : ∀ (rs : List W.Reloc) (out : List UInt8),
    (∀ r ∈ rs, r ∈ s.relocs) → out.length + 24 * rs.length < U64 →
    Res.Sat (∃ r ∈ s.relocs, ¬ Expressible o r) (writeRelocsOf o (assign (List.replicate o.symbols.length 0) 0 (orderOf o)) out rs)
      fun x => ∃ l, W.machoRecordsAll o.arch (indexIn (orderOf o)) (sectionNumber o) o.symbols rs = .ok l ∧
        x = out ++ l.flatMap (RelInfo.bytes o.endian)
  | [], out, _, _ => ⟨[], rfl, by simp⟩
  | r :: rs, out, hr, hl => by
    unfold writeRelocsOf
    simp only [Res.bind_eq]
    refine ((records_sat o hv hs (hr r (by simp))).mono (fun h => ⟨r, hr r (by simp), h⟩) (fun a h => h)).bind ?_
    intro l1 h1
    have hlen := length_records h1
    have h3 : one r ≤ 3 := by unfold one; split <;> split <;> omega
    rw [List.length_cons] at hl
    have hb := length_recs o.endian l1
    rw [bufBytes_eq _ _ (by rw [hb, hlen]; omega)]
    simp only [Res.ok_bind]
    refine (writeRelocsOf_sat o hv hs rs _ (fun x hx => hr x (by simp [hx])) (by rw [List.length_append, hb, hlen]; omega)).mono id ?_
    rintro x ⟨l2, h2, rfl⟩
    refine ⟨l1 ++ l2, ?_, by simp⟩
    unfold W.machoRecordsAll
    rw [h1, h2]; rfl

theorem writeRelocs_sat (c : Cfg) (o : W.Object) (hv : Valid o) : ∀ (ss : List W.Section) (out : List UInt8),
    (∀ s ∈ ss, s ∈ o.sections) → out.length + cost (relSizes c ss) + (ss.map fun s => 24 * s.relocs.length + 8).sum < U64 →
    Res.Sat (∃ s ∈ o.sections, ∃ r ∈ s.relocs, ¬ Expressible o r)
      (writeRelocs o (assign (List.replicate o.symbols.length 0) 0 (orderOf o)) out (ss.zip (relPlaces c out.length ss)))
      fun x => x = emit out (relParts c o ss) ∧ (∀ s ∈ ss,
        W.machoRecordsAll o.arch (indexIn (orderOf o)) (sectionNumber o) o.symbols (W.machoOrder s.relocs) = .ok (recsOf o s))
  | [], out, _, _ => ⟨rfl, by simp⟩
  | s :: ss, out, hs, hl => by
    have hs0 := hs s (by simp)
    have hs' := fun x hx => hs x (List.mem_cons_of_mem s hx)
    rw [relSizes_cons, List.map_cons, List.sum_cons] at hl
    rw [relParts_cons]
    unfold relPlaces
    by_cases h0 : cnt s ≠ 0
    · have h0' : s.relocs ≠ [] := (cnt_ne s).1 h0
      rw [if_pos h0] at hl
      rw [if_pos h0, if_pos h0, List.zip_cons_cons]
      unfold writeRelocs
      rw [if_neg h0']
      simp only [cost] at hl
      have hle := le_up out.length c.w
      have hup := up_le out.length c.w
      have hpl := length_pad out c.w
      have e : bufUntil out (up out.length c.w) = .ok (pad out c.w) := by
        unfold bufUntil
        rw [if_neg (by omega)]; rfl
      simp only [Res.bind_eq]
      rw [e]
      simp only [Res.ok_bind]
      have hlo : (W.machoOrder s.relocs).length = s.relocs.length := by
        rcases machoOrder_cases s.relocs with h | h <;> rw [h]; simp
      refine ((writeRelocsOf_sat o hv hs0 (W.machoOrder s.relocs) (pad out c.w) (fun r hr => mem_machoOrder.1 hr)
        (by rw [hpl, hlo]; omega)).mono (fun ⟨r, h1, h2⟩ => ⟨s, hs0, r, h1, h2⟩) (fun a h => h)).bind ?_
      rintro x ⟨l, h1, rfl⟩
      have hrec : recsOf o s = l := by unfold recsOf; rw [h1]
      have hll : l.length = cnt s := by rw [length_recordsAll h1, count_machoOrder]; rfl
      have hlen : (pad out c.w ++ l.flatMap (RelInfo.bytes o.endian)).length = up out.length c.w + cnt s * 8 := by
        rw [List.length_append, hpl, length_recs, hll]
      rw [← hlen]
      refine (writeRelocs_sat c o hv ss _ hs' (by rw [hlen]; omega)).mono id ?_
      rintro x ⟨rfl, h2⟩
      rw [hrec]
      refine ⟨rfl, fun y hy => ?_⟩
      rcases List.mem_cons.1 hy with rfl | hy
      · rw [h1, hrec]
      · exact h2 y hy
    · have h0' : s.relocs = [] := by
        false_or_by_contra
        rename_i h
        exact h0 ((cnt_ne s).2 h)
      rw [if_neg h0] at hl
      rw [if_neg h0, if_neg h0, List.zip_cons_cons]
      unfold writeRelocs
      rw [if_pos h0']
      refine (writeRelocs_sat c o hv ss out hs' (by omega)).mono id ?_
      rintro x ⟨rfl, h2⟩
      refine ⟨rfl, fun y hy => ?_⟩
      rcases List.mem_cons.1 hy with rfl | hy
      · have : W.machoOrder y.relocs = [] := by rw [h0']; rfl
        unfold recsOf; rw [this]; rfl
      · exact h2 y hy

/-! ## Symbols -/

/-- The record of a symbol in the file. -/
structure IsNlist (c : Cfg) (o : W.Object) (x : Extra) (t : StrTab) (s : W.Symbol) (y : Nlist) : Prop where
  flags : MachoW.symbolFlags s = some (y.typ, y.desc)
  sect : y.sect = symbolSection s
  value : symbolValue (placesOf (cmdsOf c o.sections.length x.version).stop o.sections) s = .ok y.value
  strx : y.strx = if s.name = [] then 0 else nmOf t s.name

theorem mem_emNames {o : W.Object} {i : Nat} {s : W.Symbol} (h : o.symbols[i]? = some s) (he : em o.arch s = true) (h0 : s.name ≠ []) :
    s.name ∈ (tabOf o).strings := by
  have hm : ∀ s, s ∈ (tabOf o).strings ↔ s ∈ emNames o.arch o.symbols := by
    obtain ⟨-, -, a3, -⟩ := StrTab.addAll_strings (emNames o.arch o.symbols) StrTab.new (by simp [StrTab.new])
    intro s; unfold tabOf; rw [a3]; simp [StrTab.new]
  rw [hm]
  unfold emNames
  rw [List.mem_map]
  exact ⟨s, List.mem_filter.2 ⟨List.mem_of_getElem? h, by simp [he, h0]⟩, rfl⟩

theorem idOf_congr {t u : StrTab} (h : t.strings = u.strings) (s : List UInt8) : idOf t s = idOf u s := by
  unfold idOf StrTab.indexOf; rw [h]

theorem nlistOf_sat (c : Cfg) (o : W.Object) (x : Extra) (hv : Valid o) {t : StrTab} {data : List UInt8} (hp : Planned c o x t data)
    {i : Nat} {s : W.Symbol} (hi : o.symbols[i]? = some s) (he : Emitted o s) :
    Res.Sat (MachoW.symbolFlags s = none) (nlistOf (planOf c o x t data) s (if em o.arch s then strId (tabOf o) s.name else none))
      (IsNlist c o x t s) := by
  have hem := (em_iff o s).2 he
  have hu : (2 : Nat) ^ 62 + 2 ^ 63 < U64 := by decide
  unfold nlistOf
  cases hf : MachoW.symbolFlags s with
  | none => exact rfl
  | some f =>
    obtain ⟨ty, d⟩ := f
    simp only
    have hval : ∃ v, symbolValue (planOf c o x t data).places s = .ok v := by
      unfold symbolValue
      split
      · exact ⟨_, rfl⟩
      · rename_i j hj
        have hlt := hv.symbolSection s (List.mem_of_getElem? hi) j hj
        obtain ⟨q, hq⟩ : ∃ q, o.sections[j]? = some q := ⟨_, List.getElem?_eq_getElem hlt⟩
        obtain ⟨k, -, hk⟩ := hv.align q (List.mem_of_getElem? hq)
        obtain ⟨p, h1, -, h2, -, -⟩ := placesOf_get (cmdsOf c o.sections.length x.version).stop o.sections j q hq
          (by rw [hk]; exact Nat.ne_of_gt (Nat.two_pow_pos k))
        have h3 := fileSize_le o
        have h4 := hv.memory
        have h5 := hv.value s (List.mem_of_getElem? hi)
        show ∃ v, (match (placesOf (cmdsOf c o.sections.length x.version).stop o.sections)[j]? with
          | none => Res.panic
          | some p => addU64 p.1 s.value) = .ok v
        rw [h1]
        simp only
        rw [addU64_eq (by omega)]
        exact ⟨_, rfl⟩
      · exact ⟨_, rfl⟩
    obtain ⟨v, hval⟩ := hval
    simp only [Res.bind_eq]
    rw [hval]
    simp only [Res.ok_bind]
    rw [if_pos hem]
    have hstr : strOffset (planOf c o x t data).strtab (strId (tabOf o) s.name) = .ok (if s.name = [] then 0 else nmOf t s.name) := by
      show strOffset t _ = _
      unfold strId
      by_cases h0 : s.name = []
      · rw [if_pos h0, if_pos h0]; rfl
      · rw [if_neg h0, if_neg h0, ← idOf_congr hp.strings]
        have hm := mem_emNames hi hem h0
        rw [← hp.strings] at hm
        exact (nmOf_spec hp.written hm).1
    rw [hstr]
    exact ⟨hf, rfl, hval, rfl⟩

theorem writeSymbols_sat (c : Cfg) (o : W.Object) (x : Extra) (hv : Valid o) {t : StrTab} {data : List UInt8} (hp : Planned c o x t data) :
    ∀ (is : List Nat) (out : List UInt8), (∀ i ∈ is, i ∈ orderOf o) → out.length + 16 * is.length < U64 →
    Res.Sat (∃ s ∈ o.symbols, Emitted o s ∧ MachoW.symbolFlags s = none) (writeSymbols c o (planOf c o x t data) out is) fun r =>
      ∃ ys : List Nlist, r = out ++ ys.flatMap (Nlist.encode c) ∧ ys.length = is.length ∧
        ∀ (k i : Nat) (s : W.Symbol), is[k]? = some i → o.symbols[i]? = some s → ∃ y, ys[k]? = some y ∧ IsNlist c o x t s y
  | [], out, _, _ => ⟨[], by simp, rfl, by simp⟩
  | i :: is, out, hi, hl => by
    obtain ⟨s, h1, h2⟩ := ((order_ok o).members i).1 (hi i (by simp))
    unfold writeSymbols
    have h3 : (planOf c o x t data).ids[i]? = some (if em o.arch s then strId (tabOf o) s.name else none) := by
      show (idsOf o.arch (tabOf o) o.symbols)[i]? = _
      unfold idsOf
      rw [List.getElem?_map, h1]; rfl
    rw [h1, h3]
    simp only [Res.bind_eq]
    refine ((nlistOf_sat c o x hv hp h1 h2).mono (fun h => ⟨s, List.mem_of_getElem? h1, h2, h⟩) (fun a h => h)).bind ?_
    intro y hy
    have hly := length_nlist c y
    have hle := (nlistSize_le c).2
    rw [List.length_cons] at hl
    rw [bufBytes_eq _ _ (by rw [hly]; omega)]
    simp only [Res.ok_bind]
    refine (writeSymbols_sat c o x hv hp is _ (fun j hj => hi j (by simp [hj])) (by rw [List.length_append, hly]; omega)).mono id ?_
    rintro r ⟨ys, rfl, h4, h5⟩
    refine ⟨y :: ys, by simp, by simp [h4], ?_⟩
    intro k j s' hk hs'
    cases k with
    | zero =>
      simp only [List.getElem?_cons_zero, Option.some.injEq] at hk
      subst hk
      rw [h1] at hs'
      simp only [Option.some.injEq] at hs'
      subst hs'
      exact ⟨y, by simp, hy⟩
    | succ k => simpa using h5 k j s' (by simpa using hk) hs'

/-! ## The file -/

/-- What is written. -/
structure Image (c : Cfg) (o : W.Object) (x : Extra) (t : StrTab) (data : List UInt8) (cpu sub : Nat) (hs : List Sect) (ys : List Nlist)
    (file : List UInt8) : Prop where
  planned : Planned c o x t data
  table : ((o.arch, x.sub), (cpu, sub)) ∈ cpuTable
  mcpu : machoCpu o.arch = .ok cpu
  headers : Headers c o x hs
  headLen : (headOf c o x cpu sub data hs).length = (cmdsOf c o.sections.length x.version).stop
  sectLen : ∀ h ∈ hs, (h.encode c).length = sectSize c
  recs : Recs o
  symsLen : ys.length = (orderOf o).length
  syms : ∀ (k i : Nat) (s : W.Symbol), (orderOf o)[k]? = some i → o.symbols[i]? = some s → ∃ y, ys[k]? = some y ∧ IsNlist c o x t s y
  file_ : file = emit (headOf c o x cpu sub data hs ++ emit [] (dataParts o.sections))
    (relParts c o o.sections ++ [(c.w, ys.flatMap (Nlist.encode c)), (1, data)])
  len : file.length = strOff c o x + data.length

theorem writeRest_sat (c : Cfg) (o : W.Object) (x : Extra) (hv : Valid o) {t : StrTab} {data : List UInt8} (hp : Planned c o x t data)
    {cpu sub : Nat} {hs : List Sect} (h1 : ((o.arch, x.sub), (cpu, sub)) ∈ cpuTable) (h2 : machoCpu o.arch = .ok cpu)
    (h3 : Headers c o x hs) (h4 : (headOf c o x cpu sub data hs).length = (cmdsOf c o.sections.length x.version).stop)
    (h5 : ∀ h ∈ hs, (h.encode c).length = sectSize c) :
    Res.Sat (Refused o x) (writeRest c o (planOf c o x t data) (headOf c o x cpu sub data hs)) fun r => ∃ ys,
      Image c o x t data cpu sub hs ys r := by
  have hU : U32 = 2 ^ 32 := by decide
  have hu : U32 + 2 ^ 62 + 2 ^ 61 < U64 := by decide
  have hlen := hp.len
  have hn := hp.sections
  have e1 : strOff c o x = symOff c o x + (orderOf o).length * nlistSize c := rfl
  have e2 : symOff c o x = up (endOf (segEnd c o x) (relSizes c o.sections)) c.w := rfl
  have e3 : segEnd c o x = (cmdsOf c o.sections.length x.version).stop + fileSizeOf o.sections := rfl
  have e4 : fileSizeOf o.sections = endOf 0 (dataSizes o.sections) := rfl
  have l1 := le_endOf (relSizes c o.sections) (segEnd c o x)
  have l2 := le_up (endOf (segEnd c o x) (relSizes c o.sections)) c.w
  have hcs := cost_sizes o.sections
  have hmem := hv.memory
  have hme : memory o = (o.sections.map fun s => s.align + s.size).sum := rfl
  have hcost := cost_relSizes c o.sections
  have hsum := sum_le (fun s : W.Section => 24 * s.relocs.length + 8) (24 * 2 ^ 30 + 8) o.sections (fun s hs => by
    have := hv.relocs s hs
    show 24 * s.relocs.length + 8 ≤ _
    omega)
  have hsz := sizes_dataParts o.sections hv.contents
  generalize hH : headOf c o x cpu sub data hs = H at h4 ⊢
  have hdl : (emit [] (dataParts o.sections)).length = fileSizeOf o.sections := by
    rw [length_emit, hsz]; rfl
  unfold writeRest
  rw [check_ok (by rw [h4]; rfl)]
  simp only [Res.bind_eq, Res.ok_bind]
  have e5 : writeData H (o.sections.zip (planOf c o x t data).places) = .ok (H ++ emit [] (dataParts o.sections)) := by
    have := writeData_eq H o.sections (placesOf (cmdsOf c o.sections.length x.version).stop o.sections) [] hv.contents (by
      rw [h4]
      exact allPlaces_snd o.sections _ _ (length_dataPlaces _ _ _).symm) (by simp; omega)
    rw [List.append_nil] at this
    exact this
  rw [e5]
  simp only [Res.ok_bind]
  have e6 : addU64 (planOf c o x t data).cmds.stop (planOf c o x t data).fileSize = .ok (segEnd c o x) := addU64_eq (by
    show (cmdsOf c o.sections.length x.version).stop + fileSizeOf o.sections < _
    omega)
  rw [e6]
  simp only [Res.ok_bind]
  have hsl : (H ++ emit [] (dataParts o.sections)).length = segEnd c o x := by rw [List.length_append, hdl, h4]; rfl
  rw [check_ok hsl.symm]
  simp only [Res.ok_bind]
  generalize hS : H ++ emit [] (dataParts o.sections) = S at hsl ⊢
  have hwr := writeRelocs_sat c o hv o.sections S (fun s h => h) (by rw [hsl]; omega)
  rw [hsl] at hwr
  refine (hwr.mono (fun ⟨s, a, r, b, d⟩ => .reloc s r a b d) (fun a h => h)).bind ?_
  rintro R ⟨rfl, hrec⟩
  have hR : Recs o := ⟨hrec⟩
  have hrs : sizes (relParts c o o.sections) = relSizes c o.sections := by
    have : ∀ ss : List W.Section, (∀ s ∈ ss, s ∈ o.sections) → sizes (relParts c o ss) = relSizes c ss := by
      intro ss
      induction ss with
      | nil => intro _; rfl
      | cons s ss ih =>
        intro h
        rw [relParts_cons, relSizes_cons]
        have ih := ih (fun y hy => h y (by simp [hy]))
        split
        · show (c.w, ((recsOf o s).flatMap (RelInfo.bytes o.endian)).length) :: sizes (relParts c o ss) = _
          rw [ih, length_recs, hR.length (h s (by simp))]
        · exact ih
    exact this _ (fun s h => h)
  have hRl : (emit S (relParts c o o.sections)).length = endOf (segEnd c o x) (relSizes c o.sections) := by
    rw [length_emit, hrs, hsl]
  have e7 : bufUntil (emit S (relParts c o o.sections)) (planOf c o x t data).symtabOffset = .ok (pad (emit S (relParts c o o.sections)) c.w) := by
    show bufUntil _ (symOff c o x) = _
    unfold bufUntil pad
    rw [hRl, if_neg (by omega)]; rfl
  rw [e7]
  simp only [Res.ok_bind]
  have hPl : (pad (emit S (relParts c o o.sections)) c.w).length = symOff c o x := by rw [length_pad, hRl]; rfl
  have hol := length_order o
  have hord := hp.symbols
  refine ((writeSymbols_sat c o x hv hp (orderOf o) _ (fun i h => h) (by rw [hPl]; omega)).mono
    (fun ⟨s, a, b, d⟩ => .symbol s a b d) (fun a h => h)).bind ?_
  rintro Y ⟨ys, rfl, h6, h7⟩
  have hyl : (ys.flatMap (Nlist.encode c)).length = (orderOf o).length * nlistSize c := by
    rw [Elf.length_flatMap_const _ _ _ fun y _ => length_nlist c y, h6]
  have hYl : (pad (emit S (relParts c o o.sections)) c.w ++ ys.flatMap (Nlist.encode c)).length = strOff c o x := by
    rw [List.length_append, hPl, hyl]; rfl
  rw [show (planOf c o x t data).strtabOffset = strOff c o x from rfl, check_ok hYl.symm]
  simp only [Res.ok_bind]
  rw [show (planOf c o x t data).strtabData = data from rfl, bufBytes_eq _ _ (by rw [hYl]; omega)]
  simp only [Res.ok_bind]
  have hFl : (pad (emit S (relParts c o o.sections)) c.w ++ ys.flatMap (Nlist.encode c) ++ data).length = strOff c o x + data.length := by
    rw [List.length_append, hYl]
  rw [show (planOf c o x t data).len = strOff c o x + data.length from rfl, check_ok hFl.symm]
  simp only [Res.ok_bind]
  refine ⟨ys, hp, h1, h2, h3, by rw [hH]; exact h4, h5, hR, h6, h7, ?_, hFl⟩
  rw [hH, hS, emit_append]
  simp only [emit, pad_of_le_one _ 1 (by decide)]

theorem machoWrite_sat (o : W.Object) (x : Extra) (hv : Valid o) :
    Res.Sat (Refused o x) (machoWrite o x) fun file => ∃ is64 t data cpu sub hs ys, elfIs64 o.arch = some is64 ∧
      Image ⟨is64, o.endian⟩ o x t data cpu sub hs ys file := by
  unfold machoWrite
  cases h : elfIs64 o.arch with
  | none =>
    exfalso
    have := hv.arch
    unfold elfIs64 at h
    cases ha : o.arch <;> rw [ha] at h <;> first | exact this ha | (simp [Arch.addressSize] at h; done)
  | some is64 =>
    simp only [Res.bind_eq]
    refine (plan_sat ⟨is64, o.endian⟩ o x hv h).bind ?_
    rintro p ⟨t, data, rfl, hp⟩
    refine (writeCmds_sat ⟨is64, o.endian⟩ o x hv hp).bind ?_
    rintro out ⟨cpu, sub, hs, h1, h2, rfl, h3, h4, -, h6⟩
    refine (writeRest_sat ⟨is64, o.endian⟩ o x hv hp h1 h2 h3 h4 h6).mono id ?_
    rintro r ⟨ys, hr⟩
    exact ⟨is64, t, data, cpu, sub, hs, ys, rfl, hr⟩

end Obj.MachoW

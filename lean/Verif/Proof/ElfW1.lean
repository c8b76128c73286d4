import Verif.Proof.EmitParts
import Verif.Spec.ElfWrite

/-! The reserving phase of `elf_write`: each method as an equation. -/

namespace Obj.ElfW
open Obj Obj.Elf Obj.Reserve Obj.Parts Obj.Spec Obj.W Obj.Spec.ElfO

/-- The next section index. -/
def nx (n : Nat) : Nat := if n = 0 then 1 else n
/-- The section count after `k` reservations. -/
def adv (n k : Nat) : Nat := if k = 0 then n else nx n + k

theorem adv_zero (n : Nat) : adv n 0 = n := rfl
theorem adv_succ (n k : Nat) : adv n (k + 1) = nx n + (k + 1) := rfl
theorem nx_pos (n : Nat) : 0 < nx n := by unfold nx; split <;> omega
theorem nx_adv (n k : Nat) : nx (adv n k) = nx n + k := by
  have := nx_pos n
  unfold adv; split
  · omega
  · show (if nx n + k = 0 then 1 else nx n + k) = _
    rw [if_neg (by omega)]
theorem adv_adv (n j k : Nat) : adv (adv n j) k = adv n (j + k) := by
  by_cases hk : k = 0
  · subst hk; rfl
  · by_cases hj : j = 0
    · subst hj; rw [Nat.zero_add]; rfl
    · have : adv (adv n j) k = nx (adv n j) + k := if_neg hk
      rw [this, nx_adv]
      unfold adv; rw [if_neg (by omega)]; omega

theorem check_ok {p : Prop} [Decidable p] (h : p) : check p = .ok () := if_pos h

theorem addU32_eq {a b : Nat} (h : a + b < U32) : addU32 a b = .ok (a + b) := if_pos h
theorem addU64_eq {a b : Nat} (h : a + b < U64) : addU64 a b = .ok (a + b) := if_pos h
theorem mulU64_eq {a b : Nat} (h : a * b < U64) : mulU64 a b = .ok (a * b) := if_pos h

/-! ## String tables -/

/-- The id of a string. -/
def idOf (t : StrTab) (s : List UInt8) : Nat := (StrTab.indexOf s t.strings).getD 0

/-- A table being built, with room for `k` more strings. -/
structure TabW (t : StrTab) (k : Nat) : Prop where
  inOrder : t.inOrder = false
  offsets : t.offsets = []
  nodup : t.strings.Nodup
  room : t.strings.length + k ≤ U32

theorem TabW.new {k : Nat} (h : k ≤ U32) : TabW StrTab.new k := ⟨rfl, rfl, List.nodup_nil, by simp [StrTab.new]; omega⟩

theorem TabW.addAll {t : StrTab} {k : Nat} (ss : List (List UInt8)) (h : TabW t (ss.length + k)) : TabW (addAll t ss) k := by
  obtain ⟨a1, a2, a3, a4, a5, a6⟩ := StrTab.addAll_strings ss t h.nodup
  refine ⟨by rw [a4]; exact h.inOrder, ?_, a1, ?_⟩
  · rw [StrTab.addAll_offsets_merge ss t h.inOrder]; exact h.offsets
  · have := h.room; omega

theorem TabW.mono {t : StrTab} {k j : Nat} (h : TabW t k) (hj : j ≤ k) : TabW t j :=
  ⟨h.inOrder, h.offsets, h.nodup, by have := h.room; omega⟩

theorem addAll_append (t : StrTab) (a b : List (List UInt8)) : addAll t (a ++ b) = addAll (addAll t a) b := by
  unfold addAll; rw [List.foldl_append]

theorem addAll_cons (t : StrTab) (s : List UInt8) (b : List (List UInt8)) : addAll t (s :: b) = addAll (t.add s).2 b := rfl

theorem addAll_prefix {t : StrTab} (h : t.strings.Nodup) (b : List (List UInt8)) : t.strings <+: (addAll t b).strings :=
  (StrTab.addAll_strings b t h).2.1

theorem idOf_of_prefix {t T : StrTab} {s : List UInt8} {i : Nat} (h : StrTab.indexOf s t.strings = some i)
    (hp : t.strings <+: T.strings) : idOf T s = i := by
  unfold idOf; rw [StrTab.indexOf_prefix hp h]; rfl

theorem length_of_getElem? {α : Type} {l : List α} {i : Nat} {a : α} (h : l[i]? = some a) : i < l.length :=
  (List.getElem?_eq_some_iff.1 h).1

theorem tabAdd_eq {t T : StrTab} {k : Nat} {s : List UInt8} (h : TabW t (k + 1)) (hs : (0 : UInt8) ∉ s)
    (hp : (t.add s).2.strings <+: T.strings) : tabAdd t s = .ok (idOf T s, (t.add s).2) := by
  obtain ⟨i, h1, h2⟩ := StrTab.add_id t s
  have h3 : i < (t.add s).2.strings.length := length_of_getElem? (StrTab.indexOf_some h1)
  have h4 := (TabW.addAll (k := k) [s] (by simpa [Nat.add_comm] using h)).room
  have h5 : (addAll t [s]) = (t.add s).2 := rfl
  rw [h5] at h4
  unfold tabAdd
  rw [check_ok (by
    unfold StrTab.addAssert
    rw [h.offsets]
    simp [hs])]
  rw [idOf_of_prefix h1 hp]
  have h6 : (t.add s).1 = i := by rw [h2]; exact Nat.mod_eq_of_lt (by omega)
  show Res.ok (t.add s) = _
  rw [← h6]

/-- After writing: every string is in the data at the offset given for its id. -/
structure Written (t : StrTab) (data : List UInt8) : Prop where
  at_ : ∀ (id : Nat) (s : List UInt8), t.strings[id]? = some s → ∃ p, t.getOffset id = .ok p ∧ p < U32 ∧ StringAt data s p
  nul : StringAt data [] 0
  len : data.length < U32

theorem storedSize_append (a b : List (List UInt8)) : storedSize (a ++ b) = storedSize a + storedSize b := by
  simp [storedSize]

theorem storedSize_addAll : ∀ (ss : List (List UInt8)) (t : StrTab),
    storedSize (addAll t ss).strings ≤ storedSize t.strings + storedSize ss
  | [], t => by simp [addAll, storedSize]
  | s :: ss, t => by
    have h := storedSize_addAll ss (t.add s).2
    rw [addAll_cons]
    have h2 : storedSize (t.add s).2.strings ≤ storedSize t.strings + (s.length + 1) := by
      rw [StrTab.add_strings]
      split
      · omega
      · rw [storedSize_append]; simp [storedSize]
    have h3 : storedSize (s :: ss) = s.length + 1 + storedSize ss := by simp [storedSize]
    omega

theorem storedSize_filter (p : List UInt8 → Bool) : ∀ (l : List (List UInt8)), storedSize (l.filter p) ≤ storedSize l
  | [] => by simp [storedSize]
  | s :: l => by
    have h := storedSize_filter p l
    have h3 : storedSize (s :: l) = s.length + 1 + storedSize l := by simp [storedSize]
    rw [List.filter_cons]
    split
    · have h4 : storedSize (s :: l.filter p) = s.length + 1 + storedSize (l.filter p) := by simp [storedSize]
      omega
    · omega

theorem encStrtab_sat (ss : List (List UInt8)) (hn : ∀ s ∈ ss, (0 : UInt8) ∉ s) :
    Res.Sat (U32 ≤ 1 + storedSize (addAll StrTab.new ss).strings) (encStrtab (addAll StrTab.new ss)) fun r =>
      r.1 = r.2.2.length ∧ r.2.1.strings = (addAll StrTab.new ss).strings ∧ Written r.2.1 r.2.2 ∧
      r.2.2.length ≤ 1 + storedSize (addAll StrTab.new ss).strings := by
  obtain ⟨offsets, out, h1, -, h3, h4⟩ := StrTab.write_merge_aux [0] ss hn (.inr (.inl rfl))
  have h5 := storedSize_filter (fun s => decide (Maximal (addAll StrTab.new ss).strings s)) (addAll StrTab.new ss).strings
  have h8 : out.length ≤ storedSize (addAll StrTab.new ss).strings := by omega
  unfold encStrtab
  have e : [(0 : UInt8)].length = 1 := rfl
  rw [e] at h1
  rw [h1]
  by_cases hb : 1 + out.length < U32
  · rw [if_pos hb]
    have hw : Written { (addAll StrTab.new ss) with offsets := offsets } (0 :: out) := by
      refine ⟨?_, ⟨[], out, rfl, rfl⟩, by simp; omega⟩
      intro id s hs
      obtain ⟨p, h9, h10⟩ := h3 id s hs
      have := StrTab.stringAt_lt h9
      have hp : p < U32 := by simp at this; omega
      refine ⟨p, ?_, hp, h9⟩
      unfold StrTab.getOffset
      show (match offsets[id]? with | some o => _ | none => _) = _
      rw [h10, Nat.mod_eq_of_lt hp]
    exact ⟨by simp; omega, rfl, hw, by simp; omega⟩
  · rw [if_neg hb]
    show U32 ≤ 1 + storedSize (addAll StrTab.new ss).strings
    omega

/-- The offset of a string. -/
def nmOf (t : StrTab) (s : List UInt8) : Nat :=
  match t.getOffset (idOf t s) with
  | .ok p => p
  | .err => 0
  | .panic => 0

theorem nmOf_spec {t : StrTab} {data s : List UInt8} (hw : Written t data) (hs : s ∈ t.strings) :
    nameOffset t (some (idOf t s)) = .ok (nmOf t s) ∧ nmOf t s < U32 ∧ StringAt data s (nmOf t s) := by
  obtain ⟨i, hi⟩ := StrTab.indexOf_isSome hs
  have h1 : idOf t s = i := by unfold idOf; rw [hi]; rfl
  obtain ⟨p, h2, h3, h4⟩ := hw.at_ i s (StrTab.indexOf_some hi)
  have h5 : nmOf t s = p := by unfold nmOf; rw [h1, h2]
  refine ⟨?_, by omega, by rw [h5]; exact h4⟩
  show t.getOffset (idOf t s) = _
  rw [h1, h5, h2]

theorem getId_eq {t : StrTab} {s : List UInt8} (hs : s ∈ t.strings) (hl : t.strings.length ≤ U32) :
    t.getId s = .ok (idOf t s) := by
  obtain ⟨i, hi⟩ := StrTab.indexOf_isSome hs
  have h1 := length_of_getElem? (StrTab.indexOf_some hi)
  unfold StrTab.getId idOf
  rw [hi]
  show Res.ok (i % U32) = .ok i
  rw [Nat.mod_eq_of_lt (by omega)]

/-! ## Methods -/

theorem reserve_eq {w : Wtr} {size align : Nat} (ha : AlignOk align) (h : w.len + align + size < U64) :
    w.reserve size align = .ok (up w.len align, { w with len := up w.len align + size }) := by
  unfold Wtr.reserve
  rw [elf_eq ha h]; rfl

theorem reserveSectionIndex_eq {w : Wtr} (h0 : w.layout.shoff = 0) (h : nx w.layout.sectionNum + 1 < U32) :
    w.reserveSectionIndex = .ok (nx w.layout.sectionNum,
      { w with layout := { w.layout with sectionNum := adv w.layout.sectionNum 1 } }) := by
  unfold Wtr.reserveSectionIndex
  rw [check_ok h0]
  show (addU32 (nx w.layout.sectionNum) 1).bind _ = _
  rw [addU32_eq h]; rfl

theorem addSectionName_eq {w : Wtr} {T : StrTab} {k : Nat} {s : List UInt8} (h0 : w.sh.offset = 0)
    (h : TabW w.sh.tab (k + 1)) (hs : (0 : UInt8) ∉ s) (hp : (w.sh.tab.add s).2.strings <+: T.strings) :
    w.addSectionName s = .ok (idOf T s, { w with sh := { w.sh with tab := (w.sh.tab.add s).2 } }) := by
  unfold Wtr.addSectionName
  rw [check_ok h0]
  show (tabAdd w.sh.tab s).bind _ = _
  rw [tabAdd_eq h hs hp]; rfl

theorem addString_eq {w : Wtr} {T : StrTab} {k : Nat} {s : List UInt8} (h0 : w.st.offset = 0)
    (h : TabW w.st.tab (k + 1)) (hs : (0 : UInt8) ∉ s) (hp : (w.st.tab.add s).2.strings <+: T.strings) :
    w.addString s = .ok (idOf T s, { w with st := { w.st with tab := (w.st.tab.add s).2 } }) := by
  unfold Wtr.addString
  rw [check_ok h0]
  show (tabAdd w.st.tab s).bind _ = _
  rw [tabAdd_eq h hs hp]; rfl

theorem reserveComdat_eq {w : Wtr} {count : Nat} (h : w.len + 4 + (count + 1) * 4 < U64) :
    w.reserveComdat count = .ok (up w.len 4, { w with len := up w.len 4 + (count + 1) * 4 }) := by
  unfold Wtr.reserveComdat
  rw [addU64_eq (by omega)]
  show (mulU64 (count + 1) 4).bind _ = _
  rw [mulU64_eq (by omega)]
  exact reserve_eq alignOk_4 h

/-! ## The loop over COMDATs -/

/-- Alignment and size of each group. -/
def comdatSizes (ds : List Comdat) : List (Nat × Nat) := ds.map fun d => (4, (d.sections.length + 1) * 4)

/-- The offsets reserved. -/
def comdatOffs (T : StrTab) : Nat → List Comdat → List ComdatOff
  | _, [] => []
  | len, d :: ds => ⟨up len 4, idOf T nGroup⟩ :: comdatOffs T (up len 4 + (d.sections.length + 1) * 4) ds

theorem prefix_tail {t : StrTab} {T : StrTab} {s : List UInt8} {ss : List (List UInt8)} {k : Nat} (h : TabW t (k + 1))
    (hp : (addAll t (s :: ss)).strings <+: T.strings) : (t.add s).2.strings <+: T.strings := by
  have h1 : ((addAll t [s])).strings.Nodup := (StrTab.addAll_strings [s] t h.nodup).1
  exact (addAll_prefix (t := (t.add s).2) h1 ss).trans hp

theorem TabW.add {t : StrTab} {k : Nat} (h : TabW t (k + 1)) (s : List UInt8) : TabW (t.add s).2 k :=
  TabW.addAll [s] (by simpa [Nat.add_comm] using h)

theorem reserveComdats_sat (o : Object) (E : Prop) (T : StrTab) (k : Nat) : ∀ (ds : List Comdat) (w : Wtr),
    (∀ d ∈ ds, d.symbol < o.symbols.length) → (∀ d ∈ ds, d.kind ≠ 1 → E) → w.layout.shoff = 0 → w.sh.offset = 0 →
    TabW w.sh.tab (ds.length + k) → nx w.layout.sectionNum + ds.length + 1 < U32 →
    w.len + cost (comdatSizes ds) < U64 →
    (addAll w.sh.tab (List.replicate ds.length nGroup)).strings <+: T.strings →
    Res.Sat E (reserveComdats o w ds) fun r => r = (comdatOffs T w.len ds,
      { w with len := endOf w.len (comdatSizes ds),
               layout := { w.layout with sectionNum := adv w.layout.sectionNum ds.length },
               sh := { w.sh with tab := addAll w.sh.tab (List.replicate ds.length nGroup) } }) ∧
      ∀ d ∈ ds, d.kind = 1 := by
  intro ds
  induction ds with
  | nil => intro w _ _ _ _ _ _ _ _; exact ⟨rfl, by simp⟩
  | cons d ds ih =>
    intro w h1 h2 h3 h4 h5 h6 h7 h8
    unfold reserveComdats
    by_cases hk : d.kind ≠ 1
    · rw [if_pos hk, if_pos (h1 d (by simp))]; exact h2 d (by simp) hk
    · rw [if_neg hk]
      simp only [List.length_cons] at *
      have h5' : TabW w.sh.tab (ds.length + k + 1) := h5.mono (by omega)
      have hc : cost (comdatSizes (d :: ds)) = 4 + (d.sections.length + 1) * 4 + cost (comdatSizes ds) := rfl
      rw [hc] at h7
      have hu := up_le w.len 4
      rw [reserveSectionIndex_eq h3 (by omega)]
      simp only [Res.bind_eq, Res.ok_bind]
      rw [reserveComdat_eq (by show w.len + 4 + _ < _; omega)]
      simp only [Res.ok_bind]
      rw [List.replicate_succ] at h8
      rw [addSectionName_eq (T := T) (k := ds.length + k) (by exact h4) (by exact h5') (by decide) (by exact prefix_tail h5' h8)]
      simp only [Res.ok_bind]
      refine Res.Sat.bind (ih _ (fun x hx => h1 x (by simp [hx])) (fun x hx => h2 x (by simp [hx])) (by exact h3)
        (by exact h4) (by exact h5'.add _) ?_ ?_ (by exact h8)) ?_
      · show nx (adv w.layout.sectionNum 1) + ds.length + 1 < U32
        rw [nx_adv]; omega
      · show up w.len 4 + (d.sections.length + 1) * 4 + cost (comdatSizes ds) < U64
        omega
      · rintro r ⟨rfl, hr⟩
        refine ⟨?_, ?_⟩
        · show (_, _) = (_, _)
          simp only [adv_adv, comdatOffs, List.length_cons, List.replicate_succ, Nat.add_comm 1 ds.length]
          rfl
        · intro x hx
          rcases List.mem_cons.1 hx with rfl | hx
          · exact Classical.byContradiction hk
          · exact hr x hx

/-! ## The loop over sections -/

/-- Alignment and size of each section. -/
def secSizes (ss : List Section) : List (Nat × Nat) := ss.map fun s => (s.align, s.data.length)

/-- Number of section headers. -/
def hdrs (ss : List Section) : Nat := (ss.map hdrCount).sum

/-- The names added for sections. -/
def secNames (r : Bool) : List Section → List (List UInt8)
  | [] => []
  | s :: ss => s.name :: ((if s.relocs = [] then [] else [relocName r s]) ++ secNames r ss)

/-- The id of the name of the relocation section. -/
def relId (T : StrTab) (r : Bool) (s : Section) : Option Nat := if s.relocs = [] then none else some (idOf T (relocName r s))

/-- The offsets reserved. -/
def secOffs (T : StrTab) (r : Bool) : Nat → Nat → List Section → List SecOff
  | _, _, [] => []
  | len, n, s :: ss => ⟨n, up len s.align, idOf T s.name, 0, relId T r s⟩ ::
      secOffs T r (up len s.align + s.data.length) (n + hdrCount s) ss

theorem nul_relocName {r : Bool} {s : Section} (h : (0 : UInt8) ∉ s.name) : (0 : UInt8) ∉ relocName r s := by
  unfold relocName
  rw [List.mem_append]
  rintro (h1 | h1)
  · cases r <;> revert h1 <;> decide
  · exact h h1

theorem length_secNames (r : Bool) : ∀ ss : List Section, (secNames r ss).length = hdrs ss
  | [] => rfl
  | s :: ss => by
    have h1 : hdrs (s :: ss) = hdrCount s + hdrs ss := by simp [hdrs]
    rw [h1]
    unfold secNames
    rw [List.length_cons, List.length_append, length_secNames r ss]
    unfold hdrCount
    split <;> simp <;> omega

theorem hdrs_cons (s : Section) (ss : List Section) : hdrs (s :: ss) = hdrCount s + hdrs ss := by simp [hdrs]

theorem hdrCount_pos (s : Section) : 1 ≤ hdrCount s := by unfold hdrCount; split <;> omega

theorem reserveRelocName_eq {r : Bool} {s : Section} {w : Wtr} {T : StrTab} {k : Nat} (h3 : w.layout.shoff = 0)
    (h4 : w.sh.offset = 0) (h5 : TabW w.sh.tab (k + 1)) (h6 : nx w.layout.sectionNum + 1 < U32)
    (hn : (0 : UInt8) ∉ s.name)
    (h8 : (addAll w.sh.tab (if s.relocs = [] then [] else [relocName r s])).strings <+: T.strings) :
    reserveRelocName r s w = .ok (relId T r s, { w with
      layout := { w.layout with sectionNum := adv w.layout.sectionNum (hdrCount s - 1) },
      sh := { w.sh with tab := addAll w.sh.tab (if s.relocs = [] then [] else [relocName r s]) } }) := by
  unfold reserveRelocName relId hdrCount
  by_cases hr : s.relocs = []
  · simp only [if_pos hr]; rfl
  · simp only [if_neg hr] at *
    rw [reserveSectionIndex_eq h3 h6]
    simp only [Res.bind_eq, Res.ok_bind]
    rw [addSectionName_eq (T := T) (k := k) (by exact h4) (by exact h5) (nul_relocName hn) (by exact h8)]
    rfl

theorem reserveSections_eq (r : Bool) (T : StrTab) (k : Nat) : ∀ (ss : List Section) (w : Wtr),
    (∀ s ∈ ss, (0 : UInt8) ∉ s.name) → (∀ s ∈ ss, AlignOk s.align) → w.layout.shoff = 0 → w.sh.offset = 0 →
    TabW w.sh.tab (hdrs ss + k + 1) → nx w.layout.sectionNum + hdrs ss + 1 < U32 →
    w.len + cost (secSizes ss) < U64 →
    (addAll w.sh.tab (secNames r ss)).strings <+: T.strings →
    reserveSections r w ss = .ok (secOffs T r w.len (nx w.layout.sectionNum) ss,
      { w with len := endOf w.len (secSizes ss),
               layout := { w.layout with sectionNum := adv w.layout.sectionNum (hdrs ss) },
               sh := { w.sh with tab := addAll w.sh.tab (secNames r ss) } }) := by
  intro ss
  induction ss with
  | nil => intro w _ _ _ _ _ _ _ _; rfl
  | cons s ss ih =>
    intro w h1 h2 h3 h4 h5 h6 h7 h8
    rw [hdrs_cons] at h5 h6
    have hp := hdrCount_pos s
    have h5' : TabW w.sh.tab (hdrs ss + k + 1 + 1) := h5.mono (by omega)
    have hc : cost (secSizes (s :: ss)) = s.align + s.data.length + cost (secSizes ss) := rfl
    rw [hc] at h7
    have hu := up_le w.len s.align
    have hn := h1 s (by simp)
    have h8a : (w.sh.tab.add s.name).2.strings <+: T.strings := prefix_tail h5' (by exact h8)
    have h8b : (addAll (addAll (w.sh.tab.add s.name).2 (if s.relocs = [] then [] else [relocName r s])) (secNames r ss)).strings
        <+: T.strings := by
      rw [← addAll_append]; exact h8
    have h5a : TabW (w.sh.tab.add s.name).2 (hdrCount s - 1 + hdrs ss + k + 1) := TabW.add (h5.mono (by omega)) _
    have hl : (if s.relocs = [] then [] else [relocName r s]).length = hdrCount s - 1 := by
      unfold hdrCount; split <;> rfl
    have h5b : TabW (addAll (w.sh.tab.add s.name).2 (if s.relocs = [] then [] else [relocName r s])) (hdrs ss + k + 1) :=
      TabW.addAll _ (h5a.mono (by rw [hl]; omega))
    have h8c : (addAll (w.sh.tab.add s.name).2 (if s.relocs = [] then [] else [relocName r s])).strings <+: T.strings :=
      (addAll_prefix h5b.nodup (secNames r ss)).trans h8b
    unfold reserveSections
    rw [reserveSectionIndex_eq h3 (by omega)]
    simp only [Res.bind_eq, Res.ok_bind]
    rw [reserve_eq (h2 s (by simp)) (by show w.len + s.align + _ < _; omega)]
    simp only [Res.ok_bind]
    rw [addSectionName_eq (T := T) (k := hdrs ss + k + 1) (by exact h4) (by exact h5') hn (by exact h8a)]
    simp only [Res.ok_bind]
    have hrel := @reserveRelocName_eq r s
      { w with len := up w.len s.align + s.data.length,
               layout := { w.layout with sectionNum := adv w.layout.sectionNum 1 },
               sh := { w.sh with tab := (w.sh.tab.add s.name).2 } } T (hdrs ss + k) h3 h4 (h5a.mono (by omega))
      (by show nx (adv w.layout.sectionNum 1) + 1 < U32
          rw [nx_adv]; omega) hn h8c
    rw [hrel]
    simp only [Res.ok_bind, adv_adv]
    have e1 : 1 + (hdrCount s - 1) = hdrCount s := by omega
    rw [e1]
    rw [ih _ (fun x hx => h1 x (by simp [hx])) (fun x hx => h2 x (by simp [hx])) (by exact h3) (by exact h4)
      (by exact h5b) (by show nx (adv w.layout.sectionNum (hdrCount s)) + hdrs ss + 1 < U32
                         rw [nx_adv]; omega)
      (by show up w.len s.align + s.data.length + cost (secSizes ss) < U64; omega) (by exact h8b)]
    simp only [Res.ok_bind, adv_adv, nx_adv, hdrs_cons]
    rw [← addAll_append]
    rfl

/-! ## Symbols -/

/-- The section header index of the section of a symbol. -/
def secIx (secs : List SecOff) (s : Symbol) : Option Nat :=
  match s.section_.id? with
  | none => none
  | some i => (secs[i]?).map (·.index)

/-- The symbol indices after one of the loops. -/
def ixs (p : Symbol → Bool) : Nat → List (Symbol × Nat) → List Nat
  | _, [] => []
  | n, (s, i) :: rest => if p s then n :: ixs p (n + 1) rest else i :: ixs p n rest

/-- Number of symbols for which `p` holds. -/
def cnt (p : Symbol → Bool) (l : List (Symbol × Nat)) : Nat := (l.filter fun x => p x.1).length

/-- Some symbol for which `p` holds needs an extended index. -/
def big (p : Symbol → Bool) (secs : List SecOff) (l : List (Symbol × Nat)) : Bool :=
  l.any fun x => p x.1 && largeIndex (secIx secs x.1)

theorem symSecIndex_eq {secs : List SecOff} {s : Symbol} (h : ∀ i, s.section_ = .inSec i → i < secs.length) :
    symSecIndex secs s = .ok (secIx secs s) := by
  unfold symSecIndex secIx
  cases hs : s.section_ with
  | inSec i =>
    have := h i hs
    simp only [SymSection.id?, List.getElem?_eq_getElem this, Option.map_some]
  | none => rfl
  | undefined => rfl
  | absolute => rfl
  | common => rfl

theorem reserveSymbols_eq (p : Symbol → Bool) (secs : List SecOff) : ∀ (l : List (Symbol × Nat)) (w : Wtr),
    (∀ x ∈ l, ∀ i, x.1.section_ = .inSec i → i < secs.length) → w.sy.offset = 0 → w.sx.offset = 0 → w.sy.num ≠ 0 →
    w.sy.num + cnt p l + 1 < U32 →
    reserveSymbols p secs w l = .ok (ixs p w.sy.num l,
      { w with sy := { w.sy with num := w.sy.num + cnt p l }, sx := { w.sx with need := w.sx.need || big p secs l } }) := by
  intro l
  induction l with
  | nil => intro w _ _ _ _ _; simp [reserveSymbols, ixs, cnt, big]
  | cons x l ih =>
    obtain ⟨s, i⟩ := x
    intro w h1 h2 h3 h4 h5
    unfold reserveSymbols ixs
    by_cases hp : p s
    · have hc : cnt p ((s, i) :: l) = cnt p l + 1 := by unfold cnt; rw [List.filter_cons_of_pos (by exact hp)]; rfl
      have hb : big p secs ((s, i) :: l) = (largeIndex (secIx secs s) || big p secs l) := by
        unfold big; rw [List.any_cons]; simp [hp]
      rw [hc] at h5 ⊢
      rw [hb]
      rw [if_pos hp, if_pos hp, symSecIndex_eq (h1 (s, i) (by simp))]
      simp only [Res.bind_eq, Res.ok_bind]
      have e : w.reserveSymbolIndex (secIx secs s) = .ok (w.sy.num, { w with
          sy := { w.sy with num := w.sy.num + 1 },
          sx := { w.sx with need := w.sx.need || largeIndex (secIx secs s) } }) := by
        unfold Wtr.reserveSymbolIndex
        rw [check_ok h2, check_ok h3]
        simp only [Res.bind_eq, Res.ok_bind, if_neg h4]
        rw [addU32_eq (by omega)]
        have hz : (w.sy.num == 0) = false := by simpa using h4
        simp only [Res.ok_bind, hz, Bool.or_false]
      rw [e]
      simp only [Res.ok_bind]
      rw [ih _ (fun x hx => h1 x (by simp [hx])) (by exact h2) (by exact h3) (by show w.sy.num + 1 ≠ 0; omega)
        (by show w.sy.num + 1 + cnt p l + 1 < U32; omega)]
      simp only [Res.ok_bind, Bool.or_assoc, Nat.add_assoc, Nat.add_comm 1]
    · have hc : cnt p ((s, i) :: l) = cnt p l := by unfold cnt; rw [List.filter_cons_of_neg (by simpa using hp)]
      have hb : big p secs ((s, i) :: l) = big p secs l := by unfold big; rw [List.any_cons]; simp [hp]
      rw [hc] at h5 ⊢
      rw [hb]
      rw [if_neg hp, if_neg hp, ih w (fun x hx => h1 x (by simp [hx])) h2 h3 h4 h5]
      rfl

/-- The names added for symbols. -/
def symNames (ss : List Symbol) : List (List UInt8) := (ss.filter hasName).map (·.name)

/-- The id of the name of a symbol. -/
def symId (U : StrTab) (s : Symbol) : Option Nat := if hasName s then some (idOf U s.name) else none

theorem addSymbolNames_eq (U : StrTab) (k : Nat) : ∀ (ss : List Symbol) (w : Wtr),
    (∀ s ∈ ss, hasName s = true → (0 : UInt8) ∉ s.name) → w.st.offset = 0 → TabW w.st.tab (ss.length + k) →
    (addAll w.st.tab (symNames ss)).strings <+: U.strings →
    addSymbolNames w ss = .ok (ss.map (symId U), { w with st := { w.st with tab := addAll w.st.tab (symNames ss) } }) := by
  intro ss
  induction ss with
  | nil => intro w _ _ _ _; rfl
  | cons s ss ih =>
    intro w h1 h2 h3 h4
    simp only [List.length_cons] at h3
    unfold addSymbolNames addSymbolName
    by_cases hn : hasName s
    · have hs : symNames (s :: ss) = s.name :: symNames ss := by unfold symNames; rw [List.filter_cons_of_pos hn]; rfl
      rw [hs] at h4 ⊢
      have h3' : TabW w.st.tab (ss.length + k + 1) := h3.mono (by omega)
      rw [if_pos hn, addString_eq (T := U) (k := ss.length + k) h2 h3' (h1 s (by simp) hn) (prefix_tail h3' h4)]
      simp only [Res.bind_eq, Res.ok_bind]
      rw [ih _ (fun x hx => h1 x (by simp [hx])) (by exact h2) (by exact h3'.add _) (by exact h4)]
      simp only [Res.ok_bind, List.map_cons, symId, if_pos hn]
      rfl
    · have hs : symNames (s :: ss) = symNames ss := by unfold symNames; rw [List.filter_cons_of_neg hn]
      rw [hs] at h4 ⊢
      rw [if_neg hn]
      simp only [Res.bind_eq, Res.ok_bind]
      rw [ih w (fun x hx => h1 x (by simp [hx])) h2 (h3.mono (by omega)) h4]
      simp only [Res.ok_bind, List.map_cons, symId, if_neg hn]

end Obj.ElfW

import Verif.Proof.BuildSize
import Verif.Spec.BuildSize

/-! The ELF builder: the sizes that are known before writing are those that are written. -/

namespace Obj.BuildW
open Obj Obj.Build Obj.Spec
open Obj.Spec.ElfF (SectionsOf headerIn)
open Obj.Spec.BuildW (live Sound loaded inGnuHash SizeRel SizeSet has localSym DynOrder)
open Obj.Elf (Shdr)

theorem isAlloc_eq (s : Sec) : isAlloc s = loaded s := by
  unfold isAlloc loaded
  have h : s.shFlags &&& 2 = if s.shFlags.testBit 1 then 2 else 0 := by
    apply Nat.eq_of_testBit_eq
    intro i
    rw [Nat.testBit_and]
    by_cases hi : i = 1
    · subst hi
      cases s.shFlags.testBit 1 <;> simp
    · have : Nat.testBit 2 i = false := by
        rw [show (2 : Nat) = 2 ^ 1 from rfl, Nat.testBit_two_pow]
        simp [Ne.symm hi]
      rw [this, Bool.and_false]
      split
      · exact this.symm
      · simp
  rw [h]
  cases s.shFlags.testBit 1 <;> simp

section
variable {c : Full} {p : Plan} {l : Layout} {out : List UInt8} {ss : List Shdr}

/-- The number of dynamic symbols. -/
theorem Tab.dynCount (t : Tab c p l out ss) : p.dyns.length = (live c.tables.dynamicSymbols).length := by
  have := t.ctx.plan.dyns.1.length_eq
  simpa using this

theorem gnuCount_eq {p : Plan} (hd : DynsOk c p) (hx : p.idx .gnuHash ≠ 0) (hp : DynOrder c.tables.dynamicSymbols (p.dyns.map (·.sym))) :
    p.gnuCount = ((live c.tables.dynamicSymbols).filter inGnuHash).length := by
  obtain ⟨-, A, B, C, e, hc, hA, hB, hC, -⟩ := hd.parts hx
  have hperm := (hp.1.filter inGnuHash).length_eq
  rw [← hperm, List.filter_map, List.length_map, e, List.filter_append, List.filter_append]
  have hh : ∀ d ∈ p.dyns, isLocal d.sym = false → (inGnuHash d.sym = true ↔ d.gnu ≠ none) := by
    intro d hm hl
    rw [(hd.each d hm).gnu hx]
    unfold inGnuHash
    rw [show localSym d.sym = false from hl]
    simp only [Bool.not_false, Bool.true_and, Bool.and_eq_true, Bool.or_eq_true, bne_iff_ne, ne_eq, Option.isSome_iff_ne_none]
    by_cases h1 : d.sym.name = [] <;> by_cases h2 : d.sym.section_ = none <;> by_cases h3 : d.sym.shndx = 0 <;> simp [h1, h2, h3]
  have k1 : A.filter (inGnuHash ∘ (·.sym)) = [] := by
    rw [List.filter_eq_nil_iff]
    intro d hm
    have : localSym d.sym = true := hA d hm
    simp [inGnuHash, this]
  have k2 : B.filter (inGnuHash ∘ (·.sym)) = [] := by
    rw [List.filter_eq_nil_iff]
    intro d hm
    obtain ⟨h1, h2⟩ := hB d hm
    have := hh d (by rw [e]; simp [hm]) h1
    simp only [Function.comp]
    rw [this]
    exact fun h => h h2
  have k3 : C.filter (inGnuHash ∘ (·.sym)) = C := by
    rw [List.filter_eq_self]
    intro d hm
    obtain ⟨h1, h2⟩ := hC d hm
    exact (hh d (by rw [e]; simp [hm]) h1).2 h2
  rw [k1, k2, k3, hc]
  simp

/-- The size of a loaded section. -/
theorem Tab.size (t : Tab c p l out ss) (hp : plan c = .ok p) (hg : live c.tables.segments ≠ []) {i : Nat} {s : Sec} (hs : p.secs[i]? = some s) (ha : loaded s = true) :
    ∃ h n, ss[i + 1]? = some h ∧ sectionSize c s = .ok n ∧ SizeRel c s.data n h.size := by
  have x := t.ctx
  obtain ⟨h, h1, h2⟩ := t.at_ i s hs
  obtain ⟨q1, q2, q3⟩ := plan_sizes hp
  have hdy := plan_dyns hp
  have hcfg : cfgOf c = p.cfg := by rw [x.plan.cfg]; rfl
  have hmem : s ∈ live c.tables.sections := by rw [← x.secs]; exact List.mem_of_getElem? hs
  have hlive : s.delete = false := by
    have := (List.mem_filter.1 hmem).2
    simp only [Bool.not_eq_true'] at this
    exact this
  obtain ⟨a, ha1, -⟩ := each_get_left x.plan.attrs hs
  have hz := x.lay.sizes i s a hs ha1
  have hsize := h2.size
  have hcond : (s.delete || !isAlloc s) = false := by rw [isAlloc_eq, hlive, ha]; rfl
  have hcount : Build.count c.tables.dynamicSymbols = p.dyns.length := by
    rw [t.dynCount]
    unfold Build.count
    rw [iter_eq]; rfl
  have hdef : Build.countDefined c.tables.dynamicSymbols = ((live c.tables.dynamicSymbols).filter fun s => s.shndx != 0).length := by
    unfold Build.countDefined
    rw [iter_eq]
    congr 2
    funext s
    by_cases h : s.shndx = 0 <;> simp [h]
  have hdlt : p.dyns.length < 2 ^ 32 ∧ (has c .dynamicSymbol → p.dynNum = (1 + p.dyns.length) % U32) ∧ (¬ has c .dynamicSymbol → p.dynNum = 0 ∧ p.dyns.length = 0) := by
    have hi := t.idx_has (k := .dynamicSymbol) rfl
    rcases x.plan.dynNum with ⟨g1, g2, g3⟩ | ⟨g1, g2, g3⟩
    · refine ⟨by rw [g2]; decide, fun hh => absurd (hi.2 hh) (by simp [g1]), fun _ => ⟨g3, by rw [g2]; rfl⟩⟩
    · refine ⟨by omega, fun _ => ?_, fun hh => absurd (hi.1 g1) hh⟩
      rw [Nat.mod_eq_of_lt (by rw [← g2]; exact g3), g2]
  have hdeflt : Build.countDefined c.tables.dynamicSymbols % U32 = ((live c.tables.dynamicSymbols).filter fun s => s.shndx != 0).length := by
    rw [hdef]
    refine Nat.mod_eq_of_lt (Nat.lt_of_le_of_lt (List.length_filter_le _ _) ?_)
    rw [← t.dynCount]; exact hdlt.1
  refine ⟨h, ?_⟩
  suffices hh : ∃ n, sectionSize c s = .ok n ∧ SizeRel c s.data n h.size from by
    obtain ⟨n, e1, e2⟩ := hh; exact ⟨n, h1, e1, e2⟩
  unfold sectionSize
  rw [hcond, hsize]
  simp only [Bool.false_eq_true, if_false]
  have hk : keepsOffset c s = true := by
    unfold keepsOffset
    rw [isAlloc_eq, ha]
    cases he : Build.isEmpty c.tables.segments with
    | true =>
      have := (isEmpty_iff _).1 he
      rw [iter_eq] at this
      exact absurd this hg
    | false => rfl
  obtain ⟨-, hal⟩ := hz.alloc hk
  rcases hal with ⟨len, e1, e2⟩ | ⟨e1, al, e2⟩
  · rw [e1, e2]
    exact ⟨len, rfl, rfl⟩
  · unfold allocSize at e2
    have hhas : has c s.data := ⟨s, hmem, rfl⟩
    cases hd : s.data <;> rw [hd] at e2 hhas <;> simp only [Res.ok.injEq, Prod.mk.injEq, reduceCtorEq] at e2 <;> unfold SizeRel <;> simp only
    case data d => exact ⟨_, rfl, e2.1⟩
    case note d => exact ⟨_, rfl, e2.1⟩
    case dynRelocs d => exact ⟨_, rfl, by rw [← e2.1, hcfg]⟩
    case dynamic d => exact ⟨_, rfl, by rw [← e2.1, hcfg]⟩
    case dynamicString => exact ⟨_, q1, e2.1⟩
    case dynamicSymbol =>
      refine ⟨_, rfl, ?_⟩
      have hn : p.dynNum = 1 + p.dyns.length := by
        rcases x.plan.dynNum with ⟨g1, -⟩ | ⟨-, g2, -⟩
        · exact absurd ((t.idx_has rfl).2 hhas) (by simp [g1])
        · exact g2
      rw [← e2.1, hn]
      unfold dynamicSymbolSize
      rw [hcount, hcfg]
    case hash =>
      refine ⟨_, rfl, ?_⟩
      unfold hashSize
      rw [hcount, ← e2.1]
      refine ⟨fun hh => by rw [hdlt.2.1 hh], fun hh => ?_⟩
      obtain ⟨k1, k2⟩ := hdlt.2.2 hh
      rw [k1, k2]
    case gnuHash =>
      refine ⟨_, rfl, ?_⟩
      unfold gnuHashSize
      rw [hdeflt, hcfg, ← gnuCount_eq hdy ((t.idx_has rfl).2 hhas) x.plan.dyns, ← e2.1]
      omega
    case gnuVersym =>
      refine ⟨_, rfl, ?_⟩
      unfold gnuVersymSize
      rw [hcount, ← e2.1, hdlt.2.1 (x.sound.tables.2.2.2.1 hhas)]
    case gnuVerdef => exact ⟨_, q2, e2.1⟩
    case gnuVerneed => exact ⟨_, rfl, by rw [q3]; exact e2.1⟩

end

/-! ## Setting the sizes -/

/-- The size of a section depends on the builder only by these. -/
structure SameSizes (b b' : Full) : Prop where
  rest : b' = setSections b b'.tables.sections
  strings : dynStrings (iter b'.tables.sections) = dynStrings (iter b.tables.sections)

theorem SameSizes.size {b b' : Full} (h : SameSizes b b') (s : Sec) (n : Nat) : sectionSize b' { s with shSize := n } = sectionSize b s := by
  have e1 : sectionSize b' { s with shSize := n } = sectionSize b' s := rfl
  have e2 : dynamicStringSize b' = dynamicStringSize b := by
    unfold dynamicStringSize sizeStrings
    rw [h.strings, h.rest]; rfl
  rw [e1]
  unfold sectionSize
  rw [e2, h.rest]; rfl

theorem strings_set : ∀ (l : List Sec) (i : Nat) (s : Sec) (n : Nat), l[i]? = some s → dynStrings (iter (l.set i { s with shSize := n })) = dynStrings (iter l) := by
  intro l
  induction l with
  | nil => intro i s n h; simp at h
  | cons y ys ih =>
    intro i s n h
    unfold dynStrings at ih ⊢
    simp only [iter_eq] at ih ⊢
    cases i with
    | zero =>
      simp only [List.getElem?_cons_zero, Option.some.injEq] at h
      subst h
      simp only [List.set_cons_zero, List.filter_cons]
      have e : Item.deleted ({ y with shSize := n } : Sec) = Item.deleted y := rfl
      rw [e]
      split
      · rfl
      · rfl
    | succ i =>
      simp only [List.getElem?_cons_succ] at h
      simp only [List.set_cons_succ, List.filter_cons]
      split
      · rw [List.flatMap_cons, List.flatMap_cons, ih i s n h]
      · exact ih i s n h

theorem setStep_ok {b b' : Full} {i : Nat} (h : setSizeStep b i = .ok b') :
    SameSizes b b' ∧ ∃ s s', b.tables.sections[i]? = some s ∧ b'.tables.sections = b.tables.sections.set i s' ∧ SizeSet (sectionSize b) s s' := by
  unfold setSizeStep at h
  split at h
  · cases h
  next s hs =>
  have hc : (s.delete || !isAlloc s) = false ↔ s.delete = false ∧ loaded s = true := by
    rw [isAlloc_eq]; cases s.delete <;> cases loaded s <;> simp
  by_cases hd : s.delete = false ∧ loaded s = true
  · rw [hc.2 hd] at h
    simp only [Bool.false_eq_true, if_false, Res.bind_eq_ok] at h
    obtain ⟨n, h1, h2⟩ := h
    cases h2
    refine ⟨⟨rfl, strings_set _ _ _ _ hs⟩, s, { s with shSize := n }, hs, rfl, ?_⟩
    unfold SizeSet
    rw [if_pos hd]
    exact ⟨n, h1, rfl⟩
  · have : (s.delete || !isAlloc s) = true := by
      cases hx : (s.delete || !isAlloc s) with
      | true => rfl
      | false => exact absurd (hc.1 hx) hd
    rw [if_pos this] at h
    cases h
    refine ⟨⟨rfl, rfl⟩, s, s, hs, ?_, ?_⟩
    · obtain ⟨hlt, e⟩ := List.getElem?_eq_some_iff.1 hs
      rw [← e, List.set_getElem_self]
    · unfold SizeSet
      rw [if_neg hd]

theorem sizeSet_trans {b b1 : Full} (h : SameSizes b b1) {s s1 s2 : Sec} (h1 : SizeSet (sectionSize b) s s1 ∨ s1 = s) (h2 : SizeSet (sectionSize b1) s1 s2) :
    SizeSet (sectionSize b) s s2 := by
  have key : ∀ n, s1 = { s with shSize := n } → SizeSet (sectionSize b) s s2 := by
    intro n e
    subst e
    have h2 : if s.delete = false ∧ loaded s = true then ∃ k, sectionSize b1 { s with shSize := n } = .ok k ∧ s2 = { s with shSize := k }
        else s2 = { s with shSize := n } := h2
    unfold SizeSet
    by_cases hd : s.delete = false ∧ loaded s = true
    · rw [if_pos hd] at h2
      rw [if_pos hd]
      obtain ⟨k, k1, k2⟩ := h2
      rw [h.size] at k1
      exact ⟨k, k1, k2⟩
    · rw [if_neg hd]
      rcases h1 with h1 | h1
      · unfold SizeSet at h1
        rw [if_neg hd] at h1
        rw [if_neg hd] at h2
        rw [h2, h1]
      · rw [if_neg hd] at h2
        rw [h2, h1]
  rcases h1 with h1 | h1
  · have h1' := h1
    unfold SizeSet at h1
    split at h1
    · obtain ⟨n, -, e⟩ := h1
      exact key n e
    · exact key s.shSize (by rw [h1])
  · exact key s.shSize (by rw [h1])

theorem setSizes_fold : ∀ (is : List Nat) {b b' : Full}, foldR setSizeStep b is = .ok b' →
    SameSizes b b' ∧ b'.tables.sections.length = b.tables.sections.length ∧
    ∀ (i : Nat) s, b.tables.sections[i]? = some s → ∃ s', b'.tables.sections[i]? = some s' ∧
      (i ∈ is → SizeSet (sectionSize b) s s') ∧ (i ∉ is → s' = s) := by
  intro is
  induction is with
  | nil => intro b b' h; cases h; exact ⟨⟨rfl, rfl⟩, rfl, fun i s h => ⟨s, h, by simp, fun _ => rfl⟩⟩
  | cons j js ih =>
    intro b b' h
    obtain ⟨b1, h1, h2⟩ := foldR_cons.1 h
    obtain ⟨p1, s0, s0', p2, p3, p4⟩ := setStep_ok h1
    obtain ⟨q1, q2, q3⟩ := ih h2
    refine ⟨⟨?_, by rw [q1.strings, p1.strings]⟩, by rw [q2, p3, List.length_set], ?_⟩
    · have e1 := q1.rest
      rw [p1.rest] at e1
      exact e1
    intro i s hi
    by_cases hij : i = j
    · subst hij
      rw [p2] at hi; cases hi
      have hlt := (List.getElem?_eq_some_iff.1 p2).1
      obtain ⟨s', k1, k2, k3⟩ := q3 i s0' (by rw [p3, List.getElem?_set_self hlt])
      refine ⟨s', k1, fun _ => ?_, fun hn => absurd (by simp) hn⟩
      by_cases hm : i ∈ js
      · exact sizeSet_trans p1 (.inl p4) (k2 hm)
      · rw [k3 hm]; exact p4
    · obtain ⟨s', k1, k2, k3⟩ := q3 i s (by rw [p3, List.getElem?_set_ne (Ne.symm hij)]; exact hi)
      refine ⟨s', k1, fun hm => ?_, fun hm => k3 (by simp only [List.mem_cons, not_or] at hm; exact hm.2)⟩
      have hm' : i ∈ js := by
        rcases List.mem_cons.1 hm with h | h
        · exact absurd h hij
        · exact h
      exact sizeSet_trans p1 (.inr rfl) (k2 hm')

end Obj.BuildW

import Verif.Model.BuildSize
import Verif.Proof.BuildW21
import Verif.Proof.StrTab

/-! The ELF builder: the sizes that are known before writing. -/

namespace Obj.BuildW
open Obj Obj.Build Obj.Spec
open Obj.Spec.BuildW (live isDef)

/-! ## String tables -/

theorem built_strings {t : StrTab} (hb : Built t) : t.strings.Nodup ∧ (∀ s ∈ t.strings, (0 : UInt8) ∉ s) ∧ t.offsets = [] ∧ t.inOrder = false := by
  obtain ⟨ss, h, rfl⟩ := hb
  obtain ⟨a1, -, a3, a4, -⟩ := StrTab.addAll_strings ss StrTab.new (by simp [StrTab.new])
  refine ⟨a1, ?_, StrTab.addAll_offsets_merge ss StrTab.new rfl, a4⟩
  intro s hs
  rw [a3] at hs
  exact h s (by simpa [StrTab.new] using hs)

theorem tabAdd_mem {t t' : StrTab} {s : List UInt8} {id : Nat} (hb : Built t) (h : ElfW.tabAdd t s = .ok (id, t')) :
    ∀ x, x ∈ t'.strings ↔ x ∈ t.strings ∨ x = s := by
  unfold ElfW.tabAdd at h
  by_cases hc : t.addAssert s = true
  · rw [ElfW.check_ok hc] at h
    have h : Res.ok (t.add s) = Res.ok (id, t') := h
    injection h with h
    have e1 : (t.add s).2 = t' := by rw [h]
    intro x
    rw [← e1, StrTab.add_strings]
    split
    · next hm =>
      constructor
      · exact Or.inl
      · rintro (hx | rfl)
        · exact hx
        · exact hm
    · simp
  · exfalso
    have e : ElfW.check (t.addAssert s = true) = .panic := if_neg hc
    rw [e] at h
    cases h

theorem addAll_mem : ∀ (ss : List (List UInt8)) {t t' : StrTab}, Built t → addAll t ss = .ok t' →
    ∀ x, x ∈ t'.strings ↔ x ∈ t.strings ∨ x ∈ ss := by
  intro ss
  induction ss with
  | nil => intro t t' _ h; cases h; simp
  | cons s ss ih =>
    intro t t' hb h x
    obtain ⟨u, h1, h2⟩ := foldR_cons.1 h
    rw [Res.bind_eq_ok] at h1
    obtain ⟨⟨id, v⟩, h1, h3⟩ := h1
    injection h3 with h3
    simp only at h3
    subst h3
    rw [ih (tabAdd_ok hb h1).1 h2, tabAdd_mem hb h1]
    simp [or_assoc]

theorem addAll_total : ∀ (ss : List (List UInt8)) {t : StrTab}, Built t → (∀ s ∈ ss, (0 : UInt8) ∉ s) → ∃ t', addAll t ss = .ok t' := by
  intro ss
  induction ss with
  | nil => intro t _ _; exact ⟨t, rfl⟩
  | cons s ss ih =>
    intro t hb hn
    obtain ⟨-, -, ho, -⟩ := built_strings hb
    have hc : t.addAssert s = true := by
      unfold StrTab.addAssert
      rw [ho]
      simpa using hn s (by simp)
    have ha : ElfW.tabAdd t s = .ok (t.add s) := by
      unfold ElfW.tabAdd
      rw [ElfW.check_ok hc]; rfl
    have hb' : Built (t.add s).2 := (tabAdd_ok (id := (t.add s).1) (t' := (t.add s).2) hb ha).1
    obtain ⟨t', h'⟩ := ih hb' (fun x hx => hn x (by simp [hx]))
    refine ⟨t', foldR_cons.2 ⟨(t.add s).2, ?_, h'⟩⟩
    rw [ha]; rfl

theorem stored_perm {a b : List (List UInt8)} (h : a.Perm b) : storedSize a = storedSize b := by
  unfold storedSize
  exact (h.map _).sum_nat

/-- The size depends on the strings that are not empty. -/
theorem size_congr {t t' : StrTab} (hb : Built t) (hb' : Built t') (h : ∀ s, s ≠ [] → (s ∈ t.strings ↔ s ∈ t'.strings)) :
    t.sizeOf 1 = t'.sizeOf 1 := by
  obtain ⟨n1, -⟩ := built_strings hb
  obtain ⟨n2, -⟩ := built_strings hb'
  obtain ⟨ss, hn, rfl⟩ := hb
  obtain ⟨ss', hn', rfl⟩ := hb'
  obtain ⟨o1, out1, -, a2, -, a4⟩ := StrTab.write_merge_aux [0] ss hn (Or.inr (Or.inl rfl))
  obtain ⟨o2, out2, -, b2, -, b4⟩ := StrTab.write_merge_aux [0] ss' hn' (Or.inr (Or.inl rfl))
  simp only [List.length_singleton] at a2 b2
  rw [a2, b2, a4, b4]
  congr 2
  refine stored_perm ((List.perm_ext_iff_of_nodup (n1.filter _) (n2.filter _)).2 ?_)
  intro s
  simp only [List.mem_filter, decide_eq_true_eq]
  have key : ∀ (l l' : List (List UInt8)), (∀ s, s ≠ [] → (s ∈ l ↔ s ∈ l')) → s ∈ l ∧ Maximal l s → s ∈ l' ∧ Maximal l' s := by
    intro l l' hl ⟨h1, h2, h3⟩
    refine ⟨(hl s h2).1 h1, h2, ?_⟩
    intro x hx hs
    have : x ≠ [] := by
      rintro rfl
      exact h2 (List.suffix_nil.1 hs)
    exact h3 x ((hl x this).2 hx) hs
  exact ⟨key _ _ h, key _ _ fun s hs => (h s hs).symm⟩

theorem tabOut_size {t : StrTab} {o : TabOut} (hb : Built t) (h : tabOut t = .ok o) : t.sizeOf 1 = .ok o.len := by
  obtain ⟨ss, hn, rfl⟩ := hb
  obtain ⟨o1, out1, a1, a2, -⟩ := StrTab.write_merge_aux [0] ss hn (Or.inr (Or.inl rfl))
  simp only [List.length_singleton] at a1 a2
  unfold tabOut ElfW.encStrtab at h
  rw [a1] at h
  rw [a2]
  split at h
  · next e =>
    simp only [Prod.mk.injEq] at e
    obtain ⟨e1, -, -⟩ := e
    split at e1
    · cases e1; cases h; rfl
    · cases e1
  · cases h
  · cases h

/-! ## The strings of the plan -/

theorem dynOuts_mem {m : Idx} : ∀ (ss : List Sym) {t t' : StrTab} {ds : List DynOut}, Built t → dynOuts m t ss = .ok (ds, t') →
    ∀ x, x ≠ [] → (x ∈ t'.strings ↔ x ∈ t.strings ∨ x ∈ ss.map (·.name)) := by
  intro ss
  induction ss with
  | nil => intro t t' ds _ h x _; cases h; simp
  | cons s ss ih =>
    intro t t' ds hb h x hx
    unfold dynOuts at h
    rw [Res.bind_eq_ok] at h
    obtain ⟨⟨d, u⟩, h1, h⟩ := h
    rw [Res.bind_eq_ok] at h
    obtain ⟨⟨ds', u'⟩, h2, h⟩ := h
    cases h
    simp only at h2
    have key : Built u ∧ (x ∈ u.strings ↔ x ∈ t.strings ∨ x = s.name) := by
      unfold dynOut at h1
      by_cases hs : s.name = []
      · rw [if_pos hs] at h1; cases h1
        refine ⟨hb, ?_⟩
        rw [hs]; simp [hx]
      · rw [if_neg hs, Res.bind_eq_ok] at h1
        obtain ⟨⟨id, u2⟩, h3, h4⟩ := h1
        cases h4
        exact ⟨(tabAdd_ok hb h3).1, tabAdd_mem hb h3 x⟩
    rw [ih key.1 h2 x hx, key.2]
    simp [or_assoc]

theorem verStep_mem {base : Option (List UInt8)} {o o' : VerOut} {v : Ver} (hb : Built o.tab) (h : verStep base o v = .ok o') :
    ∀ x ∈ o'.tab.strings, x ∈ o.tab.strings ∨ x ∈ versionStrings v := by
  intro x hx
  unfold verStep at h
  unfold versionStrings
  split at h
  · next e =>
    rw [e]
    split at h
    · cases h; exact .inl hx
    · rw [Res.bind_eq_ok] at h
      obtain ⟨t, h1, h2⟩ := h
      cases h2
      exact (addAll_mem _ hb h1 x).1 hx
  · next e =>
    rw [e]
    rw [Res.bind_eq_ok] at h
    obtain ⟨⟨id, t⟩, h1, h2⟩ := h
    split at h2
    · cases h2
    · cases h2
      rcases (tabAdd_mem hb h1 x).1 hx with h | h
      · exact .inl h
      · exact .inr (by simp [h])

theorem verFold_mem {base : Option (List UInt8)} : ∀ (vs : List Ver) {o o' : VerOut}, Built o.tab → foldR (verStep base) o vs = .ok o' →
    ∀ x ∈ o'.tab.strings, x ∈ o.tab.strings ∨ x ∈ vs.flatMap versionStrings := by
  intro vs
  induction vs with
  | nil => intro o o' _ h x hx; cases h; exact .inl hx
  | cons v vs ih =>
    intro o o' hb h x hx
    obtain ⟨u, h1, h2⟩ := foldR_cons.1 h
    rcases ih (verStep_tab hb h1).1 h2 x hx with h | h
    · rcases verStep_mem hb h1 x h with h | h
      · exact .inl h
      · exact .inr (by simp [h])
    · rw [List.flatMap_cons, List.mem_append]; exact .inr (.inr h)

/-- What the loop over the versions finds. -/
structure VerFacts (b : Full) (t : StrTab) (o : VerOut) : Prop where
  mem : ∀ x, x ∈ o.tab.strings ↔ x ∈ t.strings ∨ x ∈ b.versionBase.toList ∨ x ∈ (iter b.tables.versions).flatMap versionStrings ∨
    x ∈ (iter b.tables.versionFiles).map (·.name)
  built : Built o.tab
  counts : foldR (verdefSizeStep b.versionBase) (if b.versionBase.isSome then (1, 1) else (0, 0)) (iter b.tables.versions) = .ok (o.defs, o.auxs)
  needs : o.vernauxs = ((iter b.tables.versions).filter isNeed).length
  files : (iter b.tables.versionFiles).length < U16

theorem verFold_counts {base : Option (List UInt8)} : ∀ (vs : List Ver) {o o' : VerOut}, foldR (verStep base) o vs = .ok o' → o.defs + vs.length < U16 →
    foldR (verdefSizeStep base) (o.defs, o.auxs) vs = .ok (o'.defs, o'.auxs) := by
  intro vs
  induction vs with
  | nil => intro o o' h _; cases h; rfl
  | cons v vs ih =>
    intro o o' h hl
    obtain ⟨u, h1, h2⟩ := foldR_cons.1 h
    have hl' : o.defs + 1 + vs.length < U16 := by simp only [List.length_cons] at hl; omega
    refine foldR_cons.2 ⟨(u.defs, u.auxs), ?_, ih h2 ?_⟩
    · unfold verStep at h1
      unfold verdefSizeStep
      split at h1
      · next e =>
        rw [e]
        simp only
        rw [if_neg (by omega)]
        split at h1
        · next hs => cases h1; rw [if_pos hs]
        · next hs =>
          rw [Res.bind_eq_ok] at h1
          obtain ⟨t, -, h1⟩ := h1
          cases h1; rw [if_neg hs]
      · next e =>
        rw [e]
        rw [Res.bind_eq_ok] at h1
        obtain ⟨t, -, h1⟩ := h1
        split at h1
        · cases h1
        · cases h1; rfl
    · have := verStep_defs h1
      split at this <;> omega

theorem iter_length_le {α : Type} [Item α] (t : List α) : (iter t).length ≤ t.length := by
  rw [iter_eq]; exact List.length_filter_le _ _

theorem ver_facts {b : Full} {t : StrTab} {o : VerOut} (hb : Built t) (h : versions b t = .ok o) : VerFacts b t o := by
  obtain ⟨i, hi⟩ := verInv hb h
  have hvs : iter b.tables.versions = live b.tables.versions := iter_eq _
  have hfs : iter b.tables.versionFiles = live b.tables.versionFiles := iter_eq _
  have hstr : ∀ v, versionStrings v = verStrings v := fun v => rfl
  unfold versions at h
  split at h
  · cases h
  next hlen =>
  simp only [Res.bind_eq_ok] at h
  obtain ⟨o1, h1, o2, h2, t3, h3, h4⟩ := h
  split at h4
  · cases h4
  next hf =>
  cases h4
  have hle := iter_length_le b.tables.versions
  have i1 := verInv_base hb h1
  have b2 : Built o2.tab := (verInv_fold _ i1 h2).built
  have hdefs : o1.defs ≤ 1 := by
    have := i1.defs
    simp only [List.filter_nil, List.length_nil] at this
    cases hbase : b.versionBase <;> rw [hbase] at this <;> simp at this <;> omega
  have m1 : ∀ x ∈ o1.tab.strings, x ∈ t.strings ∨ x ∈ b.versionBase.toList := by
    intro x hx
    unfold verBase at h1
    split at h1
    · cases h1; exact .inl hx
    · next n e =>
      rw [Res.bind_eq_ok] at h1
      obtain ⟨⟨id, t'⟩, k1, k2⟩ := h1
      cases k2
      rcases (tabAdd_mem hb k1 x).1 hx with h | h
      · exact .inl h
      · exact .inr (by rw [e, h]; simp)
  have m0 : t.strings <+: o1.tab.strings := by
    unfold verBase at h1
    split at h1
    · cases h1; exact List.prefix_refl _
    · rw [Res.bind_eq_ok] at h1
      obtain ⟨⟨id, t'⟩, k1, k2⟩ := h1
      cases k2
      exact (tabAdd_ok hb k1).2.1
  have pre : ∀ (vs : List Ver) {o o' : VerOut}, Built o.tab → foldR (verStep b.versionBase) o vs = .ok o' → o.tab.strings <+: o'.tab.strings := by
    intro vs
    induction vs with
    | nil => intro o o' _ h; cases h; exact List.prefix_refl _
    | cons v vs ih =>
      intro o o' hb h
      obtain ⟨u, k1, k2⟩ := foldR_cons.1 h
      obtain ⟨a, c⟩ := verStep_tab hb k1
      exact c.trans (ih a k2)
  obtain ⟨b3, p3, -⟩ := addAll_ok b2 h3
  have hpre : t.strings <+: t3.strings := m0.trans ((pre _ i1.built h2).trans p3)
  refine ⟨?_, b3, ?_, ?_, by omega⟩
  · intro x
    constructor
    · intro hx
      rcases (addAll_mem _ b2 h3 x).1 hx with h | h
      · rcases verFold_mem _ i1.built h2 x h with h | h
        · rcases m1 x h with h | h
          · exact .inl h
          · exact .inr (.inl h)
        · exact .inr (.inr (.inl h))
      · exact .inr (.inr (.inr h))
    · rintro (h | h | h | h)
      · exact hpre.subset h
      · exact i.strings.1 x (by simpa using h)
      · obtain ⟨v, hv, hx⟩ := List.mem_flatMap.1 h
        exact i.strings.2 v (by rw [← hvs]; exact hv) x hx
      · obtain ⟨f, hf, rfl⟩ := List.mem_map.1 h
        exact hi f (by rw [← hfs]; exact hf)
  · have hc := verFold_counts _ h2 (by have : (U16 : Nat) = 65536 := rfl; omega)
    have e : (o1.defs, o1.auxs) = if b.versionBase.isSome then (1, 1) else (0, 0) := by
      unfold verBase at h1
      split at h1
      · next e => cases h1; rw [e]; rfl
      · next n e =>
        rw [Res.bind_eq_ok] at h1
        obtain ⟨_, -, k2⟩ := h1
        cases k2; rw [e]; rfl
    rw [← e]; exact hc
  · have := i.vernauxs
    simp only at this
    rw [this, hvs]
    congr 2
    funext v
    unfold isDef isNeed
    cases v.data <;> rfl

theorem ordered_mem (t : List Sym) (x : List UInt8) : x ∈ (ordered t).map (·.name) ↔ x ∈ (iter t).map (·.name) :=
  ((ordered_perm t).map _).mem_iff

/-- The size of the dynamic strings is the size of those that are written. -/
theorem plan_sizes {c : Full} {p : Plan} (h : plan c = .ok p) : dynamicStringSize c = .ok p.dynstr.len ∧
    gnuVerdefSize c = .ok (p.ver.defs * 20 + p.ver.auxs * 8) ∧ gnuVerneedSize c = p.verneeds * 16 + p.ver.vernauxs * 16 := by
  unfold plan at h
  simp only [Res.bind_eq_ok] at h
  obtain ⟨secNum, h1, ⟨m, ns, st⟩, h2, secIdx, h3, dt, h4, ⟨dn, ds, nl, gc, di, dt2⟩, h5, ⟨sn, ss, sns, nsh, nls, si, stt⟩, h6, ver, h7, attrs, h8, h⟩ := h
  split at h
  · cases h
  simp only [Res.bind_eq_ok] at h
  obtain ⟨o1, g1, o2, g2, o3, g3, h⟩ := h
  cases h
  simp only [] at h5 h7 g3 ⊢
  unfold planDyns at h5
  simp only [Res.bind_eq_ok] at h5
  obtain ⟨num, e1, ⟨os, dt3⟩, e2, ⟨gl, gn⟩, e3, v, e4, e5⟩ := h5
  cases e5
  obtain ⟨b4, -, -⟩ := addAll_ok built_new h4
  obtain ⟨b5, -⟩ := dynOuts_ok b4 e2
  have f := ver_facts b5 h7
  have hmem : ∀ x, x ≠ [] → (x ∈ ver.tab.strings ↔ x ∈ sizeStrings c) := by
    intro x hx
    rw [f.mem, dynOuts_mem _ b4 e2 x hx, addAll_mem _ built_new h4, ordered_mem]
    unfold sizeStrings
    simp [StrTab.new, or_assoc]
  have hnul : ∀ x ∈ sizeStrings c, (0 : UInt8) ∉ x := by
    intro x hx
    by_cases he : x = []
    · rw [he]; simp
    · exact (built_strings f.built).2.1 x ((hmem x he).2 hx)
  refine ⟨?_, ?_, ?_⟩
  · obtain ⟨t', ht'⟩ := addAll_total _ built_new hnul
    obtain ⟨bt, -, -⟩ := addAll_ok built_new ht'
    unfold dynamicStringSize
    rw [ht']
    simp only [Res.ok_bind]
    rw [← tabOut_size f.built g3]
    refine size_congr bt f.built ?_
    intro x hx
    rw [addAll_mem _ built_new ht', hmem x hx]
    simp [StrTab.new]
  · unfold gnuVerdefSize
    rw [f.counts]; rfl
  · unfold gnuVerneedSize
    rw [f.needs]
    have := f.files
    unfold Build.count
    rw [Nat.mod_eq_of_lt this]

end Obj.BuildW

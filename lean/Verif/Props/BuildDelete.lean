import Verif.Proof.BuildVersion

/-!
# C65: deleting orphans and unused versions in the ELF builder
-/

namespace Obj.Props

open Obj Obj.Build Obj.Build.Spec

private theorem orphan_congr {secs secs' : List Sec} {syms dyns : List Sym}
    (h : Pointwise (RelEffect syms dyns) secs secs') (d : Dyn) : OrphanDyn secs' d ↔ OrphanDyn secs d := by
  have hk : ∀ c c', RelEffect syms dyns c c' → c'.delete = c.delete ∧
      ∀ k tag, (tag, k) ∈ autoNeeds → (c'.data = k ↔ c.data = k) := by
    intro c c' he
    unfold RelEffect at he
    split at he
    · subst he; exact ⟨rfl, fun _ _ _ => Iff.rfl⟩
    · split at he
      · rename_i l hl
        subst he
        refine ⟨rfl, fun k tag hk => ?_⟩
        rw [hl]
        simp only [autoNeeds, List.mem_cons, Prod.mk.injEq, List.not_mem_nil, or_false] at hk
        rcases hk with h | h | h | h | h | h | h | h | h | h <;> rw [h.2] <;> simp
      · rename_i l hl
        subst he
        refine ⟨rfl, fun k tag hk => ?_⟩
        rw [hl]
        simp only [autoNeeds, List.mem_cons, Prod.mk.injEq, List.not_mem_nil, or_false] at hk
        rcases hk with h | h | h | h | h | h | h | h | h | h <;> rw [h.2] <;> simp
      · subst he; exact ⟨rfl, fun _ _ _ => Iff.rfl⟩
  constructor
  · rintro ⟨tag, k, he, hm, hall⟩
    refine ⟨tag, k, he, hm, fun c hc hck => ?_⟩
    obtain ⟨i, hi⟩ := List.getElem?_of_mem hc
    obtain ⟨y, hy, hr⟩ := h.2 i c hi
    have := hk c y hr
    rw [← this.1]
    exact hall y (List.mem_of_getElem? hy) ((this.2 k tag hm).2 hck)
  · rintro ⟨tag, k, he, hm, hall⟩
    refine ⟨tag, k, he, hm, fun c hc hck => ?_⟩
    obtain ⟨x, hx, hr⟩ := h.mem hc
    have := hk x c hr
    rw [this.1]
    exact hall x hx ((this.2 k tag hm).1 hck)

private theorem live_congr {secs secs' : List Sec} {R : Sec → Sec → Prop} (h : Pointwise R secs secs')
    (hd : ∀ c c', R c c' → c'.delete = c.delete) (i : Nat) : Live secs' i ↔ Live secs i := by
  constructor
  · rintro ⟨x, hx, hl⟩
    obtain ⟨y, hy, hr⟩ := h.back hx
    exact ⟨y, hy, by have := hd _ _ hr; show y.delete = false; rw [← this]; exact hl⟩
  · rintro ⟨x, hx, hl⟩
    obtain ⟨y, hy, hr⟩ := h.2 _ _ hx
    exact ⟨y, hy, by have := hd _ _ hr; show y.delete = false; rw [this]; exact hl⟩

private theorem secEffect_delete {syms dyns : List Sym} {secs : List Sec} {c c' : Sec}
    (h : SecEffect syms dyns secs c c') : c'.delete = c.delete := by
  unfold SecEffect at h
  split at h <;> subst h <;> rfl

private theorem segs_ok (b : Builder) (hr : InRange b) : ∃ b', b.deleteOrphanSegments = .ok b' := by
  unfold Builder.deleteOrphanSegments
  refine Exists.elim (forMut_of (l := b.segments) (body := fun (_ : Unit) (s : Seg) =>
    if s.sections = [] then .ok ((), s)
    else (retain (fun i => (Build.get b.sections i).bind fun c => .ok (!c.delete)) s.sections).bind fun l =>
      .ok ((), { s with sections := l, delete := decide (l = []) })) ?_) (fun l hl => ⟨_, by rw [hl]; rfl⟩)
  intro s hs _
  by_cases he : s.sections = []
  · exact ⟨s, by rw [if_pos he]⟩
  · rw [if_neg he]
    obtain ⟨l, hl⟩ := retain_of (p := fun i => (Build.get b.sections i).bind fun c => .ok (!c.delete))
      (l := s.sections) (fun i hi => by
        obtain ⟨c, hc⟩ := get_lt.2 (hr.segs s hs i hi)
        exact ⟨!c.delete, by simp only [hc, Res.ok_bind]⟩)
    exact ⟨_, by rw [hl]; rfl⟩

private theorem sym_ok (secs : List Sec) (l : List Sym)
    (hr : ∀ s ∈ l, ∀ i, s.section_ = some i → i < secs.length) :
    ∃ l', forMut (orphanSym secs) () l = .ok ((), l') := by
  apply forMut_of
  intro s hs _
  unfold orphanSym
  cases h : s.section_ with
  | none => exact ⟨_, rfl⟩
  | some i =>
    obtain ⟨c, hc⟩ := get_lt.2 (hr s hs i h)
    exact ⟨_, by simp only [hc, Res.ok_bind]; rfl⟩

private theorem syms_ok (b : Builder) (hr : InRange b) : ∃ b', b.deleteOrphanSymbols = .ok b' := by
  unfold Builder.deleteOrphanSymbols
  obtain ⟨l, hl⟩ := sym_ok b.sections b.symbols hr.syms
  obtain ⟨d, hd⟩ := sym_ok b.sections b.dynamicSymbols hr.dynSyms
  exact ⟨_, by rw [hl, Res.ok_bind, hd]; rfl⟩

private theorem rel_ok (syms : List Sym) (l : List Rel)
    (h : ∀ r ∈ l, ∀ i, r.symbol = some i → i < syms.length) : ∃ l', retain (keepRel syms) l = .ok l' := by
  apply retain_of
  intro r hr
  unfold keepRel
  cases hs : r.symbol with
  | none => exact ⟨_, rfl⟩
  | some i =>
    obtain ⟨c, hc⟩ := get_lt.2 (h r hr i hs)
    exact ⟨_, by simp only [hc, Res.ok_bind]; rfl⟩

private theorem rels_ok (b : Builder)
    (h1 : ∀ c ∈ b.sections, ∀ l, c.data = .relocs l → ∀ r ∈ l, ∀ i, r.symbol = some i → i < b.symbols.length)
    (h2 : ∀ c ∈ b.sections, ∀ l, c.data = .dynRelocs l → ∀ r ∈ l, ∀ i, r.symbol = some i →
      i < b.dynamicSymbols.length) : ∃ b', b.deleteOrphanRelocations = .ok b' := by
  unfold Builder.deleteOrphanRelocations
  refine Exists.elim (forMut_of (l := b.sections) (body := relBody b.symbols b.dynamicSymbols) ?_) (fun l hl => ⟨_, by rw [hl]; rfl⟩)
  intro c hc _
  unfold relBody
  split
  · rename_i l hl
    obtain ⟨l', hl'⟩ := rel_ok b.symbols l (h1 c hc l hl)
    exact ⟨_, by rw [hl']; rfl⟩
  · rename_i l hl
    obtain ⟨l', hl'⟩ := rel_ok b.dynamicSymbols l (h2 c hc l hl)
    exact ⟨_, by rw [hl']; rfl⟩
  · exact ⟨_, rfl⟩

/-- **C65**: `delete_orphans` on a builder whose references are to existing items succeeds and has exactly
these effects: segments lose their deleted sections (and are deleted when that leaves none), symbols of
deleted sections are deleted, then relocations for deleted symbols and automatic dynamic entries without their
section are removed.  Nothing else changes. -/
theorem C65_delete_orphans (b : Builder) (hr : InRange b) :
    ∃ b', b.deleteOrphans = .ok b' ∧
      Pointwise (SegEffect b.sections) b.segments b'.segments ∧
      Pointwise (SymEffect b.sections) b.symbols b'.symbols ∧
      Pointwise (SymEffect b.sections) b.dynamicSymbols b'.dynamicSymbols ∧
      Pointwise (SecEffect b'.symbols b'.dynamicSymbols b.sections) b.sections b'.sections ∧
      b'.versions = b.versions ∧ b'.versionFiles = b.versionFiles := by
  obtain ⟨b1, h1⟩ := segs_ok b hr
  obtain ⟨e1, p1⟩ := segs_effect h1
  have hs1 : b1.sections = b.sections := by rw [e1]
  have hy1 : b1.symbols = b.symbols := by rw [e1]
  have hd1 : b1.dynamicSymbols = b.dynamicSymbols := by rw [e1]
  have hv1 : b1.versions = b.versions := by rw [e1]
  have hf1 : b1.versionFiles = b.versionFiles := by rw [e1]
  obtain ⟨l, hl⟩ := sym_ok b.sections b.symbols hr.syms
  obtain ⟨d, hd⟩ := sym_ok b.sections b.dynamicSymbols hr.dynSyms
  have h2 : b1.deleteOrphanSymbols = .ok { b1 with symbols := l, dynamicSymbols := d } := by
    unfold Builder.deleteOrphanSymbols
    rw [hs1, hy1, hd1, hl, Res.ok_bind, hd]; rfl
  have p2 := syms_effect1 hl
  have p3 := syms_effect1 hd
  obtain ⟨b3, h3⟩ := rels_ok { b1 with symbols := l, dynamicSymbols := d }
    (by
      show ∀ c ∈ b1.sections, _
      rw [hs1]
      intro c hc k hk r hrr i hi
      show i < l.length
      rw [p2.1]
      exact hr.rels c hc k hk r hrr i hi)
    (by
      show ∀ c ∈ b1.sections, _
      rw [hs1]
      intro c hc k hk r hrr i hi
      show i < d.length
      rw [p3.1]
      exact hr.dynRels c hc k hk r hrr i hi)
  obtain ⟨e3, p4⟩ := rels_effect h3
  obtain ⟨b4, h4, e4, p5⟩ := dyns_effect b3
  have p4 : Pointwise (RelEffect l d) b.sections b3.sections := hs1 ▸ p4
  refine ⟨b4, ?_, ?_, ?_, ?_, ?_, ?_, ?_⟩
  · unfold Builder.deleteOrphans
    rw [h1, Res.ok_bind, h2, Res.ok_bind, h3, Res.ok_bind, h4]
  · have : b4.segments = b1.segments := by rw [e4, e3]
    rw [this]; exact p1
  · have : b4.symbols = l := by rw [e4, e3]
    rw [this]; exact p2
  · have : b4.dynamicSymbols = d := by rw [e4, e3]
    rw [this]; exact p3
  · have hsy : b4.symbols = l := by rw [e4, e3]
    have hdy : b4.dynamicSymbols = d := by rw [e4, e3]
    rw [hsy, hdy]
    refine ⟨by rw [p5.1, p4.1], fun i x hx => ?_⟩
    obtain ⟨y, hy, hxy⟩ := p4.2 i x hx
    obtain ⟨z, hz, hyz⟩ := p5.2 i y hy
    refine ⟨z, hz, ?_⟩
    unfold RelEffect at hxy
    unfold DynEffect at hyz
    unfold SecEffect
    by_cases hdel : x.delete = true
    · rw [if_pos hdel] at hxy ⊢
      subst hxy
      rw [if_pos hdel] at hyz
      exact hyz
    · rw [if_neg hdel] at hxy ⊢
      have ho : ∀ q, OrphanDyn b3.sections q ↔ OrphanDyn b.sections q := orphan_congr p4
      split at hxy
      · rename_i k hk
        subst hxy
        rw [if_neg hdel] at hyz
        simp only at hyz
        rw [hyz, hk]
      · rename_i k hk
        subst hxy
        rw [if_neg hdel] at hyz
        simp only at hyz
        rw [hyz, hk]
      · rename_i hn1 hn2
        subst hxy
        rw [if_neg hdel] at hyz
        split at hyz
        · rename_i k hk
          rw [hyz, hk]
          simp only
          congr 2
          apply List.filter_congr
          intro q _
          exact decide_eq_decide.2 (not_congr (ho q))
        · rename_i hn3
          rw [hyz]
          split
          · rename_i hk; exact absurd hk (hn1 _)
          · rename_i hk; exact absurd hk (hn2 _)
          · rename_i hk; exact absurd hk (hn3 _)
          · rfl
  · rw [e4, e3]; exact hv1
  · rw [e4, e3]; exact hf1

private theorem relLive_filter {syms : List Sym} {l : List Rel} {r : Rel}
    (h : r ∈ @List.filter Rel (fun r => @decide (RelLive syms r) (Classical.propDecidable _)) l) :
    r ∈ l ∧ RelLive syms r := by
  rw [List.mem_filter] at h
  exact ⟨h.1, by simpa using h.2⟩

private theorem secEffect_relocs {syms dyns : List Sym} {secs : List Sec} {c c' : Sec} {l : List Rel}
    (h : SecEffect syms dyns secs c c') (hd : c'.delete = false) (hl : c'.data = .relocs l) :
    ∃ l0, c.data = .relocs l0 ∧ ∀ r ∈ l, r ∈ l0 ∧ RelLive syms r := by
  have hcd := secEffect_delete h
  rw [hd] at hcd
  unfold SecEffect at h
  rw [if_neg (by rw [← hcd]; simp)] at h
  have hdata : c'.data = _ := congrArg Sec.data h
  rw [hl] at hdata
  simp only at hdata
  split at hdata
  · rename_i k hk
    cases hdata
    exact ⟨k, hk, fun r hr => relLive_filter hr⟩
  · cases hdata
  · cases hdata
  · rename_i h1 _ _
    exact absurd hdata.symm (h1 _)

private theorem secEffect_dynRelocs {syms dyns : List Sym} {secs : List Sec} {c c' : Sec} {l : List Rel}
    (h : SecEffect syms dyns secs c c') (hd : c'.delete = false) (hl : c'.data = .dynRelocs l) :
    ∃ l0, c.data = .dynRelocs l0 ∧ ∀ r ∈ l, r ∈ l0 ∧ RelLive dyns r := by
  have hcd := secEffect_delete h
  rw [hd] at hcd
  unfold SecEffect at h
  rw [if_neg (by rw [← hcd]; simp)] at h
  have hdata : c'.data = _ := congrArg Sec.data h
  rw [hl] at hdata
  simp only at hdata
  split at hdata
  · cases hdata
  · rename_i k hk
    cases hdata
    exact ⟨k, hk, fun r hr => relLive_filter hr⟩
  · cases hdata
  · rename_i _ h1 _
    exact absurd hdata.symm (h1 _)

private theorem secEffect_dynamic {syms dyns : List Sym} {secs : List Sec} {c c' : Sec} {l : List Dyn}
    (h : SecEffect syms dyns secs c c') (hd : c'.delete = false) (hl : c'.data = .dynamic l) :
    ∀ d ∈ l, ¬ OrphanDyn secs d := by
  have hcd := secEffect_delete h
  rw [hd] at hcd
  unfold SecEffect at h
  rw [if_neg (by rw [← hcd]; simp)] at h
  have hdata : c'.data = _ := congrArg Sec.data h
  rw [hl] at hdata
  simp only at hdata
  split at hdata
  · cases hdata
  · cases hdata
  · rename_i k hk
    cases hdata
    intro d hd
    rw [List.mem_filter] at hd
    simpa using hd.2
  · rename_i _ _ h1
    exact absurd hdata.symm (h1 _)

private theorem secEffect_kind {syms dyns : List Sym} {secs : List Sec} {c c' : Sec}
    (h : SecEffect syms dyns secs c c') {k : SecData} {tag : Int} (hk : (tag, k) ∈ autoNeeds) :
    c.data = k → c'.data = k := by
  intro hc
  unfold SecEffect at h
  split at h
  · rw [h]; exact hc
  · have hdata : c'.data = _ := congrArg Sec.data h
    rw [hdata]
    simp only
    rw [hc]
    simp only [autoNeeds, List.mem_cons, Prod.mk.injEq, List.not_mem_nil, or_false] at hk
    rcases hk with h | h | h | h | h | h | h | h | h | h <;> rw [h.2]

private theorem symEffect_live {secs : List Sec} {l l' : List Sym} (h : Pointwise (SymEffect secs) l l') :
    ∀ s ∈ l', s.delete = false → ∀ i, s.section_ = some i → Live secs i := by
  intro s hs hd i hi
  obtain ⟨x, hx, he, hdel⟩ := h.mem hs
  apply Classical.byContradiction
  intro hn
  have : s.delete = true := hdel.2 (.inr ⟨i, by rw [he] at hi; exact hi, hn⟩)
  rw [hd] at this; cases this

/-- **C65**: after `delete_orphans` nothing that is kept refers to anything deleted. -/
theorem C65_no_orphans (b b' : Builder) (hr : InRange b) (h : b.deleteOrphans = .ok b') : NoOrphans b' := by
  obtain ⟨b2, h2, p1, p2, p3, p4, _, _⟩ := C65_delete_orphans b hr
  rw [h] at h2
  cases h2
  have hlive : ∀ i, Live b'.sections i ↔ Live b.sections i :=
    live_congr p4 (fun c c' hc => secEffect_delete hc)
  refine ⟨?_, ?_, ?_, ?_, ?_, ?_⟩
  · intro s hs hd i hi
    obtain ⟨x, hx, he⟩ := p1.mem hs
    unfold SegEffect at he
    rw [hlive]
    split at he
    · rename_i hor
      subst he
      rcases hor with hor | hor
      · rw [hd] at hor; cases hor
      · rw [hor] at hi; cases hi
    · rw [he] at hi
      simp only [List.mem_filter, decide_eq_true_eq] at hi
      exact hi.2
  · intro s hs hd i hi
    exact (hlive i).2 (symEffect_live p2 s hs hd i hi)
  · intro s hs hd i hi
    exact (hlive i).2 (symEffect_live p3 s hs hd i hi)
  · intro c hc hd l hl r hrr i hi
    obtain ⟨x, hx, he⟩ := p4.mem hc
    obtain ⟨_, _, hall⟩ := secEffect_relocs he hd hl
    exact (hall r hrr).2 i hi
  · intro c hc hd l hl r hrr i hi
    obtain ⟨x, hx, he⟩ := p4.mem hc
    obtain ⟨_, _, hall⟩ := secEffect_dynRelocs he hd hl
    exact (hall r hrr).2 i hi
  · intro c hc hd l hl d hdd ho
    obtain ⟨x, hx, he⟩ := p4.mem hc
    refine secEffect_dynamic he hd hl d hdd ?_
    obtain ⟨tag, k, h1, h2, h3⟩ := ho
    refine ⟨tag, k, h1, h2, fun c0 hc0 hk0 => ?_⟩
    obtain ⟨i, hi⟩ := List.getElem?_of_mem hc0
    obtain ⟨y, hy, hye⟩ := p4.2 i c0 hi
    rw [← secEffect_delete hye]
    exact h3 y (List.mem_of_getElem? hy) (secEffect_kind hye h2 hk0)

private theorem filter_all {β : Type} {l : List β} {p : β → Bool} (h : ∀ x ∈ l, p x = true) : l.filter p = l :=
  List.filter_eq_self.2 h

/-- **C65**: `delete_orphans` leaves a builder without orphans alone. -/
theorem C65_nothing_to_delete (b : Builder) (hr : InRange b) (hn : NoOrphans b) : b.deleteOrphans = .ok b := by
  obtain ⟨b', h, p1, p2, p3, p4, hv, hf⟩ := C65_delete_orphans b hr
  rw [h]
  have e1 : b'.segments = b.segments := by
    refine (p1.imp fun s hs s' he => ?_).eq
    unfold SegEffect at he
    split at he
    · exact he
    · rename_i hor
      rw [he, filter_all (fun i hi => by
        simpa using hn.segs s hs (by simpa using fun hh => hor (.inl hh)) i hi)]
      have : s.delete = decide (s.sections = []) := by
        have h1 : s.delete = false := by simpa using fun hh => hor (.inl hh)
        have h2 : ¬ s.sections = [] := fun hh => hor (.inr hh)
        rw [h1, decide_eq_false h2]
      obtain ⟨i1, i2, i3, i4, i5, i6, i7, i8, i9, i10, i11⟩ := s
      simp only at this
      rw [this]
  have sym : ∀ l l' : List Sym, Pointwise (SymEffect b.sections) l l' →
      (∀ s ∈ l, s.delete = false → ∀ i, s.section_ = some i → Live b.sections i) → l' = l := by
    intro l l' p hl
    refine (p.imp fun s hs s' he => ?_).eq
    obtain ⟨he, hd⟩ := he
    have : s'.delete = s.delete := by
      cases hsd : s.delete with
      | true => exact hd.2 (.inl hsd)
      | false =>
        cases hs' : s'.delete with
        | false => rfl
        | true =>
          rcases hd.1 hs' with h1 | ⟨i, hi, hnl⟩
          · rw [hsd] at h1; cases h1
          · exact absurd (hl s hs hsd i hi) hnl
    rw [he, this]
  have e2 := sym _ _ p2 hn.syms
  have e3 := sym _ _ p3 hn.dynSyms
  have e4 : b'.sections = b.sections := by
    refine (p4.imp fun c hc c' he => ?_).eq
    unfold SecEffect at he
    split at he
    · exact he
    · rename_i hd0
      have hdf : c.delete = false := by simpa using hd0
      rw [he]
      obtain ⟨i1, i2, i3, i4, i5, i6, i7, i8, i9, i10, i11, i12, i13, i14⟩ := c
      simp only [Sec.mk.injEq, true_and]
      split
      · rename_i k
        rw [filter_all (fun r hrr => by
          simp only [decide_eq_true_eq]
          rw [e2]
          exact fun i hi => hn.rels _ hc hdf k rfl r hrr i hi)]
      · rename_i k
        rw [filter_all (fun r hrr => by
          simp only [decide_eq_true_eq]
          rw [e3]
          exact fun i hi => hn.dynRels _ hc hdf k rfl r hrr i hi)]
      · rename_i k
        rw [filter_all (fun d hdd => by
          simpa using hn.dyns _ hc hdf k rfl d hdd)]
      · rfl
  obtain ⟨a1, a2, a3, a4, a5, a6⟩ := b
  obtain ⟨a1', a2', a3', a4', a5', a6'⟩ := b'
  simp only at e1 e2 e3 e4 hv hf
  rw [e1, e2, e3, e4, hv, hf]

/-- **C65**: `delete_orphans` once is enough. -/
theorem C65_idempotent (b b' : Builder) (hr : InRange b) (h : b.deleteOrphans = .ok b') :
    b'.deleteOrphans = .ok b' := by
  refine C65_nothing_to_delete b' ?_ (C65_no_orphans b b' hr h)
  obtain ⟨b2, h2, p1, p2, p3, p4, _, _⟩ := C65_delete_orphans b hr
  rw [h] at h2
  cases h2
  refine ⟨?_, ?_, ?_, ?_, ?_⟩
  · intro s hs i hi
    obtain ⟨x, hx, he⟩ := p1.mem hs
    rw [p4.1]
    apply hr.segs x hx
    unfold SegEffect at he
    split at he
    · rw [he] at hi; exact hi
    · rw [he] at hi
      exact (List.mem_filter.1 hi).1
  · intro s hs i hi
    obtain ⟨x, hx, he, _⟩ := p2.mem hs
    rw [p4.1]
    rw [he] at hi
    exact hr.syms x hx i hi
  · intro s hs i hi
    obtain ⟨x, hx, he, _⟩ := p3.mem hs
    rw [p4.1]
    rw [he] at hi
    exact hr.dynSyms x hx i hi
  · intro c hc l hl r hrr i hi
    obtain ⟨x, hx, he⟩ := p4.mem hc
    rw [p2.1]
    cases hd : c.delete with
    | false =>
      obtain ⟨l0, hl0, hall⟩ := secEffect_relocs he hd hl
      exact hr.rels x hx l0 hl0 r (hall r hrr).1 i hi
    | true =>
      have hxd : x.delete = true := by rw [← secEffect_delete he]; exact hd
      unfold SecEffect at he
      rw [if_pos hxd] at he
      subst he
      exact hr.rels _ hx l hl r hrr i hi
  · intro c hc l hl r hrr i hi
    obtain ⟨x, hx, he⟩ := p4.mem hc
    rw [p3.1]
    cases hd : c.delete with
    | false =>
      obtain ⟨l0, hl0, hall⟩ := secEffect_dynRelocs he hd hl
      exact hr.dynRels x hx l0 hl0 r (hall r hrr).1 i hi
    | true =>
      have hxd : x.delete = true := by rw [← secEffect_delete he]; exact hd
      unfold SecEffect at he
      rw [if_pos hxd] at he
      subst he
      exact hr.dynRels _ hx l hl r hrr i hi

/-- **C65**: `delete_unused_versions` deletes exactly the versions that no kept dynamic symbol has (except the
marker for relative relocations), and exactly the version files that no kept version needs. -/
theorem C65_unused_versions (b : Builder) (hr : VerInRange b) :
    ∃ b', b.deleteUnusedVersions = .ok b' ∧
      Pointwise (fun v v' => v' = { v with delete := v'.delete } ∧
        (v'.delete = true ↔ v.delete = true ∨ ¬ VerUsed b v)) b.versions b'.versions ∧
      Pointwise (fun f f' => f' = { f with delete := f'.delete } ∧
        (f'.delete = true ↔ f.delete = true ∨ ¬ ∃ v ∈ b'.versions, v.delete = false ∧
          ∃ name flags, v.data = .need f.id name flags)) b.versionFiles b'.versionFiles ∧
      b' = { b with versions := b'.versions, versionFiles := b'.versionFiles } := by
  unfold Builder.deleteUnusedVersions
  have hmem : ∀ i, i ∈ (iter b.dynamicSymbols).map (·.version) ↔
      ∃ s ∈ b.dynamicSymbols, s.delete = false ∧ s.version = i := by
    intro i
    rw [List.mem_map]
    constructor
    · rintro ⟨s, hs, he⟩
      rw [mem_iter] at hs
      exact ⟨s, hs.1, hs.2, he⟩
    · rintro ⟨s, hs, hd, he⟩
      exact ⟨s, (mem_iter _ _).2 ⟨hs, hd⟩, he⟩
  obtain ⟨used, h1, hl1, hm1⟩ := markAll_of (v := List.replicate (b.versions.length + 2) false)
    (l := (iter b.dynamicSymbols).map (·.version)) (by
      intro i hi
      obtain ⟨s, hs, hd, rfl⟩ := (hmem i).1 hi
      rw [List.length_replicate]
      exact hr.syms s hs hd)
  have hused : ∀ j : Nat, used[j]? = some true ↔ ∃ s ∈ b.dynamicSymbols, s.delete = false ∧ s.version = j := by
    intro j
    rw [hm1, hmem]
    constructor
    · rintro (a | a)
      · rw [List.getElem?_replicate] at a
        split at a <;> cases a
      · exact a
    · exact .inr
  obtain ⟨used', fu, vs', h2, hl2, hp, hfu⟩ := verLoop b.versions 0 used
    (List.replicate b.versionFiles.length false)
    (by intro i v hv; rw [hr.verIds i v hv]; omega)
    (by rw [hl1, List.length_replicate]; omega)
    (by
      intro v hv hd f n fl he
      rw [List.length_replicate]
      exact hr.files v hv hd f n fl he)
  rw [List.length_replicate] at hl2
  have hfile : ∀ f ∈ b.versionFiles, f.id < fu.length := by
    intro f hf
    obtain ⟨i, hi⟩ := List.getElem?_of_mem hf
    rw [hr.fileIds i f hi, hl2]
    exact (List.getElem?_eq_some_iff.1 hi).1
  obtain ⟨fs', h3⟩ := forMut_of (l := b.versionFiles) (body := fun (_ : Unit) (f : VerFile) =>
        (flag fu f.id).bind fun u => .ok ((), if u = false then { f with delete := true } else f)) (by
      intro f hf _
      exact ⟨_, by rw [flag_of (hfile f hf), Res.ok_bind]⟩)
  refine ⟨{ b with versions := vs', versionFiles := fs' }, ?_, ?_, ?_, rfl⟩
  · rw [h1, Res.ok_bind, h2, Res.ok_bind]
    simp only
    rw [h3, Res.ok_bind]
  · refine hp.imp fun v _ v' he => ⟨he.1, ?_⟩
    rw [he.2, hused]
    exact Iff.rfl
  · obtain ⟨hl, hall⟩ := forMut_ok h3
    refine ⟨hl, fun i f hf => ?_⟩
    obtain ⟨y, hy, hdel, hbody⟩ := hall i f hf
    refine ⟨y, hy, ?_⟩
    cases hd : f.delete with
    | true =>
      rw [hdel hd]
      exact ⟨rfl, by simp [hd]⟩
    | false =>
      have hb := hbody hd
      have hlt := hfile f (List.mem_of_getElem? hf)
      rw [flag_of hlt, Res.ok_bind] at hb
      have hiff : fu[f.id] = true ↔ ∃ v ∈ vs', v.delete = false ∧ ∃ name flags, v.data = .need f.id name flags := by
        have := hfu f.id
        rw [List.getElem?_eq_getElem hlt, Option.some.injEq] at this
        rw [this]
        constructor
        · rintro (a | a)
          · rw [List.getElem?_replicate] at a
            split at a <;> cases a
          · exact a
        · exact .inr
      simp only [Res.ok.injEq, Prod.mk.injEq, true_and] at hb
      by_cases hu : fu[f.id] = true
      · rw [if_neg (by rw [hu]; simp)] at hb
        subst hb
        refine ⟨rfl, ?_⟩
        rw [hd]
        simp only [Bool.false_eq_true, false_or, false_iff, Classical.not_not]
        exact hiff.1 hu
      · rw [if_pos (by simpa using hu)] at hb
        subst hb
        refine ⟨rfl, ?_⟩
        simp only [true_iff]
        exact .inr fun h => hu (hiff.2 h)

/-! ## A concrete case -/

private def exSec (id : Nat) (del : Bool) (d : SecData) : Sec :=
  ⟨id, del, [], 1, 0, 0, 0, 0, none, 0, none, 1, 0, d⟩

private def exSym (id : Nat) (sec : Option Nat) (ver : Nat) : Sym :=
  ⟨id, false, [], sec, 0, 0, 0, 0, 0, ver, false⟩

/-- A section `.text` that is deleted, with a symbol in it and a relocation for that symbol, and a segment
containing it; the hash section is deleted and the dynamic section still has `DT_HASH`. -/
private def exB : Builder :=
  { segments := [⟨0, false, 1, 0, 0, 0, 0, 0, 0, 0, [0]⟩, ⟨1, false, 1, 0, 0, 0, 0, 0, 0, 0, [0, 1]⟩]
    sections := [exSec 0 true (.data []), exSec 1 false (.relocs [⟨0, some 0, 1, 0⟩, ⟨4, none, 1, 0⟩]),
      exSec 2 true .hash, exSec 3 false (.dynamic [.auto 4, .auto 5, .integer 4 0])]
    symbols := [exSym 0 (some 0) 0]
    dynamicSymbols := [exSym 0 none 3]
    versionFiles := [⟨0, false, []⟩, ⟨1, false, []⟩]
    versions := [⟨0, .need 0 [1] 0, false⟩, ⟨1, .need 1 [2] 0, false⟩] }

/-- The hypotheses of C65 can be met. -/
example : InRange exB ∧ VerInRange exB := by
  refine ⟨⟨?_, ?_, ?_, ?_, ?_⟩, ⟨?_, ?_, ?_, ?_⟩⟩
  · simp [exB]
  · simp [exB, exSym]
  · simp [exB, exSym]
  · simp [exB, exSec]
  · simp [exB, exSec]
  · simp [exB, exSym]
  · simp [exB]
  · intro i v hv
    match i, hv with
    | 0, hv => cases hv; rfl
    | 1, hv => cases hv; rfl
    | n + 2, hv => simp [exB] at hv
  · intro i v hv
    match i, hv with
    | 0, hv => cases hv; rfl
    | 1, hv => cases hv; rfl
    | n + 2, hv => simp [exB] at hv

/-- There is something to delete in it. -/
example : ¬ NoOrphans exB := by
  intro h
  obtain ⟨x, hx, hd⟩ := h.segs ⟨0, false, 1, 0, 0, 0, 0, 0, 0, 0, [0]⟩ (by simp [exB]) rfl 0 (by simp)
  cases hx
  cases hd

end Obj.Props

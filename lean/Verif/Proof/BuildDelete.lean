import Verif.Proof.Build

namespace Obj.Build

open Obj Obj.Build.Spec

theorem Spec.Pointwise.mem {α : Type} {R : α → α → Prop} {l l' : List α} (h : Pointwise R l l') {y : α} (hy : y ∈ l') :
    ∃ x ∈ l, R x y := by
  obtain ⟨i, hi⟩ := List.getElem?_of_mem hy
  have hlt : i < l.length := by rw [← h.1]; exact (List.getElem?_eq_some_iff.1 hi).1
  obtain ⟨z, hz, hr⟩ := h.2 i l[i] (List.getElem?_eq_getElem hlt)
  rw [hi] at hz; cases hz
  exact ⟨_, List.getElem_mem hlt, hr⟩

theorem Spec.Pointwise.back {α : Type} {R : α → α → Prop} {l l' : List α} (h : Pointwise R l l') {i : Nat} {y : α}
    (hi : l'[i]? = some y) : ∃ x, l[i]? = some x ∧ R x y := by
  have hlt : i < l.length := by rw [← h.1]; exact (List.getElem?_eq_some_iff.1 hi).1
  obtain ⟨z, hz, hr⟩ := h.2 i l[i] (List.getElem?_eq_getElem hlt)
  rw [hi] at hz; cases hz
  exact ⟨_, List.getElem?_eq_getElem hlt, hr⟩

theorem Spec.Pointwise.imp {α : Type} {R S : α → α → Prop} {l l' : List α} (h : Pointwise R l l')
    (hi : ∀ x ∈ l, ∀ y, R x y → S x y) : Pointwise S l l' :=
  ⟨h.1, fun i x hx => by
    obtain ⟨y, hy, hr⟩ := h.2 i x hx
    exact ⟨y, hy, hi x (List.mem_of_getElem? hx) y hr⟩⟩

theorem Spec.Pointwise.eq {α : Type} {l l' : List α} (h : Pointwise (fun x y => y = x) l l') : l' = l := by
  apply List.ext_getElem?
  intro i
  by_cases hi : i < l.length
  · obtain ⟨y, hy, hr⟩ := h.2 i l[i] (List.getElem?_eq_getElem hi)
    rw [hy, hr, List.getElem?_eq_getElem hi]
  · rw [List.getElem?_eq_none (by rw [h.1]; omega), List.getElem?_eq_none (by omega)]

theorem live_iff {secs : List Sec} {i : Nat} : Live secs i ↔ ∃ c, secs[i]? = some c ∧ c.delete = false := Iff.rfl

theorem liveSym_iff {syms : List Sym} {i : Nat} : Live syms i ↔ ∃ c, syms[i]? = some c ∧ c.delete = false := Iff.rfl

theorem keepId_ok {secs : List Sec} {i : Nat} :
    ((get secs i).bind fun c => .ok (!c.delete)) = .ok true ↔ Live secs i := by
  rw [live_iff]
  cases h : get secs i with
  | err => unfold get at h; split at h <;> cases h
  | panic =>
    have : secs.length ≤ i := by
      apply Nat.le_of_not_lt
      intro hlt
      obtain ⟨x, hx⟩ := get_lt.2 hlt
      rw [hx] at h; cases h
    rw [List.getElem?_eq_none this]
    simp
  | ok c =>
    rw [get_ok] at h
    rw [h]
    simp

theorem keepRel_ok {syms : List Sym} {r : Rel} :
    keepRel syms r = .ok true ↔ ∀ i, r.symbol = some i → Live syms i := by
  unfold keepRel
  cases hs : r.symbol with
  | none => simp
  | some i =>
    simp only [Option.some.injEq]
    have : (∀ j, i = j → Live syms j) ↔ Live syms i := ⟨fun h => h i rfl, fun h j hj => hj ▸ h⟩
    rw [this, liveSym_iff]
    cases h : get syms i with
    | err => unfold get at h; split at h <;> cases h
    | panic =>
      have : syms.length ≤ i := by
        apply Nat.le_of_not_lt
        intro hlt
        obtain ⟨x, hx⟩ := get_lt.2 hlt
        rw [hx] at h; cases h
      rw [List.getElem?_eq_none this]
      simp
    | ok c =>
      rw [get_ok] at h
      rw [h]
      simp

noncomputable section
open Classical

theorem segs_effect {b b' : Builder} (h : b.deleteOrphanSegments = .ok b') :
    b' = { b with segments := b'.segments } ∧ Pointwise (SegEffect b.sections) b.segments b'.segments := by
  unfold Builder.deleteOrphanSegments at h
  generalize hf : forMut _ () b.segments = r at h
  cases r with
  | err => cases h
  | panic => cases h
  | ok r =>
    cases h
    refine ⟨rfl, ?_⟩
    obtain ⟨h1, h2⟩ := forMut_ok (l' := r.2) (u := r.1) hf
    refine ⟨h1, fun i x hx => ?_⟩
    obtain ⟨y, hy, hd, hb⟩ := h2 i x hx
    refine ⟨y, hy, ?_⟩
    unfold SegEffect
    by_cases hdx : x.delete = true
    · rw [if_pos (.inl hdx)]; exact hd hdx
    · have hb := hb (by show x.delete = false; simpa using hdx)
      by_cases hs : x.sections = []
      · rw [if_pos (.inr hs)]
        rw [if_pos hs] at hb
        cases hb; rfl
      · rw [if_neg (by simp only [not_or]; exact ⟨hdx, hs⟩)]
        rw [if_neg hs] at hb
        cases hr : retain (fun i => (get b.sections i).bind fun c => Res.ok !c.delete) x.sections with
        | err => rw [hr] at hb; cases hb
        | panic => rw [hr] at hb; cases hb
        | ok l =>
          rw [hr] at hb
          cases hb
          obtain ⟨_, rfl⟩ := retain_ok hr
          have : (x.sections.filter fun i =>
              decide (((get b.sections i).bind fun c => Res.ok !c.delete) = Res.ok true)) =
              x.sections.filter (fun i => decide (Live b.sections i)) := by
            apply List.filter_congr
            intro i _
            exact decide_eq_decide.2 keepId_ok
          rw [this]

theorem syms_effect1 {secs : List Sec} {l l' : List Sym} {u : Unit}
    (h : forMut (orphanSym secs) () l = .ok (u, l')) : Pointwise (SymEffect secs) l l' := by
  obtain ⟨h1, h2⟩ := forMut_ok h
  refine ⟨h1, fun i x hx => ?_⟩
  obtain ⟨y, hy, hd, hb⟩ := h2 i x hx
  refine ⟨y, hy, ?_⟩
  unfold SymEffect SymDeletedIf
  by_cases hdx : x.delete = true
  · rw [hd hdx]
    exact ⟨rfl, by simp [hdx]⟩
  · have hb := hb (by show x.delete = false; simpa using hdx)
    unfold orphanSym at hb
    have hor : x.section_ = none ∨ ∃ j, x.section_ = some j := by
      cases x.section_ with
      | none => exact .inl rfl
      | some j => exact .inr ⟨j, rfl⟩
    obtain hs | ⟨j, hs⟩ := hor
    · rw [hs] at hb
      cases hb
      exact ⟨rfl, by simp [hs]⟩
    · rw [hs] at hb
      simp only at hb
      cases hg : get secs j with
      | err => rw [hg] at hb; cases hb
      | panic => rw [hg] at hb; cases hb
      | ok c =>
        rw [hg, Res.ok_bind] at hb
        rw [get_ok] at hg
        simp only [Res.ok.injEq, Prod.mk.injEq, true_and] at hb
        have hl : Live secs j ↔ c.delete = false := by
          rw [live_iff, hg]; simp
        by_cases hc : c.delete = true
        · rw [if_pos hc] at hb
          subst hb
          refine ⟨by rw [hs], ?_⟩
          simp only [true_iff]
          exact .inr ⟨j, hs, by rw [hl]; simp [hc]⟩
        · rw [if_neg hc] at hb
          subst hb
          refine ⟨rfl, ?_⟩
          constructor
          · intro hh; exact .inl hh
          · rintro (hh | ⟨i', hi', hn⟩)
            · exact hh
            · rw [hs] at hi'
              cases hi'
              rw [hl] at hn
              exact absurd (by simpa using hc) hn

theorem syms_effect {b b' : Builder} (h : b.deleteOrphanSymbols = .ok b') :
    b' = { b with symbols := b'.symbols, dynamicSymbols := b'.dynamicSymbols } ∧
      Pointwise (SymEffect b.sections) b.symbols b'.symbols ∧
      Pointwise (SymEffect b.sections) b.dynamicSymbols b'.dynamicSymbols := by
  unfold Builder.deleteOrphanSymbols at h
  cases h1 : forMut (orphanSym b.sections) () b.symbols with
  | err => rw [h1] at h; cases h
  | panic => rw [h1] at h; cases h
  | ok r =>
    cases h2 : forMut (orphanSym b.sections) () b.dynamicSymbols with
    | err => rw [h1, h2] at h; cases h
    | panic => rw [h1, h2] at h; cases h
    | ok d =>
      rw [h1, h2] at h
      cases h
      exact ⟨rfl, syms_effect1 (u := r.1) h1, syms_effect1 (u := d.1) h2⟩

/-- The exact effect of relocation deletion on a section. -/
def RelEffect (syms dyns : List Sym) (c c' : Sec) : Prop :=
  c' = if c.delete = true then c else
    match c.data with
    | .relocs l => { c with data := .relocs (l.filter fun r => decide (RelLive syms r)) }
    | .dynRelocs l => { c with data := .dynRelocs (l.filter fun r => decide (RelLive dyns r)) }
    | _ => c

theorem filter_keepRel (syms : List Sym) (l : List Rel) [∀ r, Decidable (keepRel syms r = .ok true)] :
    (l.filter fun r => decide (keepRel syms r = .ok true)) =
      l.filter fun r => decide (RelLive syms r) := by
  apply List.filter_congr
  intro r _
  apply Bool.eq_iff_iff.2
  rw [decide_eq_true_iff, decide_eq_true_iff]
  exact keepRel_ok

theorem rels_effect {b b' : Builder} (h : b.deleteOrphanRelocations = .ok b') :
    b' = { b with sections := b'.sections } ∧
      Pointwise (RelEffect b.symbols b.dynamicSymbols) b.sections b'.sections := by
  unfold Builder.deleteOrphanRelocations at h
  generalize hf : forMut _ () b.sections = r at h
  cases r with
  | err => cases h
  | panic => cases h
  | ok r =>
    cases h
    refine ⟨rfl, ?_⟩
    obtain ⟨h1, h2⟩ := forMut_ok (l' := r.2) (u := r.1) hf
    refine ⟨h1, fun i x hx => ?_⟩
    obtain ⟨y, hy, hd, hb⟩ := h2 i x hx
    refine ⟨y, hy, ?_⟩
    unfold RelEffect
    by_cases hdx : x.delete = true
    · rw [if_pos hdx]; exact hd hdx
    · have hb := hb (by show x.delete = false; simpa using hdx)
      rw [if_neg hdx]
      unfold relBody at hb
      cases hs : x.data <;> rw [hs] at hb <;> simp only at hb ⊢
      case relocs l =>
        cases hr : retain (keepRel b.symbols) l with
        | err => rw [hr] at hb; cases hb
        | panic => rw [hr] at hb; cases hb
        | ok l' =>
          rw [hr] at hb; cases hb
          rw [(retain_ok hr).2, filter_keepRel]
      case dynRelocs l =>
        cases hr : retain (keepRel b.dynamicSymbols) l with
        | err => rw [hr] at hb; cases hb
        | panic => rw [hr] at hb; cases hb
        | ok l' =>
          rw [hr] at hb; cases hb
          rw [(retain_ok hr).2, filter_keepRel]
      all_goals (cases hb; rfl)

theorem keepDyn_iff (secs : List Sec) (d : Dyn) :
    keepDyn (fun k => (iter secs).any fun c => decide (c.data = k)) d = true ↔ ¬ OrphanDyn secs d := by
  have hany : ∀ k, ((iter secs).any fun c => decide (c.data = k)) = true ↔ ¬ ∀ c ∈ secs, c.data = k → c.delete = true := by
    intro k
    rw [List.any_eq_true]
    constructor
    · rintro ⟨c, hc, hk⟩ hn
      rw [mem_iter] at hc
      have := hn c hc.1 (by simpa using hk)
      have h2 : c.delete = false := hc.2
      rw [h2] at this; cases this
    · intro hn
      have : ∃ c, c ∈ secs ∧ c.data = k ∧ c.delete = false := by
        apply Classical.byContradiction
        intro hne
        apply hn
        intro c hc hk
        cases hd : c.delete with
        | true => rfl
        | false => exact absurd ⟨c, hc, hk, hd⟩ hne
      obtain ⟨c, hc, hk, hd⟩ := this
      exact ⟨c, (mem_iter _ _).2 ⟨hc, hd⟩, by simpa using hk⟩
  cases d with
  | integer t v => simp [keepDyn, OrphanDyn]
  | string t v => simp [keepDyn, OrphanDyn]
  | auto tag =>
    have horph : OrphanDyn secs (.auto tag) ↔ ∃ k, (tag, k) ∈ autoNeeds ∧ ∀ c ∈ secs, c.data = k → c.delete = true := by
      constructor
      · rintro ⟨t, k, he, h1, h2⟩
        cases he
        exact ⟨k, h1, h2⟩
      · rintro ⟨k, h1, h2⟩
        exact ⟨tag, k, rfl, h1, h2⟩
    rw [horph]
    have one : ∀ k, (∀ k', (tag, k') ∈ autoNeeds ↔ k' = k) →
        (((iter secs).any fun c => decide (c.data = k)) = true ↔
          ¬ ∃ k', (tag, k') ∈ autoNeeds ∧ ∀ c ∈ secs, c.data = k' → c.delete = true) := by
      intro k hk
      rw [hany k]
      refine not_congr ⟨fun h => ⟨k, (hk k).2 rfl, h⟩, ?_⟩
      rintro ⟨k', h1, h2⟩
      rw [(hk k').1 h1] at h2
      exact h2
    unfold keepDyn
    simp only
    by_cases c1 : tag = 6
    · rw [if_pos c1]; subst c1; exact one _ (by intro k'; simp [autoNeeds])
    rw [if_neg c1]
    by_cases c2 : tag = 5 ∨ tag = 10
    · rw [if_pos c2]; obtain rfl | rfl := c2 <;> exact one _ (by intro k'; simp [autoNeeds])
    rw [if_neg c2]
    by_cases c3 : tag = 4
    · rw [if_pos c3]; subst c3; exact one _ (by intro k'; simp [autoNeeds])
    rw [if_neg c3]
    by_cases c4 : tag = 0x6ffffef5
    · rw [if_pos c4]; subst c4; exact one _ (by intro k'; simp [autoNeeds])
    rw [if_neg c4]
    by_cases c5 : tag = 0x6ffffff0
    · rw [if_pos c5]; subst c5; exact one _ (by intro k'; simp [autoNeeds])
    rw [if_neg c5]
    by_cases c6 : tag = 0x6ffffffe ∨ tag = 0x6fffffff
    · rw [if_pos c6]; obtain rfl | rfl := c6 <;> exact one _ (by intro k'; simp [autoNeeds])
    rw [if_neg c6]
    by_cases c7 : tag = 0x6ffffffc ∨ tag = 0x6ffffffd
    · rw [if_pos c7]; obtain rfl | rfl := c7 <;> exact one _ (by intro k'; simp [autoNeeds])
    rw [if_neg c7]
    simp only [true_iff]
    rintro ⟨k, hk, _⟩
    simp only [autoNeeds, List.mem_cons, Prod.mk.injEq, List.not_mem_nil, or_false] at hk
    omega

/-- The exact effect of the deletion of dynamic entries on a section. -/
def DynEffect (secs : List Sec) (c c' : Sec) : Prop :=
  c' = if c.delete = true then c else
    match c.data with
    | .dynamic l => { c with data := .dynamic (l.filter fun d => decide (¬ OrphanDyn secs d)) }
    | _ => c

theorem dyns_effect (b : Builder) :
    ∃ b', b.deleteOrphanDynamics = .ok b' ∧ b' = { b with sections := b'.sections } ∧
      Pointwise (DynEffect b.sections) b.sections b'.sections := by
  unfold Builder.deleteOrphanDynamics
  have heq : (fun (_ : Unit) (c : Sec) => (match c.data with
      | .dynamic l => Res.ok ((), { c with data := SecData.dynamic (l.filter (keepDyn fun d => (iter b.sections).any fun c => decide (c.data = d))) })
      | _ => .ok ((), c))) = fun (_ : Unit) (c : Sec) => Res.ok ((), match c.data with
      | .dynamic l => { c with data := SecData.dynamic (l.filter (keepDyn fun d => (iter b.sections).any fun c => decide (c.data = d))) }
      | _ => c) := by
    funext _ c
    cases c.data <;> rfl
  show ∃ b', (forMut (fun (_ : Unit) (c : Sec) => (match c.data with
      | .dynamic l => Res.ok ((), { c with data := SecData.dynamic (l.filter (keepDyn fun d => (iter b.sections).any fun c => decide (c.data = d))) })
      | _ => .ok ((), c))) () b.sections).bind _ = _ ∧ _
  rw [heq, forMut_pure]
  refine ⟨_, rfl, rfl, by simp [mapLive], ?_⟩
  intro i x hx
  have hm : ∀ f : Sec → Sec, (mapLive f b.sections)[i]? = some (if x.delete = true then x else f x) := by
    intro f
    simp only [mapLive, List.getElem?_map, hx, Option.map_some]
    rfl
  refine ⟨_, hm _, ?_⟩
  unfold DynEffect
  split
  · rfl
  · cases hd : x.data <;> simp only
    case dynamic l =>
      congr 2
      apply List.filter_congr
      intro d _
      have := keepDyn_iff b.sections d
      by_cases ho : OrphanDyn b.sections d
      · rw [decide_eq_false (by simpa using ho)]
        cases hk : keepDyn _ d with
        | true => exact absurd ho (this.1 hk)
        | false => rfl
      · rw [decide_eq_true ho]
        exact this.2 ho

end

end Obj.Build

import Verif.Spec.Names

/-! # Lemmas for C104 -/

namespace Obj.Nm

theorem has_and {w : Nat} (a b : BitVec w) (i : Nat) : Has (a &&& b) i ↔ Has a i ∧ Has b i := by
  simp [Has, BitVec.getLsbD_and]

theorem has_or {w : Nat} (a b : BitVec w) (i : Nat) : Has (a ||| b) i ↔ Has a i ∨ Has b i := by
  simp [Has, BitVec.getLsbD_or]

theorem has_andnot {w : Nat} (a b : BitVec w) (i : Nat) : Has (a &&& ~~~ b) i ↔ Has a i ∧ ¬ Has b i := by
  simp only [Has, BitVec.getLsbD_and, BitVec.getLsbD_not]
  by_cases h : i < w
  · simp [h]
  · simp [h, BitVec.getLsbD_of_ge a i (by omega)]

theorem ext_has {w : Nat} {a b : BitVec w} (h : ∀ i, Has a i ↔ Has b i) : a = b := by
  apply BitVec.eq_of_getLsbD_eq
  intro i _
  have := h i
  simp only [Has] at this
  cases ha : a.getLsbD i <;> cases hb : b.getLsbD i <;> simp_all

theorem and_eq_iff {w : Nat} (u b : BitVec w) : u &&& b = b ↔ Within b u := by
  constructor
  · intro h i hi
    rw [← h, has_and] at hi
    exact hi.1
  · intro h
    apply ext_has
    intro i
    rw [has_and]
    exact ⟨fun x => x.2, fun x => ⟨h i x, x⟩⟩

theorem not_has_zero {w : Nat} (i : Nat) : ¬ Has (0 : BitVec w) i := by
  simp [Has]

/-! ## The parts without a closure -/

def gParts {w : Nat} : List (Group w) → BitVec w → List (Part w) × BitVec w
  | [], u => ([], u)
  | g :: gs, u =>
    match g.name (u &&& g.mask) with
    | some n => ((u &&& g.mask, n) :: (gParts gs (u &&& ~~~ g.mask)).1, (gParts gs (u &&& ~~~ g.mask)).2)
    | none => gParts gs u

def bParts {w : Nat} : List (Part w) → BitVec w → List (Part w) × BitVec w
  | [], u => ([], u)
  | b :: bs, u =>
    if u &&& b.1 = b.1 then (b :: (bParts bs (u &&& ~~~ b.1)).1, (bParts bs (u &&& ~~~ b.1)).2)
    else bParts bs u

theorem giving_giving {σ ε α β : Type} (o : Out σ ε Unit) (a : α) (b : β) :
    giving (match giving o a with | (s, .error e) => (s, .error e) | (s, .ok _) => (s, .ok ())) b = giving o b := by
  rcases o with ⟨s, _ | _⟩ <;> rfl

theorem callAll_append {σ ε : Type} {w : Nat} (f : σ → BitVec w → String → Out σ ε Unit) (a b : List (Part w)) (s : σ) :
    callAll f (a ++ b) s = match callAll f a s with
      | (s', .error e) => (s', .error e)
      | (s', .ok _) => callAll f b s' := by
  induction a generalizing s with
  | nil => rfl
  | cons p ps ih =>
    simp only [List.cons_append, callAll]
    rcases f s p.1 p.2 with ⟨s', e | _⟩
    · rfl
    · exact ih s'

theorem groupLoop_eq {σ ε : Type} {w : Nat} (f : σ → BitVec w → String → Out σ ε Unit) (gs : List (Group w)) (s : σ) (u : BitVec w) :
    groupLoop f gs s u = giving (callAll f (gParts gs u).1 s) (gParts gs u).2 := by
  induction gs generalizing s u with
  | nil => rfl
  | cons g gs ih =>
    simp only [groupLoop, gParts]
    cases g.name (u &&& g.mask) with
    | none => exact ih s u
    | some n =>
      simp only [callAll]
      rcases f s (u &&& g.mask) n with ⟨s', e | _⟩
      · rfl
      · exact ih s' _

theorem bitLoop_eq {σ ε : Type} {w : Nat} (f : σ → BitVec w → String → Out σ ε Unit) (bs : List (Part w)) (s : σ) (u : BitVec w) :
    bitLoop f bs s u = giving (callAll f (bParts bs u).1 s) (bParts bs u).2 := by
  induction bs generalizing s u with
  | nil => rfl
  | cons b bs ih =>
    obtain ⟨b, n⟩ := b
    simp only [bitLoop, bParts]
    by_cases h : u &&& b = b
    · simp only [if_pos h, callAll]
      rcases f s b n with ⟨s', e | _⟩
      · rfl
      · exact ih s' _
    · simp only [if_neg h]
      exact ih s u

theorem gParts_append {w : Nat} (a b : List (Group w)) (u : BitVec w) :
    gParts (a ++ b) u = ((gParts a u).1 ++ (gParts b (gParts a u).2).1, (gParts b (gParts a u).2).2) := by
  induction a generalizing u with
  | nil => rfl
  | cons g gs ih =>
    simp only [List.cons_append, gParts]
    cases g.name (u &&& g.mask) with
    | none => exact ih u
    | some n => simp only [ih, List.cons_append]

theorem bParts_append {w : Nat} (a b : List (Part w)) (u : BitVec w) :
    bParts (a ++ b) u = ((bParts a u).1 ++ (bParts b (bParts a u).2).1, (bParts b (bParts a u).2).2) := by
  induction a generalizing u with
  | nil => rfl
  | cons c cs ih =>
    simp only [List.cons_append, bParts]
    by_cases h : u &&& c.1 = c.1
    · simp only [if_pos h, ih, List.cons_append]
    · simp only [if_neg h, ih]

theorem groupTables_eq {σ ε : Type} {w : Nat} (f : σ → BitVec w → String → Out σ ε Unit) (t : List (Flags w)) (s : σ) (u : BitVec w) :
    groupTables f t s u = giving (callAll f (gParts (allGroups t) u).1 s) (gParts (allGroups t) u).2 := by
  induction t generalizing s u with
  | nil => rfl
  | cons a t ih =>
    simp only [groupTables, groupLoop_eq, allGroups, List.flatMap_cons, gParts_append, callAll_append]
    rcases callAll f (gParts a.groups u).1 s with ⟨s', e | _⟩
    · rfl
    · exact ih s' _

theorem tryBitNames_eq {σ ε : Type} {w : Nat} (f : σ → BitVec w → String → Out σ ε Unit) (t : List (Flags w)) (s : σ) (u : BitVec w) :
    tryBitNames f t s u = giving (callAll f (bParts (allBits t) u).1 s) (bParts (allBits t) u).2 := by
  induction t generalizing s u with
  | nil => rfl
  | cons a t ih =>
    simp only [tryBitNames, bitLoop_eq, allBits, List.flatMap_cons, bParts_append, callAll_append]
    rcases callAll f (bParts a.bits u).1 s with ⟨s', e | _⟩
    · rfl
    · exact ih s' _

def parts {w : Nat} (t : List (Flags w)) (u : BitVec w) : List (Part w) :=
  (gParts (allGroups t) u).1 ++ (bParts (allBits t) (gParts (allGroups t) u).2).1

def rest {w : Nat} (t : List (Flags w)) (u : BitVec w) : BitVec w :=
  (bParts (allBits t) (gParts (allGroups t) u).2).2

theorem tryNames_eq {σ ε : Type} {w : Nat} (f : σ → BitVec w → String → Out σ ε Unit) (t : List (Flags w)) (s : σ) (u : BitVec w) :
    tryNames f t s u = giving (callAll f (parts t u) s) (rest t u) := by
  simp only [tryNames, groupTables_eq, parts, rest, callAll_append]
  rcases callAll f (gParts (allGroups t) u).1 s with ⟨s', e | _⟩
  · rfl
  · exact tryBitNames_eq f t s' _

/-! ## The parts make up the value -/

theorem splits_nil {w : Nat} (u : BitVec w) : Splits u [] u := ⟨by simp, List.Pairwise.nil, by simp⟩

theorem splits_cons {w : Nat} {u p m : BitVec w} {n : String} {ps : List (Part w)} {r : BitVec w}
    (hp : ∀ i, Has p i ↔ Has u i ∧ Has m i) (h : Splits (u &&& ~~~ m) ps r) : Splits u ((p, n) :: ps) r := by
  constructor
  · intro i
    have h1 := h.all i
    rw [has_andnot] at h1
    have h2 := hp i
    simp only [List.mem_cons, exists_eq_or_imp, h2, or_assoc, ← h1]
    by_cases hm : Has m i
    · simp [hm]
    · simp [hm]
  · refine List.Pairwise.cons ?_ h.apart
    intro q hq i hi hqi
    have := (h.all i).2 (Or.inl ⟨q, hq, hqi⟩)
    rw [has_andnot] at this
    exact this.2 ((hp i).1 hi).2
  · intro q hq
    rcases List.mem_cons.1 hq with rfl | hq
    · intro i hi hr
      have := (h.all i).2 (Or.inr hr)
      rw [has_andnot] at this
      exact this.2 ((hp i).1 hi).2
    · exact h.restApart q hq

theorem splits_append {w : Nat} {u v r : BitVec w} {ps qs : List (Part w)} (h : Splits u ps v) (k : Splits v qs r) :
    Splits u (ps ++ qs) r := by
  have inv : ∀ q ∈ qs, Within q.1 v := fun q hq i hi => (k.all i).2 (Or.inl ⟨q, hq, hi⟩)
  constructor
  · intro i
    rw [h.all i, k.all i]
    simp only [List.mem_append, or_assoc, or_and_right, exists_or]
  · refine List.pairwise_append.2 ⟨h.apart, k.apart, ?_⟩
    intro p hp q hq i hi hqi
    exact h.restApart p hp i hi (inv q hq i hqi)
  · intro p hp
    rcases List.mem_append.1 hp with hp | hp
    · intro i hi hr
      exact h.restApart p hp i hi ((k.all i).2 (Or.inr hr))
    · exact k.restApart p hp

theorem gParts_splits {w : Nat} (gs : List (Group w)) (u : BitVec w) : Splits u (gParts gs u).1 (gParts gs u).2 := by
  induction gs generalizing u with
  | nil => exact splits_nil u
  | cons g gs ih =>
    simp only [gParts]
    cases g.name (u &&& g.mask) with
    | none => exact ih u
    | some n => exact splits_cons (fun i => has_and _ _ i) (ih _)

theorem bParts_splits {w : Nat} (bs : List (Part w)) (u : BitVec w) : Splits u (bParts bs u).1 (bParts bs u).2 := by
  induction bs generalizing u with
  | nil => exact splits_nil u
  | cons b bs ih =>
    simp only [bParts]
    by_cases h : u &&& b.1 = b.1
    · simp only [if_pos h]
      refine splits_cons (p := b.1) (n := b.2) (m := b.1) (fun i => ?_) (ih _)
      exact ⟨fun x => ⟨(and_eq_iff _ _).1 h i x, x⟩, fun x => x.2⟩
    · simp only [if_neg h]
      exact ih u

theorem rest_within {w : Nat} {u r : BitVec w} {ps : List (Part w)} (h : Splits u ps r) : Within r u :=
  fun i hi => (h.all i).2 (Or.inr hi)

theorem part_within {w : Nat} {u r : BitVec w} {ps : List (Part w)} (h : Splits u ps r) {p : Part w} (hp : p ∈ ps) : Within p.1 u :=
  fun i hi => (h.all i).2 (Or.inl ⟨p, hp, hi⟩)

theorem bParts_sub {w : Nat} (bs : List (Part w)) (u : BitVec w) : List.Sublist (bParts bs u).1 bs := by
  induction bs generalizing u with
  | nil => exact List.Sublist.refl _
  | cons b bs ih =>
    simp only [bParts]
    by_cases h : u &&& b.1 = b.1
    · simp only [if_pos h]
      exact (ih _).cons₂ _
    · simp only [if_neg h]
      exact (ih _).cons _

theorem eq_zero_of_not_has {w : Nat} {b : BitVec w} (h : ∀ i, ¬ Has b i) : b = 0 :=
  ext_has fun i => ⟨fun x => absurd x (h i), fun x => absurd x (not_has_zero i)⟩

theorem bParts_complete {w : Nat} (bs : List (Part w)) (u : BitVec w) :
    ∀ b ∈ bs, b.1 ≠ 0 → ¬ Within b.1 (bParts bs u).2 := by
  induction bs generalizing u with
  | nil => simp
  | cons c bs ih =>
    intro b hb h0 hw
    simp only [bParts] at hw
    by_cases h : u &&& c.1 = c.1
    · simp only [if_pos h] at hw
      rcases List.mem_cons.1 hb with rfl | hb
      · apply h0
        apply eq_zero_of_not_has
        intro i hi
        have := rest_within (bParts_splits bs _) i (hw i hi)
        rw [has_andnot] at this
        exact this.2 hi
      · exact ih _ b hb h0 hw
    · simp only [if_neg h] at hw
      rcases List.mem_cons.1 hb with rfl | hb
      · exact h ((and_eq_iff _ _).2 fun i hi => rest_within (bParts_splits bs _) i (hw i hi))
      · exact ih _ b hb h0 hw

theorem bParts_taken {w : Nat} (bs : List (Part w)) (u : BitVec w) :
    ∀ b ∈ bs, Within b.1 u → b ∈ (bParts bs u).1 ∨ ∃ p ∈ (bParts bs u).1, ¬ Apart p.1 b.1 := by
  induction bs generalizing u with
  | nil => simp
  | cons c bs ih =>
    intro b hb hw
    simp only [bParts]
    by_cases h : u &&& c.1 = c.1
    · simp only [if_pos h]
      rcases List.mem_cons.1 hb with rfl | hb
      · exact Or.inl (List.mem_cons_self ..)
      · by_cases ha : Apart c.1 b.1
        · have hw' : Within b.1 (u &&& ~~~ c.1) := fun i hi => by
            rw [has_andnot]
            exact ⟨hw i hi, fun hc => ha i hc hi⟩
          rcases ih _ b hb hw' with h1 | ⟨p, hp, h2⟩
          · exact Or.inl (List.mem_cons_of_mem _ h1)
          · exact Or.inr ⟨p, List.mem_cons_of_mem _ hp, h2⟩
        · exact Or.inr ⟨c, List.mem_cons_self .., ha⟩
    · simp only [if_neg h]
      rcases List.mem_cons.1 hb with rfl | hb
      · exact absurd ((and_eq_iff _ _).2 hw) h
      · exact ih _ b hb hw

def gRes {w : Nat} : List (Group w) → BitVec w → List (Option (Part w))
  | [], _ => []
  | g :: gs, u =>
    match g.name (u &&& g.mask) with
    | some n => some (u &&& g.mask, n) :: gRes gs (u &&& ~~~ g.mask)
    | none => none :: gRes gs u

def bRes {w : Nat} : List (Part w) → BitVec w → List (Option (Part w))
  | [], _ => []
  | b :: bs, u => if u &&& b.1 = b.1 then some b :: bRes bs (u &&& ~~~ b.1) else none :: bRes bs u

theorem gRes_parts {w : Nat} (gs : List (Group w)) (u : BitVec w) : (gParts gs u).1 = (gRes gs u).filterMap id := by
  induction gs generalizing u with
  | nil => rfl
  | cons g gs ih =>
    simp only [gParts, gRes]
    cases g.name (u &&& g.mask) with
    | none => exact ih u
    | some n => simp only [List.filterMap_cons, id, ih]

theorem bRes_parts {w : Nat} (bs : List (Part w)) (u : BitVec w) : (bParts bs u).1 = (bRes bs u).filterMap id := by
  induction bs generalizing u with
  | nil => rfl
  | cons b bs ih =>
    simp only [bParts, bRes]
    by_cases h : u &&& b.1 = b.1
    · simp only [if_pos h, List.filterMap_cons, id, ih]
    · simp only [if_neg h, List.filterMap_cons, id, ih]

theorem gRes_ok {w : Nat} (gs : List (Group w)) (u : BitVec w) : GroupsInOrder gs u (gRes gs u) := by
  induction gs generalizing u with
  | nil => exact ⟨rfl, fun k g h => by simp at h⟩
  | cons c gs ih =>
    simp only [gRes]
    cases hn : c.name (u &&& c.mask) with
    | none =>
      refine ⟨by simp [(ih u).length], fun k g hg => ?_⟩
      cases k with
      | zero =>
        simp only [List.getElem?_cons_zero, Option.some.injEq] at hg
        subst hg
        exact ⟨u &&& c.mask, fun i => by rw [has_and]; simp, by rw [hn]; rfl⟩
      | succ k =>
        obtain ⟨v, h1, h2⟩ := (ih u).each k g (by simpa using hg)
        exact ⟨v, fun i => by rw [h1 i]; simp, by simpa using h2⟩
    | some n =>
      refine ⟨by simp [(ih (u &&& ~~~ c.mask)).length], fun k g hg => ?_⟩
      cases k with
      | zero =>
        simp only [List.getElem?_cons_zero, Option.some.injEq] at hg
        subst hg
        exact ⟨u &&& c.mask, fun i => by rw [has_and]; simp, by rw [hn]; rfl⟩
      | succ k =>
        obtain ⟨v, h1, h2⟩ := (ih (u &&& ~~~ c.mask)).each k g (by simpa using hg)
        refine ⟨v, fun i => ?_, by simpa using h2⟩
        rw [h1 i, has_andnot]
        simp only [List.take_succ_cons, List.filterMap_cons, id, List.forall_mem_cons, has_and]
        constructor
        · rintro ⟨⟨a, b⟩, d, e⟩
          exact ⟨a, d, fun x => b x.2, e⟩
        · rintro ⟨a, d, b, e⟩
          exact ⟨⟨a, fun x => b ⟨a, x⟩⟩, d, e⟩

theorem bRes_ok {w : Nat} (bs : List (Part w)) (u : BitVec w) : BitsInOrder bs u (bRes bs u) := by
  induction bs generalizing u with
  | nil => exact ⟨rfl, fun k g h => by simp at h⟩
  | cons c bs ih =>
    simp only [bRes]
    by_cases h : u &&& c.1 = c.1
    · simp only [if_pos h]
      refine ⟨by simp [(ih (u &&& ~~~ c.1)).length], fun k b hb => ?_⟩
      cases k with
      | zero =>
        simp only [List.getElem?_cons_zero, Option.some.injEq] at hb
        subst hb
        exact Or.inl ⟨rfl, fun i hi => ⟨(and_eq_iff _ _).1 h i hi, by simp⟩⟩
      | succ k =>
        rcases (ih (u &&& ~~~ c.1)).each k b (by simpa using hb) with ⟨h1, h2⟩ | ⟨h1, i, h2, h3⟩
        · refine Or.inl ⟨by simpa using h1, fun i hi => ?_⟩
          obtain ⟨h3, h4⟩ := h2 i hi
          rw [has_andnot] at h3
          simp only [List.take_succ_cons, List.filterMap_cons, id, List.forall_mem_cons]
          exact ⟨h3.1, h3.2, h4⟩
        · refine Or.inr ⟨by simpa using h1, i, h2, fun hu => ?_⟩
          simp only [List.take_succ_cons, List.filterMap_cons, id, List.mem_cons, exists_eq_or_imp]
          by_cases hc : Has c.1 i
          · exact Or.inl hc
          · exact Or.inr (h3 ((has_andnot _ _ i).2 ⟨hu, hc⟩))
    · simp only [if_neg h]
      refine ⟨by simp [(ih u).length], fun k b hb => ?_⟩
      cases k with
      | zero =>
        simp only [List.getElem?_cons_zero, Option.some.injEq] at hb
        subst hb
        refine Or.inr ⟨rfl, ?_⟩
        apply Classical.byContradiction
        intro hn
        apply h
        rw [and_eq_iff]
        intro i hi
        apply Classical.byContradiction
        intro hu
        exact hn ⟨i, hi, fun x => absurd x hu⟩
      | succ k =>
        rcases (ih u).each k b (by simpa using hb) with ⟨h1, h2⟩ | ⟨h1, i, h2, h3⟩
        · exact Or.inl ⟨by simpa using h1, fun i hi => by simpa using h2 i hi⟩
        · exact Or.inr ⟨by simpa using h1, i, h2, fun hu => by simpa using h3 hu⟩

theorem bParts_ok {w : Nat} (t : List (Flags w)) (u : BitVec w) :
    BitParts t u (bParts (allBits t) u).1 (bParts (allBits t) u).2 :=
  ⟨bParts_splits _ _, ⟨_, bRes_ok _ _, bRes_parts _ _⟩, bParts_sub _ _, bParts_complete _ _, bParts_taken _ _⟩

theorem decoded {w : Nat} (t : List (Flags w)) (u : BitVec w) : Decoded t u (parts t u) (rest t u) :=
  ⟨splits_append (gParts_splits _ _) (bParts_splits _ _),
   _, _, _, rfl, gParts_splits _ _, bParts_ok t _, _, gRes_ok _ _, gRes_parts _ _⟩

/-! ## There is only one decoding -/

theorem eq_of_take {α : Type} {a b : List α} (h : ∀ k, a.take k = b.take k) : a = b := by
  have h1 := h (a.length + b.length)
  rw [List.take_of_length_le (by omega), List.take_of_length_le (by omega)] at h1
  exact h1

theorem groups_unique {w : Nat} {gs : List (Group w)} {u : BitVec w} {a b : List (Option (Part w))} (ha : GroupsInOrder gs u a)
    (hb : GroupsInOrder gs u b) : a = b := by
  apply eq_of_take
  intro k
  induction k with
  | zero => rfl
  | succ k ih =>
    rw [List.take_add_one, List.take_add_one, ih]
    congr 2
    cases hg : gs[k]? with
    | none =>
      have hl := List.getElem?_eq_none_iff.1 hg
      rw [List.getElem?_eq_none (by rw [ha.length]; exact hl), List.getElem?_eq_none (by rw [hb.length]; exact hl)]
    | some g =>
      obtain ⟨v, h1, h2⟩ := ha.each k g hg
      obtain ⟨x, h3, h4⟩ := hb.each k g hg
      have hv : v = x := ext_has fun i => by rw [h1 i, h3 i, ih]
      rw [h2, h4, hv]

theorem bits_unique {w : Nat} {bs : List (Part w)} {u : BitVec w} {a b : List (Option (Part w))} (ha : BitsInOrder bs u a)
    (hb : BitsInOrder bs u b) : a = b := by
  apply eq_of_take
  intro k
  induction k with
  | zero => rfl
  | succ k ih =>
    rw [List.take_add_one, List.take_add_one, ih]
    congr 2
    cases hg : bs[k]? with
    | none =>
      have hl := List.getElem?_eq_none_iff.1 hg
      rw [List.getElem?_eq_none (by rw [ha.length]; exact hl), List.getElem?_eq_none (by rw [hb.length]; exact hl)]
    | some g =>
      have h1 := ha.each k g hg
      have h2 := hb.each k g hg
      rw [ih] at h1
      rcases h1 with ⟨h1, h3⟩ | ⟨h1, i, h3, h5⟩ <;> rcases h2 with ⟨h2, h4⟩ | ⟨h2, j, h4, h6⟩
      · rw [h1, h2]
      · obtain ⟨h7, h8⟩ := h3 j h4
        obtain ⟨p, hp, hpj⟩ := h6 h7
        exact absurd hpj (h8 p hp)
      · obtain ⟨h7, h8⟩ := h4 i h3
        obtain ⟨p, hp, hpi⟩ := h5 h7
        exact absurd hpi (h8 p hp)
      · rw [h1, h2]

theorem rest_unique {w : Nat} {u a b : BitVec w} {ps : List (Part w)} (ha : Splits u ps a) (hb : Splits u ps b) : a = b := by
  apply ext_has
  intro i
  constructor
  · intro h
    rcases (hb.all i).1 ((ha.all i).2 (Or.inr h)) with ⟨p, hp, hi⟩ | h'
    · exact absurd h (ha.restApart p hp i hi)
    · exact h'
  · intro h
    rcases (ha.all i).1 ((hb.all i).2 (Or.inr h)) with ⟨p, hp, hi⟩ | h'
    · exact absurd h (hb.restApart p hp i hi)
    · exact h'

theorem decoded_unique {w : Nat} {t : List (Flags w)} {u a b : BitVec w} {ps qs : List (Part w)} (ha : Decoded t u ps a)
    (hb : Decoded t u qs b) : ps = qs ∧ a = b := by
  obtain ⟨h1, g1, b1, l1, e1, s1, p1, r1, o1, f1⟩ := ha
  obtain ⟨h2, g2, b2, l2, e2, s2, p2, r2, o2, f2⟩ := hb
  have hg : g1 = g2 := by rw [f1, f2, groups_unique o1 o2]
  subst hg
  have hl := rest_unique s1 s2
  subst hl
  obtain ⟨q1, c1, d1⟩ := p1.order
  obtain ⟨q2, c2, d2⟩ := p2.order
  have hbs : b1 = b2 := by rw [d1, d2, bits_unique c1 c2]
  subst hbs
  exact ⟨by rw [e1, e2], rest_unique p1.splits p2.splits⟩

/-! ## The closures of the other functions -/

theorem names_eq {σ : Type} {w : Nat} (f : σ → BitVec w → String → σ) (t : List (Flags w)) (s : σ) (u : BitVec w) :
    names f t s u = ((parts t u).foldl (fun s p => f s p.1 p.2) s, rest t u) := by
  have h : ∀ (ps : List (Part w)) (s : σ), callAll (ε := Empty) (fun s v n => (f s v n, .ok ())) ps s =
      (ps.foldl (fun s p => f s p.1 p.2) s, .ok ()) := by
    intro ps
    induction ps with
    | nil => intro s; rfl
    | cons p ps ih => intro s; exact ih _
  simp only [names, tryNames_eq, h]
  rfl

theorem bitNames_eq {σ : Type} {w : Nat} (f : σ → BitVec w → String → σ) (t : List (Flags w)) (s : σ) (u : BitVec w) :
    bitNames f t s u = ((bParts (allBits t) u).1.foldl (fun s p => f s p.1 p.2) s, (bParts (allBits t) u).2) := by
  have h : ∀ (ps : List (Part w)) (s : σ), callAll (ε := Empty) (fun s v n => (f s v n, .ok ())) ps s =
      (ps.foldl (fun s p => f s p.1 p.2) s, .ok ()) := by
    intro ps
    induction ps with
    | nil => intro s; rfl
    | cons p ps ih => intro s; exact ih _
  simp only [bitNames, tryBitNames_eq, h]
  rfl

theorem flagName_eq {w : Nat} (t : List (Flags w)) (u : BitVec w) : flagName t u = (parts t u).head? := by
  simp only [flagName, tryNames_eq]
  cases parts t u with
  | nil => rfl
  | cons p ps => rfl


/-! ## The text -/

theorem putAll_append {σ ε : Type} (put : σ → String → Out σ ε Unit) (a b : List String) (s : σ) :
    putAll put (a ++ b) s = match putAll put a s with
      | (s', .error e) => (s', .error e)
      | (s', .ok _) => putAll put b s' := by
  induction a generalizing s with
  | nil => rfl
  | cons p ps ih =>
    simp only [List.cons_append, putAll]
    rcases put s p with ⟨s', e | _⟩
    · rfl
    · exact ih s'

/-- The closure of `flag_debug`. -/
def each {w : Nat} {σ : Type} (put : σ → String → Out σ Unit Unit) : (σ × Bool) → BitVec w → String → Out (σ × Bool) Unit Unit :=
  fun st _ name =>
    match (if st.2 then (st.1, .ok ()) else put st.1 " | ") with
    | (s', .error e) => ((s', st.2), .error e)
    | (s', .ok _) =>
      match put s' name with
      | (s'', r) => ((s'', false), r)

def tailStrings (l : List String) : List String := l.flatMap (fun n => [" | ", n])

theorem intersperse_cons (a : String) (l : List String) : (a :: l).intersperse " | " = a :: tailStrings l := by
  induction l generalizing a with
  | nil => rfl
  | cons b l ih =>
    show a :: " | " :: (b :: l).intersperse " | " = _
    rw [ih]
    rfl

theorem each_false {w : Nat} {σ : Type} (put : σ → String → Out σ Unit Unit) (ps : List (Part w)) (s : σ) :
    callAll (each put) ps (s, false) =
      ((((putAll put (tailStrings (ps.map (·.2))) s).1, false), (putAll put (tailStrings (ps.map (·.2))) s).2)) := by
  induction ps generalizing s with
  | nil => rfl
  | cons p ps ih =>
    have h : tailStrings ((p :: ps).map (·.2)) = " | " :: p.2 :: tailStrings (ps.map (·.2)) := rfl
    simp only [callAll, each, h, putAll, Bool.false_eq_true, if_false]
    rcases put s " | " with ⟨s', e | _⟩
    · rfl
    · dsimp only
      rcases put s' p.2 with ⟨s'', e | _⟩
      · rfl
      · exact ih s''

theorem each_true {w : Nat} {σ : Type} (put : σ → String → Out σ Unit Unit) (p : Part w) (ps : List (Part w)) (s : σ) :
    callAll (each put) (p :: ps) (s, true) =
      ((((putAll put (p.2 :: tailStrings (ps.map (·.2))) s).1, false), (putAll put (p.2 :: tailStrings (ps.map (·.2))) s).2)) := by
  simp only [callAll, each, putAll, if_true]
  rcases put s p.2 with ⟨s', e | _⟩
  · rfl
  · exact each_false put ps s'

theorem putAll_one {σ ε : Type} (put : σ → String → Out σ ε Unit) (x : String) (s : σ) : putAll put [x] s = put s x := by
  simp only [putAll]
  rcases put s x with ⟨s', e | ⟨⟩⟩ <;> rfl

theorem flagDebug_eq {w : Nat} {σ : Type} (put : σ → String → Out σ Unit Unit) (t : List (Flags w)) (s : σ) (u : BitVec w) :
    flagDebug put t s u = putAll put ((shown (parts t u) (rest t u)).intersperse " | ") s := by
  have key : flagDebug put t s u = match giving (callAll (each put) (parts t u) (s, true)) (rest t u) with
      | ((s', _), .error e) => (s', .error e)
      | ((s', first), .ok unmatched) =>
        if unmatched ≠ 0 then
          match (if first then (s', .ok ()) else put s' " | ") with
          | (s'', .error e) => (s'', .error e)
          | (s'', .ok _) => put s'' ("0x" ++ hex unmatched.toNat)
        else if first then put s' "0"
        else (s', .ok ()) := by
    rw [← tryNames_eq]
    rfl
  rw [key]
  cases hp : parts t u with
  | nil =>
    simp only [callAll, giving, shown, List.map_nil, List.nil_append, if_true]
    by_cases hr : rest t u = 0
    · simp only [hr, ne_eq, not_true_eq_false, if_false, if_true]
      exact (putAll_one put "0" s).symm
    · simp only [hr, ne_eq, not_false_eq_true, if_true, if_false, reduceCtorEq]
      exact (putAll_one put _ s).symm
  | cons p ps =>
    rw [each_true]
    simp only [shown, List.map_cons, List.cons_append, reduceCtorEq, if_false, intersperse_cons]
    have ht : ∀ a b : List String, tailStrings (a ++ b) = tailStrings a ++ tailStrings b := fun a b => List.flatMap_append
    rw [ht, ← List.cons_append, putAll_append]
    generalize putAll put (p.2 :: tailStrings (ps.map (·.2))) s = o
    rcases o with ⟨s', e | ⟨⟩⟩
    · rfl
    · simp only [giving, Bool.false_eq_true, if_false]
      by_cases hr : rest t u = 0
      · simp only [hr, ne_eq, not_true_eq_false, if_false, if_true]
        rfl
      · simp only [hr, ne_eq, not_false_eq_true, if_true, if_false]
        show _ = putAll put [" | ", _] s'
        simp only [putAll]
        rcases put s' " | " with ⟨s'', e | ⟨⟩⟩
        · rfl
        · dsimp only
          rcases put s'' ("0x" ++ hex (rest t u).toNat) with ⟨s3, e | ⟨⟩⟩ <;> rfl

/-! ## Tables in which no two entries share a bit -/

theorem gParts_separate {w : Nat} (gs : List (Group w)) (hs : gs.Pairwise (fun g h => Apart g.mask h.mask)) (u v : BitVec w)
    (huv : ∀ g ∈ gs, u &&& g.mask = v &&& g.mask) :
    (gParts gs u).1 = gs.filterMap (fun g => (g.name (v &&& g.mask)).map (fun n => (v &&& g.mask, n))) ∧
    (∀ m : BitVec w, (∀ g ∈ gs, Apart g.mask m) → ∀ i, Has m i → (Has (gParts gs u).2 i ↔ Has u i)) := by
  induction gs generalizing u with
  | nil => exact ⟨rfl, fun m _ i _ => Iff.rfl⟩
  | cons g gs ih =>
    have hg := huv g (List.mem_cons_self ..)
    have hp := List.pairwise_cons.1 hs
    simp only [gParts, List.filterMap_cons]
    rw [← hg]
    cases hn : g.name (u &&& g.mask) with
    | none =>
      obtain ⟨h1, h2⟩ := ih hp.2 u (fun h hh => huv h (List.mem_cons_of_mem _ hh))
      exact ⟨h1, fun m hm => h2 m (fun h hh => hm h (List.mem_cons_of_mem _ hh))⟩
    | some n =>
      obtain ⟨h1, h2⟩ := ih hp.2 (u &&& ~~~ g.mask) (fun h hh => by
        rw [← huv h (List.mem_cons_of_mem _ hh)]
        apply ext_has
        intro i
        rw [has_and, has_andnot, has_and]
        exact ⟨fun ⟨⟨a, _⟩, b⟩ => ⟨a, b⟩, fun ⟨a, b⟩ => ⟨⟨a, fun c => hp.1 h hh i c b⟩, b⟩⟩)
      refine ⟨by rw [h1]; rfl, fun m hm i hi => ?_⟩
      rw [h2 m (fun h hh => hm h (List.mem_cons_of_mem _ hh)) i hi, has_andnot]
      exact ⟨fun x => x.1, fun x => ⟨x, fun c => hm g (List.mem_cons_self ..) i c hi⟩⟩

open Classical in
theorem bParts_separate {w : Nat} (bs : List (Part w)) (hs : bs.Pairwise (fun a b => Apart a.1 b.1)) (u v : BitVec w)
    (huv : ∀ b ∈ bs, Within b.1 u ↔ Within b.1 v) :
    (bParts bs u).1 = bs.filter (fun b => Within b.1 v) := by
  induction bs generalizing u with
  | nil => rfl
  | cons b bs ih =>
    have hb := huv b (List.mem_cons_self ..)
    have hp := List.pairwise_cons.1 hs
    simp only [bParts, List.filter_cons, and_eq_iff, decide_eq_true_eq, ← hb]
    by_cases hw : Within b.1 u
    · simp only [if_pos hw]
      rw [ih hp.2]
      intro c hc
      rw [← huv c (List.mem_cons_of_mem _ hc)]
      constructor
      · exact fun x i hi => ((has_andnot _ _ i).1 (x i hi)).1
      · exact fun x i hi => (has_andnot _ _ i).2 ⟨x i hi, fun d => hp.1 c hc i d hi⟩
    · simp only [if_neg hw]
      exact ih hp.2 u (fun c hc => huv c (List.mem_cons_of_mem _ hc))

theorem parts_separate {w : Nat} (t : List (Flags w)) (hs : Separate t) (u : BitVec w) : parts t u = simpleParts t u := by
  obtain ⟨h1, h2⟩ := gParts_separate (allGroups t) hs.groups u u (fun _ _ => rfl)
  simp only [parts, simpleParts]
  rw [h1, bParts_separate (allBits t) hs.bits _ u]
  intro b hb
  have := h2 b.1 (fun g hg => hs.mixed g hg b hb)
  exact ⟨fun x i hi => (this i hi).1 (x i hi), fun x i hi => (this i hi).2 (x i hi)⟩

/-! ## Constants -/

theorem findEntry_append {w : Nat} (v : BitVec w) (a b : List (BitVec w × String)) :
    findEntry v (a ++ b) = match findEntry v a with | some n => some n | none => findEntry v b := by
  induction a with
  | nil => rfl
  | cons e es ih =>
    simp only [List.cons_append, findEntry]
    by_cases h : e.1 = v
    · simp only [if_pos h]
    · simp only [if_neg h, ih]

theorem constName_eq {w : Nat} (t : List (Consts w)) (v : BitVec w) : constName t v = findEntry v (t.flatMap (·.entries)) := by
  induction t with
  | nil => rfl
  | cons a t ih =>
    simp only [constName, List.flatMap_cons, findEntry_append]
    cases findEntry v a.entries with
    | some n => rfl
    | none => exact ih

theorem findEntry_iff {w : Nat} (v : BitVec w) (l : List (BitVec w × String)) (n : String) :
    findEntry v l = some n ↔ FirstNamed l v n := by
  induction l with
  | nil =>
    constructor
    · intro h; cases h
    · rintro ⟨a, b, h, _⟩
      cases a <;> cases h
  | cons e es ih =>
    simp only [findEntry]
    by_cases h : e.1 = v
    · rw [if_pos h]
      constructor
      · intro hn
        cases hn
        exact ⟨[], es, by rw [← h]; rfl, by simp⟩
      · rintro ⟨a, b, h1, h2⟩
        cases a with
        | nil => cases h1; rfl
        | cons c cs =>
          cases h1
          exact absurd h (h2 e (List.mem_cons_self ..))
    · rw [if_neg h, ih]
      constructor
      · rintro ⟨a, b, h1, h2⟩
        refine ⟨e :: a, b, by rw [h1]; rfl, ?_⟩
        intro x hx
        rcases List.mem_cons.1 hx with rfl | hx
        · exact h
        · exact h2 x hx
      · rintro ⟨a, b, h1, h2⟩
        cases a with
        | nil => cases h1; exact absurd rfl h
        | cons c cs =>
          cases h1
          exact ⟨cs, b, rfl, fun x hx => h2 x (List.mem_cons_of_mem _ hx)⟩

theorem findEntry_none {w : Nat} (v : BitVec w) (l : List (BitVec w × String)) :
    findEntry v l = none ↔ ∀ e ∈ l, e.1 ≠ v := by
  induction l with
  | nil => simp [findEntry]
  | cons e es ih =>
    simp only [findEntry]
    by_cases h : e.1 = v
    · simp [h]
    · simp [h, ih]

end Obj.Nm

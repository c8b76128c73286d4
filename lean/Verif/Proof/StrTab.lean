import Verif.Proof.StrSort
import Verif.Proof.Bytes
import Verif.Spec.StrTab

namespace Obj
open Spec
namespace StrTab

/-! ## adding -/

theorem indexOf_some {s : List UInt8} : ∀ {l : List (List UInt8)} {i : Nat}, indexOf s l = some i → l[i]? = some s
  | [], _, h => by simp [indexOf] at h
  | t :: ts, i, h => by
    simp only [indexOf] at h
    split at h
    · simp at h; subst h; simp_all
    · simp only [Option.map_eq_some_iff] at h
      obtain ⟨j, hj, rfl⟩ := h
      simpa using indexOf_some hj

theorem indexOf_isSome {s : List UInt8} : ∀ {l : List (List UInt8)}, s ∈ l → ∃ i, indexOf s l = some i
  | [], h => by simp at h
  | t :: ts, h => by
    simp only [indexOf]
    split
    · exact ⟨0, rfl⟩
    · rename_i hne
      have : s ∈ ts := by
        rcases List.mem_cons.1 h with rfl | h
        · exact absurd rfl hne
        · exact h
      obtain ⟨i, hi⟩ := indexOf_isSome this
      exact ⟨i + 1, by simp [hi]⟩

theorem indexOf_none {s : List UInt8} {l : List (List UInt8)} (h : indexOf s l = none) : s ∉ l := by
  intro hm
  obtain ⟨i, hi⟩ := indexOf_isSome hm
  rw [hi] at h; simp at h

theorem indexOf_append_left {s : List UInt8} : ∀ {l r : List (List UInt8)} {i : Nat}, indexOf s l = some i →
    indexOf s (l ++ r) = some i
  | [], _, _, h => by simp [indexOf] at h
  | t :: ts, r, i, h => by
    simp only [indexOf, List.cons_append] at h ⊢
    split
    · simp_all
    · rename_i hne
      rw [if_neg hne] at h
      simp only [Option.map_eq_some_iff] at h ⊢
      obtain ⟨j, hj, rfl⟩ := h
      exact ⟨j, indexOf_append_left hj, rfl⟩

theorem indexOf_append_new {s : List UInt8} : ∀ {l : List (List UInt8)}, s ∉ l →
    indexOf s (l ++ [s]) = some l.length
  | [], _ => by simp [indexOf]
  | t :: ts, h => by
    simp at h
    simp only [indexOf, List.cons_append]
    rw [if_neg (Ne.symm h.1), indexOf_append_new h.2]
    simp

theorem add_strings (t : StrTab) (s : List UInt8) :
    (t.add s).2.strings = if s ∈ t.strings then t.strings else t.strings ++ [s] := by
  unfold add
  match h : indexOf s t.strings with
  | some i =>
    have : s ∈ t.strings := List.mem_of_getElem? (indexOf_some h)
    simp [this]
  | none =>
    have := indexOf_none h
    simp only [this, if_false]
    by_cases ho : t.inOrder <;> simp [ho]

theorem add_flags (t : StrTab) (s : List UInt8) :
    (t.add s).2.inOrder = t.inOrder ∧ (t.add s).2.base = t.base := by
  unfold add
  match h : indexOf s t.strings with
  | some i => simp
  | none => by_cases ho : t.inOrder <;> simp [ho]

/-- the strings after some additions: still duplicate free, extending the old list, with exactly the new
members -/
theorem addAll_strings (ss : List (List UInt8)) : ∀ (t : StrTab), t.strings.Nodup →
    (addAll t ss).strings.Nodup ∧ t.strings <+: (addAll t ss).strings ∧
    (∀ s, s ∈ (addAll t ss).strings ↔ s ∈ t.strings ∨ s ∈ ss) ∧
    (addAll t ss).inOrder = t.inOrder ∧ (addAll t ss).base = t.base ∧
    (addAll t ss).strings.length ≤ t.strings.length + ss.length := by
  induction ss with
  | nil => intro t h; simp [addAll, h]
  | cons s ss ih =>
    intro t h
    have hs := add_strings t s
    have hnd : (t.add s).2.strings.Nodup := by
      rw [hs]; split
      · exact h
      · rename_i hn
        rw [List.nodup_append]
        refine ⟨h, by simp, ?_⟩
        intro a ha b hb; simp at hb; subst hb; rintro rfl; exact hn ha
    obtain ⟨i1, i2, i3, i4, i5, i6⟩ := ih (t.add s).2 hnd
    have hpre : t.strings <+: (t.add s).2.strings := by
      rw [hs]; split
      · exact List.prefix_refl _
      · exact List.prefix_append _ _
    refine ⟨i1, hpre.trans i2, ?_, ?_, ?_, ?_⟩
    · intro x
      rw [show addAll t (s :: ss) = addAll (t.add s).2 ss from rfl, i3 x, hs]
      by_cases hm : s ∈ t.strings
      · rw [if_pos hm]
        simp only [List.mem_cons]
        constructor
        · rintro (h | h); exact Or.inl h; exact Or.inr (Or.inr h)
        · rintro (h | rfl | h); exact Or.inl h; exact Or.inl hm; exact Or.inr h
      · rw [if_neg hm]; simp only [List.mem_append, List.mem_cons, List.not_mem_nil, or_false, or_assoc]
    · rw [show addAll t (s :: ss) = addAll (t.add s).2 ss from rfl, i4]; exact (add_flags t s).1
    · rw [show addAll t (s :: ss) = addAll (t.add s).2 ss from rfl, i5]; exact (add_flags t s).2
    · have : (t.add s).2.strings.length ≤ t.strings.length + 1 := by
        rw [hs]; split <;> simp
      rw [show addAll t (s :: ss) = addAll (t.add s).2 ss from rfl]
      simp; omega

theorem indexOf_prefix {s : List UInt8} {l l' : List (List UInt8)} {i : Nat} (h : l <+: l')
    (hi : indexOf s l = some i) : indexOf s l' = some i := by
  obtain ⟨r, rfl⟩ := h
  exact indexOf_append_left hi

/-- the id returned by `add` is the one `get_id` reports ever after -/
theorem add_id (t : StrTab) (s : List UInt8) :
    ∃ i, indexOf s (t.add s).2.strings = some i ∧ (t.add s).1 = i % U32 := by
  unfold add
  match h : indexOf s t.strings with
  | some i => exact ⟨i, h, rfl⟩
  | none =>
    have := indexOf_none h
    refine ⟨t.strings.length, ?_, rfl⟩
    by_cases ho : t.inOrder <;> simp [ho, indexOf_append_new this]

/-- not in order: offsets are untouched by `add` -/
theorem addAll_offsets_merge (ss : List (List UInt8)) : ∀ (t : StrTab), t.inOrder = false →
    (addAll t ss).offsets = t.offsets := by
  induction ss with
  | nil => intro t _; rfl
  | cons s ss ih =>
    intro t h
    have : (t.add s).2.offsets = t.offsets ∧ (t.add s).2.inOrder = false := by
      unfold add
      match indexOf s t.strings with
      | some i => simp [h]
      | none => simp [h]
    rw [show addAll t (s :: ss) = addAll (t.add s).2 ss from rfl, ih _ this.2, this.1]

/-! ## the emission loop -/

theorem stringAt_append {data s y : List UInt8} {p : Nat} (h : StringAt data s p) : StringAt (data ++ y) s p := by
  obtain ⟨x, z, rfl, rfl⟩ := h
  exact ⟨x, z ++ y, by simp, rfl⟩

theorem writeLoop_spec (strings : List (List UInt8)) (pre : List UInt8) (todo : List Nat) :
    ∀ (done : List Nat) (offsets : List Nat) (offset : Nat) (prev out : List UInt8),
      (done ++ todo).Nodup → (∀ id ∈ todo, id < strings.length) → offsets.length = strings.length →
      offset = pre.length + out.length →
      ((prev = [] ∧ out = []) ∨ ∃ q, out = q ++ prev ++ [0]) →
      (pre.getLast? = some 0 ∨ out ≠ [] ∨ ∀ id, todo.head? = some id → strings[id]? ≠ some []) →
      (∀ id ∈ done, ∃ s p, strings[id]? = some s ∧ StringAt (pre ++ out) s p ∧ offsets[id]? = some (p % U32)) →
      ∃ offsets' prev' out', writeLoop strings todo (offsets, offset, prev, out)
          = .ok (offsets', pre.length + out'.length, prev', out') ∧
        offsets'.length = strings.length ∧
        (∀ id ∈ done ++ todo, ∃ s p, strings[id]? = some s ∧ StringAt (pre ++ out') s p ∧
          offsets'[id]? = some (p % U32)) := by
  induction todo with
  | nil =>
    intro done offsets offset prev out _ _ hol hoff _ _ hdone
    exact ⟨offsets, prev, out, by simp [writeLoop, hoff], hol, by simpa using hdone⟩
  | cons id todo ih =>
    intro done offsets offset prev out hnd hlt hol hoff hprev hE hdone
    have hid : id < strings.length := hlt id (by simp)
    obtain ⟨s, hs⟩ : ∃ s, strings[id]? = some s := ⟨_, List.getElem?_eq_getElem hid⟩
    have hnotdone : ∀ d ∈ done, id ≠ d := by
      intro d hd h
      rw [List.nodup_append] at hnd
      exact hnd.2.2 d hd id (by simp) h.symm
    have hkeep : ∀ (v : Nat) (out2 : List UInt8), out <+: out2 → ∀ d ∈ done, ∃ s p, strings[d]? = some s ∧
        StringAt (pre ++ out2) s p ∧ (offsets.set id v)[d]? = some (p % U32) := by
      rintro v out2 ⟨y, rfl⟩ d hd
      obtain ⟨s, p, h1, h2, h3⟩ := hdone d hd
      refine ⟨s, p, h1, ?_, ?_⟩
      · rw [← List.append_assoc]; exact stringAt_append h2
      · rw [List.getElem?_set_ne (hnotdone d hd)]; exact h3
    have hnd' : ((done ++ [id]) ++ todo).Nodup := by simpa using hnd
    have hset : ∀ v, (offsets.set id v)[id]? = some v := by
      intro v; rw [List.getElem?_set_self (by omega)]
    simp only [writeLoop, writeStep, hs]
    by_cases hsuf : s.isSuffixOf prev
    · -- shared with the previous string
      rw [if_pos hsuf]
      rw [List.isSuffixOf_iff_suffix] at hsuf
      -- where it is
      have hat : ∃ p, StringAt (pre ++ out) s p ∧ offset = p + (s.length + 1) := by
        rcases hprev with ⟨rfl, rfl⟩ | ⟨q, rfl⟩
        · have hs0 : s = [] := List.suffix_nil.1 hsuf
          subst hs0
          rcases hE with hE | hE | hE
          · obtain ⟨pre', rfl⟩ := List.getLast?_eq_some_iff.1 hE
            exact ⟨pre'.length, ⟨pre', [], by simp, rfl⟩, by simp at hoff ⊢; omega⟩
          · exact absurd rfl hE
          · exact absurd hs (hE id rfl)
        · obtain ⟨r, rfl⟩ := hsuf
          refine ⟨(pre ++ q ++ r).length, ⟨pre ++ q ++ r, [], by simp, rfl⟩, ?_⟩
          simp at hoff ⊢; omega
      obtain ⟨p, hat, hp⟩ := hat
      rw [if_neg (by omega), if_neg (by omega)]
      simp only [Res.ok_bind]
      obtain ⟨offsets', prev', out', h1, h2, h3⟩ := ih (done ++ [id]) (offsets.set id ((offset - (s.length + 1)) % U32))
        offset prev out hnd' (fun x hx => hlt x (by simp [hx])) (by simpa using hol) hoff hprev
        (by
          rcases hE with hE | hE | hE
          · exact Or.inl hE
          · exact Or.inr (Or.inl hE)
          · right; left
            rintro rfl
            rcases hprev with ⟨rfl, _⟩ | ⟨q, h⟩
            · have : s = [] := List.suffix_nil.1 hsuf
              subst this
              exact hE id rfl hs
            · simp at h)
        (by
          intro d hd
          rcases List.mem_append.1 hd with hd | hd
          · exact hkeep _ out (List.prefix_refl _) d hd
          · simp at hd; subst hd
            refine ⟨s, p, hs, hat, ?_⟩
            rw [hset]; congr 2; omega)
      exact ⟨offsets', prev', out', h1, h2, by simpa using h3⟩
    · rw [if_neg hsuf, if_neg (by omega)]
      simp only [Res.ok_bind]
      obtain ⟨offsets', prev', out', h1, h2, h3⟩ := ih (done ++ [id]) (offsets.set id (offset % U32))
        (offset + (s.length + 1)) s (out ++ s ++ [0]) hnd' (fun x hx => hlt x (by simp [hx]))
        (by simpa using hol) (by simp; omega) (Or.inr ⟨out, rfl⟩) (Or.inr (Or.inl (by simp)))
        (by
          intro d hd
          rcases List.mem_append.1 hd with hd | hd
          · exact hkeep _ (out ++ s ++ [0]) ⟨s ++ [0], by simp⟩ d hd
          · simp at hd; subst hd
            refine ⟨s, offset, hs, ⟨pre ++ out, [], by simp, by simp [hoff]⟩, ?_⟩
            rw [hset])
      exact ⟨offsets', prev', out', h1, h2, by simpa using h3⟩

/-- `size` computes what `write` emits. -/
theorem sizeLoop_eq (strings : List (List UInt8)) (todo : List Nat) :
    ∀ (offsets : List Nat) (offset : Nat) (prev out : List UInt8) (r : List Nat × Nat × List UInt8 × List UInt8),
      writeLoop strings todo (offsets, offset, prev, out) = .ok r →
      sizeLoop strings todo offset prev = .ok r.2.1 := by
  induction todo with
  | nil => intro offsets offset prev out r h; simp [writeLoop] at h; subst h; simp [sizeLoop]
  | cons id todo ih =>
    intro offsets offset prev out r h
    simp only [writeLoop, writeStep] at h
    simp only [sizeLoop]
    match hs : strings[id]? with
    | none => simp [hs] at h
    | some s =>
      simp only [hs] at h
      by_cases hsuf : s.isSuffixOf prev
      · simp only [if_pos hsuf] at h ⊢
        split at h
        · simp at h
        · split at h
          · simp at h
          · simp only [Res.ok_bind] at h
            exact ih _ _ _ _ _ h
      · simp only [if_neg hsuf] at h ⊢
        split at h
        · simp at h
        · simp only [Res.ok_bind] at h
          exact ih _ _ _ _ _ h

/-- `size` does not panic on valid ids -/
theorem sizeLoop_ok (strings : List (List UInt8)) (todo : List Nat) : ∀ (size : Nat) (prev : List UInt8),
    (∀ id ∈ todo, id < strings.length) → ∃ r, sizeLoop strings todo size prev = .ok r := by
  induction todo with
  | nil => intro size prev _; exact ⟨size, rfl⟩
  | cons id todo ih =>
    intro size prev h
    simp only [sizeLoop, List.getElem?_eq_getElem (h id (by simp))]
    split
    · exact ih _ _ (fun x hx => h x (by simp [hx]))
    · exact ih _ _ (fun x hx => h x (by simp [hx]))

/-! ## which strings are emitted -/

theorem rev_of_getElem? {strings : List (List UInt8)} {id : Nat} {s : List UInt8} (h : strings[id]? = some s) :
    rev strings id = s.reverse := by simp [rev, h]

theorem sizeLoop_maximal (strings : List (List UInt8)) (hnd : strings.Nodup) (todo : List Nat) :
    ∀ (done : List Nat) (size : Nat) (prev : List UInt8),
      (done ++ todo).Perm (List.range strings.length) →
      (done ++ todo).Pairwise (fun a b => lexGe (rev strings a) (rev strings b)) →
      ((done = [] ∧ prev = []) ∨ (∃ d' d s, done = d' ++ [d] ∧ strings[d]? = some s ∧ s <:+ prev ∧
        (prev = [] ∨ ∃ j ∈ done, strings[j]? = some prev))) →
      sizeLoop strings todo size prev =
        .ok (size + storedSize ((todo.map (fun id => strings[id]?.getD [])).filter
          (fun s => decide (Maximal strings s)))) := by
  induction todo with
  | nil => intro done size prev _ _ _; simp [sizeLoop, storedSize]
  | cons id todo ih =>
    intro done size prev hperm hpw hinv
    have hmemr : ∀ {x}, x ∈ done ++ id :: todo ↔ x < strings.length := by
      intro x; rw [hperm.mem_iff]; simp
    have hnodup : (done ++ id :: todo).Nodup := hperm.nodup_iff.2 List.nodup_range
    have hid : id < strings.length := hmemr.1 (by simp)
    obtain ⟨s, hs⟩ : ∃ s, strings[id]? = some s := ⟨_, List.getElem?_eq_getElem hid⟩
    have hsm : s ∈ strings := List.mem_of_getElem? hs
    have hiff : s.isSuffixOf prev = true ↔ ¬ Maximal strings s := by
      rw [List.isSuffixOf_iff_suffix]
      constructor
      · rintro hsuf ⟨hne, hmax⟩
        have hprevne : prev ≠ [] := by
          rintro rfl; exact hne (List.suffix_nil.1 hsuf)
        have : ∃ j ∈ done, strings[j]? = some prev := by
          rcases hinv with ⟨_, h⟩ | ⟨_, _, _, _, _, _, h | h⟩
          · exact absurd h hprevne
          · exact absurd h hprevne
          · exact h
        obtain ⟨j, hj, hjs⟩ := this
        have heq := hmax prev (List.mem_of_getElem? hjs) hsuf
        subst heq
        have hjid : j = id := by
          have hjl : j < strings.length := hmemr.1 (by simp [hj])
          exact (List.getElem?_inj hjl hnd).1 (hjs.trans hs.symm)
        subst hjid
        rw [List.nodup_append] at hnodup
        exact hnodup.2.2 j hj j (by simp) rfl
      · intro hmax
        by_cases hs0 : s = []
        · subst hs0; simp
        · have : ∃ t ∈ strings, s <:+ t ∧ t ≠ s := by
            apply Classical.byContradiction
            intro hno
            apply hmax
            refine ⟨hs0, ?_⟩
            intro t ht hst
            apply Classical.byContradiction
            intro hne
            exact hno ⟨t, ht, hst, hne⟩
          obtain ⟨t, ht, hst, hne⟩ := this
          obtain ⟨j, hj⟩ := List.mem_iff_getElem?.1 ht
          have hjlt : j < strings.length := by
            apply Nat.lt_of_not_le; intro h; rw [List.getElem?_eq_none h] at hj; simp at hj
          have hjm := hmemr.2 hjlt
          rw [List.pairwise_append, List.pairwise_cons] at hpw
          obtain ⟨hpd, ⟨hpid, _⟩, hpc⟩ := hpw
          have hpre : s.reverse <+: t.reverse := List.reverse_prefix.2 hst
          have hjd : j ∈ done := by
            rcases List.mem_append.1 hjm with h | h
            · exact h
            · exfalso
              rcases List.mem_cons.1 h with rfl | h
              · rw [hs] at hj; simp at hj; exact hne hj.symm
              · have h1 := hpid j h
                rw [rev_of_getElem? hs, rev_of_getElem? hj] at h1
                have := lexGe_antisymm _ _ h1 (lexGe_of_prefix _ _ hpre)
                exact hne (List.reverse_inj.1 this).symm
          rcases hinv with ⟨h, _⟩ | ⟨d', d, sd, hdone, hds, hsd, _⟩
          · subst h; simp at hjd
          · have hdm : d ∈ done := by rw [hdone]; simp
            have h2 : lexGe (rev strings d) (rev strings id) := hpc d hdm id (by simp)
            rw [rev_of_getElem? hs, rev_of_getElem? hds] at h2
            have h1 : lexGe t.reverse sd.reverse := by
              rw [hdone] at hjd hpd
              rcases List.mem_append.1 hjd with h | h
              · rw [List.pairwise_append] at hpd
                have := hpd.2.2 j h d (by simp)
                rwa [rev_of_getElem? hj, rev_of_getElem? hds] at this
              · simp at h; subst h
                rw [hj] at hds; simp at hds; subst hds; exact lexGe_refl _
            have := lexGe_convex _ _ _ h1 h2 hpre
            exact (List.reverse_prefix.1 this).trans hsd
    simp only [sizeLoop, hs, List.map_cons, Option.getD_some]
    have hdone' : (done ++ [id]) ++ todo = done ++ id :: todo := by simp
    by_cases hsuf : s.isSuffixOf prev = true
    · rw [if_pos hsuf, List.filter_cons_of_neg (by simpa using hiff.1 hsuf)]
      refine ih (done ++ [id]) size prev (by rw [hdone']; exact hperm) (by rw [hdone']; exact hpw) ?_
      right
      refine ⟨done, id, s, rfl, hs, List.isSuffixOf_iff_suffix.1 hsuf, ?_⟩
      rcases hinv with ⟨_, h⟩ | ⟨_, _, _, _, _, _, h | ⟨j, hj, hjs⟩⟩
      · exact Or.inl h
      · exact Or.inl h
      · exact Or.inr ⟨j, by simp [hj], hjs⟩
    · have hmax : Maximal strings s := Classical.byContradiction fun h => hsuf (hiff.2 h)
      rw [if_neg hsuf, List.filter_cons_of_pos (by simpa using hmax)]
      rw [ih (done ++ [id]) (size + (s.length + 1)) s (by rw [hdone']; exact hperm)
        (by rw [hdone']; exact hpw) (Or.inr ⟨done, id, s, rfl, hs, List.suffix_refl s, Or.inr ⟨id, by simp, hs⟩⟩)]
      congr 1
      simp [storedSize]; omega

theorem storedSize_perm {a b : List (List UInt8)} (h : a.Perm b) : storedSize a = storedSize b :=
  (h.map _).sum_nat

theorem map_range_getD (strings : List (List UInt8)) :
    (List.range strings.length).map (fun id => strings[id]?.getD []) = strings := by
  apply List.ext_getElem
  · simp
  · intro i h1 h2
    simp at h1
    simp [h1]

/-- if some string is non-empty, sorting puts a non-empty string first -/
theorem head_ne_nil {strings : List (List UInt8)} {ids : List Nat} (hperm : ids.Perm (List.range strings.length))
    (hpw : ids.Pairwise (fun a b => lexGe (rev strings a) (rev strings b)))
    (hne : ∃ s ∈ strings, s ≠ []) : ∀ id, ids.head? = some id → strings[id]? ≠ some [] := by
  intro id hh hs
  obtain ⟨s, hsm, hs0⟩ := hne
  obtain ⟨j, hj⟩ := List.mem_iff_getElem?.1 hsm
  have hjlt : j < strings.length := by
    apply Nat.lt_of_not_le; intro h; rw [List.getElem?_eq_none h] at hj; simp at hj
  have hjm : j ∈ ids := hperm.mem_iff.2 (by simpa using hjlt)
  cases ids with
  | nil => simp at hh
  | cons a ids =>
    simp at hh; subst hh
    rcases List.mem_cons.1 hjm with rfl | hjm
    · rw [hs] at hj; simp at hj; exact hs0 (by simp [hj])
    · rw [List.pairwise_cons] at hpw
      have := hpw.1 j hjm
      rw [rev_of_getElem? hs, rev_of_getElem? hj] at this
      cases hr : s.reverse with
      | nil => simp at hr; exact hs0 hr
      | cons x xs => rw [hr] at this; exact this

/-! ## in-order mode -/

/-- invariant of an in-order table -/
structure InOrderInv (t : StrTab) : Prop where
  inOrder : t.inOrder = true
  len : t.offsets.length = t.strings.length
  size : t.size = t.base + storedSize t.strings
  off : ∀ i, i < t.strings.length → t.offsets[i]? = some ((t.base + storedSize (t.strings.take i)) % U32)

theorem InOrderInv.new (base : Nat) : InOrderInv (newInOrder base) :=
  ⟨rfl, rfl, by simp [newInOrder, storedSize], by simp [newInOrder]⟩

theorem InOrderInv.add {t : StrTab} (h : InOrderInv t) (s : List UInt8) : InOrderInv (t.add s).2 := by
  unfold StrTab.add
  match hi : indexOf s t.strings with
  | some i => exact h
  | none =>
    simp only [h.inOrder, if_true]
    refine ⟨rfl, by simp [h.len], ?_, ?_⟩
    · simp only [h.size, storedSize, List.map_append, List.sum_append]; simp; omega
    · intro i hlt
      simp only [List.length_append, List.length_cons, List.length_nil] at hlt
      by_cases hlt' : i < t.strings.length
      · rw [List.getElem?_append_left (by rw [h.len]; exact hlt'), List.take_append_of_le_length (by omega)]
        exact h.off i hlt'
      · have : i = t.strings.length := by omega
        subst this
        rw [List.getElem?_append_right (by rw [h.len]; omega), h.len]
        simp [h.size]

theorem InOrderInv.addAll {ss : List (List UInt8)} : ∀ {t : StrTab}, InOrderInv t → InOrderInv (addAll t ss) := by
  induction ss with
  | nil => intro t h; exact h
  | cons s ss ih => intro t h; exact ih (h.add s)

theorem flatten_stored_length : ∀ (l : List (List UInt8)),
    (l.map fun s => s ++ [0]).flatten.length = storedSize l
  | [] => by simp [storedSize]
  | s :: l => by
    have := flatten_stored_length l
    simp only [List.map_cons, List.flatten_cons, List.length_append, this, storedSize, List.sum_cons]
    simp

theorem inOrder_at (l : List (List UInt8)) (pre : List UInt8) (i : Nat) (s : List UInt8) (h : l[i]? = some s) :
    StringAt (pre ++ (l.map fun s => s ++ [0]).flatten) s (pre.length + storedSize (l.take i)) := by
  have hlt : i < l.length := by
    apply Nat.lt_of_not_le; intro h'; rw [List.getElem?_eq_none h'] at h; simp at h
  have hsplit : l = l.take i ++ s :: l.drop (i + 1) := by
    rw [List.getElem?_eq_getElem hlt] at h
    simp at h
    rw [← h, List.getElem_cons_drop, List.take_append_drop]
  refine ⟨pre ++ ((l.take i).map fun s => s ++ [0]).flatten, ((l.drop (i+1)).map fun s => s ++ [0]).flatten, ?_, ?_⟩
  · conv => lhs; rw [hsplit]
    simp
  · rw [List.length_append, flatten_stored_length]

/-- reading back -/
theorem get_of_stringAt {data s : List UInt8} {p : Nat} (h : StringAt data s p) (hs : (0 : UInt8) ∉ s)
    (hl : data.length < U64) : stringTableGet (some data) 0 data.length p = .ok s := by
  obtain ⟨x, y, rfl, rfl⟩ := h
  simp only [stringTableGet, Nat.zero_add]
  simp only [List.length_append, List.length_cons] at hl
  rw [if_neg (by omega)]
  simp only [ReadRef.readBytesAtUntil]
  rw [if_pos (by simp)]
  have : (List.drop x.length (x ++ s ++ 0 :: y)).take ((x ++ s ++ 0 :: y).length - x.length) = s ++ 0 :: y := by
    rw [List.append_assoc, List.drop_left, List.take_of_length_le (by simp)]
  rw [this, memchr_append hs]
  simp

theorem stringAt_lt {data s : List UInt8} {p : Nat} (h : StringAt data s p) : p < data.length := by
  obtain ⟨x, y, rfl, rfl⟩ := h
  simp; omega

/-- Everything about writing a table in the default (suffix sharing) mode. -/
theorem write_merge_aux (pre : List UInt8) (ss : List (List UInt8))
    (hnul : ∀ s ∈ ss, (0 : UInt8) ∉ s)
    (hE : (∃ s ∈ ss, s ≠ []) ∨ pre.getLast? = some 0 ∨ ss = []) :
    let t := addAll StrTab.new ss
    ∃ (offsets : List Nat) (out : List UInt8), StrTab.write t pre.length =
        ((if pre.length + out.length < U32 then .ok (pre.length + out.length) else .err),
          { t with offsets := offsets }, out) ∧
      StrTab.sizeOf t pre.length = .ok (pre.length + out.length) ∧
      (∀ (id : Nat) (s : List UInt8), t.strings[id]? = some s → ∃ p : Nat, StringAt (pre ++ out) s p ∧ offsets[id]? = some (p % U32)) ∧
      out.length = storedSize (t.strings.filter fun s => decide (Maximal t.strings s)) := by
  intro t
  obtain ⟨a1, a2, a3, a4, a5, a6⟩ := addAll_strings ss StrTab.new (by simp [StrTab.new])
  have hoff : t.offsets = [] := addAll_offsets_merge ss StrTab.new rfl
  have hin : t.inOrder = false := a4
  have hmem : ∀ s, s ∈ t.strings ↔ s ∈ ss := by intro s; rw [a3]; simp [StrTab.new]
  have hnul' : ∀ s ∈ t.strings, (0 : UInt8) ∉ s := fun s hs => hnul s ((hmem s).1 hs)
  obtain ⟨ids, hsort, hperm, hpw⟩ := sort_all t.strings hnul'
  have hany : t.strings.any (fun s => s.contains 0) = false := by
    rw [List.any_eq_false]; intro s hs; simpa using hnul' s hs
  have hlt : ∀ id ∈ ids, id < t.strings.length := by
    intro id hid; simpa using hperm.mem_iff.1 hid
  have hlen : ids.length = t.strings.length := by simpa using hperm.length_eq
  obtain ⟨offsets, prev, out, hw, hol, hall⟩ := writeLoop_spec t.strings pre ids []
    (List.replicate ids.length 0) pre.length [] [] (by simpa using hperm.nodup_iff.2 List.nodup_range) hlt
    (by simp [hlen]) (by simp) (Or.inl ⟨rfl, rfl⟩)
    (by
      rcases hE with ⟨s, hs, hs0⟩ | h | h
      · right; right
        exact head_ne_nil hperm hpw ⟨s, (hmem s).2 hs, hs0⟩
      · exact Or.inl h
      · right; right
        have : t.strings = [] := by
          apply List.eq_nil_iff_forall_not_mem.2; intro s hs; rw [hmem, h] at hs; simp at hs
        intro id hid
        rw [this]; simp)
    (by simp)
  have hsize : sizeLoop t.strings ids pre.length [] = .ok (pre.length + out.length) :=
    sizeLoop_eq _ _ _ _ _ _ _ hw
  refine ⟨offsets, out, ?_, ?_, ?_, ?_⟩
  · unfold StrTab.write
    rw [hin, hoff, hany]
    simp only [List.isEmpty_nil, Bool.not_true, Bool.and_false, Bool.false_eq_true, if_false, hsort, hw]
    split <;> rfl
  · unfold StrTab.sizeOf
    rw [hin]
    simp only [Bool.false_eq_true, if_false, hsort, Res.ok_bind, hsize]
  · intro id s hs
    have hid : id < t.strings.length := by
      apply Nat.lt_of_not_le; intro h'; rw [List.getElem?_eq_none h'] at hs; simp at hs
    obtain ⟨s', p, h1, h2, h3⟩ := hall id (by simpa using hperm.mem_iff.2 (by simpa using hid))
    rw [hs] at h1; simp at h1; subst h1
    exact ⟨p, h2, h3⟩
  · have h := sizeLoop_maximal t.strings a1 ids [] pre.length [] (by simpa using hperm) (by simpa using hpw)
      (Or.inl ⟨rfl, rfl⟩)
    rw [hsize] at h
    simp only [Res.ok.injEq] at h
    have hp2 : (ids.map (fun id => t.strings[id]?.getD [])).Perm t.strings := by
      have := hperm.map (fun id => t.strings[id]?.getD [])
      rwa [map_range_getD] at this
    rw [storedSize_perm (hp2.filter _)] at h
    omega

/-- A NUL in any string makes the write fail without output. -/
theorem write_nul (base : Nat) (ss : List (List UInt8)) (hnul : ¬ ∀ s ∈ ss, (0 : UInt8) ∉ s) :
    StrTab.write (addAll StrTab.new ss) base = (.err, addAll StrTab.new ss, []) := by
  obtain ⟨a1, a2, a3, a4, a5, a6⟩ := addAll_strings ss StrTab.new (by simp [StrTab.new])
  have hmem : ∀ s, s ∈ (addAll StrTab.new ss).strings ↔ s ∈ ss := by intro s; rw [a3]; simp [StrTab.new]
  unfold StrTab.write
  rw [addAll_offsets_merge ss StrTab.new rfl]
  have hany : (addAll StrTab.new ss).strings.any (fun s => s.contains 0) = true := by
    rw [List.any_eq_true]
    apply Classical.byContradiction
    intro hno
    apply hnul
    intro s hs h0
    exact hno ⟨s, (hmem s).2 hs, by simpa using h0⟩
  rw [hany]
  simp only [StrTab.new, List.isEmpty_nil, Bool.not_true, Bool.and_false, Bool.false_eq_true, if_false, if_true]

end StrTab
end Obj

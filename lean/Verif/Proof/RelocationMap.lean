import Verif.Spec.RelocationMap
import Verif.Proof.Util

namespace Obj.RMap

open Obj.Spec.RMap

theorem find_put (m : RelocationMap) (o o' : Nat) (e : Entry) : (m.put o e).2.find o' = if o' = o then some e else m.find o' := by
  unfold RelocationMap.put RelocationMap.find
  simp only [List.find?_cons]
  by_cases c : o' = o
  · subst c; simp
  · have hoo : (o == o') = false := by simp; omega
    rw [hoo, if_neg c]
    simp only []
    congr 1
    induction m with
    | nil => rfl
    | cons p m ih =>
      simp only [List.filter_cons, List.find?_cons]
      by_cases c2 : p.1 = o'
      · have : p.1 ≠ o := by omega
        simp [this, c2]
        rw [← c2] 
        simp [this]
      · by_cases c3 : p.1 = o
        · simp only [c3, bne_self_eq_false, Bool.false_eq_true, if_false, ih, hoo]
        · have h1 : (p.1 != o) = true := by simp [c3]
          have h2 : (p.1 == o') = false := by simp [c2]
          rw [h1, if_pos rfl, List.find?_cons, h2, ih]

/-- The entry a supported relocation makes. -/
def entryOf (r : Rel) (s : Nat) : Entry := ⟨r.implicitAddend, ((s + r.addend) % 2 ^ 64).toNat⟩

theorem asU64_add (s : Nat) (a : Int) : (s + asU64 a) % U64 = (((s : Int) + a) % 2 ^ 64).toNat := by
  unfold asU64
  omega

theorem addendOf_some (file : Objs) (r : Rel) (n : Nat) :
    (addendOf file r = .ok (some n) ↔ r.kind = .absolute ∧ ∃ s, Target file r.target s ∧ n = (((s : Int) + r.addend) % 2 ^ 64).toNat) := by
  unfold addendOf
  constructor
  · intro h
    split at h
    · cases h
    · rename_i hk
      refine ⟨hk, ?_⟩
      split at h
      · rename_i i ht
        cases hs : file.symbolAddress i with
        | ok a =>
          rw [hs] at h
          simp only [Res.bind_eq, Res.ok_bind, Res.ok.injEq, Option.some.injEq] at h
          exact ⟨a, ht ▸ .symbol hs, by rw [← h, asU64_add]⟩
        | err => rw [hs] at h; cases h
        | panic => rw [hs] at h; cases h
      · rename_i i ht
        cases hs : file.sectionAt i with
        | ok a =>
          obtain ⟨k, a⟩ := a
          rw [hs] at h
          simp only [Res.bind_eq, Res.ok_bind] at h
          split at h
          · rename_i c
            simp only [Res.ok.injEq, Option.some.injEq] at h
            exact ⟨a, ht ▸ .section_ hs c, by rw [← h, asU64_add]⟩
          · rename_i c
            simp only [Classical.not_not] at c
            subst c
            simp only [Res.ok.injEq, Option.some.injEq] at h
            refine ⟨0, ht ▸ .debug hs, ?_⟩
            rw [← h]; unfold asU64; simp
        | err => rw [hs] at h; cases h
        | panic => rw [hs] at h; cases h
      · cases h
    · cases h
  · rintro ⟨hk, s, ht, rfl⟩
    rw [hk]
    simp only []
    generalize r.target = t at ht
    cases ht with
    | symbol h => simp only [h, Res.bind_eq, Res.ok_bind, asU64_add]
    | section_ h c => simp only [h, Res.bind_eq, Res.ok_bind, asU64_add]; rw [if_pos c]
    | debug h =>
      simp only [h, Res.bind_eq, Res.ok_bind]
      rw [if_neg (by simp)]
      unfold asU64; simp

theorem addendOf_none (file : Objs) (r : Rel) : addendOf file r = .ok none ↔ r.kind = .none := by
  unfold addendOf
  constructor
  · intro h
    split at h
    · assumption
    · split at h
      · rename_i i _
        cases hs : file.symbolAddress i <;> rw [hs] at h <;> simp [Res.bind_eq] at h <;> cases h
      · rename_i i _
        cases hs : file.sectionAt i <;> rw [hs] at h <;> simp only [Res.bind_eq, Res.ok_bind] at h
        · split at h <;> cases h
        · cases h
        · cases h
      · cases h
    · cases h
  · intro h; rw [h]

theorem addendOf_no_panic (file : Objs) (ht : Total file) (r : Rel) : addendOf file r ≠ .panic := by
  unfold addendOf
  split
  · simp
  · split
    · rename_i i _
      cases hs : file.symbolAddress i
      · simp [Res.bind_eq]
      · intro h; cases h
      · exact absurd hs (ht.symbol i)
    · rename_i i _
      cases hs : file.sectionAt i
      · simp only [Res.bind_eq, Res.ok_bind]; split <;> simp
      · intro h; cases h
      · exact absurd hs (ht.section_ i)
    · simp
  · simp

theorem target_unique {file : Objs} {t : RelTarget} {s s' : Nat} (h : Target file t s) (h' : Target file t s') : s = s' := by
  cases h with
  | symbol a => cases h' with | symbol b => rw [a] at b; cases b; rfl
  | section_ a c => cases h' with
    | section_ b => rw [a] at b; cases b; rfl
    | debug b => rw [a] at b; cases b; exact absurd rfl c
  | debug a => cases h' with
    | section_ b c => rw [a] at b; cases b; exact absurd rfl c
    | debug b => rfl

/-- The three outcomes of `add`. -/
theorem add_supported (file : Objs) (m : RelocationMap) (o : Nat) (r : Rel) (s : Nat) (h : Supported file r s) :
    m.add file o r = (if (m.find o).isSome then .err else .ok (), (m.put o (entryOf r s)).2) := by
  have := (addendOf_some file r (((s : Int) + r.addend) % 2 ^ 64).toNat).2 ⟨h.1, s, h.2.2, rfl⟩
  unfold RelocationMap.add
  rw [this]
  simp only [h.2.1, ne_eq, not_true, if_false]
  unfold entryOf RelocationMap.put
  simp only []
  split <;> rfl

theorem add_ignored (file : Objs) (m : RelocationMap) (o : Nat) (r : Rel) (h : Ignored r) : m.add file o r = (.ok (), m) := by
  unfold RelocationMap.add
  rw [(addendOf_none file r).2 h]

theorem add_other (file : Objs) (ht : Total file) (m : RelocationMap) (o : Nat) (r : Rel) (h1 : ¬ Ignored r) (h2 : ∀ s, ¬ Supported file r s) :
    m.add file o r = (.err, m) := by
  unfold RelocationMap.add
  cases h : addendOf file r with
  | ok a =>
    cases a with
    | none => exact absurd ((addendOf_none file r).1 h) h1
    | some n =>
      obtain ⟨hk, s, hs, -⟩ := (addendOf_some file r n).1 h
      have : r.encoding ≠ .generic := fun c => h2 s ⟨hk, c, hs⟩
      simp only [this, ne_eq, not_false_eq_true, if_true]
  | err => rfl
  | panic => exact absurd h (addendOf_no_panic file ht r)

theorem relocate_entry (m : RelocationMap) (o v : Nat) (r : Rel) (s : Nat) (hf : m.find o = some (entryOf r s)) :
    (m.relocate o v : Int) = applied r s v := by
  unfold RelocationMap.relocate applied
  rw [hf]
  simp only [entryOf]
  by_cases c : r.implicitAddend = true
  · simp only [c, if_true]; omega
  · simp only [c, Bool.false_eq_true, if_false]; omega

end Obj.RMap

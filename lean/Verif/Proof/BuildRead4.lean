import Verif.Proof.BuildRead3

/-! Versions of a builder that is read. -/

namespace Obj.BuildR
open Obj Obj.Build Obj.Spec Obj.Spec.BuildR Obj.Props
open Obj.Elf (StrTable Shdr SymTab SectionTable Verdef Verdaux Verneed Vernaux AuxIter)
open Obj.Spec.MachoF (num Each)
open Obj.Spec.ElfF (RecordsOf DataOf)

/-! ## Records -/

theorem readAt_drop (d : List UInt8) (o size : Nat) :
    Bytes.readAt (d.drop o) 0 size = if size ≤ d.length - o then .ok (slice d o size) else .err := by
  rw [bytes_readAt_eq]
  simp only [Nat.zero_add, List.length_drop, List.drop_zero]
  rfl

theorem auxs_iff {α : Type} (size : Nat) (dec : List UInt8 → α) (next : α → Nat) (record : Nat → α) (d : List UInt8)
    (hr : ∀ o, o + size ≤ d.length → dec (slice d o size) = record o) (n o : Nat) (ho : o ≤ d.length) (l : List α) :
    Elf.drain (Elf.auxNext size dec next) (n + 1) (d.drop o, n) = .ok l ↔ Auxs size record next d.length o n l := by
  induction n generalizing o l with
  | zero =>
    rw [Elf.drain]
    simp only [Elf.auxNext, if_true, Res.ok.injEq]
    constructor
    · rintro rfl; exact .nil
    · intro h; cases h; rfl
  | succ n ih =>
    rw [Elf.drain]
    unfold Elf.auxNext
    simp only [Nat.add_one_ne_zero, if_false, Elf.auxParse, readAt_drop]
    by_cases h1 : size ≤ d.length - o
    · by_cases h1' : o + size ≤ d.length
      · rw [if_pos h1]
        simp only [hr o h1', Bytes.skip, List.length_drop, List.drop_drop]
        by_cases h2 : next (record o) ≤ d.length - o
        · rw [if_pos h2]
          simp only [Nat.add_sub_cancel, Res.bind_eq_ok, Res.ok.injEq]
          constructor
          · rintro ⟨xs, h3, rfl⟩
            exact .cons h1' (by omega) ((ih _ (by omega) xs).1 h3)
          · intro h
            cases h with
            | cons _ _ h => exact ⟨_, (ih _ (by omega) _).2 h, rfl⟩
        · rw [if_neg h2]
          simp only [reduceCtorEq, false_iff]
          intro h
          cases h with
          | cons _ h _ => omega
      · -- only an empty record
        rw [if_pos h1]
        exfalso; omega
    · rw [if_neg h1]
      simp only [reduceCtorEq, false_iff]
      intro h
      cases h with
      | cons h _ _ => omega

theorem aux_first {α : Type} (size : Nat) (dec : List UInt8 → α) (next : α → Nat) (it : AuxIter) (h1 : it.2 = 1) (a : α) :
    (Elf.auxNext size dec next it).1 = .ok (some a) ↔ Elf.drain (Elf.auxNext size dec next) (it.2 + 1) it = .ok [a] := by
  obtain ⟨d, n⟩ := it
  simp only at h1
  subst h1
  rw [Elf.drain]
  match h : Elf.auxNext size dec next (d, 1) with
  | (.ok none, s) => simp
  | (.ok (some x), s) =>
    have h2 := Elf.auxNext_item h
    simp only [Res.ok.injEq, Option.some.injEq, Res.bind_eq_ok]
    have h3 : Elf.drain (Elf.auxNext size dec next) 1 s = .ok [] := by
      rw [Elf.drain]
      have : Elf.auxNext size dec next s = (.ok none, s) := by
        unfold Elf.auxNext
        rw [if_pos (by simpa using h2.2)]
      rw [this]
    rw [h3]
    constructor
    · rintro rfl; exact ⟨[], rfl, rfl⟩
    · rintro ⟨xs, -, e⟩; injection e
  | (.err, s) => simp
  | (.panic, s) => simp

/-- The auxiliary records of an item. -/
def AuxOf {α β : Type} (size : Nat) (dec : List UInt8 → β) (next : β → Nat) (cnt : α → Nat) (p : α × AuxIter) (q : α × List β) : Prop :=
  q.1 = p.1 ∧ p.2.2 = cnt p.1 ∧ Elf.drain (Elf.auxNext size dec next) (p.2.2 + 1) p.2 = .ok q.2

theorem chain_iff {α β : Type} (size auxSize : Nat) (hs : 0 < size) (dec : List UInt8 → α) (auxDec : List UInt8 → β) (aux cnt next : α → Nat) (auxNext : β → Nat)
    (record : Nat → α) (auxRecord : Nat → β) (d : List UInt8) (hr : ∀ o, o + size ≤ d.length → dec (slice d o size) = record o)
    (ha : ∀ o, o + auxSize ≤ d.length → auxDec (slice d o auxSize) = auxRecord o) (fuel o : Nat) (hf : d.length - o < fuel) (l : List (α × List β)) :
    (∃ vs, Elf.drain (fuseNext (Elf.verParse size dec aux cnt next)) fuel (d.drop o) = .ok vs ∧ Each (AuxOf auxSize auxDec auxNext cnt) vs l) ↔
      Chain size auxSize record auxRecord aux cnt next auxNext d.length o l := by
  induction fuel generalizing o l with
  | zero => omega
  | succ fuel ih =>
    rw [Elf.drain]
    by_cases h0 : d.length ≤ o
    · rw [List.drop_eq_nil_of_le h0, fuseNext_nil]
      simp only [Res.ok.injEq]
      constructor
      · rintro ⟨_, rfl, h⟩
        rw [each_nil_left] at h
        subst h
        exact .nil h0
      · intro h
        cases h with
        | nil => exact ⟨_, rfl, .nil⟩
        | last h => omega
        | cons h => omega
    · have hne : d.drop o ≠ [] := by
        intro h
        have := congrArg List.length h
        simp at this
        omega
      unfold fuseNext
      rw [if_neg hne]
      unfold Elf.verParse
      rw [readAt_drop]
      by_cases h1 : o + size ≤ d.length
      · rw [if_pos (by omega)]
        simp only [hr o h1, Bytes.skip, List.length_drop, List.drop_drop]
        by_cases h2 : aux (record o) ≤ d.length - o
        · rw [if_pos h2]
          simp only []
          have hax := auxs_iff auxSize auxDec auxNext auxRecord d ha (cnt (record o)) (o + aux (record o)) (by omega)
          by_cases h3 : next (record o) = 0
          · rw [if_neg (by simp [h3])]
            simp only []
            have hlast : Elf.drain (fuseNext (Elf.verParse size dec aux cnt next)) fuel [] = .ok [] := by
              cases fuel with
              | zero => omega
              | succ fuel => rw [Elf.drain, fuseNext_nil]
            unfold fuseNext at hlast
            unfold Elf.verParse at hlast
            constructor
            · rintro ⟨vs, hv, he⟩
              simp only [Bytes.skip] at hlast
              rw [hlast] at hv
              simp only [Res.ok_bind, Res.ok.injEq] at hv
              subst hv
              rw [each_cons_left] at he
              obtain ⟨q, ys, rfl, ⟨e1, e2, e3⟩, h4⟩ := he
              rw [each_nil_left] at h4
              subst h4
              obtain ⟨q1, q2⟩ := q
              simp only at e1 e2 e3
              subst e1
              exact .last h1 h3 (by omega) ((hax q2).1 e3)
            · intro h
              cases h with
              | nil h => omega
              | cons _ h => exact absurd h3 h
              | last _ _ _ h4 =>
                simp only [Bytes.skip] at hlast
                rw [hlast]
                exact ⟨_, rfl, .cons ⟨rfl, rfl, (hax _).2 h4⟩ .nil⟩
          · rw [if_pos h3]
            by_cases h4 : next (record o) ≤ d.length - o
            · rw [if_pos h4]
              simp only [Res.bind_eq_ok, Res.ok.injEq]
              have hi := ih (o + next (record o)) (by omega)
              unfold fuseNext Elf.verParse at hi
              simp only [Bytes.skip] at hi
              constructor
              · rintro ⟨vs, ⟨ws, hw, rfl⟩, he⟩
                rw [each_cons_left] at he
                obtain ⟨q, ys, rfl, ⟨e1, e2, e3⟩, h5⟩ := he
                obtain ⟨q1, q2⟩ := q
                simp only at e1 e2 e3
                subst e1
                exact .cons h1 h3 (by omega) (by omega) ((hax q2).1 e3) ((hi ys).1 ⟨ws, hw, h5⟩)
              · intro h
                cases h with
                | nil h => omega
                | last _ h => exact absurd h h3
                | cons _ _ _ _ h5 h6 =>
                  obtain ⟨ws, hw, h7⟩ := (hi _).2 h6
                  exact ⟨_, ⟨ws, hw, rfl⟩, .cons ⟨rfl, rfl, (hax _).2 h5⟩ h7⟩
            · rw [if_neg h4]
              simp only [reduceCtorEq, false_and, exists_false, false_iff]
              intro h
              cases h with
              | nil h => omega
              | last _ h => exact absurd h h3
              | cons _ _ _ h => omega
        · rw [if_neg h2]
          simp only [reduceCtorEq, false_and, exists_false, false_iff]
          intro h
          cases h with
          | nil h => omega
          | last _ _ h => omega
          | cons _ _ h => omega
      · rw [if_neg (by omega)]
        simp only [reduceCtorEq, false_and, exists_false, false_iff]
        intro h
        cases h with
        | nil h => omega
        | last h => omega
        | cons h => omega

theorem verdef_dec (en : Endianness) (d : List UInt8) (o : Nat) : Verdef.decode en (slice d o 20) = verdefAt en d o := by
  unfold Verdef.decode verdefAt
  simp only [ElfF.field_num]
  repeat rw [MachoF.num_slice _ _ _ _ _ _ (by decide)]
  rfl
theorem verdaux_dec (en : Endianness) (d : List UInt8) (o : Nat) : Verdaux.decode en (slice d o 8) = verdauxAt en d o := by
  unfold Verdaux.decode verdauxAt
  simp only [ElfF.field_num]
  repeat rw [MachoF.num_slice _ _ _ _ _ _ (by decide)]
  rfl
theorem verneed_dec (en : Endianness) (d : List UInt8) (o : Nat) : Verneed.decode en (slice d o 16) = verneedAt en d o := by
  unfold Verneed.decode verneedAt
  simp only [ElfF.field_num]
  repeat rw [MachoF.num_slice _ _ _ _ _ _ (by decide)]
  rfl
theorem vernaux_dec (en : Endianness) (d : List UInt8) (o : Nat) : Vernaux.decode en (slice d o 16) = vernauxAt en d o := by
  unfold Vernaux.decode vernauxAt
  simp only [ElfF.field_num]
  repeat rw [MachoF.num_slice _ _ _ _ _ _ (by decide)]
  rfl

theorem defs_iff (en : Endianness) (d : List UInt8) (l : List (Verdef × List Verdaux)) :
    (∃ vs, Elf.drain (Elf.verdefNext en) (d.length + 1) d = .ok vs ∧ Each (AuxOf 8 (Verdaux.decode en) Verdaux.next Verdef.cnt) vs l) ↔ Defs en d l := by
  have := chain_iff 20 8 (by decide) (Verdef.decode en) (Verdaux.decode en) Verdef.aux Verdef.cnt Verdef.next Verdaux.next (verdefAt en d) (verdauxAt en d) d
    (fun o _ => verdef_dec en d o) (fun o _ => verdaux_dec en d o) (d.length + 1) 0 (by omega) l
  exact this
theorem needs_iff (en : Endianness) (d : List UInt8) (l : List (Verneed × List Vernaux)) :
    (∃ vs, Elf.drain (Elf.verneedNext en) (d.length + 1) d = .ok vs ∧ Each (AuxOf 16 (Vernaux.decode en) Vernaux.next Verneed.cnt) vs l) ↔ Needs en d l := by
  have := chain_iff 16 16 (by decide) (Verneed.decode en) (Vernaux.decode en) Verneed.aux Verneed.cnt Verneed.next Vernaux.next (verneedAt en d) (vernauxAt en d) d
    (fun o _ => verneed_dec en d o) (fun o _ => vernaux_dec en d o) (d.length + 1) 0 (by omega) l
  exact this

/-- Items of a drained iterator know their number of auxiliary records. -/
theorem ver_cnt {α : Type} (size : Nat) (dec : List UInt8 → α) (aux cnt next : α → Nat) (fuel : Nat) (d : List UInt8) (vs : List (α × AuxIter))
    (h : Elf.drain (fuseNext (Elf.verParse size dec aux cnt next)) fuel d = .ok vs) : ∀ p ∈ vs, p.2.2 = cnt p.1 := by
  induction fuel generalizing d vs with
  | zero => simp [Elf.drain] at h
  | succ fuel ih =>
    rw [Elf.drain] at h
    match hn : fuseNext (Elf.verParse size dec aux cnt next) d with
    | (.ok none, _) =>
      rw [hn] at h
      simp only [Res.ok.injEq] at h
      subst h; simp
    | (.err, _) => rw [hn] at h; cases h
    | (.panic, _) => rw [hn] at h; cases h
    | (.ok (some x), d') =>
      rw [hn] at h
      simp only [Res.bind_eq_ok, Res.ok.injEq] at h
      obtain ⟨ws, h1, rfl⟩ := h
      intro p hp
      rcases List.mem_cons.1 hp with rfl | hp
      · have := (fuseNext_some_iff.1 hn).2
        unfold Elf.verParse at this
        split at this
        · simp only at this
          split at this
          · split at this
            · split at this
              · simp only [Prod.mk.injEq, Res.ok.injEq] at this
                rw [← this.1]
              · cases this
              · cases this
            · simp only [Prod.mk.injEq, Res.ok.injEq] at this
              rw [← this.1]
          · cases this
          · cases this
        · cases this
        · cases this
      · exact ih d' ws h1 p hp

/-! ## The state -/

/-- The map from version indices to versions. -/
def idsOf (ks : List Nat) : List (Nat × Nat) := (ks.zipIdx.map fun p => (p.1, p.2 + 2)).reverse ++ [(0, 0), (1, 1)]

def versOf (ds : List VerData) : List Ver := ds.zipIdx.map fun x => { id := x.2, data := x.1, delete := false }
def filesOf (fs : List (List UInt8)) : List VerFile := fs.zipIdx.map fun x => { id := x.2, delete := false, name := x.1 }

/-- The state with the given indices, base version, versions and files. -/
def stOf (ks : List Nat) (b : Option (List UInt8)) (ds : List VerData) (fs : List (List UInt8)) : VerState := ⟨idsOf ks, b, versOf ds, filesOf fs⟩

def Good (ks : List Nat) : Prop := ks.Nodup ∧ 0 ∉ ks ∧ 1 ∉ ks

theorem lookup_cons (p : Nat × Nat) (l : List (Nat × Nat)) (i : Nat) : lookupId (p :: l) i = if p.1 = i then some p.2 else lookupId l i := by
  unfold lookupId
  rw [List.find?_cons]
  by_cases h : p.1 = i
  · simp [h]
  · have : (p.1 == i) = false := by simpa using h
    rw [this]
    simp [h]

theorem idsOf_snoc (ks : List Nat) (i : Nat) : idsOf (ks ++ [i]) = (i, ks.length + 2) :: idsOf ks := by
  unfold idsOf
  rw [List.zipIdx_append]
  simp [List.zipIdx_cons]

theorem rev_ind {α : Type} {P : List α → Prop} (h0 : P []) (h1 : ∀ l x, P l → P (l ++ [x])) (l : List α) : P l := by
  have : ∀ l : List α, P l.reverse := by
    intro l
    induction l with
    | nil => exact h0
    | cons x l ih => rw [List.reverse_cons]; exact h1 _ _ ih
  have h := this l.reverse
  rwa [List.reverse_reverse] at h

theorem lookup_ids (ks : List Nat) (i r : Nat) (hg : Good ks) :
    lookupId (idsOf ks) i = some r ↔ i = 0 ∧ r = 0 ∨ i = 1 ∧ r = 1 ∨ ∃ k : Nat, ks[k]? = some i ∧ r = k + 2 := by
  revert hg
  refine rev_ind (P := fun ks => Good ks → (lookupId (idsOf ks) i = some r ↔ i = 0 ∧ r = 0 ∨ i = 1 ∧ r = 1 ∨ ∃ k : Nat, ks[k]? = some i ∧ r = k + 2)) ?_ ?_ ks
  · intro _
    have : idsOf [] = [(0, 0), (1, 1)] := rfl
    rw [this, lookup_cons, lookup_cons]
    by_cases h0 : i = 0
    · subst h0; simp; exact eq_comm
    · rw [if_neg (by simp; omega)]
      by_cases h1 : i = 1
      · subst h1; simp; exact eq_comm
      · rw [if_neg (by simp; omega)]
        simp [lookupId, h0, h1]
  · intro ks k ih hg
    obtain ⟨g1, g2, g3⟩ := hg
    simp only [List.mem_append, List.mem_singleton, not_or] at g2 g3
    have hd := List.nodup_append.1 g1
    rw [idsOf_snoc, lookup_cons]
    by_cases h : k = i
    · rw [if_pos h]
      subst h
      simp only [Option.some.injEq]
      constructor
      · rintro rfl; exact .inr (.inr ⟨ks.length, by simp, rfl⟩)
      · rintro (⟨h, -⟩ | ⟨h, -⟩ | ⟨j, h1, rfl⟩)
        · exact absurd h.symm g2.2
        · exact absurd h.symm g3.2
        · rw [List.getElem?_append] at h1
          split at h1
          · have := List.mem_of_getElem? h1
            exact absurd rfl (hd.2.2 k this k (by simp))
          · have : j - ks.length = 0 := by
              have := (List.getElem?_eq_some_iff.1 h1).1
              simp at this; omega
            omega
    · rw [if_neg h, ih ⟨hd.1, g2.1, g3.1⟩]
      constructor
      · rintro (h1 | h1 | ⟨j, h1, h2⟩)
        · exact .inl h1
        · exact .inr (.inl h1)
        · refine .inr (.inr ⟨j, ?_, h2⟩)
          rw [List.getElem?_append_left (List.getElem?_eq_some_iff.1 h1).1]; exact h1
      · rintro (h1 | h1 | ⟨j, h1, h2⟩)
        · exact .inl h1
        · exact .inr (.inl h1)
        · refine .inr (.inr ⟨j, ?_, h2⟩)
          rw [List.getElem?_append] at h1
          split at h1
          · exact h1
          · exfalso
            have hj : j - ks.length = 0 := by
              have := (List.getElem?_eq_some_iff.1 h1).1
              simp at this; omega
            rw [hj] at h1
            simp at h1
            exact h h1

theorem good_snoc (ks : List Nat) (i : Nat) : Good (ks ++ [i]) ↔ Good ks ∧ i ∉ ks ∧ i ≠ 0 ∧ i ≠ 1 := by
  unfold Good
  rw [List.nodup_append]
  simp only [List.mem_append, List.mem_singleton, not_or, List.nodup_cons, List.not_mem_nil, not_false_eq_true, List.nodup_nil, and_true, true_and]
  constructor
  · rintro ⟨⟨a, b⟩, ⟨c, d⟩, e, f⟩
    exact ⟨⟨a, c, e⟩, fun h => b i h i rfl rfl, fun h => d h.symm, fun h => f h.symm⟩
  · rintro ⟨⟨a, c, e⟩, b, d, f⟩
    refine ⟨⟨a, ?_⟩, ⟨c, fun h => d h.symm⟩, e, fun h => f h.symm⟩
    intro x hx y hy hxy
    subst hy; subst hxy
    exact b hx

theorem good_left {ks l : List Nat} (h : Good (ks ++ l)) : Good ks := by
  obtain ⟨a, b, c⟩ := h
  exact ⟨(List.nodup_append.1 a).1, fun h => b (by simp [h]), fun h => c (by simp [h])⟩

theorem lookup_none (ks : List Nat) (i : Nat) (hg : Good ks) : lookupId (idsOf ks) i = none ↔ i ∉ ks ∧ i ≠ 0 ∧ i ≠ 1 := by
  constructor
  · intro h
    refine ⟨?_, ?_, ?_⟩
    · intro hm
      obtain ⟨k, hk⟩ := List.getElem?_of_mem hm
      rw [(lookup_ids ks i (k + 2) hg).2 (.inr (.inr ⟨k, hk, rfl⟩))] at h
      cases h
    · rintro rfl
      rw [(lookup_ids ks 0 0 hg).2 (.inl ⟨rfl, rfl⟩)] at h; cases h
    · rintro rfl
      rw [(lookup_ids ks 1 1 hg).2 (.inr (.inl ⟨rfl, rfl⟩))] at h; cases h
  · rintro ⟨h1, h2, h3⟩
    cases h : lookupId (idsOf ks) i with
    | none => rfl
    | some r =>
      rcases (lookup_ids ks i r hg).1 h with ⟨h, -⟩ | ⟨h, -⟩ | ⟨k, h, -⟩
      · exact absurd h h2
      · exact absurd h h3
      · exact absurd (List.mem_of_getElem? h) h1

theorem add_iff (ks : List Nat) (b : Option (List UInt8)) (ds : List VerData) (fs : List (List UInt8)) (hl : ds.length = ks.length) (hg : Good ks)
    (i : Nat) (d : VerData) (st : VerState) :
    (stOf ks b ds fs).add i d = .ok st ↔ Good (ks ++ [i]) ∧ st = stOf (ks ++ [i]) b (ds ++ [d]) fs := by
  rw [good_snoc]
  unfold VerState.add
  have hst : (stOf ks b ds fs).ids = idsOf ks := rfl
  rw [hst]
  have hnew : (⟨(i, (addVer (stOf ks b ds fs).versions d).1) :: idsOf ks, (stOf ks b ds fs).base, (addVer (stOf ks b ds fs).versions d).2,
      (stOf ks b ds fs).files⟩ : VerState) = stOf (ks ++ [i]) b (ds ++ [d]) fs := by
    unfold stOf
    simp only [addVer, nextId, push]
    rw [idsOf_snoc]
    have h1 : (versOf ds).length = ks.length := by unfold versOf; simp [hl]
    have h2 : versOf (ds ++ [d]) = versOf ds ++ [⟨ds.length, d, false⟩] := by
      unfold versOf
      rw [List.zipIdx_append]
      simp [List.zipIdx_cons]
    rw [h1, h2, hl, Nat.add_comm 2]
  cases h : lookupId (idsOf ks) i with
  | some r =>
    simp only [reduceCtorEq, false_iff]
    rintro ⟨⟨-, h'⟩, -⟩
    rw [(lookup_none ks i hg).2 h'] at h
    cases h
  | none =>
    simp only [Res.ok.injEq]
    rw [hnew]
    constructor
    · rintro rfl; exact ⟨⟨hg, (lookup_none ks i hg).1 h⟩, rfl⟩
    · rintro ⟨-, rfl⟩; rfl

end Obj.BuildR

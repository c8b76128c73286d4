import Verif.Proof.MachoW1

/-! Symbols, relocations and tables in the layout phase of `macho_write`. -/

namespace Obj.MachoW
open Obj Obj.Reserve Obj.Parts Obj.Spec Obj.Spec.MachoO Obj.MachoR
open Obj.ElfW (check tabAdd check_ok addU32_eq addU64_eq mulU64_eq idOf TabW tabAdd_eq length_of_getElem? storedSize_append storedSize_addAll
  storedSize_filter addAll_append addAll_cons Written)
open Obj.CoffW (storedSize_cons)

/-! ## Groups -/

/-- The symbol is written. -/
def em (arch : Arch) (s : W.Symbol) : Bool := match emitted arch s.kind with
  | .ok b => b
  | _ => false

/-- `str_id` for a name. -/
def strId (T : StrTab) (name : List UInt8) : Option Nat := if name = [] then none else some (idOf T name)

/-- `str_id` of all symbols. -/
def idsOf (arch : Arch) (T : StrTab) (ss : List W.Symbol) : List (Option Nat) :=
  ss.map fun s => if em arch s then strId T s.name else none

/-- Names that are added. -/
def emNames (arch : Arch) (ss : List W.Symbol) : List (List UInt8) :=
  (ss.filter fun s => em arch s && decide (s.name ≠ [])).map (·.name)

/-- Indices of the symbols with a property. -/
def idxs (P : W.Symbol → Bool) : Nat → List W.Symbol → List Nat
  | _, [] => []
  | i, s :: ss => if P s then i :: idxs P (i + 1) ss else idxs P (i + 1) ss

/-- The symbol is written and in group `g`. -/
def inGroup (arch : Arch) (g : Nat) (s : W.Symbol) : Bool := em arch s && decide (group s = g)

/-- The groups. -/
def groupsOf (arch : Arch) (T : StrTab) (i : Nat) (ss : List W.Symbol) : Groups :=
  ⟨idsOf arch T ss, idxs (inGroup arch 0) i ss, idxs (inGroup arch 1) i ss, idxs (inGroup arch 2) i ss⟩

theorem group_cases (s : W.Symbol) : group s = 0 ∨ group s = 1 ∨ group s = 2 := by
  unfold group; split
  · simp
  · split <;> simp

theorem idxs_cons (P : W.Symbol → Bool) (i : Nat) (s : W.Symbol) (ss : List W.Symbol) :
    idxs P i (s :: ss) = if P s then i :: idxs P (i + 1) ss else idxs P (i + 1) ss := rfl

theorem push_eq (arch : Arch) (T : StrTab) (i : Nat) (s : W.Symbol) (ss : List W.Symbol) (h : em arch s = true) :
    (groupsOf arch T (i + 1) ss).push i (strId T s.name) s = groupsOf arch T i (s :: ss) := by
  have g : ∀ n, inGroup arch n s = decide (group s = n) := fun n => by unfold inGroup; rw [h]; rfl
  unfold groupsOf Groups.push idsOf
  rw [idxs_cons, idxs_cons, idxs_cons, g, g, g, List.map_cons, h]
  unfold group
  by_cases h1 : s.section_ = .undefined ∨ s.section_ = .common
  · simp [h1]
  · by_cases h2 : s.scope = .compilation
    · simp [h1, h2]
    · simp [h1, h2]

theorem skip_eq (arch : Arch) (T : StrTab) (i : Nat) (s : W.Symbol) (ss : List W.Symbol) (h : em arch s = false) :
    { groupsOf arch T (i + 1) ss with ids := none :: (groupsOf arch T (i + 1) ss).ids } = groupsOf arch T i (s :: ss) := by
  have g : ∀ n, inGroup arch n s = false := fun n => by unfold inGroup; rw [h]; rfl
  unfold groupsOf idsOf
  rw [idxs_cons, idxs_cons, idxs_cons, g, g, g, List.map_cons, h]
  simp

theorem emNames_cons (arch : Arch) (s : W.Symbol) (ss : List W.Symbol) :
    emNames arch (s :: ss) = (if em arch s = true ∧ s.name ≠ [] then [s.name] else []) ++ emNames arch ss := by
  unfold emNames
  rw [List.filter_cons]
  by_cases h : em arch s = true ∧ s.name ≠ []
  · rw [if_pos h, if_pos (by simp [h])]; rfl
  · rw [if_neg h, if_neg (by simpa using h)]; rfl

theorem partition_sat (arch : Arch) (E : Prop) (T : StrTab) : ∀ (ss : List W.Symbol) (i k : Nat) (t : StrTab),
    (∀ s ∈ ss, (0 : UInt8) ∉ s.name) → (∀ s ∈ ss, s.kind = .label → E) → TabW t (ss.length + k) →
    (addAll t (emNames arch ss)).strings <+: T.strings →
    Res.Sat E (partition arch i t ss) fun r => r = (groupsOf arch T i ss, addAll t (emNames arch ss))
  | [], i, k, t, _, _, _, _ => rfl
  | s :: ss, i, k, t, hn, hE, ht, hp => by
    have ht' : TabW t (ss.length + k + 1) := ht.mono (by simp; omega)
    have hn' := fun x hx => hn x (List.mem_cons_of_mem s hx)
    have hE' := fun x hx => hE x (List.mem_cons_of_mem s hx)
    rw [emNames_cons] at hp ⊢
    unfold partition
    cases he : emitted arch s.kind with
    | panic => cases hk : s.kind <;> rw [hk] at he <;> cases he
    | err =>
      simp only [Res.err_bind]
      refine hE s (by simp) ?_
      cases hk : s.kind <;> rw [hk] at he <;> first | rfl | cases he
    | ok b =>
      simp only [Res.ok_bind]
      have hem : em arch s = b := by unfold em; rw [he]
      cases b with
      | false =>
        simp only [Bool.false_eq_true, if_false]
        rw [if_neg (by rw [hem]; simp), List.nil_append] at hp ⊢
        refine (partition_sat arch E T ss (i + 1) k t hn' hE' (ht'.mono (by omega)) hp).bind ?_
        rintro r rfl
        simp only [Res.bind_eq]
        show _ = _
        rw [skip_eq arch T i s ss hem]
      | true =>
        simp only [if_true]
        by_cases h0 : s.name = []
        · rw [if_neg (by simp [h0]), List.nil_append] at hp ⊢
          have e : addName t s.name = .ok (strId T s.name, t) := by unfold addName strId; rw [if_pos h0, if_pos h0]
          rw [e]
          simp only [Res.bind_eq, Res.ok_bind]
          refine (partition_sat arch E T ss (i + 1) k t hn' hE' (ht'.mono (by omega)) hp).bind ?_
          rintro r rfl
          show _ = _
          rw [push_eq arch T i s ss hem]
        · rw [if_pos ⟨hem, h0⟩, List.singleton_append, addAll_cons] at hp ⊢
          have h2 := ht'.add s.name
          have e : addName t s.name = .ok (strId T s.name, (t.add s.name).2) := by
            unfold addName strId
            rw [if_neg h0, if_neg h0, tabAdd_eq ht' (hn s (by simp)) ((ElfW.addAll_prefix h2.nodup _).trans hp)]
            rfl
          rw [e]
          simp only [Res.bind_eq, Res.ok_bind]
          refine (partition_sat arch E T ss (i + 1) k _ hn' hE' h2 hp).bind ?_
          rintro r rfl
          show _ = _
          rw [push_eq arch T i s ss hem]

theorem mem_idxs (P : W.Symbol → Bool) : ∀ (ss : List W.Symbol) (i j : Nat),
    j ∈ idxs P i ss ↔ ∃ k s, j = i + k ∧ ss[k]? = some s ∧ P s = true
  | [], i, j => by simp [idxs]
  | x :: ss, i, j => by
    have ih := mem_idxs P ss (i + 1) j
    have key : j ∈ idxs P (i + 1) ss ↔ ∃ k s, j = i + (k + 1) ∧ ss[k]? = some s ∧ P s = true := by
      rw [ih]
      constructor
      · rintro ⟨k, s, h1, h2⟩; exact ⟨k, s, by omega, h2⟩
      · rintro ⟨k, s, h1, h2⟩; exact ⟨k, s, by omega, h2⟩
    unfold idxs
    constructor
    · intro h
      split at h
      · rename_i hx
        rcases List.mem_cons.1 h with rfl | h
        · exact ⟨0, x, rfl, rfl, hx⟩
        · obtain ⟨k, s, h1, h2, h3⟩ := key.1 h; exact ⟨k + 1, s, h1, by simpa using h2, h3⟩
      · obtain ⟨k, s, h1, h2, h3⟩ := key.1 h; exact ⟨k + 1, s, h1, by simpa using h2, h3⟩
    · rintro ⟨k, s, h1, h2, h3⟩
      cases k with
      | zero =>
        simp only [List.getElem?_cons_zero, Option.some.injEq] at h2
        subst h2
        rw [if_pos h3, h1]; simp
      | succ k =>
        have := key.2 ⟨k, s, h1, by simpa using h2, h3⟩
        split
        · exact List.mem_cons_of_mem _ this
        · exact this

theorem mem_idxs0 (P : W.Symbol → Bool) (ss : List W.Symbol) (j : Nat) : j ∈ idxs P 0 ss ↔ ∃ s, ss[j]? = some s ∧ P s = true := by
  rw [mem_idxs]
  constructor
  · rintro ⟨k, s, h1, h2⟩
    have : j = k := by omega
    subst this; exact ⟨s, h2⟩
  · rintro ⟨s, h⟩; exact ⟨j, s, by omega, h⟩

theorem pairwise_idxs (P : W.Symbol → Bool) : ∀ (ss : List W.Symbol) (i : Nat), (idxs P i ss).Pairwise (· < ·)
  | [], i => List.Pairwise.nil
  | x :: ss, i => by
    unfold idxs
    split
    · refine List.Pairwise.cons (fun j hj => ?_) (pairwise_idxs P ss (i + 1))
      obtain ⟨k, s, h, -⟩ := (mem_idxs P ss (i + 1) j).1 hj
      omega
    · exact pairwise_idxs P ss (i + 1)

theorem length_idxs (P : W.Symbol → Bool) : ∀ (ss : List W.Symbol) (i : Nat), (idxs P i ss).length = (ss.filter P).length
  | [], i => rfl
  | x :: ss, i => by
    unfold idxs
    rw [List.filter_cons]
    split <;> simp [length_idxs P ss]

/-! ## Sorting -/

theorem bytesLt_iff : ∀ (a b : List UInt8), bytesLt a b = true ↔ a < b
  | [], [] => by simp [bytesLt]
  | a :: as, [] => by simp [bytesLt]
  | [], b :: bs => by simp [bytesLt]
  | a :: as, b :: bs => by
    unfold bytesLt
    rw [List.cons_lt_cons_iff, Bool.or_eq_true, Bool.and_eq_true, decide_eq_true_iff, decide_eq_true_iff, bytesLt_iff as bs]

theorem bytesLt_trans : ∀ (a b c : List UInt8), bytesLt a b = true → bytesLt b c = true → bytesLt a c = true
  | _, [], _, h, _ => by simp [bytesLt] at h
  | _, _ :: _, [], _, h => by simp [bytesLt] at h
  | [], b :: bs, c :: cs, _, _ => rfl
  | a :: as, b :: bs, c :: cs, h1, h2 => by
    unfold bytesLt at *
    simp only [Bool.or_eq_true, Bool.and_eq_true, decide_eq_true_iff] at *
    rcases h1 with h1 | ⟨rfl, h1⟩
    · rcases h2 with h2 | ⟨rfl, h2⟩
      · exact .inl (UInt8.lt_trans h1 h2)
      · exact .inl h1
    · rcases h2 with h2 | ⟨rfl, h2⟩
      · exact .inl h2
      · exact .inr ⟨rfl, bytesLt_trans as bs cs h1 h2⟩

theorem bytesLt_total : ∀ (a b : List UInt8), bytesLt a b = true ∨ a = b ∨ bytesLt b a = true
  | [], [] => .inr (.inl rfl)
  | a :: as, [] => .inr (.inr rfl)
  | [], b :: bs => .inl rfl
  | a :: as, b :: bs => by
    unfold bytesLt
    simp only [Bool.or_eq_true, Bool.and_eq_true, decide_eq_true_iff]
    rcases Nat.lt_trichotomy a.toNat b.toNat with h | h | h
    · exact .inl (.inl h)
    · have : a = b := UInt8.toNat_inj.1 h
      subst this
      rcases bytesLt_total as bs with h | rfl | h
      · exact .inl (.inr ⟨rfl, h⟩)
      · exact .inr (.inl rfl)
      · exact .inr (.inr (.inr ⟨rfl, h⟩))
    · exact .inr (.inr (.inl h))

/-- The order by name, then by index. -/
def NameOrder (symbols : List W.Symbol) (i j : Nat) : Prop :=
  bytesLt (nameOf symbols i) (nameOf symbols j) = true ∨ (nameOf symbols i = nameOf symbols j ∧ i < j)

theorem mem_insertSym (symbols : List W.Symbol) (i : Nat) : ∀ (l : List Nat) (j : Nat), j ∈ insertSym symbols i l ↔ j = i ∨ j ∈ l
  | [], j => by simp [insertSym]
  | x :: l, j => by
    unfold insertSym
    split
    · rw [List.mem_cons, mem_insertSym symbols i l, List.mem_cons]
      constructor
      · rintro (h | h | h)
        · exact .inr (.inl h)
        · exact .inl h
        · exact .inr (.inr h)
      · rintro (h | h | h)
        · exact .inr (.inl h)
        · exact .inl h
        · exact .inr (.inr h)
    · simp

theorem mem_sortSyms (symbols : List W.Symbol) : ∀ (l : List Nat) (j : Nat), j ∈ sortSyms symbols l ↔ j ∈ l
  | [], j => by simp [sortSyms]
  | x :: l, j => by unfold sortSyms; rw [mem_insertSym, mem_sortSyms symbols l]; simp

theorem length_insertSym (symbols : List W.Symbol) (i : Nat) : ∀ (l : List Nat), (insertSym symbols i l).length = l.length + 1
  | [] => rfl
  | x :: l => by unfold insertSym; split <;> simp [length_insertSym symbols i l]

theorem length_sortSyms (symbols : List W.Symbol) : ∀ (l : List Nat), (sortSyms symbols l).length = l.length
  | [] => rfl
  | x :: l => by unfold sortSyms; rw [length_insertSym, length_sortSyms symbols l]; rfl

theorem pairwise_insertSym (symbols : List W.Symbol) (i : Nat) : ∀ (l : List Nat), l.Pairwise (NameOrder symbols) → (∀ j ∈ l, i < j) →
    (insertSym symbols i l).Pairwise (NameOrder symbols)
  | [], _, _ => by simp [insertSym]
  | x :: l, h, hi => by
    rw [List.pairwise_cons] at h
    unfold insertSym
    split
    · rename_i hlt
      refine List.Pairwise.cons (fun j hj => ?_) (pairwise_insertSym symbols i l h.2 (fun j hj => hi j (by simp [hj])))
      rcases (mem_insertSym symbols i l j).1 hj with rfl | hj
      · exact .inl hlt
      · exact h.1 j hj
    · rename_i hlt
      have h1 : NameOrder symbols i x := by
        rcases bytesLt_total (nameOf symbols i) (nameOf symbols x) with h | h | h
        · exact .inl h
        · exact .inr ⟨h, hi x (by simp)⟩
        · exact absurd h hlt
      refine List.Pairwise.cons (fun j hj => ?_) (List.Pairwise.cons h.1 h.2)
      rcases List.mem_cons.1 hj with rfl | hj'
      · exact h1
      · rcases h.1 j hj' with h2 | ⟨h2, h3⟩
        · rcases h1 with h1 | ⟨h1, -⟩
          · exact .inl (bytesLt_trans _ _ _ h1 h2)
          · exact .inl (by rw [h1]; exact h2)
        · rcases h1 with h1 | ⟨h1, -⟩
          · exact .inl (by rw [← h2]; exact h1)
          · exact .inr ⟨by rw [h1, h2], hi j hj⟩

theorem pairwise_sortSyms (symbols : List W.Symbol) : ∀ (l : List Nat), l.Pairwise (· < ·) → (sortSyms symbols l).Pairwise (NameOrder symbols)
  | [], _ => List.Pairwise.nil
  | x :: l, h => by
    rw [List.pairwise_cons] at h
    unfold sortSyms
    exact pairwise_insertSym symbols x _ (pairwise_sortSyms symbols l h.2) (fun j hj => h.1 j ((mem_sortSyms symbols l j).1 hj))

/-- The symbols in the order in which they are written. -/
def locals (o : W.Object) : List Nat := idxs (inGroup o.arch 0) 0 o.symbols
def externals (o : W.Object) : List Nat := sortSyms o.symbols (idxs (inGroup o.arch 1) 0 o.symbols)
def undefineds (o : W.Object) : List Nat := sortSyms o.symbols (idxs (inGroup o.arch 2) 0 o.symbols)
def orderOf (o : W.Object) : List Nat := locals o ++ externals o ++ undefineds o

theorem em_iff (o : W.Object) (s : W.Symbol) : em o.arch s = true ↔ Emitted o s := by
  unfold em Emitted emitted
  cases s.kind <;> simp

theorem inGroup_iff (o : W.Object) (g : Nat) (s : W.Symbol) : inGroup o.arch g s = true ↔ Emitted o s ∧ group s = g := by
  unfold inGroup
  rw [Bool.and_eq_true, em_iff, decide_eq_true_iff]

theorem mem_locals (o : W.Object) (i : Nat) : i ∈ locals o ↔ ∃ s, o.symbols[i]? = some s ∧ Emitted o s ∧ group s = 0 := by
  unfold locals; rw [mem_idxs0]; simp only [inGroup_iff]
theorem mem_externals (o : W.Object) (i : Nat) : i ∈ externals o ↔ ∃ s, o.symbols[i]? = some s ∧ Emitted o s ∧ group s = 1 := by
  unfold externals; rw [mem_sortSyms, mem_idxs0]; simp only [inGroup_iff]
theorem mem_undefineds (o : W.Object) (i : Nat) : i ∈ undefineds o ↔ ∃ s, o.symbols[i]? = some s ∧ Emitted o s ∧ group s = 2 := by
  unfold undefineds; rw [mem_sortSyms, mem_idxs0]; simp only [inGroup_iff]

theorem before_of_name {o : W.Object} {i j g : Nat} (hg : g ≠ 0) (hi : ∃ s, o.symbols[i]? = some s ∧ Emitted o s ∧ group s = g)
    (hj : ∃ s, o.symbols[j]? = some s ∧ Emitted o s ∧ group s = g) (h : NameOrder o.symbols i j) :
    ∃ s t, o.symbols[i]? = some s ∧ o.symbols[j]? = some t ∧ Before i s j t := by
  obtain ⟨s, h1, -, h2⟩ := hi
  obtain ⟨t, h3, -, h4⟩ := hj
  refine ⟨s, t, h1, h3, .inr ⟨by rw [h2, h4], ?_⟩⟩
  rw [if_neg (by rw [h2]; exact hg)]
  unfold NameOrder nameOf at h
  rw [h1, h3] at h
  rw [← bytesLt_iff]
  exact h

theorem order_ok (o : W.Object) : Order o (orderOf o) := by
  constructor
  · intro i
    unfold orderOf
    rw [List.mem_append, List.mem_append, mem_locals, mem_externals, mem_undefineds]
    constructor
    · rintro ((⟨s, h1, h2, -⟩ | ⟨s, h1, h2, -⟩) | ⟨s, h1, h2, -⟩) <;> exact ⟨s, h1, h2⟩
    · rintro ⟨s, h1, h2⟩
      rcases group_cases s with h | h | h
      · exact .inl (.inl ⟨s, h1, h2, h⟩)
      · exact .inl (.inr ⟨s, h1, h2, h⟩)
      · exact .inr ⟨s, h1, h2, h⟩
  · unfold orderOf
    have cross : ∀ (a b g h : Nat), g < h → (∃ s, o.symbols[a]? = some s ∧ Emitted o s ∧ group s = g) →
        (∃ s, o.symbols[b]? = some s ∧ Emitted o s ∧ group s = h) →
        ∃ s t, o.symbols[a]? = some s ∧ o.symbols[b]? = some t ∧ Before a s b t := by
      rintro a b g h hlt ⟨s, h1, -, h2⟩ ⟨t, h3, -, h4⟩
      exact ⟨s, t, h1, h3, .inl (by omega)⟩
    rw [List.pairwise_append, List.pairwise_append]
    refine ⟨⟨?_, ?_, ?_⟩, ?_, ?_⟩
    · refine List.Pairwise.imp_of_mem ?_ (pairwise_idxs (inGroup o.arch 0) o.symbols 0)
      intro a b ha hb hab
      obtain ⟨s, h1, -, h2⟩ := (mem_locals o a).1 ha
      obtain ⟨t, h3, -, h4⟩ := (mem_locals o b).1 hb
      exact ⟨s, t, h1, h3, .inr ⟨by rw [h2, h4], by rw [if_pos h2]; exact hab⟩⟩
    · refine List.Pairwise.imp_of_mem ?_ (pairwise_sortSyms o.symbols _ (pairwise_idxs (inGroup o.arch 1) o.symbols 0))
      intro a b ha hb hab
      exact before_of_name (by decide) ((mem_externals o a).1 ha) ((mem_externals o b).1 hb) hab
    · intro a ha b hb
      exact cross a b 0 1 (by decide) ((mem_locals o a).1 ha) ((mem_externals o b).1 hb)
    · refine List.Pairwise.imp_of_mem ?_ (pairwise_sortSyms o.symbols _ (pairwise_idxs (inGroup o.arch 2) o.symbols 0))
      intro a b ha hb hab
      exact before_of_name (by decide) ((mem_undefineds o a).1 ha) ((mem_undefineds o b).1 hb) hab
    · intro a ha b hb
      rcases List.mem_append.1 ha with ha | ha
      · exact cross a b 0 2 (by decide) ((mem_locals o a).1 ha) ((mem_undefineds o b).1 hb)
      · exact cross a b 1 2 (by decide) ((mem_externals o a).1 ha) ((mem_undefineds o b).1 hb)

theorem before_irrefl (i : Nat) (s : W.Symbol) : ¬ Before i s i s := by
  unfold Before
  rintro (h | ⟨-, h⟩)
  · omega
  · split at h
    · omega
    · rcases h with h | ⟨-, h⟩
      · rw [← bytesLt_iff] at h
        have : ∀ l : List UInt8, bytesLt l l = false := by
          intro l
          induction l with
          | nil => rfl
          | cons a l ih => unfold bytesLt; simp [ih]
        rw [this] at h; cases h
      · omega

theorem nodup_order (o : W.Object) : (orderOf o).Nodup := by
  refine (order_ok o).sorted.imp ?_
  rintro a b ⟨s, t, h1, h2, h3⟩ rfl
  rw [h1] at h2
  simp only [Option.some.injEq] at h2
  subst h2
  exact before_irrefl _ _ h3

theorem length_filter_groups (arch : Arch) : ∀ ss : List W.Symbol, (ss.filter (inGroup arch 0)).length + (ss.filter (inGroup arch 1)).length +
    (ss.filter (inGroup arch 2)).length ≤ ss.length
  | [] => by simp
  | s :: ss => by
    have ih := length_filter_groups arch ss
    rw [List.filter_cons, List.filter_cons, List.filter_cons, List.length_cons]
    cases h : em arch s
    · have g : ∀ n, inGroup arch n s = false := fun n => by unfold inGroup; rw [h]; rfl
      rw [g, g, g]
      simp only [Bool.false_eq_true, if_false]; omega
    · have g : ∀ n, inGroup arch n s = decide (group s = n) := fun n => by unfold inGroup; rw [h]; rfl
      rw [g, g, g]
      rcases group_cases s with h | h | h <;> rw [h] <;> simp <;> omega

theorem length_order (o : W.Object) : (orderOf o).length ≤ o.symbols.length := by
  unfold orderOf locals externals undefineds
  rw [List.length_append, List.length_append, length_sortSyms, length_sortSyms, length_idxs, length_idxs, length_idxs]
  exact length_filter_groups o.arch o.symbols

/-! ## Numbers -/

/-- The indices after numbering. -/
def assign : List Nat → Nat → List Nat → List Nat
  | idx, _, [] => idx
  | idx, n, i :: is => assign (idx.set i n) (n + 1) is

theorem number_eq : ∀ (is idx : List Nat) (n : Nat), n + is.length < U32 → number idx n is = .ok (assign idx n is, n + is.length)
  | [], idx, n, _ => rfl
  | i :: is, idx, n, h => by
    simp only [List.length_cons] at h
    unfold number assign
    rw [addU32_eq (by omega)]
    simp only [Res.ok_bind]
    rw [number_eq is _ (n + 1) (by omega)]
    simp only [List.length_cons]
    congr 2; omega

theorem getD_assign (i : Nat) : ∀ (is idx : List Nat) (n : Nat), is.Nodup → (∀ j ∈ is, j < idx.length) →
    (assign idx n is).getD i 0 = ((is.idxOf? i).map (n + ·)).getD (idx.getD i 0)
  | [], idx, n, _, _ => by simp [assign]
  | j :: js, idx, n, hn, hl => by
    rw [List.nodup_cons] at hn
    unfold assign
    rw [getD_assign i js _ _ hn.2 (fun x hx => by rw [List.length_set]; exact hl x (by simp [hx]))]
    by_cases hij : j = i
    · subst hij
      have h1 : js.idxOf? j = none := by rw [List.idxOf?_eq_none_iff]; exact hn.1
      rw [h1, List.idxOf?_cons]
      simp [List.getD, hl j (by simp)]
    · rw [List.idxOf?_cons, if_neg (by simpa using hij)]
      cases js.idxOf? i with
      | none => simp [List.getD, List.getElem?_set_ne hij]
      | some k => simp; omega

theorem symIdx_eq (o : W.Object) (i : Nat) : symIdx (assign (List.replicate o.symbols.length 0) 0 (orderOf o)) i = indexIn (orderOf o) i := by
  unfold symIdx indexIn
  rw [getD_assign i _ _ _ (nodup_order o)]
  · have : (List.replicate o.symbols.length 0).getD i 0 = 0 := by
      simp only [List.getD, List.getElem?_replicate]
      split <;> rfl
    rw [this]
    cases (orderOf o).idxOf? i <;> simp
  · intro j hj
    obtain ⟨s, h, -⟩ := ((order_ok o).members j).1 hj
    rw [List.length_replicate]; exact length_of_getElem? h

theorem indexIn_lt (l : List Nat) (i n : Nat) (h : l.length ≤ n) (hn : 0 < n) : indexIn l i < n := by
  unfold indexIn
  cases h1 : l.idxOf? i with
  | none => exact hn
  | some k =>
    have : k < l.length := by
      have := List.findIdx?_eq_some_iff_getElem.1 h1
      exact this.1
    show k < n
    omega

/-- The string table of the symbols. -/
def tabOf (o : W.Object) : StrTab := addAll StrTab.new (emNames o.arch o.symbols)

theorem planSymbols_sat (o : W.Object) (hv : Valid o) (E : Prop) (hE : ∀ s ∈ o.symbols, s.kind = .label → E)
    (hE2 : 2 ^ 24 < o.symbols.length → E) :
    Res.Sat E (planSymbols o) fun r => r = (⟨idsOf o.arch (tabOf o) o.symbols, locals o, externals o, undefineds o⟩,
      assign (List.replicate o.symbols.length 0) 0 (orderOf o), (orderOf o).length, tabOf o) ∧ (orderOf o).length ≤ 2 ^ 24 := by
  unfold planSymbols
  have hl := hv.symbols
  have hU : U32 = 2 ^ 32 := by decide
  refine (partition_sat o.arch E (tabOf o) o.symbols 0 0 StrTab.new hv.symbolName hE (TabW.new (by omega)) List.prefix_rfl).bind ?_
  rintro r rfl
  simp only [Res.bind_eq]
  have e1 : (groupsOf o.arch (tabOf o) 0 o.symbols).locals ++ sortSyms o.symbols (groupsOf o.arch (tabOf o) 0 o.symbols).externals ++
      sortSyms o.symbols (groupsOf o.arch (tabOf o) 0 o.symbols).undefineds = orderOf o := rfl
  have h2 := length_order o
  rw [e1, number_eq _ _ _ (by omega)]
  simp only [Res.ok_bind, Nat.zero_add]
  by_cases h : 2 ^ 24 < (orderOf o).length
  · rw [if_pos h]; exact hE2 (by omega)
  · rw [if_neg h]; exact ⟨rfl, by omega⟩

/-! ## Relocations -/

/-- The number of records of a section. -/
def cnt (s : W.Section) : Nat := W.machoCount s.relocs

theorem machoCount_cons (r : W.Reloc) (rs : List W.Reloc) : W.machoCount (r :: rs) =
    1 + (if r.addend ≠ 0 then 1 else 0) + (if r.subtractor.isSome then 1 else 0) + W.machoCount rs := by
  unfold W.machoCount; rw [List.map_cons, List.sum_cons]

theorem machoCount_le (rs : List W.Reloc) : W.machoCount rs ≤ 3 * rs.length ∧ rs.length ≤ W.machoCount rs := by
  induction rs with
  | nil => exact ⟨Nat.le_refl _, Nat.le_refl _⟩
  | cons r rs ih =>
    rw [machoCount_cons, List.length_cons]
    obtain ⟨h1, h2⟩ := ih
    split <;> split <;> omega

theorem cnt_ne (s : W.Section) : cnt s ≠ 0 ↔ s.relocs ≠ [] := by
  have := machoCount_le s.relocs
  unfold cnt
  rw [← List.length_pos_iff]
  omega

/-- Alignments and sizes of the relocations. -/
def relSizes (c : Cfg) (ss : List W.Section) : List (Nat × Nat) := (ss.filter fun s => decide (cnt s ≠ 0)).map fun s => (c.w, cnt s * 8)

/-- The ranges of the relocations. -/
def relPlaces (c : Cfg) : Nat → List W.Section → List (Nat × Nat)
  | _, [] => []
  | a, s :: ss => if cnt s ≠ 0 then (up a c.w, cnt s) :: relPlaces c (up a c.w + cnt s * 8) ss else (0, 0) :: relPlaces c a ss

theorem relSizes_cons (c : Cfg) (s : W.Section) (ss : List W.Section) :
    relSizes c (s :: ss) = if cnt s ≠ 0 then (c.w, cnt s * 8) :: relSizes c ss else relSizes c ss := by
  unfold relSizes
  rw [List.filter_cons]
  by_cases h : cnt s ≠ 0
  · rw [if_pos h, if_pos (by simpa using h)]; rfl
  · rw [if_neg h, if_neg (by simpa using h)]

theorem cost_relSizes (c : Cfg) : ∀ ss : List W.Section, cost (relSizes c ss) ≤ (ss.map fun s => 24 * s.relocs.length + 8).sum
  | [] => by simp [relSizes, cost]
  | s :: ss => by
    have ih := cost_relSizes c ss
    have h1 := (machoCount_le s.relocs).1
    have h2 := w_le c
    have h3 : cnt s = W.machoCount s.relocs := rfl
    rw [relSizes_cons, List.map_cons, List.sum_cons]
    split
    · simp only [cost]; omega
    · omega

theorem reserveRelocs_eq (c : Cfg) : ∀ (ss : List W.Section) (a : Nat), (∀ s ∈ ss, s.relocs.length < 2 ^ 30) →
    a + cost (relSizes c ss) < U64 → reserveRelocs c a ss = .ok (relPlaces c a ss, endOf a (relSizes c ss))
  | [], a, _, _ => rfl
  | s :: ss, a, hr, h => by
    have h1 := (machoCount_le s.relocs).1
    have h2 := hr s (by simp)
    have h3 : cnt s = W.machoCount s.relocs := rfl
    have hU : U32 = 2 ^ 32 := by decide
    have hr' := fun x hx => hr x (List.mem_cons_of_mem s hx)
    rw [relSizes_cons] at h ⊢
    unfold reserveRelocs relPlaces
    have e : countRelocs s.relocs = .ok (cnt s) := by unfold countRelocs; rw [if_pos (by omega)]; rfl
    rw [e]
    simp only [Res.ok_bind]
    by_cases h0 : cnt s ≠ 0
    · simp only [if_pos h0] at h ⊢
      simp only [cost] at h
      have := up_le a c.w
      rw [reserve_eq (pow_w c) (by omega)]
      simp only [Res.bind_eq, Res.ok_bind]
      rw [reserveRelocs_eq c ss _ hr' (by omega)]
      rfl
    · simp only [if_neg h0] at h ⊢
      rw [reserveRelocs_eq c ss a hr' h]
      rfl

/-! ## Tables -/

theorem names_le (o : W.Object) : storedSize (tabOf o).strings ≤ storedSize (o.symbols.map (·.name)) := by
  have h1 := storedSize_addAll (emNames o.arch o.symbols) StrTab.new
  have h2 : storedSize StrTab.new.strings = 0 := rfl
  have h3 : ∀ ss : List W.Symbol, storedSize (emNames o.arch ss) ≤ storedSize (ss.map (·.name)) := by
    intro ss
    induction ss with
    | nil => simp [emNames, storedSize]
    | cons s ss ih =>
      rw [emNames_cons, storedSize_append, List.map_cons, storedSize_cons]
      split <;> simp [storedSize] <;> simp [storedSize] at ih <;> omega
  have := h3 o.symbols
  unfold tabOf
  omega

theorem encStrtab_sat (c : Cfg) (o : W.Object) (hv : Valid o) :
    Res.Sat (2 ^ 32 ≤ storedSize (o.symbols.map (·.name)) + 9) (encStrtab c (tabOf o)) fun r =>
      r.1 = r.2.2.length ∧ r.2.1.strings = (tabOf o).strings ∧ Written r.2.1 r.2.2 ∧
      r.1 ≤ storedSize (o.symbols.map (·.name)) + 9 := by
  have hs := names_le o
  have hn : ∀ s ∈ emNames o.arch o.symbols, (0 : UInt8) ∉ s := by
    intro s h
    obtain ⟨x, h1, rfl⟩ := List.mem_map.1 h
    exact hv.symbolName x (List.mem_filter.1 h1).1
  unfold tabOf at hs ⊢
  generalize emNames o.arch o.symbols = F at hs hn ⊢
  obtain ⟨offsets, out, h1, -, h3, h4⟩ := StrTab.write_merge_aux [0] F hn (.inr (.inl rfl))
  have h5 := storedSize_filter (fun s => decide (Maximal (addAll StrTab.new F).strings s)) (addAll StrTab.new F).strings
  have h8 : out.length ≤ storedSize (o.symbols.map (·.name)) := by omega
  have e : [(0 : UInt8)].length = 1 := rfl
  rw [e] at h1
  have hU : U32 = 2 ^ 32 := by decide
  have hU6 : U32 + 100 < U64 := by decide
  have hw := w_le c
  unfold encStrtab
  rw [h1]
  by_cases hb : 1 + out.length < U32
  · simp only [if_pos hb]
    have hup := up_le (1 + out.length) c.w
    have hle := le_up (1 + out.length) c.w
    rw [align64_eq' (pow_w c) (by omega)]
    simp only [Res.ok_bind]
    by_cases hb2 : up (1 + out.length) c.w < U32
    · rw [if_pos hb2]
      refine ⟨?_, rfl, ⟨?_, ?_, ?_⟩, ?_⟩
      · simp; omega
      · intro id s hid
        obtain ⟨p, ⟨x, y, g1, g2⟩, g3⟩ := h3 id s hid
        have hp : p < U32 := by
          have := congrArg List.length g1
          simp at this; omega
        rw [Nat.mod_eq_of_lt hp] at g3
        refine ⟨p, ?_, hp, x, y ++ List.replicate (up (1 + out.length) c.w - (1 + out.length)) 0, ?_, g2⟩
        · unfold StrTab.getOffset; simp only [g3]
        · have : 0 :: out = x ++ s ++ 0 :: y := g1
          show 0 :: out ++ _ = _
          rw [this]; simp
      · exact ⟨[], out ++ List.replicate (up (1 + out.length) c.w - (1 + out.length)) 0, by simp, rfl⟩
      · simp; omega
      · show up (1 + out.length) c.w ≤ _; omega
    · rw [if_neg hb2]
      show 2 ^ 32 ≤ _
      omega
  · simp only [if_neg hb]
    show 2 ^ 32 ≤ _
    omega

end Obj.MachoW

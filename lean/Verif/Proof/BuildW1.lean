import Verif.Model.BuildWrite
import Verif.Proof.BuildRead7
import Verif.Proof.ElfW1

/-! Writing with the ELF builder: loops, blocks of the output, string tables. -/

namespace Obj.BuildW
open Obj Obj.Build Obj.BuildR Obj.Spec
open Obj.Spec.MachoF (Each)

/-! ## Loops -/

theorem mapR_each {α β : Type} (f : α → Res β) (xs : List α) (ys : List β) : mapR f xs = .ok ys ↔ Each (fun x y => f x = .ok y) xs ys :=
  loop_each f (mapR f) rfl (fun _ _ => rfl) xs ys

theorem foldR_cons {σ α : Type} {f : σ → α → Res σ} {s : σ} {x : α} {xs : List α} {t : σ} :
    foldR f s (x :: xs) = .ok t ↔ ∃ u, f s x = .ok u ∧ foldR f u xs = .ok t := by
  rw [foldR, Res.bind_eq_ok]

theorem foldR_append {σ α : Type} {f : σ → α → Res σ} {xs ys : List α} {s t : σ} :
    foldR f s (xs ++ ys) = .ok t ↔ ∃ u, foldR f s xs = .ok u ∧ foldR f u ys = .ok t := by
  induction xs generalizing s with
  | nil => simp [foldR]
  | cons x xs ih =>
    simp only [List.cons_append, foldR_cons, ih]
    constructor
    · rintro ⟨u, h1, v, h2, h3⟩; exact ⟨v, ⟨u, h1, h2⟩, h3⟩
    · rintro ⟨v, ⟨u, h1, h2⟩, h3⟩; exact ⟨u, h1, v, h2, h3⟩

theorem each_of_forall {α β : Type} {P : α → β → Prop} {xs : List α} {ys : List β} (hl : ys.length = xs.length)
    (h : ∀ (i : Nat) x y, xs[i]? = some x → ys[i]? = some y → P x y) : Each P xs ys := by
  induction xs generalizing ys with
  | nil => cases ys with
    | nil => exact .nil
    | cons y ys => simp at hl
  | cons x xs ih => cases ys with
    | nil => simp at hl
    | cons y ys =>
      refine .cons (h 0 x y rfl rfl) (ih (by simpa using hl) fun i a b ha hb => h (i + 1) a b (by simpa using ha) (by simpa using hb))

theorem each_get_left {α β : Type} {P : α → β → Prop} {xs : List α} {ys : List β} (h : Each P xs ys) {i : Nat} {x : α} (hx : xs[i]? = some x) :
    ∃ y, ys[i]? = some y ∧ P x y := by
  induction h generalizing i with
  | nil => simp at hx
  | cons h1 _ ih =>
    cases i with
    | zero => simp at hx; subst hx; exact ⟨_, rfl, h1⟩
    | succ i => simpa using ih (by simpa using hx)

/-! ## Blocks -/

/-- Writing blocks at offsets, with padding before them. -/
inductive Puts : List (Nat × List UInt8) → List UInt8 → List UInt8 → Prop where
  | nil {out : List UInt8} : Puts [] out out
  | cons {o : Nat} {d out out' : List UInt8} {bs : List (Nat × List UInt8)} : out.length ≤ o →
      Puts bs (out ++ List.replicate (o - out.length) 0 ++ d) out' → Puts ((o, d) :: bs) out out'

theorem Puts.append {as bs : List (Nat × List UInt8)} {x y z : List UInt8} (h : Puts as x y) (h' : Puts bs y z) : Puts (as ++ bs) x z := by
  induction h with
  | nil => exact h'
  | cons h1 _ ih => exact .cons h1 (ih h')

theorem Puts.keeps {bs : List (Nat × List UInt8)} {x y : List UInt8} (h : Puts bs x y) : ∃ z, y = x ++ z := by
  induction h with
  | nil => exact ⟨[], by simp⟩
  | cons _ _ ih => obtain ⟨z, hz⟩ := ih; exact ⟨_, by rw [hz, List.append_assoc, List.append_assoc]⟩

theorem put_ok {out d out' : List UInt8} {o : Nat} (h : put out o d = .ok out') : Puts [(o, d)] out out' := by
  unfold put at h
  split at h
  · cases h
  · cases h
    exact .cons (by omega) .nil

theorem Puts.mem {bs : List (Nat × List UInt8)} {x y : List UInt8} (h : Puts bs x y) {o : Nat} {d : List UInt8} (hm : (o, d) ∈ bs) :
    slice y o d.length = d ∧ o + d.length ≤ y.length := by
  induction h with
  | nil => cases hm
  | @cons o' d' out out' bs h1 h2 ih =>
    rcases List.mem_cons.1 hm with he | hm
    · cases he
      obtain ⟨z, rfl⟩ := h2.keeps
      have hl : (out ++ List.replicate (o - out.length) (0 : UInt8)).length = o := by simp; omega
      constructor
      · unfold slice
        rw [List.append_assoc, List.drop_left' hl, List.take_left' rfl]
      · rw [List.length_append, List.length_append, hl]; omega
    · exact ih hm

/-- A fold of steps that write blocks. -/
theorem fold_puts {α : Type} {f : List UInt8 → α → Res (List UInt8)} {P : α → List (Nat × List UInt8) → Prop}
    (hf : ∀ out x out', f out x = .ok out' → ∃ bs, Puts bs out out' ∧ P x bs)
    (hm : ∀ x bs cs ds, P x bs → P x (cs ++ bs ++ ds)) {xs : List α} {out out' : List UInt8} (h : foldR f out xs = .ok out') :
    ∃ bs, Puts bs out out' ∧ ∀ x ∈ xs, P x bs := by
  induction xs generalizing out with
  | nil => cases h; exact ⟨[], .nil, by simp⟩
  | cons x xs ih =>
    obtain ⟨u, h1, h2⟩ := foldR_cons.1 h
    obtain ⟨as, ha, hp⟩ := hf _ _ _ h1
    obtain ⟨bs, hb, hq⟩ := ih h2
    refine ⟨as ++ bs, ha.append hb, ?_⟩
    intro y hy
    rcases List.mem_cons.1 hy with rfl | hy
    · simpa using hm _ _ [] bs hp
    · simpa using hm _ _ as [] (hq y hy)

/-! ## String tables -/

/-- A string table that was built by adding strings. -/
def Built (t : StrTab) : Prop := ∃ ss, (∀ s ∈ ss, (0 : UInt8) ∉ s) ∧ t = Spec.addAll StrTab.new ss

theorem built_new : Built StrTab.new := ⟨[], by simp, rfl⟩

/-- String `id` (a truncated index) in a table. -/
def IdOf (t : StrTab) (id : Nat) (s : List UInt8) : Prop := ∃ i, t.strings[i]? = some s ∧ id = i % U32

theorem idOf_mono {t t' : StrTab} {id : Nat} {s : List UInt8} (h : IdOf t id s) (hp : t.strings <+: t'.strings) : IdOf t' id s := by
  obtain ⟨i, h1, h2⟩ := h
  obtain ⟨r, hr⟩ := hp
  refine ⟨i, ?_, h2⟩
  rw [← hr, List.getElem?_append_left (ElfW.length_of_getElem? h1)]; exact h1

theorem tabAdd_ok {t t' : StrTab} {s : List UInt8} {id : Nat} (hb : Built t) (h : ElfW.tabAdd t s = .ok (id, t')) :
    Built t' ∧ t.strings <+: t'.strings ∧ (0 : UInt8) ∉ s ∧ IdOf t' id s := by
  obtain ⟨ss, hn, rfl⟩ := hb
  unfold ElfW.tabAdd at h
  by_cases hc : (Spec.addAll StrTab.new ss).addAssert s = true
  · rw [ElfW.check_ok hc] at h
    have h : Res.ok ((Spec.addAll StrTab.new ss).add s) = Res.ok (id, t') := h
    injection h with h
    have hs : (0 : UInt8) ∉ s := by
      unfold StrTab.addAssert at hc
      rw [Bool.and_eq_true] at hc
      simpa using hc.2
    have e1 : ((Spec.addAll StrTab.new ss).add s).2 = t' := by rw [h]
    have e2 : ((Spec.addAll StrTab.new ss).add s).1 = id := by rw [h]
    obtain ⟨a1, -⟩ := StrTab.addAll_strings ss StrTab.new (by simp [StrTab.new])
    refine ⟨⟨ss ++ [s], ?_, ?_⟩, ?_, hs, ?_⟩
    · intro x hx
      rcases List.mem_append.1 hx with hx | hx
      · exact hn x hx
      · rw [List.mem_singleton] at hx; rw [hx]; exact hs
    · rw [ElfW.addAll_append, ← e1]; rfl
    · rw [← e1]; exact ElfW.addAll_prefix a1 [s]
    · obtain ⟨i, h1, h2⟩ := StrTab.add_id (Spec.addAll StrTab.new ss) s
      rw [e1] at h1
      exact ⟨i, StrTab.indexOf_some h1, by rw [← e2]; exact h2⟩
  · exfalso
    have e : ElfW.check ((Spec.addAll StrTab.new ss).addAssert s = true) = .panic := if_neg hc
    rw [e] at h
    cases h

theorem addAll_ok {ss : List (List UInt8)} {t t' : StrTab} (hb : Built t) (h : addAll t ss = .ok t') :
    Built t' ∧ t.strings <+: t'.strings ∧ ∀ s ∈ ss, s ∈ t'.strings := by
  induction ss generalizing t with
  | nil => cases h; exact ⟨hb, List.prefix_refl _, by simp⟩
  | cons s ss ih =>
    obtain ⟨u, h1, h2⟩ := foldR_cons.1 h
    rw [Res.bind_eq_ok] at h1
    obtain ⟨⟨id, v⟩, h1, h3⟩ := h1
    injection h3 with h3
    simp only at h3
    subst h3
    obtain ⟨a1, a2, -, i, a4, -⟩ := tabAdd_ok hb h1
    obtain ⟨b1, b2, b3⟩ := ih a1 h2
    refine ⟨b1, a2.trans b2, ?_⟩
    intro x hx
    rcases List.mem_cons.1 hx with rfl | hx
    · exact b2.subset (List.mem_of_getElem? a4)
    · exact b3 x hx

/-- The id of a name: none for the empty name. -/
def NameId (t : StrTab) (name : List UInt8) (id : Option Nat) : Prop := id = none ∧ name = [] ∨ ∃ i, id = some i ∧ IdOf t i name

theorem nameId_mono {t t' : StrTab} {id : Option Nat} {s : List UInt8} (h : NameId t s id) (hp : t.strings <+: t'.strings) : NameId t' s id := by
  rcases h with h | ⟨i, h1, h2⟩
  · exact .inl h
  · exact .inr ⟨i, h1, idOf_mono h2 hp⟩

theorem addName_ok {t t' : StrTab} {s : List UInt8} {id : Option Nat} (hb : Built t) (h : addName t s = .ok (id, t')) :
    Built t' ∧ t.strings <+: t'.strings ∧ NameId t' s id := by
  unfold addName at h
  by_cases hs : s = []
  · rw [if_pos hs] at h; cases h; exact ⟨hb, List.prefix_refl _, .inl ⟨rfl, hs⟩⟩
  · rw [if_neg hs, Res.bind_eq_ok] at h
    obtain ⟨⟨i, u⟩, h1, h2⟩ := h
    cases h2
    obtain ⟨a1, a2, -, a4⟩ := tabAdd_ok hb h1
    exact ⟨a1, a2, .inr ⟨i, rfl, a4⟩⟩

theorem addNames_ok {ns : List (List UInt8)} {t t' : StrTab} {ids : List (Option Nat)} (hb : Built t) (h : addNames t ns = .ok (ids, t')) :
    Built t' ∧ t.strings <+: t'.strings ∧ Each (NameId t') ns ids := by
  induction ns generalizing t ids with
  | nil => cases h; exact ⟨hb, List.prefix_refl _, .nil⟩
  | cons n ns ih =>
    rw [addNames, Res.bind_eq_ok] at h
    obtain ⟨⟨i, u⟩, h1, h⟩ := h
    rw [Res.bind_eq_ok] at h
    obtain ⟨⟨is, v⟩, h2, h3⟩ := h
    cases h3
    obtain ⟨a1, a2, a3⟩ := addName_ok hb h1
    obtain ⟨b1, b2, b3⟩ := ih a1 h2
    exact ⟨b1, a2.trans b2, .cons (nameId_mono a3 b2) b3⟩

/-- The string at an offset of a written table. -/
def StrIn (o : TabOut) (off : Nat) (s : List UInt8) : Prop := StringAt o.data s off ∧ off < 2 ^ 32 ∧ (0 : UInt8) ∉ s

/-- A string at an offset is unique. -/
theorem stringAt_unique {data s s' : List UInt8} {p : Nat} (h : StringAt data s p) (h' : StringAt data s' p) (hs : (0 : UInt8) ∉ s)
    (hs' : (0 : UInt8) ∉ s') : s = s' := by
  obtain ⟨x, y, h1, h2⟩ := h
  obtain ⟨x', y', h1', h2'⟩ := h'
  rw [h1, List.append_assoc, List.append_assoc] at h1'
  obtain ⟨-, e⟩ := List.append_inj h1' (by omega)
  have a : ∀ (u v : List UInt8), (0 : UInt8) ∉ u → (u ++ 0 :: v).takeWhile (· ≠ 0) = u := by
    intro u v hu
    rw [List.takeWhile_append_of_pos]
    · simp
    · intro b hb; simp; rintro rfl; exact hu hb
  rw [← a s y hs, e, a s' y' hs']

theorem nodup_len (l : List Nat) (n : Nat) (h : ∀ x ∈ l, x < n) (hd : l.Nodup) : l.length ≤ n := by
  have := List.Nodup.length_le_of_subset hd (l₂ := List.range n) (fun x hx => by simpa using h x hx)
  simpa using this

theorem tabOut_ok {t : StrTab} {o : TabOut} (hb : Built t) (h : tabOut t = .ok o) :
    o.len = o.data.length ∧ o.data.length < 2 ^ 32 ∧ 0 < o.data.length ∧ StrIn o 0 [] ∧
    (∀ id s off, IdOf t id s → o.tab.getOffset id = .ok off → StrIn o off s) ∧
    (∀ s off, s ∈ t.strings → strOffset o.tab s = .ok off → StrIn o off s) := by
  obtain ⟨ss, hn, rfl⟩ := hb
  unfold tabOut at h
  rw [Res.bind_eq_ok] at h
  obtain ⟨⟨n, t', d⟩, h1, h2⟩ := h
  cases h2
  obtain ⟨b1, b2, b3, -⟩ := (ElfW.encStrtab_sat ss hn).ok h1
  simp only at b1 b2 b3
  obtain ⟨a1, -, a3, -⟩ := StrTab.addAll_strings ss StrTab.new (by simp [StrTab.new])
  have hnn : ∀ s ∈ t'.strings, (0 : UInt8) ∉ s := by
    intro s hs
    rw [b2, a3] at hs
    exact hn s (by simpa [StrTab.new] using hs)
  have hd : t'.strings.Nodup := by rw [b2]; exact a1
  have hle : t'.strings.length ≤ d.length := by
    -- distinct strings have distinct offsets
    let g : Nat → Nat := fun i => match t'.getOffset i with
      | .ok p => p
      | .err => 0
      | .panic => 0
    have hg : ∀ i s, t'.strings[i]? = some s → StringAt d s (g i) := by
      intro i s hs
      obtain ⟨p, hp, -, hp'⟩ := b3.at_ i s hs
      have : g i = p := by simp only [g, hp]
      rw [this]; exact hp'
    have := nodup_len ((List.range t'.strings.length).map g) d.length (by
        intro x hx
        obtain ⟨i, hi, rfl⟩ := List.mem_map.1 hx
        have hi : i < t'.strings.length := by simpa using hi
        exact StrTab.stringAt_lt (hg i _ (List.getElem?_eq_getElem hi))) (by
        rw [List.Nodup, List.pairwise_map]
        refine List.Pairwise.imp_of_mem ?_ List.pairwise_lt_range
        intro i j hi hj hij he
        have hi : i < t'.strings.length := by simpa using hi
        have hj : j < t'.strings.length := by simpa using hj
        have e1 := hg i _ (List.getElem?_eq_getElem hi)
        have e2 := hg j _ (List.getElem?_eq_getElem hj)
        rw [he] at e1
        have := stringAt_unique e1 e2 (hnn _ (List.getElem_mem hi)) (hnn _ (List.getElem_mem hj))
        have := (List.getElem_inj hd).1 this
        omega)
    simpa using this
  have hlt : d.length < 2 ^ 32 := b3.len
  have hid : ∀ i s off, t'.strings[i]? = some s → t'.getOffset (i % U32) = .ok off → StrIn ⟨n, t', d⟩ off s := by
    intro i s off hi ho
    have hl := ElfW.length_of_getElem? hi
    rw [Nat.mod_eq_of_lt (by show i < 2 ^ 32; omega)] at ho
    obtain ⟨p, hp, hp2, hp3⟩ := b3.at_ i s hi
    rw [hp] at ho; cases ho
    exact ⟨hp3, hp2, hnn s (List.mem_of_getElem? hi)⟩
  refine ⟨b1, hlt, ?_, ⟨b3.nul, by show 0 < 2 ^ 32; omega, by simp⟩, ?_, ?_⟩
  · exact StrTab.stringAt_lt b3.nul
  · rintro id s off ⟨i, h3, rfl⟩ ho
    exact hid i s off (by rw [b2]; exact h3) ho
  · intro s off hs ho
    unfold strOffset at ho
    rw [Res.bind_eq_ok] at ho
    obtain ⟨id, h3, h4⟩ := ho
    unfold StrTab.getId at h3
    obtain ⟨i, hi⟩ := StrTab.indexOf_isSome (show s ∈ t'.strings by rw [b2]; exact hs)
    simp only [hi] at h3
    cases h3
    exact hid i s off (StrTab.indexOf_some hi) h4

theorem nameOffset_ok {t : StrTab} {o : TabOut} (hb : Built t) (h : tabOut t = .ok o) {s : List UInt8} {id : Option Nat} {off : Nat} (hi : NameId t s id)
    (ho : ElfW.nameOffset o.tab id = .ok off) : StrIn o off s := by
  obtain ⟨-, -, -, a4, a5, -⟩ := tabOut_ok hb h
  rcases hi with ⟨rfl, rfl⟩ | ⟨i, rfl, hi⟩
  · cases ho; exact a4
  · exact a5 i s off hi ho

end Obj.BuildW

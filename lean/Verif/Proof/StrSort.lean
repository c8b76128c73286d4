import Verif.Model.WriteString

namespace Obj
namespace StrTab

/-- Descending lexicographic comparison, a longer list being greater than its prefixes. -/
def lexGe : List UInt8 → List UInt8 → Prop
  | _, [] => True
  | [], _ :: _ => False
  | x :: xs, y :: ys => y < x ∨ (x = y ∧ lexGe xs ys)

theorem lexGe_refl : ∀ l, lexGe l l
  | [] => trivial
  | _ :: xs => Or.inr ⟨rfl, lexGe_refl xs⟩

theorem lexGe_of_byte : ∀ (n : Nat) (a b : List UInt8), a.take n = b.take n → n ≤ a.length → n ≤ b.length →
    (b[n]?).getD 0 < (a[n]?).getD 0 → lexGe a b := by
  intro n
  induction n with
  | zero =>
    intro a b _ _ _ h
    cases b with
    | nil => cases a <;> trivial
    | cons y ys =>
      cases a with
      | nil => simp at h
      | cons x xs => simp at h; exact Or.inl h
  | succ n ih =>
    intro a b ht ha hb h
    cases a with
    | nil => simp at ha
    | cons x xs =>
      cases b with
      | nil => simp at hb
      | cons y ys =>
        simp at ht ha hb h
        exact Or.inr ⟨ht.1, ih xs ys ht.2 ha hb h⟩

/-- Everything between a list and one of its prefixes has that prefix. -/
theorem lexGe_convex : ∀ (s t x : List UInt8), lexGe t x → lexGe x s → s <+: t → s <+: x := by
  intro s
  induction s with
  | nil => intros; simp
  | cons y s ih =>
    intro t x h1 h2 h3
    obtain ⟨t', rfl⟩ := h3
    cases x with
    | nil => exact h2.elim
    | cons z x =>
      simp only [List.cons_append, lexGe] at h1 h2
      rcases h1 with h1 | ⟨rfl, h1⟩
      · rcases h2 with h2 | ⟨rfl, h2⟩
        · rw [UInt8.lt_iff_toNat_lt] at h1 h2; omega
        · rw [UInt8.lt_iff_toNat_lt] at h1; omega
      · rcases h2 with h2 | ⟨_, h2⟩
        · rw [UInt8.lt_iff_toNat_lt] at h2; omega
        · rw [List.cons_prefix_cons]
          exact ⟨rfl, ih _ x h1 h2 ⟨t', rfl⟩⟩

theorem lexGe_of_prefix : ∀ (s t : List UInt8), s <+: t → lexGe t s
  | [], t, _ => by cases t <;> trivial
  | y :: s, t, ⟨u, hu⟩ => by
    subst hu
    exact Or.inr ⟨rfl, lexGe_of_prefix s _ ⟨u, rfl⟩⟩

theorem lexGe_antisymm : ∀ (a b : List UInt8), lexGe a b → lexGe b a → a = b
  | [], [], _, _ => rfl
  | [], _ :: _, h, _ => h.elim
  | _ :: _, [], _, h => h.elim
  | x :: xs, y :: ys, h1, h2 => by
    rcases h1 with h1 | ⟨rfl, h1⟩
    · rcases h2 with h2 | ⟨rfl, h2⟩
      · rw [UInt8.lt_iff_toNat_lt] at h1 h2; omega
      · rw [UInt8.lt_iff_toNat_lt] at h1; omega
    · rcases h2 with h2 | ⟨_, h2⟩
      · rw [UInt8.lt_iff_toNat_lt] at h2; omega
      · rw [lexGe_antisymm xs ys h1 h2]

/-! ## reversed strings and their bytes -/

/-- the reversed text of string `id` -/
def rev (strings : List (List UInt8)) (id : Nat) : List UInt8 := (strings[id]?.getD []).reverse

/-- value of `byte` -/
def bv (strings : List (List UInt8)) (pos id : Nat) : UInt8 := ((rev strings id)[pos - 1]?).getD 0

theorem byte_eq {strings : List (List UInt8)} {id pos : Nat} (h : id < strings.length) (hp : 1 ≤ pos) :
    byte strings id pos = .ok (bv strings pos id) := by
  simp only [byte, bv, rev, List.getElem?_eq_getElem h, Option.getD_some]
  by_cases hl : pos ≤ strings[id].length
  · rw [if_pos hl, List.getElem?_reverse (by omega)]
    rw [show strings[id].length - 1 - (pos - 1) = strings[id].length - pos by omega]
    rw [List.getElem?_eq_getElem (by omega)]
    simp
  · rw [if_neg hl, List.getElem?_eq_none (by simp; omega)]
    simp

theorem swap_append (a b c : List Nat) (x y : Nat) :
    swap (a ++ x :: (b ++ y :: c)) a.length (a.length + 1 + b.length) = .ok (a ++ y :: (b ++ x :: c)) := by
  have h1 : (a ++ x :: (b ++ y :: c))[a.length]? = some x := by simp
  have h2 : (a ++ x :: (b ++ y :: c))[a.length + 1 + b.length]? = some y := by
    rw [List.getElem?_append_right (by omega)]
    rw [show a.length + 1 + b.length - a.length = b.length + 1 by omega]
    simp
  simp only [swap, h1, h2]
  congr 1
  rw [List.set_append_right _ _ (by omega)]
  simp only [Nat.sub_self, List.set_cons_zero]
  rw [List.set_append_right _ _ (by omega)]
  rw [show a.length + 1 + b.length - a.length = b.length + 1 by omega]
  simp

theorem swap_append' (a b c : List Nat) (x y : Nat) :
    swap (a ++ x :: (b ++ y :: c)) (a.length + 1 + b.length) a.length = .ok (a ++ y :: (b ++ x :: c)) := by
  have h1 : (a ++ x :: (b ++ y :: c))[a.length]? = some x := by simp
  have h2 : (a ++ x :: (b ++ y :: c))[a.length + 1 + b.length]? = some y := by
    rw [List.getElem?_append_right (by omega)]
    rw [show a.length + 1 + b.length - a.length = b.length + 1 by omega]
    simp
  simp only [swap, h1, h2]
  congr 1
  rw [List.set_append_right _ _ (by omega)]
  rw [show a.length + 1 + b.length - a.length = b.length + 1 by omega]
  simp only [List.set_cons_succ]
  rw [List.set_append_right _ _ (by omega), List.set_append_right _ _ (by omega)]
  simp

theorem swap_self (a c : List Nat) (x : Nat) :
    swap (a ++ x :: c) a.length a.length = .ok (a ++ x :: c) := by
  have h1 : (a ++ x :: c)[a.length]? = some x := by simp
  simp only [swap, h1]
  congr 1
  simp

theorem partLoop_spec (strings : List (List UInt8)) (pos : Nat) (hp : 1 ≤ pos) (pivot : UInt8) (n : Nat) :
    ∀ (G E M L ids : List Nat) (lower upper i : Nat), M.length = n → E ≠ [] →
      ids = G ++ E ++ M ++ L → lower = G.length → i = G.length + E.length → upper = i + M.length →
      (∀ x ∈ ids, x < strings.length) →
      (∀ x ∈ G, pivot < bv strings pos x) → (∀ x ∈ E, bv strings pos x = pivot) →
      (∀ x ∈ L, bv strings pos x < pivot) →
      ∃ G' E' L', partLoop strings pos pivot ids lower upper i
          = .ok (G' ++ E' ++ L', G'.length, G'.length + E'.length) ∧ E' ≠ [] ∧
        (G' ++ E' ++ L').Perm ids ∧
        (∀ x ∈ G', pivot < bv strings pos x) ∧ (∀ x ∈ E', bv strings pos x = pivot) ∧
        (∀ x ∈ L', bv strings pos x < pivot) := by
  induction n with
  | zero =>
    intro G E M L ids lower upper i hM hE hids hl hi hu hlt hG hE' hL
    have : M = [] := List.eq_nil_of_length_eq_zero hM
    subst this
    rw [partLoop, if_neg (by simp at hu; omega)]
    subst hids
    refine ⟨G, E, L, ?_, hE, by simp, hG, hE', hL⟩
    simp at hu ⊢
    omega
  | succ n ih =>
    intro G E M L ids lower upper i hM hE hids hl hi hu hlt hG hE' hL
    cases M with
    | nil => simp at hM
    | cons x M =>
    simp at hM hu
    rw [partLoop, if_pos (by omega)]
    have hx : ids[i]? = some x := by
      subst hids hi
      rw [List.append_assoc, List.getElem?_append_right (by simp)]
      simp
    have hxl : x < strings.length := hlt x (by subst hids; simp)
    simp only [hx, byte_eq hxl hp]
    by_cases hgt : pivot < bv strings pos x
    · rw [if_pos hgt]
      cases E with
      | nil => exact absurd rfl hE
      | cons e E =>
      have hsw : swap ids lower i = .ok (G ++ x :: (E ++ e :: (M ++ L))) := by
        have := swap_append G E (M ++ L) e x
        subst hids hl hi
        rw [show G.length + (e :: E).length = G.length + 1 + E.length by simp; omega]
        rw [← this]
        simp
      simp only [hsw]
      obtain ⟨G', E', L', h1, h2, h3, h4, h5, h6⟩ := ih (G ++ [x]) (E ++ [e]) M L
        (G ++ x :: (E ++ e :: (M ++ L))) (lower + 1) upper (i + 1) (by omega) (by simp) (by simp)
        (by simp; omega) (by simp at hi ⊢; omega) (by omega)
        (by
          intro y hy; apply hlt; subst hids
          simp at hy ⊢; grind)
        (by intro y hy; simp at hy; rcases hy with hy | rfl; exact hG y hy; exact hgt)
        (by intro y hy; simp at hy; exact hE' y (by simp; grind))
        hL
      refine ⟨G', E', L', h1, h2, h3.trans ?_, h4, h5, h6⟩
      subst hids
      rw [List.append_assoc, List.append_assoc]
      apply List.Perm.append_left
      simp only [List.cons_append]
      -- x :: (E ++ e :: (M ++ L)) ~ e :: (E ++ x :: (M ++ L))
      have p1 : (x :: (E ++ e :: (M ++ L))).Perm (x :: e :: (E ++ (M ++ L))) :=
        List.Perm.cons _ List.perm_middle
      have p2 : (e :: (E ++ x :: (M ++ L))).Perm (e :: x :: (E ++ (M ++ L))) :=
        List.Perm.cons _ List.perm_middle
      exact p1.trans ((List.Perm.swap e x _).trans p2.symm)
    · rw [if_neg hgt]
      by_cases hltp : bv strings pos x < pivot
      · rw [if_pos hltp]
        rcases List.eq_nil_or_concat M with rfl | ⟨M', y, rfl⟩
        · have hsw : swap ids (upper - 1) i = .ok ids := by
            have := swap_self (G ++ E) L x
            subst hids hi
            simp at hu
            rw [show upper - 1 = G.length + E.length by omega]
            simpa using this
          simp only [hsw]
          simp at hu
          obtain ⟨G', E', L', h1, h2, h3, h4, h5, h6⟩ := ih G E [] (x :: L) ids lower (upper - 1) i
            (by simp at hM ⊢; omega) hE (by subst hids; simp) hl hi (by simp; omega) hlt hG hE'
            (by intro y hy; simp at hy; rcases hy with rfl | hy; exact hltp; exact hL y hy)
          exact ⟨G', E', L', h1, h2, h3, h4, h5, h6⟩
        · have hsw : swap ids (upper - 1) i = .ok (G ++ E ++ (y :: M') ++ (x :: L)) := by
            have := swap_append' (G ++ E) M' L x y
            subst hids hi
            simp at hu
            rw [show upper - 1 = (G ++ E).length + 1 + M'.length by simp; omega,
              show G.length + E.length = (G ++ E).length by simp]
            simpa using this
          simp only [hsw]
          simp at hu hM
          have hperm : (G ++ E ++ (y :: M') ++ (x :: L)).Perm ids := by
            subst hids
            rw [List.append_assoc, List.append_assoc, List.append_assoc, List.append_assoc]
            apply List.Perm.append_left
            apply List.Perm.append_left
            simp only [List.cons_append, List.append_assoc, List.concat_eq_append, List.nil_append]
            have p1 : (y :: (M' ++ x :: L)).Perm (y :: x :: (M' ++ L)) := List.Perm.cons _ List.perm_middle
            have p2 : (x :: (M' ++ y :: L)).Perm (x :: y :: (M' ++ L)) := List.Perm.cons _ List.perm_middle
            exact p1.trans ((List.Perm.swap x y _).trans p2.symm)
          obtain ⟨G', E', L', h1, h2, h3, h4, h5, h6⟩ := ih G E (y :: M') (x :: L)
            (G ++ E ++ (y :: M') ++ (x :: L)) lower (upper - 1) i
            (by simp; omega) hE rfl hl hi (by simp; omega)
            (fun z hz => hlt z (hperm.mem_iff.1 hz)) hG hE'
            (by intro y hy; simp at hy; rcases hy with rfl | hy; exact hltp; exact hL y hy)
          exact ⟨G', E', L', h1, h2, h3.trans hperm, h4, h5, h6⟩
      · rw [if_neg hltp]
        have hxe : bv strings pos x = pivot := by
          rw [UInt8.lt_iff_toNat_lt] at hgt hltp
          apply UInt8.toNat_inj.1; omega
        obtain ⟨G', E', L', h1, h2, h3, h4, h5, h6⟩ := ih G (E ++ [x]) M L ids lower upper (i + 1)
          (by omega) (by simp) (by subst hids; simp) hl (by simp; omega) (by omega) hlt hG
          (by intro y hy; simp at hy; rcases hy with hy | rfl; exact hE' y hy; exact hxe) hL
        exact ⟨G', E', L', h1, h2, h3, h4, h5, h6⟩

theorem sum_map_le {α : Type} (f g : α → Nat) : ∀ (l : List α), (∀ x ∈ l, f x ≤ g x) →
    (l.map f).sum ≤ (l.map g).sum
  | [], _ => by simp
  | x :: xs, h => by
    simp only [List.map_cons, List.sum_cons]
    have := h x (by simp)
    have := sum_map_le f g xs (fun y hy => h y (by simp [hy]))
    omega

theorem sum_map_add_length_le {α : Type} (f g : α → Nat) : ∀ (l : List α), (∀ x ∈ l, f x + 1 ≤ g x) →
    (l.map f).sum + l.length ≤ (l.map g).sum
  | [], _ => by simp
  | x :: xs, h => by
    simp only [List.map_cons, List.sum_cons, List.length_cons]
    have := h x (by simp)
    have := sum_map_add_length_le f g xs (fun y hy => h y (by simp [hy]))
    omega

theorem sort_spec (strings : List (List UInt8)) (hnul : ∀ s ∈ strings, (0 : UInt8) ∉ s) :
    ∀ (fuel : Nat) (ids : List Nat) (pos : Nat), 1 ≤ pos → (∀ id ∈ ids, id < strings.length) →
      (∀ a ∈ ids, ∀ b ∈ ids, (rev strings a).take (pos - 1) = (rev strings b).take (pos - 1)) →
      (∀ a ∈ ids, pos - 1 ≤ (rev strings a).length) →
      ids.length + (ids.map fun id => (rev strings id).length + 1 - pos).sum < fuel →
      ∃ out, sort strings fuel ids pos = .ok out ∧ out.Perm ids ∧
        out.Pairwise (fun a b => lexGe (rev strings a) (rev strings b)) := by
  intro fuel
  induction fuel with
  | zero => intro ids pos _ _ _ _ h; omega
  | succ fuel ih =>
    intro ids pos hp hlt htake hlen hfuel
    rw [sort]
    by_cases h1 : ids.length ≤ 1
    · rw [if_pos h1]
      refine ⟨ids, rfl, List.Perm.refl _, ?_⟩
      match ids, h1 with
      | [], _ => simp
      | [x], _ => simp
    · rw [if_neg h1]
      match ids, h1, hlt, htake, hlen, hfuel with
      | [], h1, _, _, _, _ => simp at h1
      | id0 :: rest, h1, hlt, htake, hlen, hfuel =>
      simp only [List.getElem?_cons_zero, byte_eq (hlt id0 (by simp)) hp, Res.ok_bind]
      obtain ⟨G, E, L, hpl, hEne, hperm, hG, hE, hL⟩ := partLoop_spec strings pos hp
        (bv strings pos id0) rest.length [] [id0] rest [] (id0 :: rest) 0 (id0 :: rest).length 1 rfl
        (by simp) (by simp) (by simp) (by simp) (by simp; omega) hlt (by simp) (by simp) (by simp)
      simp only [hpl, Res.ok_bind]
      have hmem : ∀ {x}, x ∈ G ++ E ++ L ↔ x ∈ id0 :: rest := fun {x} => hperm.mem_iff
      have memG : ∀ x ∈ G, x ∈ id0 :: rest := fun x hx => hmem.1 (by simp [hx])
      have memE : ∀ x ∈ E, x ∈ id0 :: rest := fun x hx => hmem.1 (by simp [hx])
      have memL : ∀ x ∈ L, x ∈ id0 :: rest := fun x hx => hmem.1 (by simp [hx])
      have hlenp := hperm.length_eq
      have hsump := (hperm.map (fun id => (rev strings id).length + 1 - pos)).sum_nat
      simp only [List.length_append, List.map_append, List.sum_append] at hlenp hsump
      have hEl : 0 < E.length := List.length_pos_iff.2 hEne
      have htG : (G ++ E ++ L).take G.length = G := by rw [List.append_assoc, List.take_left]
      have htL : (G ++ E ++ L).drop (G.length + E.length) = L := by
        rw [show G.length + E.length = (G ++ E).length by simp, List.drop_left]
      have htE : ((G ++ E ++ L).take (G.length + E.length)).drop G.length = E := by
        rw [show G.length + E.length = (G ++ E).length by simp, List.take_left, List.drop_left]
      simp only [htG, htL, htE]
      obtain ⟨a, ha, pa, wa⟩ := ih G pos hp (fun x hx => hlt x (memG x hx))
        (fun x hx y hy => htake x (memG x hx) y (memG y hy)) (fun x hx => hlen x (memG x hx)) (by omega)
      obtain ⟨c, hc, pc, wc⟩ := ih L pos hp (fun x hx => hlt x (memL x hx))
        (fun x hx y hy => htake x (memL x hx) y (memL y hy)) (fun x hx => hlen x (memL x hx)) (by omega)
      simp only [ha, hc, Res.ok_bind]
      have hb : ∃ b, (if bv strings pos id0 = 0 then Res.ok E else sort strings fuel E (pos + 1)) = .ok b ∧
          b.Perm E ∧ b.Pairwise (fun a b => lexGe (rev strings a) (rev strings b)) := by
        by_cases h0 : bv strings pos id0 = 0
        · rw [if_pos h0]
          refine ⟨E, rfl, List.Perm.refl _, ?_⟩
          -- all strings in `E` end here, so they are equal to their common prefix
          have hfull : ∀ x ∈ E, rev strings x = (rev strings id0).take (pos - 1) := by
            intro x hx
            have hxp := hE x hx
            rw [h0] at hxp
            have hxl := hlt x (memE x hx)
            have : (rev strings x).length ≤ pos - 1 := by
              apply Nat.le_of_not_lt
              intro hlt'
              simp only [bv, List.getElem?_eq_getElem hlt', Option.getD_some] at hxp
              have hm : (0 : UInt8) ∈ rev strings x := by
                have := List.getElem_mem hlt'
                rwa [hxp] at this
              simp only [rev, List.mem_reverse, List.getElem?_eq_getElem hxl, Option.getD_some] at hm
              exact hnul _ (List.getElem_mem hxl) hm
            rw [← htake x (memE x hx) id0 (by simp), List.take_of_length_le this]
          apply List.Pairwise.imp_of_mem (R := fun _ _ => True)
          · intro x y hx hy _
            rw [hfull x hx, hfull y hy]; exact lexGe_refl _
          · clear hfull htE htL htG pa pc hL hE hG hmem memG memE memL hlenp hsump hEl hpl hperm hEne
            induction E with
            | nil => simp
            | cons _ _ ihE => simp [ihE]
        · rw [if_neg h0]
          have hlong : ∀ x ∈ E, pos ≤ (rev strings x).length := by
            intro x hx
            apply Nat.le_of_not_lt
            intro hlt'
            have := hE x hx
            rw [bv, List.getElem?_eq_none (by omega)] at this
            exact h0 this.symm
          have hget : ∀ x ∈ E, (rev strings x)[pos - 1]? = some (bv strings pos id0) := by
            intro x hx
            have := hE x hx
            have hl := hlong x hx
            rw [bv, List.getElem?_eq_getElem (show pos - 1 < (rev strings x).length by omega)] at this
            rw [List.getElem?_eq_getElem (show pos - 1 < (rev strings x).length by omega)]
            simpa using this
          apply ih E (pos + 1) (by omega) (fun x hx => hlt x (memE x hx))
          · intro x hx y hy
            rw [show pos + 1 - 1 = (pos - 1) + 1 by omega, List.take_add_one, List.take_add_one,
              htake x (memE x hx) y (memE y hy), hget x hx, hget y hy]
          · intro x hx; have := hlong x hx; omega
          · have := sum_map_add_length_le (fun id => (rev strings id).length + 1 - (pos + 1))
              (fun id => (rev strings id).length + 1 - pos) E
              (by intro x hx; have := hlong x hx; omega)
            omega
      obtain ⟨b, hb, pb, wb⟩ := hb
      simp only [hb, Res.ok_bind]
      refine ⟨a ++ b ++ c, rfl, ((pa.append pb).append pc).trans hperm, ?_⟩
      have hcross : ∀ x y, x ∈ id0 :: rest → y ∈ id0 :: rest → bv strings pos y < bv strings pos x →
          lexGe (rev strings x) (rev strings y) := by
        intro x y hx hy hlt'
        exact lexGe_of_byte (pos - 1) _ _ (htake x hx y hy) (hlen x hx) (hlen y hy) hlt'
      rw [List.pairwise_append, List.pairwise_append]
      refine ⟨⟨wa, wb, ?_⟩, wc, ?_⟩
      · intro x hx y hy
        have hx' := pa.mem_iff.1 hx
        have hy' := pb.mem_iff.1 hy
        apply hcross x y (memG x hx') (memE y hy')
        rw [hE y hy']; exact hG x hx'
      · intro x hx y hy
        have hy' := pc.mem_iff.1 hy
        rcases List.mem_append.1 hx with hx | hx
        · have hx' := pa.mem_iff.1 hx
          apply hcross x y (memG x hx') (memL y hy')
          have h1 := hG x hx'
          have h2 := hL y hy'
          rw [UInt8.lt_iff_toNat_lt] at h1 h2 ⊢; omega
        · have hx' := pb.mem_iff.1 hx
          apply hcross x y (memE x hx') (memL y hy')
          rw [hE x hx']; exact hL y hy'

theorem sort_all (strings : List (List UInt8)) (hnul : ∀ s ∈ strings, (0 : UInt8) ∉ s) :
    ∃ out, sort strings (sortFuel strings) (List.range strings.length) 1 = .ok out ∧
      out.Perm (List.range strings.length) ∧
      out.Pairwise (fun a b => lexGe (rev strings a) (rev strings b)) := by
  apply sort_spec strings hnul _ _ 1 (by omega)
  · intro id h; simpa using h
  · intros; simp
  · intros; simp
  · have h : (List.range strings.length).map (fun id => (rev strings id).length + 1 - 1)
        = strings.map List.length := by
      apply List.ext_getElem
      · simp
      · intro i h1 h2
        simp at h1
        simp [rev, h1]
    rw [h, sortFuel]
    have := sum_map_le List.length (fun s : List UInt8 => s.length + 1) strings (by intros; omega)
    simp
    omega

end StrTab
end Obj

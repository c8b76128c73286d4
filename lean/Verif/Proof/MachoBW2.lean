import Verif.Proof.MachoBW1

/-! Writing with the Mach-O builder: the layout. -/

namespace Obj.MachoB
open Obj Obj.MachoR
open Obj.Reserve (addU64)
open Obj.BuildW (foldR mapR put foldR_cons mapR_each align64_ge)
open Obj.Spec.MachoF (Each num)

theorem addU64_ok {a b r : Nat} (h : addU64 a b = .ok r) : r = a + b := by
  unfold addU64 at h
  split at h
  · cases h; rfl
  · cases h

theorem reserve_ok {off size a : Nat} {p : Nat × Nat} (h : reserve off size a = .ok p) : off ≤ p.1 ∧ p.2 = p.1 + size := by
  unfold reserve MachoW.reserve at h
  have h : (align64 off a).bind (fun o => (addU64 o size).bind fun n => Res.ok (o, n)) = .ok p := h
  rw [Res.bind_eq_ok] at h
  obtain ⟨o, h1, h⟩ := h
  rw [Res.bind_eq_ok] at h
  obtain ⟨n, h2, h3⟩ := h
  cases h3
  exact ⟨align64_ge h1, addU64_ok h2⟩

theorem fold_addU64 {xs : List Nat} {a r : Nat} (h : foldR addU64 a xs = .ok r) : r = a + xs.sum := by
  induction xs generalizing a with
  | nil => cases h; simp
  | cons x xs ih =>
    obtain ⟨u, h1, h2⟩ := foldR_cons.1 h
    rw [ih h2, addU64_ok h1, List.sum_cons, Nat.add_assoc]

theorem placeData_len {base a : Nat} {ss : List Sec} {r : List Nat × Nat} (h : placeData base a ss = .ok r) : r.1.length = ss.length := by
  induction ss generalizing a r with
  | nil => cases h; rfl
  | cons s ss ih =>
    unfold placeData at h
    split at h
    · simp only [Res.bind_eq_ok] at h
      obtain ⟨_, _, _, _, _, _, _, _, q, h1, h2⟩ := h
      cases h2; simp [ih h1]
    · simp only [Res.bind_eq_ok] at h
      obtain ⟨q, h1, h2⟩ := h
      cases h2; simp [ih h1]

theorem placeRelocs_ok {c : Cfg} {off : Nat} {ss : List Sec} {r : List Nat × Nat} (h : placeRelocs c off ss = .ok r) :
    r.1.length = ss.length ∧ off ≤ r.2 := by
  induction ss generalizing off r with
  | nil => cases h; exact ⟨rfl, Nat.le_refl _⟩
  | cons s ss ih =>
    unfold placeRelocs at h
    split at h
    · simp only [Res.bind_eq_ok] at h
      obtain ⟨q, h1, h2⟩ := h
      cases h2
      have := ih h1
      exact ⟨by simp [this.1], this.2⟩
    · simp only [Res.bind_eq_ok] at h
      obtain ⟨p, h0, q, h1, h2⟩ := h
      cases h2
      have := ih h1
      have := reserve_ok h0
      exact ⟨by simp [*], by simp only; omega⟩

theorem placeSecs_len {g : Segm} {so a size : Nat} {ss : List Sec} {r : List Nat × Nat × Nat} (h : placeSecs g so a size ss = .ok r) :
    r.1.length = ss.length := by
  induction ss generalizing a size r with
  | nil => cases h; rfl
  | cons s ss ih =>
    unfold placeSecs at h
    split at h
    · cases h
    · rw [Res.bind_eq_ok] at h
      obtain ⟨e, -, h⟩ := h
      split at h
      · simp only [Res.bind_eq_ok] at h
        obtain ⟨_, _, _, _, h⟩ := h
        split at h
        · cases h
        · rw [Res.bind_eq_ok] at h
          obtain ⟨q, h1, h2⟩ := h
          cases h2; simp [ih h1]
      · split at h
        · cases h
        · rw [Res.bind_eq_ok] at h
          obtain ⟨q, h1, h2⟩ := h
          cases h2; simp [ih h1]

/-- The ranges of segments. -/
def RangesOk (stop : Nat) (segs : List (Segm × List Sec)) (rs : List Range) : Prop :=
  Each (fun g (r : Range) => r.off + r.size ≤ stop ∧ r.vmsize = g.1.vmsize) segs rs

theorem each_imp {α β : Type} {P Q : α → β → Prop} {xs : List α} {ys : List β} (h : Each P xs ys) (hi : ∀ x y, P x y → Q x y) : Each Q xs ys := by
  induction h with
  | nil => exact .nil
  | cons h1 _ ih => exact .cons (hi _ _ h1) ih

theorem placeSegs_ok {page so a off : Nat} {gs : List (Segm × List Sec)} {r : List Range × List Nat × Nat} (hso : so ≤ off)
    (h : placeSegs page so a off gs = .ok r) :
    RangesOk r.2.2 gs r.1 ∧ r.2.1.length = (gs.flatMap (·.2)).length ∧ so ≤ r.2.2 := by
  induction gs generalizing so a off r with
  | nil => cases h; exact ⟨.nil, rfl, hso⟩
  | cons g gs ih =>
    obtain ⟨g, ss⟩ := g
    unfold placeSegs at h
    split at h
    · cases h
    · rw [Res.bind_eq_ok] at h
      obtain ⟨p, h0, h⟩ := h
      rw [Res.bind_eq_ok] at h
      obtain ⟨e, -, h⟩ := h
      have hl := placeSecs_len h0
      split at h
      · cases h
      · split at h
        · simp only [Res.bind_eq_ok] at h
          obtain ⟨size, h1, so', h2, q, h3, h4⟩ := h
          cases h4
          have h2 := addU64_ok h2
          obtain ⟨i1, i2, i3⟩ := ih (Nat.le_refl _) h3
          refine ⟨.cons ⟨by simp only; omega, rfl⟩ i1, by simp [hl, i2], by simp only; omega⟩
        · rw [Res.bind_eq_ok] at h
          obtain ⟨q, h3, h4⟩ := h
          cases h4
          obtain ⟨i1, i2, i3⟩ := ih hso h3
          exact ⟨.cons ⟨by simp, rfl⟩ i1, by simp [hl, i2], i3⟩

theorem placeBlobs_ok {c : Cfg} {off : Nat} {xs : List (List UInt8)} {r : List Nat × Nat} (h : placeBlobs c off xs = .ok r) : off ≤ r.2 := by
  induction xs generalizing off r with
  | nil => cases h; exact Nat.le_refl _
  | cons x xs ih =>
    unfold placeBlobs at h
    simp only [Res.bind_eq_ok] at h
    obtain ⟨p, h0, q, h1, h2⟩ := h
    cases h2
    have := ih h1
    have := reserve_ok h0
    simp only; omega

theorem placeLinkedit_ok {c : Cfg} {off : Nat} {ks : List Cmd} {r : List (List Nat) × Nat} (h : placeLinkedit c off ks = .ok r) :
    r.1.length = ks.length ∧ off ≤ r.2 := by
  induction ks generalizing off r with
  | nil => cases h; exact ⟨rfl, Nat.le_refl _⟩
  | cons x xs ih =>
    unfold placeLinkedit at h
    simp only [Res.bind_eq_ok] at h
    obtain ⟨p, h0, q, h1, h2⟩ := h
    cases h2
    have := ih h1
    have := placeBlobs_ok h0
    exact ⟨by simp [*], by simp only; omega⟩

theorem placeSig_ok {sig off : Nat} {xs : List (List UInt8)} {r : Nat × Nat} (h : placeSig sig off xs = .ok r) : off ≤ r.2 := by
  induction xs generalizing sig off r with
  | nil => cases h; exact Nat.le_refl _
  | cons x xs ih =>
    unfold placeSig at h
    rw [Res.bind_eq_ok] at h
    obtain ⟨p, h0, h⟩ := h
    have := ih h
    have := reserve_ok h0
    omega

/-- The ranges after `__LINKEDIT` is set. -/
theorem setLinkedit_ok {b : Builder} {r : Range} {is : List Nat} {rs rs' : List Range} (h : setLinkedit b r rs is = .ok rs') :
    rs'.length = rs.length ∧ ∀ (i : Nat) (x' : Range), rs'[i]? = some x' → ∃ x, rs[i]? = some x ∧
      (x' = x ∨ x' = r ∧ ∃ g, b.segments[i]? = some g ∧ isLinkeditSeg g = true) := by
  induction is generalizing rs with
  | nil => cases h; exact ⟨rfl, fun i x' hx => ⟨x', hx, .inl rfl⟩⟩
  | cons i is ih =>
    unfold setLinkedit at h
    rw [Res.bind_eq_ok] at h
    obtain ⟨g, hg, h⟩ := h
    have hg : b.segments[i]? = some g := by
      unfold fetch at hg
      split at hg
      · next e => cases hg; exact e
      · cases hg
    split at h
    · next hlk =>
      split at h
      · next hi =>
        obtain ⟨h1, h2⟩ := ih h
        refine ⟨by simpa using h1, fun j x' hx => ?_⟩
        obtain ⟨x, hx1, hx2⟩ := h2 j x' hx
        by_cases hij : i = j
        · subst hij
          rw [List.getElem?_set_self hi] at hx1
          cases hx1
          refine ⟨rs[i], List.getElem?_eq_getElem hi, .inr ?_⟩
          rcases hx2 with rfl | ⟨rfl, hx3⟩
          · exact ⟨rfl, g, hg, hlk⟩
          · exact ⟨rfl, hx3⟩
        · rw [List.getElem?_set_ne hij] at hx1
          exact ⟨x, hx1, hx2⟩
      · cases h
    · exact ih h

/-- The facts about the layout. -/
structure Laid (c : Cfg) (b : Builder) (o : Order) (l : Layout) : Prop where
  sizes : ∃ sizes, mapR (cmdSize c b o) b.commands = .ok sizes ∧ l.sizeofcmds = sizes.sum
  offs : l.offs.length = o.secs.length
  rels : l.rels.length = o.secs.length
  link : l.link.length = b.commands.length
  /-- Ranges are inside of the file. -/
  ranges : l.ranges.length = o.segs.length ∧ ∀ (i : Nat) (r : Range) (g : Segm × List Sec), l.ranges[i]? = some r → o.segs[i]? = some g →
    r.off + r.size ≤ l.len ∧ (b.filetype ≠ 1 → (∀ g, b.segments[i]? = some g → isLinkeditSeg g = false) → r.vmsize = g.1.vmsize)
  indoff : 0 < l.symoff → indCount o.secs ≠ 0 → l.indoff ≠ 0
  strtab : MachoW.encStrtab c o.tab = .ok (l.strsize, l.tab, l.strings)
  len : l.len < 2 ^ 32

theorem placeAll_ok {c : Cfg} {b : Builder} {o : Order} {off : Nat} {p : List Range × List Nat × List Nat × Nat} (ho : o.secs = o.segs.flatMap (·.2))
    (h : placeAll c b o off = .ok p) : p.2.1.length = o.secs.length ∧ p.2.2.1.length = o.secs.length ∧
      Each (fun g (r : Range) => r.off + r.size ≤ p.2.2.2 ∧ (b.filetype ≠ 1 → r.vmsize = g.1.vmsize)) o.segs p.1 := by
  unfold placeAll at h
  split at h
  · next hf =>
    split at h
    · next g hg =>
      split at h
      · cases h
      · simp only [Res.bind_eq_ok] at h
        obtain ⟨q, h1, q2, h2, vm, -, r, h4, h5⟩ := h
        cases h5
        have e1 := placeData_len h1
        have e2 := placeRelocs_ok h4
        have e3 := reserve_ok h2
        rw [hg]
        refine ⟨e1, e2.1, .cons ⟨?_, fun hn => absurd hf hn⟩ .nil⟩
        simp only; omega
    · cases h
  · rw [Res.bind_eq_ok] at h
    obtain ⟨r, h1, h2⟩ := h
    cases h2
    obtain ⟨e1, e2, -⟩ := placeSegs_ok (Nat.zero_le _) h1
    exact ⟨by rw [ho]; exact e2, by simp, each_imp e1 fun _ _ e => ⟨e.1, fun _ => e.2⟩⟩

theorem layout_ok {c : Cfg} {b : Builder} {o : Order} {l : Layout} (ho : o.secs = o.segs.flatMap (·.2)) (h : layout c b o = .ok l) : Laid c b o l := by
  unfold layout at h
  simp only [Res.bind_eq_ok] at h
  obtain ⟨sizes, h1, start, h2, p, h3, k, h4, y, h5, n, h6, t, h7, u, h8, s, h9, vm, h10, rs, h11, h⟩ := h
  split at h
  · cases h
  next hlen =>
  cases h
  have e2 := fold_addU64 h2
  obtain ⟨e3a, e3b, e3c⟩ := placeAll_ok ho h3
  have e4 := placeLinkedit_ok h4
  have e5 := reserve_ok h5
  have e6 : y.2 ≤ n.2 ∧ (indCount o.secs ≠ 0 → y.2 ≤ n.1) := by
    split at h6
    · next h0 => cases h6; exact ⟨Nat.le_refl _, fun e => absurd h0 e⟩
    · have := reserve_ok h6; exact ⟨by omega, fun _ => this.1⟩
  have e8 := reserve_ok h8
  have e9 := placeSig_ok h9
  obtain ⟨e11, e12⟩ := setLinkedit_ok h11
  refine ⟨⟨sizes, h1, by simp only; omega⟩, e3a, e3b, e4.1, ⟨by simp only; rw [e11]; exact BuildR.each_length e3c, ?_⟩, ?_, h7, by simpa using hlen⟩
  · intro i r g hr hg
    obtain ⟨x, hx1, hx2⟩ := e12 i r hr
    obtain ⟨x', hx', hx3, hx4⟩ := BuildW.each_get_left e3c hg
    rw [hx1] at hx'
    cases hx'
    rcases hx2 with rfl | ⟨rfl, g', hg', hlk⟩
    · exact ⟨by simp only; omega, fun hf _ => hx4 hf⟩
    · refine ⟨by simp only; omega, fun _ hn => ?_⟩
      rw [hn g' hg'] at hlk; cases hlk
  · intro hp hn
    have := e6.2 hn
    simp only at hp ⊢
    omega

end Obj.MachoB

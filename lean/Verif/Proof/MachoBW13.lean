import Verif.Proof.MachoBW12

/-! The layout of files that the Mach-O builder writes: where things are placed. -/

namespace Obj.MachoB
open Obj Obj.MachoR
open Obj.Reserve (addU64)
open Obj.BuildW (foldR mapR foldR_cons mapR_each align64_ge)
open Obj.Spec (roundUp)
open Obj.Spec.MachoF (Each num headerSize)
open Obj.Spec.MachoB

theorem roundUp_mod (n p : Nat) : roundUp n p % p = 0 := Nat.mul_mod_left _ _

theorem roundUp_lt (n p : Nat) (hp : 0 < p) : roundUp n p < n + p := by
  unfold roundUp
  have := Nat.div_mul_le_self (n + (p - 1)) p
  omega

theorem reserve_align {off size a : Nat} (ha : ∃ k < 64, a = 2 ^ k) {p : Nat × Nat} (h : reserve off size a = .ok p) : p.1 % a = 0 := by
  unfold reserve MachoW.reserve at h
  have h : (align64 off a).bind (fun o => (addU64 o size).bind fun n => Res.ok (o, n)) = .ok p := h
  simp only [Res.bind_eq_ok] at h
  obtain ⟨o, h1, n, h2, h3⟩ := h
  cases h3
  obtain ⟨k, hk, ha⟩ := ha
  rw [(Build.align64_ok hk ha h1).1]
  exact roundUp_mod _ _

theorem w_pow (c : Cfg) : ∃ k < 64, c.w = 2 ^ k := by
  unfold Elf.Cfg.w
  split
  · exact ⟨3, by decide, rfl⟩
  · exact ⟨2, by decide, rfl⟩

theorem placeRelocs_at {c : Cfg} {off : Nat} {ss : List Sec} {r : List Nat × Nat} (h : placeRelocs c off ss = .ok r) :
    ∀ x ∈ ss.zip r.1, x.1.relocs ≠ [] → off ≤ x.2 ∧ x.2 % c.w = 0 := by
  induction ss generalizing off r with
  | nil => intro x hx; simp at hx
  | cons s ss ih =>
    unfold placeRelocs at h
    split at h
    · next h0 =>
      simp only [Res.bind_eq_ok] at h
      obtain ⟨q, h1, h2⟩ := h
      cases h2
      intro x hx hn
      rcases List.mem_cons.1 hx with rfl | hx
      · exact absurd h0 hn
      · exact ih h1 x hx hn
    · simp only [Res.bind_eq_ok] at h
      obtain ⟨p, h0, q, h1, h2⟩ := h
      cases h2
      have hr := reserve_ok h0
      intro x hx hn
      rcases List.mem_cons.1 hx with rfl | hx
      · exact ⟨hr.1, reserve_align (w_pow c) h0⟩
      · have := ih h1 x hx hn
        exact ⟨by omega, this.2⟩

theorem placeBlobs_at {c : Cfg} {off : Nat} {xs : List (List UInt8)} {r : List Nat × Nat} (h : placeBlobs c off xs = .ok r) :
    ∀ o ∈ r.1, off ≤ o ∧ o % c.w = 0 := by
  induction xs generalizing off r with
  | nil => cases h; intro o ho; cases ho
  | cons x xs ih =>
    unfold placeBlobs at h
    simp only [Res.bind_eq_ok] at h
    obtain ⟨p, h0, q, h1, h2⟩ := h
    cases h2
    have hr := reserve_ok h0
    intro o ho
    rcases List.mem_cons.1 ho with rfl | ho
    · exact ⟨hr.1, reserve_align (w_pow c) h0⟩
    · have := ih h1 o ho
      exact ⟨by omega, this.2⟩

theorem placeLinkedit_at {c : Cfg} {off : Nat} {ks : List Cmd} {r : List (List Nat) × Nat} (h : placeLinkedit c off ks = .ok r) :
    ∀ os ∈ r.1, ∀ o ∈ os, off ≤ o ∧ o % c.w = 0 := by
  induction ks generalizing off r with
  | nil => cases h; intro o ho; cases ho
  | cons x xs ih =>
    unfold placeLinkedit at h
    simp only [Res.bind_eq_ok] at h
    obtain ⟨p, h0, q, h1, h2⟩ := h
    cases h2
    have h3 := placeBlobs_at h0
    have h4 := placeBlobs_ok h0
    intro os hos
    rcases List.mem_cons.1 hos with rfl | hos
    · exact h3
    · intro o ho
      have := ih h1 os hos o ho
      exact ⟨by omega, this.2⟩

theorem placeSig_at {sig off : Nat} {xs : List (List UInt8)} {r : Nat × Nat} (h : placeSig sig off xs = .ok r) :
    (xs ≠ [] ∨ off ≤ sig ∧ sig % 16 = 0) → off ≤ r.1 ∧ r.1 % 16 = 0 := by
  induction xs generalizing sig off r with
  | nil => cases h; intro h; rcases h with h | h; exacts [absurd rfl h, h]
  | cons x xs ih =>
    unfold placeSig at h
    rw [Res.bind_eq_ok] at h
    obtain ⟨p, h0, h⟩ := h
    intro _
    cases xs with
    | nil => cases h; exact ⟨(reserve_ok h0).1, reserve_align ⟨4, by decide, rfl⟩ h0⟩
    | cons y ys =>
      have := ih h (.inl (by simp))
      have := reserve_ok h0
      exact ⟨by omega, by omega⟩

/-! ## Sections of a linked file -/

/-- A section with its offset: `size` bytes of the segment at `so` are in the file. -/
structure SecAt (vm so size : Nat) (x : Sec × Nat) : Prop where
  relocs : x.1.relocs = []
  data : ∀ d, x.1.data = .data d → x.2 = so + (x.1.addr - vm) ∧ x.1.addr - vm + d.length ≤ size
  uninit : ∀ n, x.1.data = .uninit n → x.2 = 0

theorem placeSecs_at {g : Segm} {so a size : Nat} {ss : List Sec} {r : List Nat × Nat × Nat} (ha : g.vmaddr + size ≤ a) (h : placeSecs g so a size ss = .ok r) :
    size ≤ r.2.2 ∧ InOrder a (ss.map fun s => (s.addr, s.data.size)) r.2.1 ∧ (∀ x ∈ ss.zip r.1, SecAt g.vmaddr so r.2.2 x) ∧
      (r.2.2 = size ∨ ∃ s ∈ ss, ∃ d, s.data = .data d ∧ r.2.2 = s.addr - g.vmaddr + d.length) := by
  induction ss generalizing a size r with
  | nil => cases h; exact ⟨Nat.le_refl _, Nat.le_refl _, by simp, .inl rfl⟩
  | cons s ss ih =>
    unfold placeSecs at h
    split at h
    · cases h
    next hlt =>
    rw [Res.bind_eq_ok] at h
    obtain ⟨e, he, h⟩ := h
    have he := addU64_ok he
    split at h
    · next d hd =>
      rw [hd] at he
      simp only [Res.bind_eq_ok] at h
      obtain ⟨off, h1, size', h2, h⟩ := h
      have h1 := addU64_ok h1
      have h2 := addU64_ok h2
      split at h
      · cases h
      next hrel =>
      rw [Res.bind_eq_ok] at h
      obtain ⟨q, h3, h4⟩ := h
      cases h4
      simp only [Data.size] at he
      obtain ⟨i1, i2, i3, i4⟩ := ih (by omega) h3
      refine ⟨by simp only; omega, ⟨by simp only; omega, by simp only [hd, Data.size]; rw [← he]; exact i2⟩, ?_, ?_⟩
      · intro x hx
        rcases List.mem_cons.1 hx with rfl | hx
        · refine ⟨by simpa using hrel, fun d' e => ?_, fun n e => ?_⟩
          · simp only at e ⊢
            rw [hd] at e
            cases e
            exact ⟨by omega, by omega⟩
          · simp only at e; rw [hd] at e; cases e
        · exact i3 x hx
      · rcases i4 with i4 | ⟨s', m, d', e1, e2⟩
        · exact .inr ⟨s, by simp, d, hd, by simp only; omega⟩
        · exact .inr ⟨s', by simp [m], d', e1, e2⟩
    · next n hd =>
      split at h
      · cases h
      next hrel =>
      rw [Res.bind_eq_ok] at h
      obtain ⟨q, h3, h4⟩ := h
      cases h4
      obtain ⟨i1, i2, i3, i4⟩ := ih (by omega) h3
      refine ⟨i1, ⟨by simp only; omega, by simp only; rw [← he]; exact i2⟩, ?_, ?_⟩
      · intro x hx
        rcases List.mem_cons.1 hx with rfl | hx
        · refine ⟨by simpa using hrel, fun d' e => ?_, fun n e => rfl⟩
          simp only at e; rw [hd] at e; cases e
        · exact i3 x hx
      · rcases i4 with i4 | ⟨s', m, d', e1, e2⟩
        · exact .inl i4
        · exact .inr ⟨s', by simp [m], d', e1, e2⟩

/-! ## Segments of a linked file -/

/-- A segment with its range and the offsets of its sections. -/
structure SegAt (page : Nat) (g : Segm × List Sec) (x : Range × List Nat) : Prop where
  len : x.2.length = g.2.length
  off : x.1.off % page = 0
  size : x.1.size % page = 0
  vmsize : x.1.vmsize = g.1.vmsize
  addrs : InOrder g.1.vmaddr (g.2.map fun s => (s.addr, s.data.size)) (g.1.vmaddr + g.1.vmsize)
  secs : ∃ so size, (∀ p ∈ g.2.zip x.2, SecAt g.1.vmaddr so size p) ∧ size ≤ x.1.size ∧ (0 < size → so = x.1.off)
  tight : 0 < x.1.size → ∃ s ∈ g.2, ∃ d, s.data = .data d ∧ x.1.size < s.addr - g.1.vmaddr + d.length + page

theorem placeSegs_at {page so a off : Nat} (hp : ∃ k < 64, page = 2 ^ k) {gs : List (Segm × List Sec)} {r : List Range × List Nat × Nat} (hso : so % page = 0)
    (h : placeSegs page so a off gs = .ok r) :
    (∃ xs : List (Range × List Nat), r.1 = xs.map (·.1) ∧ r.2.1 = xs.flatMap (·.2) ∧ Each (SegAt page) gs xs) ∧
      (∀ g ∈ gs, a ≤ g.1.vmaddr) ∧ gs.Pairwise (fun g g' => g.1.vmaddr + g.1.vmsize ≤ g'.1.vmaddr) ∧
      (∀ x ∈ r.1, 0 < x.size → so ≤ x.off) ∧ r.1.Pairwise (fun x y => 0 < x.size → 0 < y.size → x.off + x.size ≤ y.off) := by
  induction gs generalizing so a off r with
  | nil => cases h; exact ⟨⟨[], rfl, rfl, .nil⟩, by simp, .nil, by simp, .nil⟩
  | cons g gs ih =>
    obtain ⟨g, ss⟩ := g
    unfold placeSegs at h
    split at h
    · cases h
    next hlt =>
    rw [Res.bind_eq_ok] at h
    obtain ⟨p, h0, h⟩ := h
    rw [Res.bind_eq_ok] at h
    obtain ⟨e, he, h⟩ := h
    have he := addU64_ok he
    have hl := placeSecs_len h0
    obtain ⟨-, s2, s3, s4⟩ := placeSecs_at (by omega) h0
    split at h
    · cases h
    next hlt2 =>
    have hpos : 0 < page := by obtain ⟨k, -, rfl⟩ := hp; exact Nat.two_pow_pos k
    split at h
    · next hsize =>
      simp only [Res.bind_eq_ok] at h
      obtain ⟨size, h1, so', h2, q, h3, h4⟩ := h
      cases h4
      have h2 := addU64_ok h2
      have hge := align64_ge h1
      obtain ⟨k, hk, hpk⟩ := hp
      have hru := (Build.align64_ok hk hpk h1).1
      have hlt' := roundUp_lt p.2.2 page hpos
      have hmod : size % page = 0 := by rw [hru]; exact roundUp_mod _ _
      obtain ⟨⟨xs, i1, i2, i3⟩, i4, i5, i6, i7⟩ := ih (by rw [h2, Nat.add_mod, hso, hmod]; simp) h3
      refine ⟨⟨(⟨so, size, g.vmsize⟩, p.1) :: xs, by simp [i1], by simp [i2], .cons ⟨hl, hso, hmod, rfl, s2.raise (by simp only; omega),
        ⟨so, p.2.2, s3, hge, fun _ => rfl⟩, fun _ => ?_⟩ i3⟩, ?_, .cons (fun x hx => ?_) i5, ?_, .cons (fun x hx => ?_) i7⟩
      · rcases s4 with s4 | ⟨s, m, d, e1, e2⟩
        · omega
        · exact ⟨s, m, d, e1, by simp only; omega⟩
      · intro x hx
        rcases List.mem_cons.1 hx with rfl | hx
        · simp only; omega
        · have := i4 x hx; omega
      · have := i4 x hx; simp only; omega
      · intro x hx hs
        rcases List.mem_cons.1 hx with rfl | hx
        · exact Nat.le_refl _
        · have := i6 x hx hs; omega
      · intro h1 h2; have := i6 x hx h2; simp only; omega
    · next hsize =>
      rw [Res.bind_eq_ok] at h
      obtain ⟨q, h3, h4⟩ := h
      cases h4
      obtain ⟨⟨xs, i1, i2, i3⟩, i4, i5, i6, i7⟩ := ih hso h3
      refine ⟨⟨(⟨0, 0, g.vmsize⟩, p.1) :: xs, by simp [i1], by simp [i2], .cons ⟨hl, Nat.zero_mod _, Nat.zero_mod _, rfl, s2.raise (by simp only; omega),
        ⟨so, p.2.2, s3, by simp only; omega, fun h => absurd h hsize⟩, fun h => absurd h (by simp)⟩ i3⟩, ?_, .cons (fun x hx => ?_) i5, ?_,
        .cons (fun x hx h => absurd h (by simp)) i7⟩
      · intro x hx
        rcases List.mem_cons.1 hx with rfl | hx
        · simp only; omega
        · have := i4 x hx; omega
      · have := i4 x hx; simp only; omega
      · intro x hx hs
        rcases List.mem_cons.1 hx with rfl | hx
        · exact absurd hs (by simp)
        · exact i6 x hx hs

/-! ## Sections of an object file -/

theorem placeData_at {base a : Nat} {ss : List Sec} {r : List Nat × Nat} (h : placeData base a ss = .ok r) :
    InOrder (base + a) ((ss.zip r.1).flatMap dataPart) (base + r.2) ∧ (∀ x ∈ ss.zip r.1, ∀ n, x.1.data = .uninit n → x.2 = 0) ∧
      ∀ x ∈ ss.zip r.1, ∀ d, x.1.data = .data d → x.1.align < 64 ∧ (x.2 - base) % 2 ^ x.1.align = 0 := by
  induction ss generalizing a r with
  | nil => cases h; exact ⟨Nat.le_refl _, by simp, by simp⟩
  | cons s ss ih =>
    unfold placeData at h
    split at h
    · next d hd =>
      simp only [Res.bind_eq_ok] at h
      obtain ⟨al, h1, a', h2, off, h3, e, h4, q, h5, h6⟩ := h
      cases h6
      have h3 := addU64_ok h3
      have h4 := addU64_ok h4
      have hge := align64_ge h2
      have hal : s.align < 64 ∧ al = 2 ^ s.align := by
        unfold shl1 at h1
        split at h1
        · next hk => cases h1; exact ⟨hk, rfl⟩
        · cases h1
      have hru := (Build.align64_ok hal.1 hal.2 h2).1
      obtain ⟨i1, i2, i3⟩ := ih h5
      refine ⟨?_, ?_, ?_⟩
      · rw [List.zip_cons_cons, List.flatMap_cons]
        unfold dataPart
        rw [hd]
        refine ⟨by simp only; omega, ?_⟩
        simp only
        rw [h3, Nat.add_assoc, ← h4]
        exact i1
      · intro x hx n e
        rcases List.mem_cons.1 hx with rfl | hx
        · simp only at e; rw [hd] at e; cases e
        · exact i2 x hx n e
      · intro x hx d' e
        rcases List.mem_cons.1 hx with rfl | hx
        · refine ⟨hal.1, ?_⟩
          simp only
          rw [h3, Nat.add_sub_cancel_left, hru, hal.2]
          exact roundUp_mod _ _
        · exact i3 x hx d' e
    · next n hd =>
      simp only [Res.bind_eq_ok] at h
      obtain ⟨q, h5, h6⟩ := h
      cases h6
      obtain ⟨i1, i2, i3⟩ := ih h5
      refine ⟨?_, ?_, ?_⟩
      · rw [List.zip_cons_cons, List.flatMap_cons]
        have : dataPart (s, 0) = [] := by unfold dataPart; rw [hd]
        rw [this]
        exact i1
      · intro x hx n e
        rcases List.mem_cons.1 hx with rfl | hx
        · rfl
        · exact i2 x hx n e
      · intro x hx d' e
        rcases List.mem_cons.1 hx with rfl | hx
        · simp only at e; rw [hd] at e; cases e
        · exact i3 x hx d' e

/-! ## `__LINKEDIT` -/

theorem setLinkedit_at {b : Builder} {r : Range} {is : List Nat} {rs rs' : List Range} (h : setLinkedit b r rs is = .ok rs') (i : Nat) :
    rs'[i]? = if i ∈ is ∧ (∃ g, b.segments[i]? = some g ∧ isLinkeditSeg g = true) then some r else rs[i]? := by
  induction is generalizing rs with
  | nil => cases h; simp
  | cons j is ih =>
    unfold setLinkedit at h
    rw [Res.bind_eq_ok] at h
    obtain ⟨g, hg, h⟩ := h
    have hg := fetch_ok hg
    split at h
    · next hlk =>
      split at h
      · next hj =>
        rw [ih h]
        by_cases hij : j = i
        · subst hij
          rw [if_pos (⟨List.mem_cons_self, g, hg, hlk⟩ : j ∈ j :: is ∧ _)]
          split
          · rfl
          · rw [List.getElem?_set_self hj]
        · rw [List.getElem?_set_ne hij]
          have : (i ∈ j :: is) ↔ i ∈ is := by
            rw [List.mem_cons]
            exact ⟨fun h => h.elim (fun e => absurd e.symm hij) id, .inr⟩
          simp only [this]
      · cases h
    · next hlk =>
      rw [ih h]
      by_cases hij : j = i
      · subst hij
        have hn : ¬ ∃ g, b.segments[j]? = some g ∧ isLinkeditSeg g = true := by
          rintro ⟨g', e1, e2⟩
          rw [hg] at e1
          cases e1
          exact hlk e2
        rw [if_neg (fun e => hn e.2), if_neg (fun e => hn e.2)]
      · have : (i ∈ j :: is) ↔ i ∈ is := by
          rw [List.mem_cons]
          exact ⟨fun h => h.elim (fun e => absurd e.symm hij) id, .inr⟩
        simp only [this]

/-! ## The layout -/

/-- What is at and after `start`. -/
structure Tail (c : Cfg) (b : Builder) (l : Layout) (start : Nat) : Prop where
  link : ∀ os ∈ l.link, ∀ o ∈ os, start ≤ o ∧ o % c.w = 0
  sym : start ≤ l.symoff ∧ l.symoff % c.w = 0
  ind : l.indoff ≠ 0 → start ≤ l.indoff ∧ l.indoff % 4 = 0
  str : start ≤ l.stroff
  sig : b.commands.filterMap signature ≠ [] → start ≤ l.sig ∧ l.sig % 16 = 0
  len : start ≤ l.len

theorem layout_at {c : Cfg} {b : Builder} {o : Order} {l : Layout} (h : layout c b o = .ok l) :
    ∃ p vm, placeAll c b o (hdrSize c + l.sizeofcmds) = .ok p ∧ align64 (l.len - p.2.2.2) b.pageSize = .ok vm ∧ l.offs = p.2.1 ∧ l.rels = p.2.2.1 ∧
      setLinkedit b ⟨p.2.2.2, l.len - p.2.2.2, vm⟩ p.1 (segmentsOf b.commands) = .ok l.ranges ∧ Tail c b l p.2.2.2 := by
  unfold layout at h
  simp only [Res.bind_eq_ok] at h
  obtain ⟨sizes, h1, start, h2, p, h3, k, h4, y, h5, n, h6, t, h7, u, h8, s, h9, vm, h10, rs, h11, h⟩ := h
  split at h
  · cases h
  cases h
  have e2 := fold_addU64 h2
  have e4 := placeLinkedit_ok h4
  have e5 := reserve_ok h5
  have e6 : y.2 ≤ n.2 ∧ (n.1 ≠ 0 → y.2 ≤ n.1 ∧ n.1 % 4 = 0) := by
    split at h6
    · cases h6; exact ⟨Nat.le_refl _, fun e => absurd rfl e⟩
    · have := reserve_ok h6
      exact ⟨by omega, fun _ => ⟨this.1, reserve_align ⟨2, by decide, rfl⟩ h6⟩⟩
  have e8 := reserve_ok h8
  have e9 := placeSig_ok h9
  rw [segmentIds_eq] at h11
  refine ⟨p, vm, ?_, h10, rfl, rfl, h11, ⟨placeLinkedit_at h4, ⟨by simp only; omega, reserve_align (w_pow c) h5⟩, fun hn => ?_, by simp only; omega,
    fun hn => ?_, by simp only; omega⟩⟩
  · simp only
    rw [show hdrSize c + (start - hdrSize c) = start by omega]
    exact h3
  · have := e6.2 hn
    exact ⟨by simp only; omega, this.2⟩
  · have := placeSig_at h9 (.inl hn)
    exact ⟨by simp only; omega, this.2⟩

end Obj.MachoB

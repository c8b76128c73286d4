import Verif.Proof.Reserve

/-! # C37: the ranges reserved by the two-phase writers -/

namespace Obj.Props
open Obj Obj.Spec Obj.Reserve

/-- C37: one reservation of the ELF writer takes the first multiple of the alignment that is not below the length
reserved so far, and makes the length the end of the range. -/
theorem C37_elf_reserve (len size align offset len' : Nat) (ha : AlignOk align)
    (h : Reserve.elf len size align = .ok (offset, len')) :
    len ≤ offset ∧ (align ≠ 0 → offset % align = 0) ∧ len' = offset + size ∧ len' < 2 ^ 64 ∧
    ∀ o, len ≤ o → (align ≠ 0 → o % align = 0) → offset ≤ o := by
  obtain ⟨h1, h2, h3⟩ := elf_ok ha h
  refine ⟨by rw [h1]; exact le_up _ _, fun h0 => by rw [h1]; exact up_mod _ _ h0, h2, by omega, ?_⟩
  intro o ho hm
  rw [h1]
  by_cases h1 : 1 < align
  · have hm' := hm (by omega)
    have := up_lt len align h1
    have hmod := up_mod len align (by omega)
    apply Nat.le_of_not_lt
    intro hlt
    have e1 := Nat.div_add_mod o align
    have e2 := Nat.div_add_mod (up len align) align
    rw [hm'] at e1
    rw [hmod] at e2
    have hdiv : o / align < up len align / align := by
      apply Nat.lt_of_not_le; intro hle
      have := Nat.mul_le_mul_left align hle
      generalize align * (o / align) = A at *
      generalize align * (up len align / align) = B at *
      omega
    have := Nat.mul_le_mul_left align hdiv
    rw [Nat.mul_succ] at this
    generalize align * (o / align) = A at *
    generalize align * (up len align / align) = B at *
    omega
  · unfold up; rw [if_neg h1]; exact ho

/-- C37: any sequence of reservations with the ELF writer gives ranges that are aligned as asked, each after the end
of all earlier ones, and all below the final reserved length. -/
theorem C37_elf (ops : List ElfOp) (hops : ∀ size align, ElfOp.reserve size align ∈ ops → AlignOk align) :
    ∀ (len : Nat) (rs : List Range) (len' : Nat), runElf len ops = .ok (rs, len') →
      len ≤ len' ∧ LaidOut len len' rs ∧
      rs.map (fun r => ElfOp.reserve r.size r.align) = ops.filter (fun o => match o with | .reserve .. => true | .until_ _ => false) := by
  induction ops with
  | nil =>
    intro len rs len' h
    simp only [runElf, Res.ok.injEq, Prod.mk.injEq] at h
    obtain ⟨rfl, rfl⟩ := h
    exact ⟨Nat.le_refl _, laidOut_nil, rfl⟩
  | cons o ops ih =>
    intro len rs len' h
    have ih := ih (fun s a hm => hops s a (List.mem_cons_of_mem _ hm))
    cases o with
    | reserve size align =>
      simp only [runElf, Res.bind_eq, Res.bind_eq_ok] at h
      obtain ⟨⟨off, l1⟩, h1, ⟨rs1, l2⟩, h2, h3⟩ := h
      simp only [Res.ok.injEq, Prod.mk.injEq] at h3
      obtain ⟨rfl, rfl⟩ := h3
      have ha := hops size align (by simp)
      obtain ⟨e1, e2, e3⟩ := elf_ok ha h1
      obtain ⟨i1, i2, i3⟩ := ih _ _ _ h2
      have := le_up len align
      refine ⟨by omega, laidOut_cons i2 (by simp only; omega) (by simp only; omega) i1 (fun h0 => ?_), ?_⟩
      · simp only at h0 ⊢; rw [e1]; exact up_mod _ _ h0
      · simp [i3]
    | until_ o =>
      simp only [runElf, Res.bind_eq, Res.bind_eq_ok] at h
      obtain ⟨l1, h1, h2⟩ := h
      obtain ⟨rfl, hle⟩ := elfUntil_ok h1
      obtain ⟨i1, i2, i3⟩ := ih _ _ _ h2
      exact ⟨by omega, laidOut_mono i2 hle, by simpa using i3⟩

/-- C37: likewise for the COFF writer, as long as the reserved length stays within 4 GiB; reservations of nothing
(an empty section or no relocations) return offset 0 and are not counted. -/
theorem C37_coff (ops : List CoffOp) (hops : ∀ size align, CoffOp.reserve size align ∈ ops → AlignOk align) :
    ∀ (len : Nat) (rs : List Range) (len' : Nat), runCoff len ops = .ok (rs, len') → len' ≤ 2 ^ 32 →
      len ≤ len' ∧ LaidOut len len' (rs.filter fun r => r.size ≠ 0) := by
  induction ops with
  | nil =>
    intro len rs len' h _
    simp only [runCoff, Res.ok.injEq, Prod.mk.injEq] at h
    obtain ⟨rfl, rfl⟩ := h
    exact ⟨Nat.le_refl _, laidOut_nil⟩
  | cons o ops ih =>
    intro len rs len' h h32
    have ih := ih (fun s a hm => hops s a (List.mem_cons_of_mem _ hm))
    -- one reservation
    have key : ∀ size align off l1 rs1 l2, AlignOk align → Reserve.coff len size align = .ok (off, l1) →
        runCoff l1 ops = .ok (rs1, l2) → l2 ≤ 2 ^ 32 →
        len ≤ l2 ∧ LaidOut len l2 ((⟨off, size, align⟩ :: rs1).filter fun r => r.size ≠ 0) := by
      intro size align off l1 rs1 l2 ha h1 h2 hl
      obtain ⟨e1, e2, e3⟩ := coff_ok ha h1
      obtain ⟨i1, i2⟩ := ih _ _ _ h2 hl
      have hle := le_up len align
      refine ⟨by omega, ?_⟩
      by_cases h0 : size = 0
      · have hf : (List.filter (fun r : Range => decide (r.size ≠ 0)) (⟨off, size, align⟩ :: rs1)) =
            rs1.filter (fun r => decide (r.size ≠ 0)) := by simp [h0]
        rw [hf]; exact laidOut_mono i2 (by omega)
      · have hf : (List.filter (fun r : Range => decide (r.size ≠ 0)) (⟨off, size, align⟩ :: rs1)) =
            ⟨off, size, align⟩ :: rs1.filter (fun r => decide (r.size ≠ 0)) := by simp [h0]
        have e : off = up len align := by rw [e1]; apply Nat.mod_eq_of_lt; omega
        rw [hf]
        refine laidOut_cons i2 (by simp only; omega) (by simp only; omega) i1 (fun hz => ?_)
        simp only at hz ⊢; rw [e]; exact up_mod _ _ hz
    have skip : ∀ off align rs1 l2, runCoff len ops = .ok (rs1, l2) → l2 ≤ 2 ^ 32 →
        len ≤ l2 ∧ LaidOut len l2 ((⟨off, 0, align⟩ :: rs1).filter fun r => r.size ≠ 0) := by
      intro off align rs1 l2 h2 hl
      have hf : (List.filter (fun r : Range => decide (r.size ≠ 0)) (⟨off, 0, align⟩ :: rs1)) =
            rs1.filter (fun r => decide (r.size ≠ 0)) := by simp
      rw [hf]; exact ih _ _ _ h2 hl
    cases o with
    | reserve size align =>
      simp only [runCoff, Res.bind_eq, Res.bind_eq_ok] at h
      obtain ⟨⟨off, l1⟩, h1, ⟨rs1, l2⟩, h2, h3⟩ := h
      simp only [Res.ok.injEq, Prod.mk.injEq] at h3
      obtain ⟨rfl, rfl⟩ := h3
      exact key _ _ _ _ _ _ (hops size align (by simp)) h1 h2 h32
    | section_ size =>
      simp only [runCoff, Res.bind_eq, Res.bind_eq_ok] at h
      obtain ⟨⟨off, l1⟩, h1, ⟨rs1, l2⟩, h2, h3⟩ := h
      simp only [Res.ok.injEq, Prod.mk.injEq] at h3
      obtain ⟨rfl, rfl⟩ := h3
      unfold coffSection at h1
      split at h1
      · rename_i h0
        simp only [Res.ok.injEq, Prod.mk.injEq] at h1
        obtain ⟨rfl, rfl⟩ := h1
        subst h0; exact skip _ _ _ _ h2 h32
      · exact key _ _ _ _ _ _ (Or.inr ⟨2, by decide, rfl⟩) h1 h2 h32
    | relocations count =>
      simp only [runCoff, Res.bind_eq, Res.bind_eq_ok] at h
      obtain ⟨⟨off, l1⟩, h1, ⟨rs1, l2⟩, h2, h3⟩ := h
      simp only [Res.ok.injEq, Prod.mk.injEq] at h3
      obtain ⟨rfl, rfl⟩ := h3
      unfold coffRelocations at h1
      split at h1
      · rename_i h0
        simp only [Res.ok.injEq, Prod.mk.injEq] at h1
        obtain ⟨rfl, rfl⟩ := h1
        subst h0; exact skip _ _ _ _ h2 h32
      · simp only [Res.bind_eq, Res.bind_eq_ok] at h1
        obtain ⟨n, hn, sz, hs, h1⟩ := h1
        have hn' : n = if 0xffff < count then count + 1 else count := by
          unfold coffCount at hn
          by_cases hc : 0xffff < count
          · rw [if_pos hc] at hn ⊢; exact (addU64_ok hn).1
          · rw [if_neg hc] at hn ⊢; simp at hn; exact hn.symm
        have := (mulU64_ok hs).1
        rw [hn'] at this
        rw [this] at h1
        exact key _ _ _ _ _ _ (Or.inr ⟨0, by decide, rfl⟩) h1 h2 h32
    | until_ o =>
      simp only [runCoff, Res.bind_eq, Res.bind_eq_ok] at h
      obtain ⟨l1, h1, h2⟩ := h
      obtain ⟨rfl, hle⟩ := elfUntil_ok h1
      obtain ⟨i1, i2⟩ := ih _ _ _ h2 h32
      exact ⟨by omega, laidOut_mono i2 hle⟩

/-- C37: beyond 4 GiB the COFF writer keeps reserving, but the offset it returns is the true one modulo 2^32 (so
ranges it returns may overlap; see the example). -/
theorem C37_coff_beyond_4gib (len size align offset len' : Nat)
    (h : Reserve.coff len size align = .ok (offset, len')) :
    ∃ true_, Reserve.elf len size align = .ok (true_, len') ∧ offset = true_ % 2 ^ 32 := by
  unfold Reserve.coff at h
  simp only [Res.bind_eq, Res.bind_eq_ok] at h
  obtain ⟨o, h1, l, h2, h⟩ := h
  simp only [Res.ok.injEq, Prod.mk.injEq] at h
  obtain ⟨rfl, rfl⟩ := h
  exact ⟨o, by simp [Reserve.elf, h1, h2], rfl⟩

example : runElf 64 [.reserve 3 1, .reserve 10 16, .until_ 100, .reserve 0 8, .reserve 8 8] =
    .ok ([⟨64, 3, 1⟩, ⟨80, 10, 16⟩, ⟨104, 0, 8⟩, ⟨104, 8, 8⟩], 112) := by decide
example : runCoff 20 [.section_ 5, .section_ 0, .relocations 3, .reserve 8 8] =
    .ok ([⟨20, 5, 4⟩, ⟨0, 0, 4⟩, ⟨25, 30, 1⟩, ⟨56, 8, 8⟩], 64) := by decide
/-- A section of 4 GiB makes the following range wrap around onto the first. -/
example : runCoff 0 [.reserve 100 1, .reserve 4294967196 1, .reserve 50 1] =
    .ok ([⟨0, 100, 1⟩, ⟨100, 4294967196, 1⟩, ⟨0, 50, 1⟩], 4294967346) := by decide

/-! ## PE sections -/

private theorem align32_ok {n k al r : Nat} (hk : k < 32) (ha : al = 2 ^ k) (h : align32 n al = .ok r) :
    r = roundUp n al ∧ r < U32 := by
  subst ha
  have hp := Nat.two_pow_pos k
  by_cases hn : n + (2 ^ k - 1) < 2 ^ 32
  · rw [align32_eq hk hn] at h
    cases h
    refine ⟨rfl, ?_⟩
    have := (le_roundUp' n (2 ^ k) hp).2.2
    show roundUp n (2 ^ k) < U32
    omega
  · have hn' : U32 ≤ n + (2 ^ k - 1) := by simpa using hn
    unfold align32 at h
    rw [if_neg (by omega), if_pos hn'] at h
    cases h

/-- What a reserved PE section looks like: its virtual range starts at the section alignment, its file range has the
file alignment at both ends and holds the data, or is `(0, 0)` if there is no data. -/
structure PeRange (sa fa : Nat) (r : SectionRange) (v d : Nat) : Prop where
  vaddr : r.virtualAddress % sa = 0
  vsize : r.virtualSize = v
  foff : r.fileOffset % fa = 0
  fsize : r.fileSize = roundUp d fa
  empty : d = 0 → r.fileOffset = 0 ∧ r.fileSize = 0

private theorem pe_step {w w' : PeState} {c : Content} {v d : Nat} {r : SectionRange} {ks kf : Nat}
    (hks : ks < 32) (hkf : kf < 32) (hsa : w.sectionAlign = 2 ^ ks) (hfa : w.fileAlign = 2 ^ kf)
    (hv : w.vlen % w.sectionAlign = 0) (h : peSection w c v d = .ok (r, w')) (h32 : w'.len ≤ U32) :
    PeRange w.sectionAlign w.fileAlign r v d ∧ w'.sectionAlign = w.sectionAlign ∧ w'.fileAlign = w.fileAlign ∧
    r.virtualAddress = w.vlen ∧ w'.vlen = roundUp (w.vlen + v) w.sectionAlign ∧ w'.vlen < U32 ∧
    w.len ≤ w'.len ∧ (d ≠ 0 → r.fileOffset = roundUp w.len w.fileAlign ∧ w'.len = r.fileOffset + r.fileSize) ∧
    (d = 0 → w'.len = w.len) ∧ w'.sections = w.sections ++ [r] := by
  unfold peSection at h
  simp only [Res.bind_eq, Res.bind_eq_ok] at h
  obtain ⟨⟨va, vl⟩, h1, fs, h2, ⟨fo, l⟩, h3, av, h4, cl, h5, dl, h6, bl, h7, h8⟩ := h
  simp only [Res.ok.injEq, Prod.mk.injEq] at h8
  obtain ⟨rfl, rfl⟩ := h8
  unfold peVirtual at h1
  simp only [Res.bind_eq, Res.bind_eq_ok] at h1
  obtain ⟨x, hx, y, hy, h1⟩ := h1
  simp only [Res.ok.injEq, Prod.mk.injEq] at h1
  obtain ⟨rfl, rfl⟩ := h1
  obtain ⟨ex, -⟩ := addU32_ok hx
  obtain ⟨ey, hylt⟩ := align32_ok hks hsa hy
  obtain ⟨efs, -⟩ := align32_ok hkf hfa h2
  have hfp : 0 < w.fileAlign := by rw [hfa]; exact Nat.two_pow_pos _
  have hr := le_roundUp' d w.fileAlign hfp
  unfold peFileRange at h3
  simp only at h3 h32
  show PeRange _ _ _ _ _ ∧ _ = _ ∧ _ = _ ∧ _ = _ ∧ y = _ ∧ y < _ ∧ w.len ≤ l ∧ (_ → fo = _ ∧ l = fo + fs) ∧ (_ → l = w.len) ∧ _ = _
  by_cases hd : d = 0
  · have hfs : fs = 0 := by
      rw [efs, hd]; unfold roundUp; rw [Nat.zero_add, Nat.div_eq_of_lt (by omega), Nat.zero_mul]
    rw [if_neg (by simp [hfs])] at h3
    simp only [Res.ok.injEq, Prod.mk.injEq] at h3
    obtain ⟨rfl, rfl⟩ := h3
    refine ⟨⟨hv, rfl, by simp, efs, fun _ => ⟨rfl, hfs⟩⟩, rfl, rfl, rfl, by rw [ey, ex], hylt, Nat.le_refl _,
      fun h => absurd hd h, fun _ => rfl, rfl⟩
  · have hfs : fs ≠ 0 := by rw [efs]; omega
    rw [if_pos hfs] at h3
    unfold Reserve.pe at h3
    rw [if_neg hfs] at h3
    simp only [Res.bind_eq, Res.bind_eq_ok] at h3
    obtain ⟨o, ho, z, hz, h3⟩ := h3
    simp only [Res.ok.injEq, Prod.mk.injEq] at h3
    obtain ⟨rfl, rfl⟩ := h3
    obtain ⟨eo, -⟩ := Build.align64_ok (by omega) hfa ho
    obtain ⟨ez, -⟩ := addU64_ok hz
    have hlo := le_roundUp' w.len w.fileAlign hfp
    have hmod : o % U32 = o := by apply Nat.mod_eq_of_lt; omega
    rw [hmod]
    refine ⟨⟨hv, rfl, ?_, efs, fun h => absurd h hd⟩, rfl, rfl, rfl, by rw [ey, ex], hylt, by omega,
      fun _ => ⟨eo, ez⟩, fun h => absurd h hd, rfl⟩
    show o % w.fileAlign = 0
    rw [eo]; exact hlo.2.1

/-- C37: the sections reserved with the PE writer, for any alignments that are powers of two, any sizes and number, if
the file stays within 4 GiB: every section has aligned ranges of the right sizes; the virtual ranges are in order
and do not overlap, and so are the file ranges of the sections with data; the reserved lengths cover all of them. -/
theorem C37_pe (ops : List (Content × Nat × Nat)) : ∀ (w w' : PeState) (rs : List SectionRange) (ks kf : Nat),
    ks < 32 → kf < 32 → w.sectionAlign = 2 ^ ks → w.fileAlign = 2 ^ kf → w.vlen % w.sectionAlign = 0 →
    runPe w ops = .ok (rs, w') → w'.len ≤ 2 ^ 32 →
    rs.length = ops.length ∧
    (∀ (i : Nat) (r : SectionRange) (op : Content × Nat × Nat), rs[i]? = some r → ops[i]? = some op → PeRange w.sectionAlign w.fileAlign r op.2.1 op.2.2) ∧
    LaidOut w.vlen w'.vlen (rs.map fun r => ⟨r.virtualAddress, r.virtualSize, w.sectionAlign⟩) ∧
    LaidOut w.len w'.len ((rs.filter fun r => r.fileSize ≠ 0).map fun r => ⟨r.fileOffset, r.fileSize, w.fileAlign⟩) ∧
    w'.sections = w.sections ++ rs ∧ w.vlen ≤ w'.vlen ∧ w.len ≤ w'.len := by
  induction ops with
  | nil =>
    intro w w' rs ks kf _ _ _ _ _ h _
    simp only [runPe, Res.ok.injEq, Prod.mk.injEq] at h
    obtain ⟨rfl, rfl⟩ := h
    exact ⟨rfl, by simp, laidOut_nil, laidOut_nil, by simp, Nat.le_refl _, Nat.le_refl _⟩
  | cons op ops ih =>
    intro w w' rs ks kf hks hkf hsa hfa hv h h32
    obtain ⟨c, v, d⟩ := op
    simp only [runPe, Res.bind_eq, Res.bind_eq_ok] at h
    obtain ⟨⟨r, w1⟩, h1, ⟨rs1, w2⟩, h2, h3⟩ := h
    simp only [Res.ok.injEq, Prod.mk.injEq] at h3
    obtain ⟨rfl, rfl⟩ := h3
    simp only at h1 h2
    -- the file length never decreases
    have mono : ∀ (ops : List (Content × Nat × Nat)) (w w' : PeState) rs, w.fileAlign = 2 ^ kf → runPe w ops = .ok (rs, w') → w.len ≤ w'.len := by
      intro ops
      induction ops with
      | nil => intro w w' rs _ h; simp only [runPe, Res.ok.injEq, Prod.mk.injEq] at h; rw [h.2]; exact Nat.le_refl _
      | cons op ops ih =>
        intro w w' rs hfa h
        obtain ⟨c, v, d⟩ := op
        simp only [runPe, Res.bind_eq, Res.bind_eq_ok] at h
        obtain ⟨⟨r, w1⟩, h1, ⟨rs1, w2⟩, h2, h3⟩ := h
        simp only [Res.ok.injEq, Prod.mk.injEq] at h3
        obtain ⟨rfl, rfl⟩ := h3
        unfold peSection at h1
        simp only [Res.bind_eq, Res.bind_eq_ok] at h1
        obtain ⟨_, _, fs, _, ⟨fo, l⟩, h3, _, _, _, _, _, _, _, _, h8⟩ := h1
        simp only [Res.ok.injEq, Prod.mk.injEq] at h8
        obtain ⟨rfl, rfl⟩ := h8
        have hh := fun hf => ih _ _ _ hf h2
        refine Nat.le_trans ?_ (hh hfa)
        clear hh
        unfold peFileRange at h3
        split at h3
        · unfold Reserve.pe at h3
          split at h3
          · simp only [Res.ok.injEq, Prod.mk.injEq] at h3; omega
          · simp only [Res.bind_eq, Res.bind_eq_ok] at h3
            obtain ⟨o, ho, z, hz, h3⟩ := h3
            simp only [Res.ok.injEq, Prod.mk.injEq] at h3
            obtain ⟨rfl, rfl⟩ := h3
            obtain ⟨eo, -⟩ := Build.align64_ok (by omega) hfa ho
            obtain ⟨ez, -⟩ := addU64_ok hz
            have hlo := le_roundUp' w.len w.fileAlign (by rw [hfa]; exact Nat.two_pow_pos _)
            simp only; omega
        · simp only [Res.ok.injEq, Prod.mk.injEq] at h3; show w.len ≤ l; omega
    have hm12 : w1.len ≤ w2.len := by
      refine mono ops w1 w2 rs1 ?_ h2
      unfold peSection at h1
      simp only [Res.bind_eq, Res.bind_eq_ok] at h1
      obtain ⟨_, _, fs, _, ⟨fo, l⟩, h3, _, _, _, _, _, _, _, _, h8⟩ := h1
      simp only [Res.ok.injEq, Prod.mk.injEq] at h8
      obtain ⟨rfl, rfl⟩ := h8
      exact hfa
    obtain ⟨s1, s2, s3, s4, s5, s6, s7, s8, s9, s10⟩ := pe_step hks hkf hsa hfa hv h1 (by omega)
    have hsp : 0 < w.sectionAlign := by rw [hsa]; exact Nat.two_pow_pos _
    have hvr := le_roundUp' (w.vlen + v) w.sectionAlign hsp
    obtain ⟨i0, i1, i2, i3, i4, i5, i6⟩ := ih w1 w2 rs1 ks kf hks hkf (by rw [s2]; exact hsa) (by rw [s3]; exact hfa)
      (by rw [s2, s5]; exact hvr.2.1) h2 h32
    rw [s2, s3] at *
    refine ⟨by simp [i0], ?_, ?_, ?_, ?_, by omega, by omega⟩
    · intro i r' op' hr' hop'
      cases i with
      | zero =>
        simp only [List.getElem?_cons_zero, Option.some.injEq] at hr' hop'
        subst hr' hop'; exact s1
      | succ i => exact i1 i r' op' (by simpa using hr') (by simpa using hop')
    · rw [List.map_cons]
      refine laidOut_cons i2 (by simp only; omega) ?_ (by omega) (fun _ => s1.vaddr)
      simp only; rw [s4, s1.vsize, s5]; omega
    · by_cases hd : d = 0
      · have hz := (s1.empty hd).2
        have hf : (List.filter (fun r : SectionRange => decide (r.fileSize ≠ 0)) (r :: rs1)) =
            rs1.filter (fun r => decide (r.fileSize ≠ 0)) := by simp [hz]
        rw [hf, ← s9 hd]; exact i3
      · have hz : r.fileSize ≠ 0 := by
          rw [s1.fsize]
          have := le_roundUp' d w.fileAlign (by rw [hfa]; exact Nat.two_pow_pos _)
          omega
        have hf : (List.filter (fun r : SectionRange => decide (r.fileSize ≠ 0)) (r :: rs1)) =
            r :: rs1.filter (fun r => decide (r.fileSize ≠ 0)) := by simp [hz]
        rw [hf, List.map_cons]
        obtain ⟨e1, e2⟩ := s8 hd
        have := le_roundUp' w.len w.fileAlign (by rw [hfa]; exact Nat.two_pow_pos _)
        exact laidOut_cons i3 (by simp only; omega) (by simp only; omega) (by omega) (fun _ => s1.foff)
    · rw [i4, s10]; simp

/-- C37: writing the data of the sections in the order in which they were reserved puts each at the file offset that
was reserved for it, and ends exactly at the reserved length; nothing panics. -/
theorem C37_pe_write (ops : List (Content × Nat × List UInt8)) : ∀ (w w' : PeState) (rs : List SectionRange)
    (ks kf : Nat) (out : List UInt8), ks < 32 → kf < 32 → w.sectionAlign = 2 ^ ks → w.fileAlign = 2 ^ kf →
    w.vlen % w.sectionAlign = 0 →
    runPe w (ops.map fun o => (o.1, o.2.1, o.2.2.length)) = .ok (rs, w') → w'.len ≤ 2 ^ 32 →
    out.length = w.len →
    ∃ out', writePe w.fileAlign out (rs.zip (ops.map (·.2.2))) = .ok out' ∧ out'.length = w'.len ∧ out <+: out' ∧
      ∀ (i : Nat) (r : SectionRange) (op : Content × Nat × List UInt8), rs[i]? = some r → ops[i]? = some op → op.2.2 ≠ [] → slice out' r.fileOffset op.2.2.length = op.2.2 := by
  induction ops with
  | nil =>
    intro w w' rs ks kf out _ _ _ _ _ h _ hout
    simp only [List.map_nil, runPe, Res.ok.injEq, Prod.mk.injEq] at h
    obtain ⟨rfl, rfl⟩ := h
    exact ⟨out, rfl, hout, List.prefix_refl _, by simp⟩
  | cons op ops ih =>
    intro w w' rs ks kf out hks hkf hsa hfa hv h h32 hout
    have hall := C37_pe ((op :: ops).map fun o => (o.1, o.2.1, o.2.2.length)) w w' rs ks kf hks hkf hsa hfa hv h h32
    obtain ⟨c, v, data⟩ := op
    simp only [List.map_cons, runPe, Res.bind_eq, Res.bind_eq_ok] at h
    obtain ⟨⟨r, w1⟩, h1, ⟨rs1, w2⟩, h2, h3⟩ := h
    simp only [Res.ok.injEq, Prod.mk.injEq] at h3
    obtain ⟨rfl, rfl⟩ := h3
    simp only at h1 h2
    have hsp : 0 < w.sectionAlign := by rw [hsa]; exact Nat.two_pow_pos _
    have hfp : 0 < w.fileAlign := by rw [hfa]; exact Nat.two_pow_pos _
    have hal : w1.sectionAlign = w.sectionAlign ∧ w1.fileAlign = w.fileAlign ∧ w1.vlen % w.sectionAlign = 0 := by
      unfold peSection at h1
      simp only [Res.bind_eq, Res.bind_eq_ok] at h1
      obtain ⟨⟨va, vl⟩, hvv, fs, _, ⟨fo, l⟩, h3, _, _, _, _, _, _, _, _, h8⟩ := h1
      simp only [Res.ok.injEq, Prod.mk.injEq] at h8
      obtain ⟨rfl, rfl⟩ := h8
      refine ⟨rfl, rfl, ?_⟩
      unfold peVirtual at hvv
      simp only [Res.bind_eq, Res.bind_eq_ok] at hvv
      obtain ⟨x, hx, y, hy, hvv⟩ := hvv
      simp only [Res.ok.injEq, Prod.mk.injEq] at hvv
      obtain ⟨rfl, rfl⟩ := hvv
      obtain ⟨ey, -⟩ := align32_ok hks hsa hy
      simp only
      rw [ey]; exact (le_roundUp' _ _ hsp).2.1
    have hrest := C37_pe (ops.map fun o => (o.1, o.2.1, o.2.2.length)) w1 w2 rs1 ks kf hks hkf
      (by rw [hal.1]; exact hsa) (by rw [hal.2.1]; exact hfa) (by rw [hal.1]; exact hal.2.2) h2 h32
    have hm12 : w1.len ≤ w2.len := hrest.2.2.2.2.2.2
    obtain ⟨s1, s2, s3, s4, s5, s6, s7, s8, s9, s10⟩ := pe_step hks hkf hsa hfa hv h1 (by omega)
    -- one section
    have hstep : ∃ out1, peWriteSection w.fileAlign out r.fileOffset data = .ok out1 ∧ out1.length = w1.len ∧
        out <+: out1 ∧ (data ≠ [] → slice out1 r.fileOffset data.length = data) := by
      by_cases hd : data = []
      · refine ⟨out, by simp [peWriteSection, hd], ?_, List.prefix_refl _, fun h => absurd hd h⟩
        rw [hout, s9 (by simp [hd])]
      · have hd' : data.length ≠ 0 := by simpa using hd
        obtain ⟨e1, e2⟩ := s8 hd'
        have hro := le_roundUp' w.len w.fileAlign hfp
        have hrd := le_roundUp' data.length w.fileAlign hfp
        have hfs := s1.fsize
        unfold peWriteSection
        rw [if_neg hd]
        simp only [bufUntil, Res.bind_eq]
        rw [if_neg (by omega), Res.ok_bind]
        have hl1 : (out ++ List.replicate (r.fileOffset - out.length) (0 : UInt8)).length = r.fileOffset := by simp; omega
        simp only [bufBytes]
        rw [if_neg (by rw [hl1]; omega), Res.ok_bind]
        simp only [bufAlign, Res.bind_eq]
        have hl2 : (out ++ List.replicate (r.fileOffset - out.length) (0 : UInt8) ++ data).length = r.fileOffset + data.length := by
          rw [List.length_append, hl1]
        have hend : roundUp (r.fileOffset + data.length) w.fileAlign = r.fileOffset + r.fileSize := by
          have hc := Build.roundUp_congr (a := r.fileOffset + data.length) (b := data.length) hfp
            (by rw [Nat.add_mod, s1.foff]; simp)
          omega
        have hal64 : align64 (r.fileOffset + data.length) w.fileAlign = .ok (r.fileOffset + r.fileSize) := by
          have hlt := le_roundUp' (r.fileOffset + data.length) w.fileAlign hfp
          have hp32 : w.fileAlign < 2 ^ 32 := by rw [hfa]; exact Nat.pow_lt_pow_right (by decide) hkf
          rw [← hend, hfa]
          exact align64_eq (by omega) (by rw [← hfa]; omega)
        rw [hl2, hal64, Res.ok_bind, if_neg (by omega)]
        refine ⟨_, rfl, ?_, ?_, ?_⟩
        · simp only [List.length_append, List.length_replicate]; omega
        · rw [List.append_assoc, List.append_assoc]; exact List.prefix_append _ _
        · intro _
          unfold slice
          rw [List.append_assoc (_ ++ _), List.drop_left' hl1, List.take_left' rfl]
    obtain ⟨out1, t1, t2, t3, t4⟩ := hstep
    obtain ⟨out2, u1, u2, u3, u4⟩ := ih w1 w2 rs1 ks kf out1 hks hkf (by rw [s2]; exact hsa) (by rw [s3]; exact hfa)
      (by rw [hal.1]; exact hal.2.2) h2 h32 t2
    refine ⟨out2, ?_, u2, t3.trans u3, ?_⟩
    · simp only [List.map_cons, List.zip_cons_cons, writePe, t1, Res.bind_eq, Res.ok_bind]
      rw [s3] at u1; exact u1
    · intro i r' op' hr' hop' hne
      cases i with
      | zero =>
        simp only [List.getElem?_cons_zero, Option.some.injEq] at hr' hop'
        subst hr' hop'
        have ht := t4 hne
        have hd' : data.length ≠ 0 := by simpa using hne
        obtain ⟨e1, e2⟩ := s8 hd'
        have hrd := le_roundUp' data.length w.fileAlign hfp
        have hfs := s1.fsize
        obtain ⟨tl, rfl⟩ := u3
        simp only
        unfold slice at ht ⊢
        rw [List.drop_append_of_le_length (by omega), List.take_append_of_le_length (by simp; omega)]
        exact ht
      | succ i => exact u4 i r' op' (by simpa using hr') (by simpa using hop') hne

private def exPe : PeState := ⟨4096, 512, 1024, 4096, 0, 0, 0, 0, 0, []⟩
example : ∃ w, runPe exPe [(.code, 700, 700), (.bss, 5000, 0), (.data, 10, 3)] =
    .ok ([⟨4096, 700, 1024, 1024⟩, ⟨8192, 5000, 0, 0⟩, ⟨16384, 10, 2048, 512⟩], w) ∧ w.len = 2560 ∧ w.vlen = 20480 ∧
    w.codeLen = 1024 ∧ w.bssLen = 5120 ∧ w.dataLen = 512 ∧ w.codeAddress = 4096 ∧ w.dataAddress = 8192 := by
  exact ⟨⟨4096, 512, 2560, 20480, 4096, 8192, 1024, 512, 5120,
    [⟨4096, 700, 1024, 1024⟩, ⟨8192, 5000, 0, 0⟩, ⟨16384, 10, 2048, 512⟩]⟩, by decide, by decide⟩

end Obj.Props

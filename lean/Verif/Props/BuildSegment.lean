import Verif.Proof.BuildSegment

/-!
# C66: segment ranges in the ELF builder
-/

namespace Obj.Props

open Obj Obj.Build Obj.Build.Spec Obj.Spec

/-- **C66.** `append_section_range`: the section is covered afterwards, and everything covered before still
is, provided that the section does not start below the segment (or the segment was empty). -/
theorem C66_append_range (s s' : Seg) (c : Sec) (h : s.appendRange c = .ok s') :
    Covers s' c ∧
      ∀ d, Covers s d → s.pMemsz = 0 ∨ (s.pOffset ≤ c.shOffset ∧ s.pVaddr ≤ c.shAddr) → Covers s' d :=
  ⟨appendRange_covers h, fun _ hd ho => appendRange_keeps h hd ho⟩

/-- **C66.** Without that condition `append_section_range` can lose a section that was covered: here the
segment consists of one section at 0x2000, and a section at 0x1000 is appended. -/
theorem C66_append_below :
    ∃ (s s' : Seg) (c d : Sec), Covers s d ∧ s.appendRange c = .ok s' ∧ ¬ Covers s' d :=
  ⟨⟨0, false, 1, 5, 0x2000, 0x2000, 0x2000, 0x100, 0x100, 0x1000, [0]⟩,
   ⟨0, false, 1, 5, 0x1000, 0x1000, 0x1000, 0x100, 0x100, 0x1000, [0]⟩,
   ⟨1, false, [], 1, 2, 0x1000, 0x1000, 0x10, none, 0, none, 1, 0, .data []⟩,
   ⟨0, false, [], 1, 2, 0x2000, 0x2000, 0x100, none, 0, none, 1, 0, .data []⟩,
   by unfold Covers fileBytes; decide, by decide, by unfold Covers fileBytes; decide⟩

private theorem appendRange_frame {s s' : Seg} {c : Sec} (h : s.appendRange c = .ok s') :
    s' = { s with pOffset := s'.pOffset, pFilesz := s'.pFilesz, pVaddr := s'.pVaddr, pPaddr := s'.pPaddr,
                  pMemsz := s'.pMemsz } := by
  rcases appendRange_ok h with ⟨_, rfl⟩ | ⟨_, rfl⟩ <;> rfl

private theorem ranges_ok (secs : List Sec) : ∀ (ids : List Nat) (s s' : Seg),
    Seg.appendRanges secs s ids = .ok s' → Ordered secs ids →
    (s.pMemsz ≠ 0 → ∀ i ∈ ids, ∀ c, secs[i]? = some c → s.pOffset ≤ c.shOffset ∧ s.pVaddr ≤ c.shAddr) →
    (∀ i ∈ ids, ∃ c, secs[i]? = some c ∧ Covers s' c) ∧ (∀ d, Covers s d → Covers s' d) ∧
    s' = { s with pOffset := s'.pOffset, pFilesz := s'.pFilesz, pVaddr := s'.pVaddr, pPaddr := s'.pPaddr,
                  pMemsz := s'.pMemsz } := by
  intro ids
  induction ids with
  | nil =>
    intro s s' h _ _
    cases h
    exact ⟨by simp, fun _ hd => hd, rfl⟩
  | cons i is ih =>
    intro s s' h ho hs
    simp only [Seg.appendRanges] at h
    cases hg : Build.get secs i with
    | err => rw [hg] at h; cases h
    | panic => rw [hg] at h; cases h
    | ok c =>
      rw [hg, Res.ok_bind] at h
      rw [get_ok] at hg
      cases h1 : s.appendRange c with
      | err => rw [h1] at h; cases h
      | panic => rw [h1] at h; cases h
      | ok s1 =>
        rw [h1, Res.ok_bind] at h
        unfold Ordered at ho
        rw [List.pairwise_cons] at ho
        have hcov := C66_append_range s s1 c h1
        have hc : s.pMemsz = 0 ∨ (s.pOffset ≤ c.shOffset ∧ s.pVaddr ≤ c.shAddr) := by
          by_cases hm : s.pMemsz = 0
          · exact .inl hm
          · exact .inr (hs hm i (by simp) c hg)
        obtain ⟨r1, r2, r3⟩ := ih s1 s' h ho.2 (by
          intro _ j hj d hd
          have hle := ho.1 j hj c d hg hd
          rcases appendRange_ok h1 with ⟨_, rfl⟩ | ⟨_, rfl⟩
          · exact hle
          · simp only
            omega)
        refine ⟨?_, fun d hd => r2 d (hcov.2 d hd hc), ?_⟩
        · intro j hj
          rcases List.mem_cons.1 hj with rfl | hj
          · exact ⟨c, hg, r2 c hcov.1⟩
          · exact r1 j hj
        · rw [r3, appendRange_frame h1]

/-- **C66.** `recalculate_ranges`: if the sections of the segment are in order of offset and address then the
segment covers all of them afterwards; nothing else in the segment changes. -/
theorem C66_recalculate (s s' : Seg) (secs : List Sec) (h : s.recalculate secs = .ok s')
    (ho : Ordered secs s.sections) :
    (∀ i ∈ s.sections, ∃ c, secs[i]? = some c ∧ Covers s' c) ∧
    s' = { s with pOffset := s'.pOffset, pFilesz := s'.pFilesz, pVaddr := s'.pVaddr, pPaddr := s'.pPaddr,
                  pMemsz := s'.pMemsz } := by
  unfold Seg.recalculate at h
  generalize hr : Seg.appendRanges secs _ _ = r at h
  cases r with
  | err => cases h
  | panic => cases h
  | ok r =>
    cases h
    obtain ⟨h1, _, h3⟩ := ranges_ok secs _ _ _ hr ho (fun hn => absurd rfl hn)
    refine ⟨h1, ?_⟩
    rw [h3]

/-- The end of the file range and of the address range of a list of sections. -/
private theorem ranges_tight (secs : List Sec) : ∀ (ids : List Nat) (s s' : Seg),
    Seg.appendRanges secs s ids = .ok s' → Ordered secs ids →
    (s.pMemsz ≠ 0 → ∀ i ∈ ids, ∀ c, secs[i]? = some c → s.pOffset ≤ c.shOffset ∧ s.pVaddr ≤ c.shAddr) →
    s'.pMemsz ≠ 0 →
    ((s.pMemsz ≠ 0 ∧ s'.pOffset = s.pOffset ∧ s'.pVaddr = s.pVaddr) ∨
      (s.pMemsz = 0 ∧ ∃ i ∈ ids, ∃ c, secs[i]? = some c ∧ c.shSize ≠ 0 ∧ s'.pOffset = c.shOffset ∧
        s'.pVaddr = c.shAddr)) ∧
    ((s.pMemsz ≠ 0 ∧ s'.pOffset + s'.pFilesz = s.pOffset + s.pFilesz) ∨
      ∃ i ∈ ids, ∃ c, secs[i]? = some c ∧ s'.pOffset + s'.pFilesz = c.shOffset + c.filesize) ∧
    ((s.pMemsz ≠ 0 ∧ s'.pVaddr + s'.pMemsz = s.pVaddr + s.pMemsz) ∨
      ∃ i ∈ ids, ∃ c, secs[i]? = some c ∧ s'.pVaddr + s'.pMemsz = c.shAddr + c.shSize) := by
  intro ids
  induction ids with
  | nil =>
    intro s s' h _ _ hm
    cases h
    exact ⟨.inl ⟨hm, rfl, rfl⟩, .inl ⟨hm, rfl⟩, .inl ⟨hm, rfl⟩⟩
  | cons i is ih =>
    intro s s' h ho hs hm'
    simp only [Seg.appendRanges] at h
    cases hg : Build.get secs i with
    | err => rw [hg] at h; cases h
    | panic => rw [hg] at h; cases h
    | ok c =>
      rw [hg, Res.ok_bind] at h
      rw [get_ok] at hg
      cases h1 : s.appendRange c with
      | err => rw [h1] at h; cases h
      | panic => rw [h1] at h; cases h
      | ok s1 =>
        rw [h1, Res.ok_bind] at h
        unfold Ordered at ho
        rw [List.pairwise_cons] at ho
        obtain ⟨t1, t2, t3⟩ := ih s1 s' h ho.2 (by
          intro _ j hj d hd
          have hle := ho.1 j hj c d hg hd
          rcases appendRange_ok h1 with ⟨_, rfl⟩ | ⟨_, rfl⟩
          · exact hle
          · simp only
            omega) hm'
        rcases appendRange_ok h1 with ⟨hm, rfl⟩ | ⟨hm, rfl⟩
        · simp only at t1 t2 t3
          refine ⟨.inr ⟨hm, ?_⟩, .inr ?_, .inr ?_⟩
          · rcases t1 with ⟨a, b, d⟩ | ⟨_, j, hj, d⟩
            · exact ⟨i, by simp, c, hg, a, b, d⟩
            · exact ⟨j, List.mem_cons_of_mem _ hj, d⟩
          · rcases t2 with ⟨_, a⟩ | ⟨j, hj, d⟩
            · exact ⟨i, by simp, c, hg, a⟩
            · exact ⟨j, List.mem_cons_of_mem _ hj, d⟩
          · rcases t3 with ⟨_, a⟩ | ⟨j, hj, d⟩
            · exact ⟨i, by simp, c, hg, a⟩
            · exact ⟨j, List.mem_cons_of_mem _ hj, d⟩
        · have hle := hs hm i (by simp) c hg
          simp only at t1 t2 t3
          have hn1 : max s.pMemsz (c.shAddr + c.shSize - min s.pVaddr c.shAddr) ≠ 0 := by omega
          have em1 : min s.pOffset c.shOffset = s.pOffset := by omega
          have em2 : min s.pVaddr c.shAddr = s.pVaddr := by omega
          rw [em1, em2] at t1
          rw [em1] at t2
          rw [em2] at t3 hn1
          simp only [em2] at t1 t2
          refine ⟨.inl ⟨hm, ?_⟩, ?_, ?_⟩
          · rcases t1 with ⟨_, b⟩ | ⟨a, _⟩
            · exact b
            · exact absurd a hn1
          · rcases t2 with ⟨_, a⟩ | ⟨j, hj, d⟩
            · by_cases hb : s.pFilesz < c.shOffset + c.filesize - s.pOffset
              · exact .inr ⟨i, by simp, c, hg, by omega⟩
              · exact .inl ⟨hm, by omega⟩
            · exact .inr ⟨j, List.mem_cons_of_mem _ hj, d⟩
          · rcases t3 with ⟨_, a⟩ | ⟨j, hj, d⟩
            · by_cases hb : s.pMemsz < c.shAddr + c.shSize - s.pVaddr
              · exact .inr ⟨i, by simp, c, hg, by omega⟩
              · exact .inl ⟨hm, by omega⟩
            · exact .inr ⟨j, List.mem_cons_of_mem _ hj, d⟩

/-- **C66.** `recalculate_ranges` makes the ranges no larger than needed: they start where a (non-empty)
section starts, and end where a section ends. -/
theorem C66_recalculate_tight (s s' : Seg) (secs : List Sec) (h : s.recalculate secs = .ok s')
    (ho : Ordered secs s.sections) (hm : s'.pMemsz ≠ 0) :
    (∃ i ∈ s.sections, ∃ c, secs[i]? = some c ∧ c.shSize ≠ 0 ∧ s'.pOffset = c.shOffset ∧ s'.pVaddr = c.shAddr) ∧
    (∃ i ∈ s.sections, ∃ c, secs[i]? = some c ∧ s'.pOffset + s'.pFilesz = c.shOffset + fileBytes c) ∧
    (∃ i ∈ s.sections, ∃ c, secs[i]? = some c ∧ s'.pVaddr + s'.pMemsz = c.shAddr + c.shSize) := by
  unfold Seg.recalculate at h
  generalize hr : Seg.appendRanges secs _ _ = r at h
  cases r with
  | err => cases h
  | panic => cases h
  | ok r =>
    cases h
    obtain ⟨t1, t2, t3⟩ := ranges_tight secs _ _ _ hr ho (fun hn => absurd rfl hn) hm
    refine ⟨?_, ?_, ?_⟩
    · rcases t1 with ⟨a, _⟩ | ⟨_, a⟩
      · exact absurd rfl a
      · exact a
    · rcases t2 with ⟨a, _⟩ | a
      · exact absurd rfl a
      · exact a
    · rcases t3 with ⟨a, _⟩ | a
      · exact absurd rfl a
      · exact a

/-- A load segment whose file range is loaded at its address, and not longer in memory. -/
private def LoadOk (s : Seg) : Prop :=
  s.pType = 1 ∧ s.pFilesz = s.pMemsz ∧ s.pPaddr = s.pVaddr ∧ s.pOffset % s.pAlign = s.pVaddr % s.pAlign

private theorem mod_of_dvd {a b p q : Nat} (hd : q ∣ p) (h : a % p = b % p) : a % q = b % q := by
  rw [← Nat.mod_mod_of_dvd a hd, h, Nat.mod_mod_of_dvd b hd]

private theorem append_step {s s' : Seg} {c c' : Sec} (h : s.appendSection c = .ok (s', c')) (hs : LoadOk s)
    {k : Nat} (hk : k < 64) (ha : c.addralign = 2 ^ k) (hd : c.addralign ∣ s.pAlign) (hn : c.shType ≠ 8) :
    LoadOk s' ∧ s'.pAlign = s.pAlign ∧ s'.sections = s.sections ++ [c.id] ∧
    c' = { c with shOffset := c'.shOffset, shAddr := c'.shAddr } ∧
    c'.shOffset % c.addralign = 0 ∧ c'.shAddr % c.addralign = 0 ∧
    s.pOffset + s.pFilesz ≤ c'.shOffset ∧ s.pVaddr + s.pMemsz ≤ c'.shAddr ∧
    c'.shAddr + s.pOffset = s.pVaddr + c'.shOffset ∧
    s'.pVaddr + s.pOffset = s.pVaddr + s'.pOffset ∧
    s'.pOffset + s'.pFilesz = c'.shOffset + c'.shSize ∧ s'.pVaddr + s'.pMemsz = c'.shAddr + c'.shSize ∧
    Covers s' c' ∧ (s.pMemsz ≠ 0 → s'.pOffset = s.pOffset ∧ s'.pVaddr = s.pVaddr) := by
  obtain ⟨hl, hfm, hv, hmod⟩ := hs
  obtain ⟨_, e1, e2⟩ := appendSection_load h hl hv hk ha
  have hp : 0 < c.addralign := by rw [ha]; exact Nat.two_pow_pos k
  have ho : c'.shOffset = roundUp (s.pOffset + s.pFilesz) c.addralign := by rw [e1]
  have had : c'.shAddr = roundUp (s.pVaddr + s.pMemsz) c.addralign := by rw [e1]
  have hfs : c.filesize = c.shSize := by unfold Sec.filesize; rw [if_neg hn]
  have hfs' : c'.filesize = c'.shSize := by rw [e1]; exact hfs
  have hsz : c'.shSize = c.shSize := by rw [e1]
  have r1 : c'.shOffset % c.addralign = 0 := by rw [ho]; exact (roundUp_spec _ _ hp).1
  have r2 : s.pOffset + s.pFilesz ≤ c'.shOffset := by rw [ho]; exact (roundUp_spec _ _ hp).2.1
  have r3 : c'.shAddr % c.addralign = 0 := by rw [had]; exact (roundUp_spec _ _ hp).1
  have r4 : s.pVaddr + s.pMemsz ≤ c'.shAddr := by rw [had]; exact (roundUp_spec _ _ hp).2.1
  have hmod' : (s.pOffset + s.pFilesz) % c.addralign = (s.pVaddr + s.pMemsz) % c.addralign := by
    rw [Nat.add_mod, mod_of_dvd hd hmod, hfm, ← Nat.add_mod]
  have hcong := roundUp_congr hp hmod'
  rw [← ho, ← had] at hcong
  have hD : c'.shAddr + s.pOffset = s.pVaddr + c'.shOffset := by omega
  have o1 : s'.pOffset = if s.pMemsz = 0 then c'.shOffset else s.pOffset := by rw [e2]
  have o2 : s'.pVaddr = if s.pMemsz = 0 then c'.shAddr else s.pVaddr := by rw [e2]
  have o3 : s'.pPaddr = if s.pMemsz = 0 then c'.shAddr else s.pVaddr := by rw [e2]
  have o4 : s'.pFilesz = c'.shOffset + c.filesize - (if s.pMemsz = 0 then c'.shOffset else s.pOffset) := by rw [e2]
  have o5 : s'.pMemsz = c'.shAddr + c.shSize - (if s.pMemsz = 0 then c'.shAddr else s.pVaddr) := by rw [e2]
  have o6 : s'.pAlign = s.pAlign := by rw [e2]
  have o7 : s'.pType = s.pType := by rw [e2]
  have o8 : s'.sections = s.sections ++ [c.id] := by rw [e2]
  have hD' : s'.pVaddr + s.pOffset = s.pVaddr + s'.pOffset := by
    rw [o1, o2]; split <;> omega
  have hE1 : s'.pOffset + s'.pFilesz = c'.shOffset + c'.shSize := by
    rw [o1, o4, hsz, hfs]; split <;> omega
  have hE2 : s'.pVaddr + s'.pMemsz = c'.shAddr + c'.shSize := by
    rw [o2, o5, hsz]; split <;> omega
  refine ⟨⟨by rw [o7]; exact hl, by omega, by rw [o3, o2], ?_⟩, o6, o8, ?_, r1, r3, r2, r4, hD, hD', hE1, hE2,
    ?_, ?_⟩
  · -- congruence
    rw [o6]
    have h1 : (s'.pVaddr + s.pOffset) % s.pAlign = (s.pVaddr + s'.pOffset) % s.pAlign := by rw [hD']
    have h2 : (s'.pOffset + s.pOffset) % s.pAlign = (s'.pVaddr + s.pOffset) % s.pAlign := by
      rw [h1, Nat.add_mod, hmod, ← Nat.add_mod, Nat.add_comm]
    by_cases hz : s.pAlign = 0
    · rw [hz] at h2 ⊢
      simp only [Nat.mod_zero] at h2 ⊢
      omega
    · have hz : 0 < s.pAlign := by omega
      -- cancel
      have hcan : ∀ x y z p : Nat, 0 < p → (x + z) % p = (y + z) % p → x % p = y % p := by
        intro x y z p hp h
        have h3 : (x + z + (p - z % p)) % p = (y + z + (p - z % p)) % p := by
          rw [Nat.add_mod, h, ← Nat.add_mod]
        have hz : z + (p - z % p) = p * (z / p + 1) := by
          have := Nat.div_add_mod z p
          have := Nat.mod_lt z hp
          rw [Nat.mul_add, Nat.mul_one]
          generalize p * (z / p) = A at *
          omega
        rw [Nat.add_assoc, Nat.add_assoc, hz, Nat.add_mul_mod_self_left, Nat.add_mul_mod_self_left] at h3
        exact h3
      exact hcan _ _ _ _ hz h2
  · rw [e1]
  · refine ⟨fun _ => ?_, fun _ => ?_⟩
    · rw [← filesize_eq, hfs', hE1, o1]
      refine ⟨?_, Nat.le_refl _⟩
      split <;> omega
    · rw [hE2, o2]
      refine ⟨?_, Nat.le_refl _⟩
      split <;> omega
  · intro hm
    rw [o1, o2, if_neg hm, if_neg hm]
    exact ⟨rfl, rfl⟩

private theorem append_history : ∀ (cs : List Sec) (s s' : Seg) (cs' done : List Sec),
    appendAll s cs = .ok (s', cs') → LoadOk s →
    (∀ c ∈ cs, (∃ k, k < 64 ∧ c.addralign = 2 ^ k) ∧ c.addralign ∣ s.pAlign ∧ c.shType ≠ 8) →
    (∀ c ∈ done, Covers s c ∧ c.shAddr + s.pOffset = s.pVaddr + c.shOffset ∧
      c.shOffset + c.shSize ≤ s.pOffset + s.pFilesz ∧ c.shAddr + c.shSize ≤ s.pVaddr + s.pMemsz) →
    done.Pairwise (fun c d => c.shOffset + c.shSize ≤ d.shOffset ∧ c.shAddr + c.shSize ≤ d.shAddr) →
    LoadOk s' ∧ s'.pAlign = s.pAlign ∧ s'.sections = s.sections ++ cs.map (·.id) ∧
    cs'.length = cs.length ∧
    (∀ (i : Nat) c c', cs[i]? = some c → cs'[i]? = some c' →
      c' = { c with shOffset := c'.shOffset, shAddr := c'.shAddr } ∧
      c'.shOffset % c.addralign = 0 ∧ c'.shAddr % c.addralign = 0) ∧
    (∀ c ∈ done ++ cs', Covers s' c ∧ c.shAddr + s'.pOffset = s'.pVaddr + c.shOffset ∧
      c.shOffset + c.shSize ≤ s'.pOffset + s'.pFilesz ∧ c.shAddr + c.shSize ≤ s'.pVaddr + s'.pMemsz) ∧
    (done ++ cs').Pairwise (fun c d => c.shOffset + c.shSize ≤ d.shOffset ∧ c.shAddr + c.shSize ≤ d.shAddr) := by
  intro cs
  induction cs with
  | nil =>
    intro s s' cs' done h hs _ hd hp
    cases h
    exact ⟨hs, rfl, by simp, rfl, by simp, by simpa using hd, by simpa using hp⟩
  | cons c cs ih =>
    intro s s' cs' done h hs hc hd hp
    simp only [appendAll] at h
    cases h1 : s.appendSection c with
    | err => rw [h1] at h; cases h
    | panic => rw [h1] at h; cases h
    | ok r =>
      obtain ⟨s1, c1⟩ := r
      rw [h1, Res.ok_bind] at h
      simp only at h
      cases h2 : appendAll s1 cs with
      | err => rw [h2] at h; cases h
      | panic => rw [h2] at h; cases h
      | ok q =>
        obtain ⟨s2, cs2⟩ := q
        rw [h2, Res.ok_bind] at h
        cases h
        obtain ⟨⟨k, hk, ha⟩, hdv, hn⟩ := hc c (by simp)
        obtain ⟨g1, g2, g3, g4, g5, g6, g7, g8, g9, g10, g11, g12, g13, g14⟩ := append_step h1 hs hk ha hdv hn
        have hnew : ∀ d ∈ done ++ [c1], Covers s1 d ∧ d.shAddr + s1.pOffset = s1.pVaddr + d.shOffset ∧
            d.shOffset + d.shSize ≤ s1.pOffset + s1.pFilesz ∧ d.shAddr + d.shSize ≤ s1.pVaddr + s1.pMemsz := by
          intro d hdm
          rcases List.mem_append.1 hdm with hdm | hdm
          · obtain ⟨a1, a2, a3, a4⟩ := hd d hdm
            refine ⟨?_, by omega, by omega, by omega⟩
            by_cases hm : s.pMemsz = 0
            · obtain ⟨b1, b2⟩ := not_covers_empty hm a1
              exact ⟨fun hh => absurd b2 hh, fun hh => absurd b1 hh⟩
            · obtain ⟨f1, f2⟩ := g14 hm
              refine ⟨fun hh => ?_, fun hh => ?_⟩
              · have := a1.1 hh
                omega
              · have := a1.2 hh
                omega
          · cases List.mem_singleton.1 hdm
            exact ⟨g13, by omega, by omega, by omega⟩
        have hpw : (done ++ [c1]).Pairwise
            (fun c d => c.shOffset + c.shSize ≤ d.shOffset ∧ c.shAddr + c.shSize ≤ d.shAddr) := by
          rw [List.pairwise_append]
          refine ⟨hp, List.pairwise_singleton _ _, fun a ha b hb => ?_⟩
          cases List.mem_singleton.1 hb
          obtain ⟨_, _, a3, a4⟩ := hd a ha
          omega
        obtain ⟨i1, i2, i3, i4, i5, i6, i7⟩ := ih s1 s2 cs2 (done ++ [c1]) h2 g1
          (fun d hd => by
            obtain ⟨x1, x2, x3⟩ := hc d (List.mem_cons_of_mem _ hd)
            exact ⟨x1, by rw [g2]; exact x2, x3⟩) hnew hpw
        rw [List.append_assoc, List.singleton_append] at i6 i7
        refine ⟨i1, by rw [i2, g2], ?_, by simp [i4], ?_, i6, i7⟩
        · rw [i3, g3]; simp
        · intro i d d' hdi hdi'
          cases i with
          | zero =>
            cases hdi; cases hdi'
            exact ⟨g4, g5, g6⟩
          | succ i => exact i5 i d d' hdi hdi'

/-- **C66.** Sections with contents that are appended to a new load segment, with any alignments that divide
that of the segment: only their offsets and addresses change; they are aligned, in order and do not overlap, in
the file and in memory; the segment covers them all and loads each of them at its address; and the offset and
address of the segment stay congruent. -/
theorem C66_append_sections (s s' : Seg) (cs cs' : List Sec) (h : appendAll s cs = .ok (s', cs'))
    (hl : s.pType = 1) (hz : s.pFilesz = 0 ∧ s.pMemsz = 0) (hv : s.pPaddr = s.pVaddr)
    (hm : s.pOffset % s.pAlign = s.pVaddr % s.pAlign)
    (hc : ∀ c ∈ cs, (∃ k, k < 64 ∧ c.addralign = 2 ^ k) ∧ c.addralign ∣ s.pAlign ∧ c.shType ≠ 8) :
    s'.sections = s.sections ++ cs.map (·.id) ∧ s'.pOffset % s'.pAlign = s'.pVaddr % s'.pAlign ∧
    cs'.length = cs.length ∧
    (∀ (i : Nat) c c', cs[i]? = some c → cs'[i]? = some c' →
      c' = { c with shOffset := c'.shOffset, shAddr := c'.shAddr } ∧
      c'.shOffset % c.addralign = 0 ∧ c'.shAddr % c.addralign = 0) ∧
    (∀ c ∈ cs', Covers s' c ∧ (c.shAddr < U64 → s'.pOffset < U64 → s'.addressFromOffset c.shOffset = c.shAddr)) ∧
    cs'.Pairwise (fun c d => c.shOffset + c.shSize ≤ d.shOffset ∧ c.shAddr + c.shSize ≤ d.shAddr) := by
  obtain ⟨g1, g2, g3, g4, g5, g6, g7⟩ := append_history cs s s' cs' [] h
    ⟨hl, by rw [hz.1, hz.2], hv, hm⟩ hc (by simp) (by simp)
  refine ⟨g3, g1.2.2.2, g4, g5, fun c hcm => ?_, by simpa using g7⟩
  obtain ⟨a1, a2, _, _⟩ := g6 c (by simpa using hcm)
  refine ⟨a1, fun hb hb2 => ?_⟩
  unfold Seg.addressFromOffset
  rw [Nat.add_mod_mod]
  have : s'.pVaddr + (c.shOffset + (U64 - s'.pOffset)) = c.shAddr + U64 := by omega
  rw [this, Nat.add_mod_right, Nat.mod_eq_of_lt hb]

/-- The hypotheses of C66 can be met: two sections of 5 bytes with alignments 1 and 16. -/
example :
    let s : Seg := ⟨0, false, 1, 5, 0x123, 0x1123, 0x1123, 0, 0, 0x1000, []⟩
    let a : Sec := ⟨1, false, [], 1, 2, 0, 0, 5, none, 0, none, 1, 0, .data [1, 2, 3, 4, 5]⟩
    let b : Sec := ⟨2, false, [], 1, 2, 0, 0, 5, none, 0, none, 16, 0, .data [1, 2, 3, 4, 5]⟩
    appendAll s [a, b] = .ok (⟨0, false, 1, 5, 0x123, 0x1123, 0x1123, 0x12, 0x12, 0x1000, [1, 2]⟩,
      [{ a with shOffset := 0x123, shAddr := 0x1123 }, { b with shOffset := 0x130, shAddr := 0x1130 }]) := by
  decide

private theorem maxEnds_ok : ∀ (l : List Seg) (mo ma o a : Nat), maxEnds mo ma l = .ok (o, a) →
    mo ≤ o ∧ ma ≤ a ∧ (∀ s ∈ l, s.pOffset + s.pFilesz ≤ o ∧ s.pVaddr + s.pMemsz ≤ a) ∧
    (o = mo ∨ ∃ s ∈ l, o = s.pOffset + s.pFilesz) := by
  intro l
  induction l with
  | nil => intro mo ma o a h; cases h; exact ⟨Nat.le_refl _, Nat.le_refl _, by simp, .inl rfl⟩
  | cons s ss ih =>
    intro mo ma o a h
    simp only [maxEnds] at h
    cases h1 : add64 s.pOffset s.pFilesz with
    | err => rw [h1] at h; cases h
    | panic => rw [h1] at h; cases h
    | ok x =>
      rw [h1, Res.ok_bind] at h
      obtain ⟨rfl, _⟩ := add64_ok h1
      cases h2 : add64 s.pVaddr s.pMemsz with
      | err => rw [h2] at h; cases h
      | panic => rw [h2] at h; cases h
      | ok y =>
        rw [h2, Res.ok_bind] at h
        obtain ⟨rfl, _⟩ := add64_ok h2
        obtain ⟨g1, g2, g3, g4⟩ := ih _ _ _ _ h
        have e1 : mo ≤ o ∧ s.pOffset + s.pFilesz ≤ o := by split at g1 <;> omega
        have e2 : ma ≤ a ∧ s.pVaddr + s.pMemsz ≤ a := by split at g2 <;> omega
        refine ⟨e1.1, e2.1, ?_, ?_⟩
        · intro t ht
          rcases List.mem_cons.1 ht with rfl | ht
          · exact ⟨e1.2, e2.2⟩
          · exact g3 t ht
        · rcases g4 with g4 | ⟨t, ht, g4⟩
          · split at g4
            · exact .inr ⟨s, by simp, g4⟩
            · exact .inl g4
          · exact .inr ⟨t, List.mem_cons_of_mem _ ht, g4⟩

/-- **C66.** `add_load_segment` with a power of two: the new segment is the last of the table, which is
otherwise unchanged; it is an empty load segment with the flags and the alignment, starts at the end of the file
ranges and not below the end of any address range of the segments that are not deleted, and its address is
congruent to its offset. -/
theorem C66_add_load_segment (t t' : List Seg) (flags k i : Nat) (hk : k < 64)
    (h : addLoad t flags (2 ^ k) = .ok (i, t')) :
    ∃ s, t' = t ++ [s] ∧ i = t.length ∧ s.id = i ∧ s.delete = false ∧ s.pType = 1 ∧ s.pFlags = flags ∧
      s.pAlign = 2 ^ k ∧ s.pFilesz = 0 ∧ s.pMemsz = 0 ∧ s.sections = [] ∧ s.pPaddr = s.pVaddr ∧
      s.pVaddr % 2 ^ k = s.pOffset % 2 ^ k ∧
      (∀ x ∈ t, x.delete = false → x.pOffset + x.pFilesz ≤ s.pOffset ∧ x.pVaddr + x.pMemsz ≤ s.pVaddr) ∧
      (s.pOffset = 0 ∨ ∃ x ∈ t, x.delete = false ∧ s.pOffset = x.pOffset + x.pFilesz) := by
  unfold addLoad at h
  cases h1 : maxEnds 0 0 (iter t) with
  | err => rw [h1] at h; cases h
  | panic => rw [h1] at h; cases h
  | ok m =>
    obtain ⟨o, a⟩ := m
    rw [h1, Res.ok_bind] at h
    simp only at h
    obtain ⟨_, _, g3, g4⟩ := maxEnds_ok _ _ _ _ _ h1
    cases h2 : align64 a (2 ^ k) with
    | err => rw [h2] at h; cases h
    | panic => rw [h2] at h; cases h
    | ok base =>
      rw [h2, Res.ok_bind] at h
      obtain ⟨rfl, _⟩ := align64_ok hk rfl h2
      have hp := Nat.two_pow_pos k
      obtain ⟨r1, r2, _⟩ := roundUp_spec a (2 ^ k) hp
      change roundUp a (2 ^ k) % 2 ^ k = 0 at r1
      change a ≤ roundUp a (2 ^ k) at r2
      rw [Nat.and_two_pow_sub_one_eq_mod] at h
      cases h3 : add64 (roundUp a (2 ^ k)) (o % 2 ^ k) with
      | err => rw [h3] at h; cases h
      | panic => rw [h3] at h; cases h
      | ok addr =>
        rw [h3, Res.ok_bind] at h
        obtain ⟨rfl, _⟩ := add64_ok h3
        simp only [addSeg, nextId, push, edit, List.getElem?_concat_length, Res.ok_bind, Res.ok.injEq,
          Prod.mk.injEq] at h
        obtain ⟨rfl, rfl⟩ := h
        refine ⟨_, by rw [List.set_append_right _ _ (Nat.le_refl _), Nat.sub_self]; rfl, rfl, rfl, rfl, rfl, rfl,
          rfl, rfl, rfl, rfl, rfl, ?_, ?_, ?_⟩
        · simp only
          rw [Nat.add_mod, r1, Nat.zero_add, Nat.mod_mod, Nat.mod_mod]
        · intro x hx hd
          have := g3 x ((mem_iter _ _).2 ⟨hx, hd⟩)
          simp only
          omega
        · rcases g4 with g4 | ⟨x, hx, g4⟩
          · exact .inl g4
          · rw [mem_iter] at hx
            exact .inr ⟨x, hx.1, hx.2, g4⟩

/-- **C66.** `find_load_segment_from_offset` finds the first load segment, not deleted, whose file range has
the offset; `address_from_offset` is then the address at which this byte is loaded. -/
theorem C66_find_load_segment (t : List Seg) (offset : Nat) (s : Seg) (h : findLoad t offset = some s) :
    ∃ a b, t = a ++ s :: b ∧ s.delete = false ∧ s.pType = 1 ∧ s.pOffset ≤ offset ∧
      offset < s.pOffset + s.pFilesz ∧
      (s.pVaddr + s.pFilesz < U64 → s.pOffset < U64 → s.addressFromOffset offset = s.pVaddr + (offset - s.pOffset)) ∧
      ∀ x ∈ a, ¬ (x.delete = false ∧ x.pType = 1 ∧ x.pOffset ≤ offset ∧ offset < x.pOffset + x.pFilesz) := by
  have key : ∀ x : Seg, (decide (x.pType = 1) && x.containsOffset offset) = true ↔
      x.pType = 1 ∧ x.pOffset ≤ offset ∧ offset < x.pOffset + x.pFilesz := by
    intro x
    unfold Seg.containsOffset
    simp only [Bool.and_eq_true, decide_eq_true_eq]
    omega
  unfold findLoad at h
  rw [iter_eq] at h
  induction t with
  | nil => cases h
  | cons x xs ih =>
    by_cases hd : Item.deleted x = true
    · rw [List.filter_cons_of_neg (by simp [hd])] at h
      obtain ⟨a, b, e, r⟩ := ih h
      refine ⟨x :: a, b, by rw [e]; rfl, r.1, r.2.1, r.2.2.1, r.2.2.2.1, r.2.2.2.2.1, fun y hy => ?_⟩
      rcases List.mem_cons.1 hy with rfl | hy
      · rintro ⟨hh, _⟩
        have : y.delete = true := hd
        rw [hh] at this; cases this
      · exact r.2.2.2.2.2 y hy
    · rw [List.filter_cons_of_pos (by simp [hd]), List.find?_cons] at h
      split at h
      · rename_i hm
        cases h
        obtain ⟨k1, k2, k3⟩ := (key s).1 hm
        refine ⟨[], xs, rfl, by simpa using (show ¬ s.delete = true from hd), k1, k2, k3, fun hb hb2 => ?_, by simp⟩
        unfold Seg.addressFromOffset
        have : (offset + (U64 - s.pOffset)) % U64 = offset - s.pOffset := by
          have e : offset + (U64 - s.pOffset) = (offset - s.pOffset) + U64 := by omega
          rw [e, Nat.add_mod_right, Nat.mod_eq_of_lt (by omega)]
        rw [this, Nat.mod_eq_of_lt (by omega)]
      · rename_i hm
        obtain ⟨a, b, e, r⟩ := ih h
        refine ⟨x :: a, b, by rw [e]; rfl, r.1, r.2.1, r.2.2.1, r.2.2.2.1, r.2.2.2.2.1, fun y hy => ?_⟩
        rcases List.mem_cons.1 hy with rfl | hy
        · rintro ⟨_, hh⟩
          have := (key y).2 hh
          rw [hm] at this; cases this
        · exact r.2.2.2.2.2 y hy

/-- **C66.** If `find_load_segment_from_offset` finds nothing then there is nothing. -/
theorem C66_find_load_segment_none (t : List Seg) (offset : Nat) (h : findLoad t offset = none) :
    ∀ x ∈ t, ¬ (x.delete = false ∧ x.pType = 1 ∧ x.pOffset ≤ offset ∧ offset < x.pOffset + x.pFilesz) := by
  rintro x hx ⟨hd, h1, h2, h3⟩
  unfold findLoad at h
  rw [List.find?_eq_none] at h
  apply h x ((mem_iter _ _).2 ⟨hx, hd⟩)
  unfold Seg.containsOffset
  simp only [Bool.and_eq_true, decide_eq_true_eq]
  omega

/-- **C66.** `contains_address` is membership in the address range, and `remove_sections` empties the ranges. -/
theorem C66_contains_address (s : Seg) (address : Nat) :
    (s.containsAddress address = true ↔ s.pVaddr ≤ address ∧ address < s.pVaddr + s.pMemsz) ∧
      (s.removeSections.containsAddress address = false ∧ s.removeSections.containsOffset address = false ∧
        s.removeSections.sections = []) := by
  unfold Seg.containsAddress Seg.containsOffset Seg.removeSections
  simp only [decide_eq_true_eq, decide_eq_false_iff_not]
  refine ⟨by omega, by omega, by omega, trivial⟩

end Obj.Props

import Verif.Proof.Build
import Verif.Proof.Bytes
import Verif.Spec.Buffer

namespace Obj.Build

open Obj Obj.Build.Spec Obj.Spec

theorem add64_ok {a b r : Nat} (h : add64 a b = .ok r) : r = a + b ∧ a + b < U64 := by
  unfold add64 at h
  split at h
  · cases h; exact ⟨rfl, by assumption⟩
  · cases h

theorem align64_ok {n k al r : Nat} (hk : k < 64) (ha : al = 2 ^ k) (h : align64 n al = .ok r) :
    r = roundUp n al ∧ n + (al - 1) < U64 := by
  subst ha
  by_cases hn : n + (2 ^ k - 1) < 2 ^ 64
  · rw [align64_eq hk hn] at h
    cases h
    exact ⟨rfl, by simpa using hn⟩
  · have hp := Nat.two_pow_pos k
    have hn' : U64 ≤ n + (2 ^ k - 1) := by simpa using hn
    unfold align64 at h
    rw [if_neg (by omega), if_pos hn'] at h
    cases h

theorem eq_of_mod_eq {x y p : Nat} (h : x % p = y % p) (h1 : x < y + p) (h2 : y < x + p) : x = y := by
  have ex := Nat.div_add_mod x p
  have ey := Nat.div_add_mod y p
  rcases Nat.lt_trichotomy (x / p) (y / p) with hlt | heq | hlt
  · have : p * (x / p + 1) ≤ p * (y / p) := Nat.mul_le_mul_left p hlt
    rw [Nat.mul_add, Nat.mul_one] at this
    generalize p * (x / p) = A at *
    generalize p * (y / p) = B at *
    omega
  · rw [heq] at ex
    omega
  · have : p * (y / p + 1) ≤ p * (x / p) := Nat.mul_le_mul_left p hlt
    rw [Nat.mul_add, Nat.mul_one] at this
    generalize p * (x / p) = A at *
    generalize p * (y / p) = B at *
    omega

theorem roundUp_congr {a b p : Nat} (hp : 0 < p) (h : a % p = b % p) : roundUp a p + b = roundUp b p + a := by
  obtain ⟨h1, h2, h3⟩ := roundUp_spec a p hp
  obtain ⟨h4, h5, h6⟩ := roundUp_spec b p hp
  change roundUp a p % p = 0 at h1
  change a ≤ roundUp a p at h2
  change roundUp a p < a + p at h3
  change roundUp b p % p = 0 at h4
  change b ≤ roundUp b p at h5
  change roundUp b p < b + p at h6
  apply eq_of_mod_eq (p := p)
  · rw [Nat.add_mod, h1, Nat.zero_add, Nat.add_mod (roundUp b p), h4, Nat.zero_add, h]
  · omega
  · omega

/-- The exact effect of `append_section_range`. -/
theorem appendRange_ok {s s' : Seg} {c : Sec} (h : s.appendRange c = .ok s') :
    (s.pMemsz = 0 ∧ s' = { s with pOffset := c.shOffset, pFilesz := c.filesize, pVaddr := c.shAddr,
                                   pPaddr := c.shAddr, pMemsz := c.shSize }) ∨
    (s.pMemsz ≠ 0 ∧
      s' = { s with
        pOffset := min s.pOffset c.shOffset
        pFilesz := max s.pFilesz (c.shOffset + c.filesize - min s.pOffset c.shOffset)
        pVaddr := min s.pVaddr c.shAddr
        pPaddr := if s.pVaddr > c.shAddr then c.shAddr else s.pPaddr
        pMemsz := max s.pMemsz (c.shAddr + c.shSize - min s.pVaddr c.shAddr) }) := by
  unfold Seg.appendRange at h
  by_cases hm : s.pMemsz = 0
  · rw [if_pos hm] at h
    cases h
    exact .inl ⟨hm, rfl⟩
  · rw [if_neg hm] at h
    simp only at h
    cases ha : add64 c.shOffset c.filesize with
    | err => rw [ha] at h; cases h
    | panic => rw [ha] at h; cases h
    | ok fe =>
      rw [ha, Res.ok_bind] at h
      obtain ⟨rfl, _⟩ := add64_ok ha
      cases hb : add64 c.shAddr c.shSize with
      | err => rw [hb] at h; cases h
      | panic => rw [hb] at h; cases h
      | ok me =>
        rw [hb, Res.ok_bind] at h
        obtain ⟨rfl, _⟩ := add64_ok hb
        refine .inr ⟨hm, ?_⟩
        have e1 : (if s.pOffset > c.shOffset then c.shOffset else s.pOffset) = min s.pOffset c.shOffset := by
          split <;> omega
        have e2 : (if s.pVaddr > c.shAddr then c.shAddr else s.pVaddr) = min s.pVaddr c.shAddr := by
          split <;> omega
        rw [e1, e2] at h
        have e3 : ∀ a b : Nat, (if a < b then b else a) = max a b := by
          intro a b; split <;> omega
        rw [e3, e3] at h
        cases h
        rfl

theorem filesize_eq (c : Sec) : c.filesize = fileBytes c := rfl

theorem filesize_le (c : Sec) : c.filesize ≤ c.shSize := by
  unfold Sec.filesize; split <;> omega

theorem appendRange_covers {s s' : Seg} {c : Sec} (h : s.appendRange c = .ok s') : Covers s' c := by
  rcases appendRange_ok h with ⟨_, rfl⟩ | ⟨_, rfl⟩
  · exact ⟨fun _ => ⟨Nat.le_refl _, Nat.le_refl _⟩, fun _ => ⟨Nat.le_refl _, Nat.le_refl _⟩⟩
  · rw [filesize_eq]
    refine ⟨fun _ => ⟨?_, ?_⟩, fun _ => ⟨?_, ?_⟩⟩ <;> simp only <;> omega

theorem not_covers_empty {s : Seg} {d : Sec} (hm : s.pMemsz = 0) (hc : Covers s d) : d.shSize = 0 ∧ d.filesize = 0 := by
  have h1 : d.shSize = 0 := by
    apply Classical.byContradiction
    intro hn
    have := hc.2 hn
    omega
  have := filesize_le d
  omega

theorem appendRange_keeps {s s' : Seg} {c d : Sec} (h : s.appendRange c = .ok s') (hc : Covers s d)
    (ho : s.pMemsz = 0 ∨ (s.pOffset ≤ c.shOffset ∧ s.pVaddr ≤ c.shAddr)) : Covers s' d := by
  rcases appendRange_ok h with ⟨hm, rfl⟩ | ⟨hm, rfl⟩
  · obtain ⟨h1, h2⟩ := not_covers_empty hm hc
    exact ⟨fun hn => absurd h2 hn, fun hn => absurd h1 hn⟩
  · rcases ho with ho | ho
    · exact absurd ho hm
    · refine ⟨fun hn => ?_, fun hn => ?_⟩
      · have := hc.1 hn
        simp only
        omega
      · have := hc.2 hn
        simp only
        omega

/-- One `append_section` on a load segment. -/
theorem appendSection_load {s s' : Seg} {c c' : Sec} {k : Nat} (h : s.appendSection c = .ok (s', c'))
    (hl : s.pType = 1) (hv : s.pPaddr = s.pVaddr) (hk : k < 64) (ha : c.addralign = 2 ^ k) :
    s.pFilesz = s.pMemsz ∧
    c' = { c with shOffset := roundUp (s.pOffset + s.pFilesz) c.addralign,
                  shAddr := roundUp (s.pVaddr + s.pMemsz) c.addralign } ∧
    s' = { s with
      pOffset := if s.pMemsz = 0 then c'.shOffset else s.pOffset
      pVaddr := if s.pMemsz = 0 then c'.shAddr else s.pVaddr
      pPaddr := if s.pMemsz = 0 then c'.shAddr else s.pVaddr
      pFilesz := c'.shOffset + c.filesize - (if s.pMemsz = 0 then c'.shOffset else s.pOffset)
      pMemsz := c'.shAddr + c.shSize - (if s.pMemsz = 0 then c'.shAddr else s.pVaddr)
      sections := s.sections ++ [c.id] } := by
  unfold Seg.appendSection at h
  by_cases hfm : s.pFilesz ≠ s.pMemsz
  · rw [if_pos hfm] at h; cases h
  · rw [if_neg hfm, if_pos hl] at h
    have hfm : s.pFilesz = s.pMemsz := Classical.not_not.1 hfm
    refine ⟨hfm, ?_⟩
    have hp : 0 < c.addralign := by rw [ha]; exact Nat.two_pow_pos k
    cases h1 : add64 s.pOffset s.pFilesz with
    | err => rw [h1] at h; cases h
    | panic => rw [h1] at h; cases h
    | ok a =>
      rw [h1, Res.ok_bind] at h
      obtain ⟨rfl, _⟩ := add64_ok h1
      cases h2 : align64 (s.pOffset + s.pFilesz) c.addralign with
      | err => rw [h2] at h; cases h
      | panic => rw [h2] at h; cases h
      | ok o =>
        rw [h2, Res.ok_bind] at h
        obtain ⟨rfl, _⟩ := align64_ok hk ha h2
        cases h3 : add64 s.pPaddr s.pMemsz with
        | err => rw [h3] at h; cases h
        | panic => rw [h3] at h; cases h
        | ok b =>
          rw [h3, Res.ok_bind] at h
          obtain ⟨rfl, _⟩ := add64_ok h3
          cases h4 : align64 (s.pPaddr + s.pMemsz) c.addralign with
          | err => rw [h4] at h; cases h
          | panic => rw [h4] at h; cases h
          | ok ad =>
            rw [h4, Res.ok_bind, Res.ok_bind] at h
            obtain ⟨rfl, _⟩ := align64_ok hk ha h4
            rw [hv] at h
            generalize hcc : ({ c with shOffset := roundUp (s.pOffset + s.pFilesz) c.addralign,
                                       shAddr := roundUp (s.pVaddr + s.pMemsz) c.addralign } : Sec) = cc at h ⊢
            cases h5 : s.appendRange cc with
            | err => rw [h5] at h; cases h
            | panic => rw [h5] at h; cases h
            | ok s1 =>
              rw [h5, Res.ok_bind] at h
              cases h
              refine ⟨rfl, ?_⟩
              have ho : c'.shOffset = roundUp (s.pOffset + s.pFilesz) c.addralign := by rw [← hcc]
              have had : c'.shAddr = roundUp (s.pVaddr + s.pMemsz) c.addralign := by rw [← hcc]
              have hfs : c'.filesize = c.filesize := by rw [← hcc]; rfl
              have hsz : c'.shSize = c.shSize := by rw [← hcc]
              have hid : c'.id = c.id := by rw [← hcc]
              have g1 : s.pOffset + s.pFilesz ≤ c'.shOffset := by rw [ho]; exact (roundUp_spec _ _ hp).2.1
              have g2 : s.pVaddr + s.pMemsz ≤ c'.shAddr := by rw [had]; exact (roundUp_spec _ _ hp).2.1
              rcases appendRange_ok h5 with ⟨hm, rfl⟩ | ⟨hm, rfl⟩
              · simp only [if_pos hm, hfs, hsz, hid, Nat.add_sub_cancel_left]
              · simp only [if_neg hm, hfs, hsz, hid, Seg.mk.injEq, true_and, and_true]
                refine ⟨by omega, by omega, ?_, by omega, by omega⟩
                rw [if_neg (by omega)]; exact hv

end Obj.Build

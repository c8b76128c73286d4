import Verif.Spec.MachoFile
import Verif.Proof.Pe
import Verif.Proof.Util
import Verif.Proof.MachoReloc
import Verif.Proof.MachoImport
import Verif.Props.MachOIter

/-! # Reading Mach-O files: the headers -/

namespace Obj.MachoF
open Obj Obj.MachoR Obj.Spec.MachoF
open Obj.MachO (LoadCommands LoadCommandData)

theorem num_slice (en : Endianness) (data : List UInt8) (o n off w : Nat) (h : off + w ≤ n) :
    num en (slice data o n) off w = num en data (o + off) w := by
  unfold num
  rw [slice_slice _ _ _ _ _ h]

theorem decode_one (en : Endianness) (w : Nat) (ws : List Nat) (data : List UInt8) (o : Nat) :
    Obj.decode en (w :: ws) (data.drop o) = num en data o w :: Obj.decode en ws (data.drop (o + w)) := by
  simp only [Obj.decode, num, slice, List.drop_drop]

theorem header_decode (c : Cfg) (data : List UInt8) : Mhdr.decode c data = headerIn c.en data := by
  unfold Mhdr.decode headerIn
  simp only [decode_one, Nat.reduceAdd]
  rfl

theorem seg_decode (c : Cfg) (b : List UInt8) : Seg.decode c b = segmentIn c b := by
  unfold Seg.decode segmentIn
  cases hc : c.is64 <;> simp only [decode_one, Elf.Cfg.w, hc, width, if_true, if_false, Bool.false_eq_true, Nat.reduceAdd, Nat.reduceMul] <;> rfl

theorem sect_decode (c : Cfg) (b : List UInt8) (o : Nat) : Sect.decode c (slice b o (sectSize c)) = sectionAt c b o := by
  unfold Sect.decode sectionAt sectSize
  cases hc : c.is64 <;>
  simp (discharger := decide) only [decode_one, Elf.Cfg.w, hc, width, if_true, if_false, Bool.false_eq_true, Nat.reduceAdd, Nat.reduceMul, List.cons_append, List.nil_append,
    num_slice, Nat.add_assoc] 
  · rw [show (slice b o 68).take 16 = slice b o 16 from by have := slice_slice b o 68 0 16 (by omega); simpa [slice] using this]
    rw [show ((slice b o 68).drop 16).take 16 = slice b (o + 16) 16 from slice_slice b o 68 16 16 (by omega)]
    rfl
  · rw [show (slice b o 80).take 16 = slice b o 16 from by have := slice_slice b o 80 0 16 (by omega); simpa [slice] using this]
    rw [show ((slice b o 80).drop 16).take 16 = slice b (o + 16) 16 from slice_slice b o 80 16 16 (by omega)]
    rfl

theorem nlist_decode (c : Cfg) (data : List UInt8) (o : Nat) : Nlist.decode c (slice data o (nlistSize c)) = symbolAt c data o := by
  unfold Nlist.decode symbolAt nlistSize
  rw [← List.drop_zero (l := slice data o _)]
  cases hc : c.is64 <;>
  simp (discharger := decide) only [decode_one, Elf.Cfg.w, hc, width, if_true, if_false, Bool.false_eq_true, Nat.reduceAdd, num_slice, Nat.add_zero] <;> rfl

theorem symtab_decode (c : Cfg) (b : List UInt8) : SymtabCmd.decode c b = ⟨num c.en b 8 4, num c.en b 12 4, num c.en b 16 4, num c.en b 20 4⟩ := by
  unfold SymtabCmd.decode
  rw [← List.drop_zero (l := b)]
  simp only [decode_one, Nat.reduceAdd]
  rfl

theorem buildVersion_decode (c : Cfg) (b : List UInt8) :
    BuildVersion.decode c b = ⟨num c.en b 8 4, num c.en b 12 4, num c.en b 16 4, num c.en b 20 4⟩ := by
  unfold BuildVersion.decode
  rw [← List.drop_zero (l := b)]
  simp only [decode_one, Nat.reduceAdd]
  rfl

theorem num_lt (en : Endianness) (data : List UInt8) (o w : Nat) : num en data o w < 256 ^ w := by
  unfold num
  refine Nat.lt_of_lt_of_le (rd_lt en _) (Nat.pow_le_pow_right (by decide) ?_)
  simp only [slice, List.length_take]; omega

/-! ## The file header -/

def magicNum (is64 : Bool) : Nat := if is64 then 0xfeedfacf else 0xfeedface

theorem magic_eq (is64 : Bool) (en : Endianness) : magic ⟨is64, en⟩ = wr en 4 (magicNum is64) := by
  cases is64 <;> cases en <;> decide +kernel

theorem magic_iff (is64 : Bool) (en : Endianness) (data : List UInt8) (h : 4 ≤ data.length) :
    slice data 0 4 = magic ⟨is64, en⟩ ↔ num en data 0 4 = magicNum is64 := by
  rw [magic_eq]
  have hl : (slice data 0 4).length = 4 := length_slice_of (Or.inr (by omega))
  constructor
  · intro e
    unfold num
    rw [e, rd_wr _ _ _ (by cases is64 <;> decide)]
  · intro e
    rw [← e]
    have := wr_rd en (slice data 0 4)
    rw [hl] at this
    exact this.symm

theorem magic_ne (is64 : Bool) : magic ⟨is64, .little⟩ ≠ magic ⟨is64, .big⟩ := by cases is64 <;> decide

theorem parseHeader_iff (is64 : Bool) (data : List UInt8) (c : Cfg) (h : Mhdr) :
    parseHeader is64 data = .ok (c, h) ↔
      c.is64 = is64 ∧ headerSize is64 ≤ data.length ∧ num c.en data 0 4 = magicNum is64 ∧ h = headerIn c.en data := by
  unfold parseHeader
  rw [show (if is64 then 32 else 28 : Nat) = headerSize is64 from rfl]
  have h28 : 28 ≤ headerSize is64 := by unfold headerSize; split <;> omega
  rw [readRef_readBytesAt_pos (by omega)]
  by_cases hs : 0 + headerSize is64 ≤ data.length
  rotate_left
  · rw [if_neg hs]
    simp only [Res.err_bind, reduceCtorEq, false_iff]
    intro h; omega
  rw [if_pos hs, Res.ok_bind]
  have ht : (slice data 0 (headerSize is64)).take 4 = slice data 0 4 := by
    have := slice_slice data 0 (headerSize is64) 0 4 (by omega)
    simpa [slice] using this
  have hd : ∀ c : Cfg, Mhdr.decode c (slice data 0 (headerSize is64)) = headerIn c.en data := by
    intro c
    rw [header_decode]
    unfold headerIn
    rw [num_slice _ _ _ _ _ _ (by omega), num_slice _ _ _ _ _ _ (by omega), num_slice _ _ _ _ _ _ (by omega), num_slice _ _ _ _ _ _ (by omega),
      num_slice _ _ _ _ _ _ (by omega), num_slice _ _ _ _ _ _ (by omega)]
  rw [ht, hd, hd]
  obtain ⟨i, en⟩ := c
  dsimp only
  by_cases hl : slice data 0 4 = magic ⟨is64, .little⟩
  · rw [if_pos hl]
    simp only [Res.ok.injEq, Prod.mk.injEq, Elf.Cfg.mk.injEq]
    constructor
    · rintro ⟨⟨rfl, rfl⟩, rfl⟩
      exact ⟨rfl, by omega, (magic_iff _ _ _ (by omega)).1 hl, rfl⟩
    · rintro ⟨rfl, -, h1, rfl⟩
      cases en
      · exact ⟨⟨rfl, rfl⟩, rfl⟩
      · exact absurd (hl.symm.trans ((magic_iff _ _ _ (by omega)).2 h1)) (magic_ne _)
  · rw [if_neg hl]
    by_cases hb : slice data 0 4 = magic ⟨is64, .big⟩
    · rw [if_pos hb]
      simp only [Res.ok.injEq, Prod.mk.injEq, Elf.Cfg.mk.injEq]
      constructor
      · rintro ⟨⟨rfl, rfl⟩, rfl⟩
        exact ⟨rfl, by omega, (magic_iff _ _ _ (by omega)).1 hb, rfl⟩
      · rintro ⟨rfl, -, h1, rfl⟩
        cases en
        · exact absurd ((magic_iff _ _ _ (by omega)).2 h1) hl
        · exact ⟨⟨rfl, rfl⟩, rfl⟩
    · rw [if_neg hb]
      simp only [reduceCtorEq, false_iff]
      rintro ⟨rfl, -, h1, -⟩
      cases en
      · exact hl ((magic_iff _ _ _ (by omega)).2 h1)
      · exact hb ((magic_iff _ _ _ (by omega)).2 h1)

theorem parseHeader_no_panic (is64 : Bool) (data : List UInt8) : parseHeader is64 data ≠ .panic := by
  unfold parseHeader
  refine Res.bind_no_panic (readRef_readBytesAt_no_panic _ _ _) fun img _ => ?_
  split
  · simp
  · split <;> simp

/-! ## Names -/

theorem hasName_iff (raw name : List UInt8) : HasName raw name ↔ upToNul raw = name := by
  unfold HasName upToNul
  constructor
  · rintro ⟨h0, rfl | ⟨tl, rfl⟩⟩
    · have := List.takeWhile_append_of_pos (p := fun b : UInt8 => decide (b ≠ 0)) (l₁ := raw) (l₂ := []) (by
        intro b hb
        simp only [decide_eq_true_eq]
        rintro rfl
        exact h0 hb)
      simpa using this
    · rw [List.takeWhile_append_of_pos]
      · simp
      · intro b hb
        simp only [decide_eq_true_eq]
        rintro rfl
        exact h0 hb
  · rintro rfl
    induction raw with
    | nil => simp
    | cons b tl ih =>
      by_cases hb : b = 0
      · subst hb; simp
      · rw [List.takeWhile_cons_of_pos (by simpa using hb)]
        obtain ⟨h1, h2⟩ := ih
        refine ⟨?_, ?_⟩
        · intro h
          rcases List.mem_cons.1 h with h | h
          · exact hb h.symm
          · exact h1 h
        · rcases h2 with h2 | ⟨t, h2⟩
          · exact .inl (by rw [← h2])
          · exact .inr ⟨t, by rw [List.cons_append, ← h2]⟩

/-! ## Kinds of sections -/

theorem and255 (n : Nat) : n &&& 0xff = n % 256 := Nat.and_two_pow_sub_one_eq_mod n 8

theorem testBit_and (n k : Nat) : n &&& 2 ^ k = 2 ^ k ↔ n.testBit k = true := by
  constructor
  · intro h
    have := congrArg (fun x => x.testBit k) h
    simpa [Nat.testBit_and, Nat.testBit_two_pow_self] using this
  · intro h
    apply Nat.eq_of_testBit_eq
    intro i
    rw [Nat.testBit_and]
    by_cases hi : k = i
    · subst hi; simp [h, Nat.testBit_two_pow_self]
    · simp [Nat.testBit_two_pow_of_ne hi]

theorem and_pair (n : Nat) : n &&& 0x80000400 ≠ 0 ↔ n.testBit 31 = true ∨ n.testBit 10 = true := by
  have e : (0x80000400 : Nat) = 2 ^ 31 ||| 2 ^ 10 := by decide
  constructor
  · intro h
    by_cases h1 : n.testBit 31 = true
    · exact .inl h1
    by_cases h2 : n.testBit 10 = true
    · exact .inr h2
    exfalso
    apply h
    apply Nat.eq_of_testBit_eq
    intro i
    rw [e, Nat.testBit_and, Nat.testBit_or, Nat.zero_testBit]
    by_cases hi : 31 = i
    · subst hi; simp [h1]
    · by_cases hj : 10 = i
      · subst hj; simp [h2]
      · simp [Nat.testBit_two_pow_of_ne hi, Nat.testBit_two_pow_of_ne hj]
  · intro h h0
    have h1 := congrArg (fun x => x.testBit 31) h0
    have h2 := congrArg (fun x => x.testBit 10) h0
    simp only [e, Nat.testBit_and, Nat.testBit_or, Nat.zero_testBit] at h1 h2
    rcases h with h | h
    · rw [h] at h1; revert h1; decide
    · rw [h] at h2; revert h2; decide

theorem readOnly_iff (h : Mhdr) (g : Seg) (s : Sect) :
    ((readonlyOf h g).getD (decide (upToNul s.segname = [95, 95, 84, 69, 88, 84])) = true) ↔ ReadOnly h.filetype g s := by
  unfold readonlyOf ReadOnly
  split
  · rw [hasName_iff, Option.getD_none, decide_eq_true_eq]
    rw [show ascii "__TEXT" = [95, 95, 84, 69, 88, 84] by decide]
  · rw [Option.getD_some, Bool.or_eq_true, decide_eq_true_eq, decide_eq_true_eq, ← testBit_and, ← testBit_and]

theorem kind_iff (h : Mhdr) (g : Seg) (s : Sect) (k : SectionKind) : KindOf h.filetype g s k ↔ sectKind (readonlyOf h g) s = k := by
  have hd : HasName s.segname (ascii "__DWARF") ↔ upToNul s.segname = [95, 95, 68, 87, 65, 82, 70] := by
    rw [hasName_iff, show ascii "__DWARF" = [95, 95, 68, 87, 65, 82, 70] by decide]
  have hr := readOnly_iff h g s
  have hb : s.flags.testBit 25 = true ↔ s.flags &&& 0x2000000 = 0x2000000 := (testBit_and _ 25).symm
  have hi := and_pair s.flags
  have ex : ∃ k, KindOf h.filetype g s k := by
    by_cases h1 : HasName s.segname (ascii "__DWARF")
    · exact ⟨_, .dwarf h1⟩
    by_cases h2 : s.flags.testBit 25
    · exact ⟨_, .debug h1 h2⟩
    by_cases h3 : ∃ k, (s.flags % 256, k) ∈ typeKinds
    · exact ⟨_, .typed h1 h2 h3.choose_spec⟩
    by_cases h4 : s.flags % 256 ∈ plainTypes
    · by_cases h5 : s.flags.testBit 31 ∨ s.flags.testBit 10
      · exact ⟨_, .code h1 h2 h4 h5⟩
      · by_cases h6 : ReadOnly h.filetype g s
        · exact ⟨_, .readOnly h1 h2 h4 h5 h6⟩
        · exact ⟨_, .data h1 h2 h4 h5 h6⟩
    · exact ⟨_, .other h1 h2 (fun k hk => h3 ⟨k, hk⟩) h4⟩
  have key : ∀ k, KindOf h.filetype g s k → sectKind (readonlyOf h g) s = k := by
    intro k hk
    unfold sectKind
    simp only [and255]
    cases hk with
    | dwarf h1 => rw [if_pos (hd.1 h1)]
    | debug h1 h2 => rw [if_neg (fun e => h1 (hd.2 e)), if_pos (hb.1 h2)]
    | typed h1 h2 h3 =>
      rw [if_neg (fun e => h1 (hd.2 e)), if_neg (fun e => h2 (hb.2 e))]
      simp only [typeKinds, List.mem_cons, Prod.mk.injEq, List.not_mem_nil, or_false] at h3
      rcases h3 with ⟨h3, rfl⟩ | ⟨h3, rfl⟩ | ⟨h3, rfl⟩ | ⟨h3, rfl⟩ | ⟨h3, rfl⟩ | ⟨h3, rfl⟩ | ⟨h3, rfl⟩ | ⟨h3, rfl⟩ | ⟨h3, rfl⟩ | ⟨h3, rfl⟩ |
        ⟨h3, rfl⟩ <;> rw [h3] <;> rfl
    | code h1 h2 h3 h4 =>
      rw [if_neg (fun e => h1 (hd.2 e)), if_neg (fun e => h2 (hb.2 e)), if_pos (hi.2 h4)]
      simp only [plainTypes, List.mem_cons, List.not_mem_nil, or_false] at h3
      rcases h3 with h3 | h3 | h3 | h3 | h3 | h3 | h3 | h3 | h3 | h3 | h3 <;> rw [h3] <;> rfl
    | readOnly h1 h2 h3 h4 h5 =>
      rw [if_neg (fun e => h1 (hd.2 e)), if_neg (fun e => h2 (hb.2 e)), if_neg (fun e => h4 (hi.1 e)), if_pos (hr.2 h5)]
      simp only [plainTypes, List.mem_cons, List.not_mem_nil, or_false] at h3
      rcases h3 with h3 | h3 | h3 | h3 | h3 | h3 | h3 | h3 | h3 | h3 | h3 <;> rw [h3] <;> rfl
    | data h1 h2 h3 h4 h5 =>
      rw [if_neg (fun e => h1 (hd.2 e)), if_neg (fun e => h2 (hb.2 e)), if_neg (fun e => h4 (hi.1 e)), if_neg (fun e => h5 (hr.1 e))]
      simp only [plainTypes, List.mem_cons, List.not_mem_nil, or_false] at h3
      rcases h3 with h3 | h3 | h3 | h3 | h3 | h3 | h3 | h3 | h3 | h3 | h3 <;> rw [h3] <;> rfl
    | other h1 h2 h3 h4 =>
      rw [if_neg (fun e => h1 (hd.2 e)), if_neg (fun e => h2 (hb.2 e))]
      have h5 : ∀ t, t ∈ typeKinds.map (·.1) → s.flags % 256 = t → False := by
        rintro t ht rfl
        obtain ⟨p, hp, e⟩ := List.mem_map.1 ht
        exact h3 p.2 (by rw [← e]; exact hp)
      have h6 := fun t (h : t ∈ plainTypes) (e : s.flags % 256 = t) => h4 (e ▸ h)
      rw [if_neg (by rintro (e | e) <;> exact h5 _ (by decide) e), if_neg (h5 _ (by decide)),
        if_neg (by rintro (e | e | e | e) <;> exact h5 _ (by decide) e), if_neg (h5 _ (by decide)), if_neg (h5 _ (by decide)),
        if_neg (h5 _ (by decide)), if_neg (h5 _ (by decide)),
        if_neg (by rintro (e | e | e | e | e | e | e | e | e | e | e) <;> exact h6 _ (by decide) e)]
  constructor
  · exact key k
  · rintro rfl
    obtain ⟨k, hk⟩ := ex
    rw [key k hk]; exact hk

/-! ## Offsets of sections -/

theorem fileSize_none (s : Sect) : s.fileSize = none ↔ Zerofill s := by
  unfold Sect.fileSize Zerofill
  simp only [and255, List.mem_cons, List.not_mem_nil, or_false]
  split <;> rename_i h
  · simpa using h
  · simpa using h

theorem fileSize_some (s : Sect) (n : Nat) : s.fileSize = some n ↔ ¬ Zerofill s ∧ n = s.size := by
  unfold Sect.fileSize Zerofill
  simp only [and255, List.mem_cons, List.not_mem_nil, or_false]
  split <;> rename_i h
  · simp [h]
  · constructor
    · intro e
      exact ⟨h, (Option.some.inj e).symm⟩
    · rintro ⟨-, rfl⟩; rfl

theorem so_some (e prev size : Nat) (s : Sect) (ss : List Sect) (h : s.fileSize = some size) :
    MachoR.sectionOffsets true e prev (s :: ss) =
      (let off := s.offset ||| (prev &&& 0xffffffff00000000)
       let off := if off < prev then (off + 0x100000000) % U64 else off
       let e' := (off + size) % U64
       if e < e' then .err else (MachoR.sectionOffsets true e e' ss).bind fun r => .ok (off :: r)) := by
  rw [MachoR.sectionOffsets.eq_def]
  simp only [h]

theorem so_none (e prev : Nat) (s : Sect) (ss : List Sect) (h : s.fileSize = none) :
    MachoR.sectionOffsets true e prev (s :: ss) = (MachoR.sectionOffsets true e prev ss).bind fun r => .ok (s.offset :: r) := by
  rw [MachoR.sectionOffsets.eq_def]
  simp only [h]

theorem high_or (off prev : Nat) (h : off < 2 ^ 32) (hp : prev < 2 ^ 64) : off ||| (prev &&& 0xffffffff00000000) = prev / 2 ^ 32 * 2 ^ 32 + off := by
  have e : prev &&& 0xffffffff00000000 = prev / 2 ^ 32 * 2 ^ 32 := by
    exact and_mask_eq (k := 32) (n := 64) (by decide) hp
  rw [e, Nat.or_comm, Nat.mul_comm, ← Nat.two_pow_add_eq_or_of_lt h]

/-- The first number from `prev` on that is `off` modulo 2^32. -/
theorem first_iff (off prev x : Nat) (h : off < 2 ^ 32) : (x % 2 ^ 32 = off ∧ prev ≤ x ∧ x < prev + 2 ^ 32) ↔
    x = (if prev / 2 ^ 32 * 2 ^ 32 + off < prev then prev / 2 ^ 32 * 2 ^ 32 + off + 2 ^ 32 else prev / 2 ^ 32 * 2 ^ 32 + off) := by
  simp only [Nat.reducePow] at *
  split <;> omega

theorem offsets_iff (e : Nat) (ss : List Sect) (hs : ∀ s ∈ ss, s.offset < 2 ^ 32) (prev : Nat) (hp : prev < 2 ^ 64) (os : List Nat) :
    MachoR.sectionOffsets true e prev ss = .ok os ↔ LargeOffsets e prev ss os := by
  induction ss generalizing prev os with
  | nil =>
    simp only [MachoR.sectionOffsets, Res.ok.injEq]
    constructor
    · rintro rfl; exact .nil
    · intro h; cases h; rfl
  | cons s ss ih =>
    have h0 : s.offset < 2 ^ 32 := hs s (by simp)
    replace ih := ih (fun s h => hs s (by simp [h]))
    cases hf : s.fileSize with
    | some size =>
      rw [so_some _ _ _ _ _ hf]
      obtain ⟨hz, rfl⟩ := (fileSize_some _ _).1 hf
      dsimp only
      rw [high_or _ _ h0 hp]
      generalize hx : (if prev / 2 ^ 32 * 2 ^ 32 + s.offset < prev then prev / 2 ^ 32 * 2 ^ 32 + s.offset + 2 ^ 32 else prev / 2 ^ 32 * 2 ^ 32 + s.offset) = x
      have hx' : (if prev / 2 ^ 32 * 2 ^ 32 + s.offset < prev then (prev / 2 ^ 32 * 2 ^ 32 + s.offset + 0x100000000) % U64 else
          prev / 2 ^ 32 * 2 ^ 32 + s.offset) = x % 2 ^ 64 := by
        rw [← hx]
        split
        · rfl
        · simp only [Nat.reducePow] at *; omega
      simp only [hx']
      have hm : (x % 2 ^ 64 + s.size) % U64 = (x + s.size) % 2 ^ 64 := by
        have : (U64 : Nat) = 2 ^ 64 := rfl
        rw [this, Nat.mod_add_mod]
      rw [hm]
      by_cases he : e < (x + s.size) % 2 ^ 64
      · rw [if_pos he]
        simp only [reduceCtorEq, false_iff]
        intro h
        cases h with
        | zerofill h _ => exact hz h
        | data _ h1 h2 h3 h4 _ =>
          have := (first_iff _ _ _ h0).1 ⟨h1, h2, h3⟩
          rw [hx] at this
          subst this
          omega
      · rw [if_neg he]
        have hlt : (x + s.size) % 2 ^ 64 < 2 ^ 64 := Nat.mod_lt _ (by decide)
        constructor
        · intro h
          obtain ⟨r, h1, h2⟩ := (Res.bind_eq_ok ..).1 h
          simp only [Res.ok.injEq] at h2
          subst h2
          obtain ⟨g1, g2, g3⟩ := (first_iff _ _ _ h0).2 hx.symm
          exact .data hz g1 g2 g3 (by omega) ((ih _ hlt _).1 h1)
        · intro h
          cases h with
          | zerofill h _ => exact absurd h hz
          | data _ h1 h2 h3 h4 h5 =>
            have := (first_iff _ _ _ h0).1 ⟨h1, h2, h3⟩
            rw [hx] at this
            subst this
            rw [(ih _ hlt _).2 h5]
            rfl
    | none =>
      rw [so_none _ _ _ _ hf]
      have hz : Zerofill s := (fileSize_none s).1 hf
      constructor
      · intro h
        obtain ⟨r, h1, h2⟩ := (Res.bind_eq_ok ..).1 h
        simp only [Res.ok.injEq] at h2
        subst h2
        exact .zerofill hz ((ih _ hp _).1 h1)
      · intro h
        cases h with
        | zerofill _ h => rw [(ih _ hp _).2 h]; rfl
        | data h _ => exact absurd hz h

theorem offsets_small (e : Nat) (ss : List Sect) (prev : Nat) : MachoR.sectionOffsets false e prev ss = .ok (ss.map (·.offset)) := by
  induction ss with
  | nil => rfl
  | cons s ss ih =>
    rw [MachoR.sectionOffsets]
    · rw [ih]; rfl
    · intro size h _; exact absurd h (by decide)

theorem offsetsOf_iff (g : Seg) (hg : g.fileoff < 2 ^ 64) (ss : List Sect) (hs : ∀ s ∈ ss, s.offset < 2 ^ 32) (os : List Nat) :
    g.sectionOffsets ss = .ok os ↔ OffsetsOf g ss os := by
  unfold Seg.sectionOffsets OffsetsOf
  have hu : (U64 : Nat) = 2 ^ 64 := rfl
  have hu' : (U32 : Nat) = 2 ^ 32 := rfl
  simp only [hu, hu']
  split <;> rename_i h
  · rw [decide_eq_false (by simp only [Nat.reducePow] at *; omega), offsets_small]
    simp [eq_comm]
  · rw [decide_eq_true (by simp only [Nat.reducePow] at *; omega)]
    exact offsets_iff _ _ hs _ hg _

end Obj.MachoF

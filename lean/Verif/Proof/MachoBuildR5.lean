import Verif.Proof.MachoBuildR4

/-! Reading of files by the Mach-O builder. -/

namespace Obj.MachoB
open Obj Obj.MachoR Obj.Spec.MachoB
open Obj.BuildW (foldR mapR)
open Obj.Spec.MachoF (Each num width headerSize headerIn IsCommand segmentSize sectionSize segmentIn sectionsIn Zerofill OffsetsOf LargeOffsets SymbolsOf IndirectOf
  CommandsIn CommandsOf)
open Obj.Spec.MachoI (PartIs)
open Obj.MachO (LoadCommands LoadCommandData)
open Obj.MachoF Obj.MachoI

/-! ## The page size -/

theorem tz_iff (w n m : Nat) (hm : m ≤ w) : m ≤ trailingZeros w n ↔ 2 ^ m ∣ n := by
  induction w generalizing n m with
  | zero =>
    have : m = 0 := by omega
    subst this
    simp
  | succ w ih =>
    unfold trailingZeros
    cases m with
    | zero => simp
    | succ m =>
      split
      · rename_i h
        constructor
        · intro h'; omega
        · intro h'
          have : 2 ∣ n := Nat.dvd_trans ⟨2 ^ m, by rw [Nat.pow_succ, Nat.mul_comm]⟩ h'
          omega
      · rename_i h
        have h2 : 2 * (n / 2) = n := by omega
        have := ih (n / 2) m (by omega)
        rw [show m + 1 ≤ 1 + trailingZeros w (n / 2) ↔ m ≤ trailingZeros w (n / 2) by omega, this, Nat.pow_succ, Nat.mul_comm]
        conv => rhs; rw [← h2]
        exact (Nat.mul_dvd_mul_iff_left (by omega)).symm

/-- The exponent of the page size after the first loop. -/
def bits (en : Endianness) (ks : List (List UInt8)) (n : Nat) : Nat :=
  ks.foldl (fun a k => min a (trailingZeros (8 * (segCfg en k).w) (segmentIn (segCfg en k) k).fileoff)) n

theorem bits_iff (en : Endianness) (ks : List (List UInt8)) (n m : Nat) (hm : m ≤ 14) :
    m ≤ bits en ks n ↔ m ≤ n ∧ ∀ k ∈ ks, 2 ^ m ∣ (segmentIn (segCfg en k) k).fileoff := by
  unfold bits
  induction ks generalizing n with
  | nil => simp
  | cons k ks ih =>
    have hw : m ≤ 8 * (segCfg en k).w := by
      unfold Elf.Cfg.w
      split <;> omega
    rw [List.foldl_cons, ih, Nat.le_min, tz_iff _ _ _ hw]
    simp only [List.mem_cons, forall_eq_or_imp, and_assoc]

theorem pageSize_iff (en : Endianness) (cmds : List (List UInt8)) (size : Nat) :
    size = 2 ^ bits en (cmds.filter (isSegment en)) 14 ↔ PageSize en cmds size := by
  have hb : bits en (cmds.filter (isSegment en)) 14 ≤ 14 := by
    rcases Nat.lt_or_ge 14 (bits en (cmds.filter (isSegment en)) 14) with h | h
    · have : ∀ (ks : List (List UInt8)) n, bits en ks n ≤ n := by
        intro ks
        induction ks with
        | nil => intro n; exact Nat.le_refl _
        | cons k ks ih => intro n; exact Nat.le_trans (ih _) (Nat.min_le_left ..)
      exact this _ _
    · exact h
  have hc : ∀ m ≤ 14, (∀ k ∈ cmds, isSegment en k → 2 ^ m ∣ (segmentIn (segCfg en k) k).fileoff) ↔ m ≤ bits en (cmds.filter (isSegment en)) 14 := by
    intro m hm
    rw [bits_iff en _ 14 m hm]
    simp only [List.mem_filter, and_imp, hm, true_and]
  constructor
  · rintro rfl
    exact ⟨_, hb, rfl, hc⟩
  · rintro ⟨n, hn, rfl, h⟩
    have h1 := (hc n hn).1 ((h n hn).2 (Nat.le_refl _))
    have h2 := (h _ hb).1 ((hc _ hb).2 (Nat.le_refl _))
    rw [Nat.le_antisymm h1 h2]

/-! ## Sizes -/

theorem large_length {e prev : Nat} {ss : List Sect} {os : List Nat} (h : LargeOffsets e prev ss os) : os.length = ss.length := by
  induction h with
  | nil => rfl
  | zerofill _ _ ih => simp [ih]
  | data _ _ _ _ _ _ ih => simp [ih]

theorem offsets_length {g : Seg} {ss : List Sect} {os : List Nat} (h : OffsetsOf g ss os) : os.length = ss.length := by
  unfold OffsetsOf at h
  dsimp only at h
  split at h
  · rw [h, List.length_map]
  · exact large_length h

theorem segment_count {en : Endianness} {data : List UInt8} {t : Totals} {k : List UInt8} {g : Segm × List Sec} (h : SegmentIs en data t k g) :
    g.2.length = (segmentIn (segCfg en k) k).nsects := by
  obtain ⟨offs, h1, h2⟩ := h.sections
  rw [BuildR.each_length h2, List.length_zip, offsets_length h1, Nat.min_self]
  simp [sectionsIn]

theorem sections_count {en : Endianness} {data : List UInt8} {t : Totals} {ks : List (List UInt8)} {gs : List (Segm × List Sec)}
    (h : Each (SegmentIs en data t) ks gs) : (gs.flatMap (·.2)).length = (ks.map fun k => (segmentIn (segCfg en k) k).nsects).sum := by
  induction h with
  | nil => rfl
  | cons h1 _ ih => rw [List.flatMap_cons, List.length_append, ih, List.map_cons, List.sum_cons, segment_count h1]

/-! ## The file -/

theorem commandsAll_iff (c : Cfg) (h : Mhdr) (data : List UInt8) (cmds : List (List UInt8)) : CommandsAll c h data cmds ↔
    (h.sizeofcmds = 0 ∨ headerSize c.is64 + h.sizeofcmds ≤ data.length) ∧
      CommandsIn c.en (slice data (headerSize c.is64) h.sizeofcmds) h.ncmds cmds ∧ cmds.length = h.ncmds := by
  unfold CommandsAll CommandsIn
  constructor
  · rintro ⟨h1, h2, h3, rest, h4⟩
    exact ⟨h1, ⟨rest, h4, h2, by omega, by omega⟩, h3⟩
  · rintro ⟨h1, ⟨rest, h4, h2, _, _⟩, h3⟩
    exact ⟨h1, h2, h3, rest, h4⟩

theorem readFile_iff (is64 : Bool) (data : List UInt8) (hl : data.length < 2 ^ 63) (b : Builder) : readFile is64 data = .ok b ↔ Reads is64 data b := by
  unfold readFile
  rw [Res.bind_eq_ok]
  constructor
  · rintro ⟨⟨c, h⟩, hp, hr⟩
    obtain ⟨hc, hsz, hm, hh⟩ := (parseHeader_iff ..).1 hp
    dsimp only at hr
    obtain ⟨cs, hcs, hr⟩ := (Res.bind_eq_ok ..).1 hr
    rcases commands_run c h data hl with ⟨cs', cmds, e, g1, _, g3, g4, g5, g6, g7⟩ | ⟨g1, _⟩
    rotate_left
    · rw [g1] at hcs; cases hcs
    rw [g1] at hcs
    injection hcs with hcs
    subst hcs
    rw [for_eq _ g5] at hr
    obtain ⟨st, hst, hr⟩ := (Res.bind_eq_ok ..).1 hr
    obtain ⟨st', hst', hst⟩ := (Res.bind_eq_ok ..).1 hst
    have he : e = .done := by cases e <;> first | rfl | cases hst
    subst he
    injection hst with hst
    subst hst
    rw [for_eq _ g5] at hr
    obtain ⟨b1, hb1, hr⟩ := (Res.bind_eq_ok ..).1 hr
    obtain ⟨b2, hb2, hb1⟩ := (Res.bind_eq_ok ..).1 hb1
    injection hb1 with hb1
    subst hb1
    split at hr
    · cases hr
    rename_i hcount
    injection hr with hr
    subst hr
    obtain ⟨_, tables, ht1, hst⟩ := (scan_fold ..).1 hst'
    have hte : TotalsEq st' ⟨st'.sections, st'.symbols, st'.indirect⟩ := ⟨rfl, rfl, rfl⟩
    obtain ⟨ks, gs, yss, ds, q1, q2, q3, q4, q5, q6, q7, q8, q9, q10, hbe⟩ := (fold_iff hte c data hl ..).1 hb2
    dsimp only [List.length_nil] at q2 q3 q7 q8 q9
    rw [CommandsOf, if_pos g4] at g3
    have hen : b2.endian = c.en := by rw [hbe]
    have hcc : (⟨is64, c.en⟩ : Cfg) = c := by rw [← hc]
    refine ⟨by rw [hbe], hsz, by rw [hen]; exact hm, by rw [hen, ← hh, hbe], by rw [hen, ← hh, hbe], by rw [hen, ← hh, hbe], by rw [hen, ← hh, hbe], ?_, ?_⟩
    · rw [hbe]
      simp only [List.nil_append]
      exact ⟨fun i g hg => by simpa using q7 i g hg, fun i g hg => by simpa using q8 i g hg, fun i g hg => by simpa using q9 i g hg⟩
    · rw [hen, ← hh, hcc]
      refine ⟨cmds, _, (commandsAll_iff ..).2 ⟨g4, g3, g7.1 rfl⟩, ⟨?_, ?_, tables, ht1, ?_⟩, ?_, ?_, ?_, ?_, ⟨gs, q4, ?_, ?_⟩, ⟨yss, q5, ?_⟩, ?_, ?_⟩
      · show st'.sections = _
        rw [hst]; exact Nat.zero_add _
      · show st'.symbols = _
        rw [hst]
      · show st'.indirect = _
        rw [hst]
      · refine (pageSize_iff ..).1 ?_
        rw [hbe, hst]
        rfl
      · rw [hbe]; exact q1
      · rw [hbe]
        simp only [List.nil_append, List.length_map]
        rw [q2, List.range_eq_range']
      · rw [hbe]
        simp only [List.nil_append]
        rw [q3, List.range_eq_range']
      · rw [hbe]; rfl
      · rw [hbe]; rfl
      · rw [hbe]; rfl
      · rw [hbe]; exact q6
      · show _ = st'.symbols
        omega
  · intro hr
    obtain ⟨cmds, t, hall, htot, hpage, q1, q2, q3, ⟨gs, q4, q4a, q4b⟩, ⟨yss, q5, q5a⟩, q6, hny⟩ := hr.body
    refine ⟨(⟨is64, b.endian⟩, headerIn b.endian data), (parseHeader_iff ..).2 ⟨rfl, hr.size, hr.magic, rfl⟩, ?_⟩
    dsimp only
    obtain ⟨g4, g3, hlen⟩ := (commandsAll_iff ..).1 hall
    rcases commands_run ⟨is64, b.endian⟩ (headerIn b.endian data) data hl with ⟨cs, cmds', e, g1, _, g3', _, g5, g6, g7⟩ | ⟨_, _, g3'⟩
    rotate_left
    · exact absurd g4 g3'
    rw [CommandsOf, if_pos g4] at g3'
    have hcm := commandsIn_unique g3' g3
    subst hcm
    have he := g7.2 hlen
    subst he
    rw [g1, Res.ok_bind, for_eq _ g5]
    obtain ⟨tables, ht1, ht2⟩ := htot.indirect
    let st : State := ⟨t.sections, t.symbols, t.indirect, bits b.endian (cmds'.filter (isSegment b.endian)) 14⟩
    have hte : TotalsEq st t := ⟨rfl, rfl, rfl⟩
    have hfold : foldRes (readStep ⟨is64, b.endian⟩ data st) ⟨b.endian, is64, 2 ^ st.pageBits, (headerIn b.endian data).cputype, (headerIn b.endian data).cpusubtype,
        (headerIn b.endian data).filetype, (headerIn b.endian data).flags, [], [], [], [], []⟩ (Props.commandList b.endian (headerSize is64) cmds') = .ok b := by
      refine (fold_iff hte ⟨is64, b.endian⟩ data hl cmds' (headerSize is64) _ b).2 ⟨b.commands, gs, yss, b.dylibs, q1, ?_, ?_, q4, q5, q6, ?_, ?_, ?_, ?_, ?_⟩
      · rw [q2, q4a, List.length_map, List.range_eq_range']; rfl
      · rw [q3, List.range_eq_range']; rfl
      · rw [← q4a]
        intro i g hg
        have := hr.numbered.segments i g hg
        simpa using this
      · rw [← q4b]
        intro i g hg
        have := hr.numbered.sections i g hg
        simpa using this
      · rw [← q5a]
        intro i g hg
        have := hr.numbered.symbols i g hg
        simpa using this
      · intro k hk hd
        obtain ⟨i, hi⟩ := List.mem_iff_getElem?.1 (List.mem_filter.2 ⟨hk, hd⟩)
        obtain ⟨tab, _, h⟩ := BuildW.each_get_left ht1 hi
        exact h.1
      · have hps := (pageSize_iff ..).2 hpage
        have hw := hr.width
        have e1 := hr.cputype
        have e2 := hr.cpusubtype
        have e3 := hr.filetype
        have e4 := hr.flags
        simp only [List.nil_append]
        rw [← q4a, ← q4b, ← q5a]
        show b = ⟨b.endian, is64, 2 ^ bits b.endian (cmds'.filter (isSegment b.endian)) 14, _, _, _, _, _, _, _, _, _⟩
        rw [← hps, ← hw, ← e1, ← e2, ← e3, ← e4]
    have hscan : foldRes (scanStep ⟨is64, b.endian⟩ data) ⟨0, 0, [], 14⟩ (Props.commandList b.endian (headerSize is64) cmds') = .ok st := by
      refine (scan_fold ⟨is64, b.endian⟩ ..).2 ⟨read_varOk _ _ _ _ _ _ _ hfold, tables, ht1, ?_⟩
      have h1 := htot.sections
      have h2 := htot.symbols
      show (⟨t.sections, t.symbols, t.indirect, _⟩ : State) = _
      rw [h1, h2, ht2, Nat.zero_add]
      rfl
    rw [hscan, Res.ok_bind]
    dsimp only
    rw [Res.ok_bind, for_eq _ g5, hfold, Res.ok_bind]
    dsimp only
    rw [Res.ok_bind, if_neg]
    have h1 := htot.sections
    have h2 := sections_count q4
    rw [← q4b] at h2
    show ¬ (b.sections.length ≠ t.sections ∨ b.symbols.length ≠ t.symbols)
    omega

end Obj.MachoB

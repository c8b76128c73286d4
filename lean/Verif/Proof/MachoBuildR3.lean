import Verif.Proof.MachoBuildR2

/-! Reading of load commands by the Mach-O builder: the bodies of the loops. -/

namespace Obj.MachoB
open Obj Obj.MachoR Obj.Spec.MachoB
open Obj.BuildW (foldR mapR)
open Obj.Spec.MachoF (Each num width headerSize headerIn IsCommand segmentSize sectionSize segmentIn sectionsIn Zerofill OffsetsOf SymbolsOf IndirectOf)
open Obj.Spec.MachoI (PartIs)
open Obj.MachO (LoadCommands LoadCommandData)
open Obj.MachoF

/-! ## The kinds of commands -/

theorem variant_seg (c : Cfg) (n o : Nat) (k : List UInt8) (h : n = 1 ∨ n = 0x19) : variant c ⟨n, o, k⟩ =
    match Bytes.read k (segSize ⟨decide (n = 0x19), c.en⟩) with
    | (.ok img, rest) => .ok (.segment ⟨decide (n = 0x19), c.en⟩ (Seg.decode ⟨decide (n = 0x19), c.en⟩ img) rest)
    | (.err, _) => .err
    | (.panic, _) => .panic := by
  unfold variant
  rw [if_pos h]
  rfl
theorem variant_symtab (c : Cfg) (o : Nat) (k : List UInt8) : variant c ⟨2, o, k⟩ = (Bytes.readAt k 0 24).bind fun img => .ok (.symtab (SymtabCmd.decode c img)) := rfl
theorem variant_dysymtab (c : Cfg) (o : Nat) (k : List UInt8) : variant c ⟨0xb, o, k⟩ = (Bytes.readAt k 0 80).bind fun img => .ok (.dysymtab (DysymtabCmd.decode c img)) := rfl
theorem variant_linkedit (c : Cfg) (n o : Nat) (k : List UInt8) (h : n ∈ linkeditNumbers) : variant c ⟨n, o, k⟩ =
    (Bytes.readAt k 0 16).bind fun img => .ok (.linkedit (field c.en img 8 4) (field c.en img 12 4)) := by
  simp only [linkeditNumbers, List.mem_cons, List.not_mem_nil, or_false] at h
  rcases h with rfl | rfl | rfl | rfl | rfl | rfl | rfl | rfl <;> simp [variant, isLinkedit, isDylib, rawSize]
set_option maxRecDepth 4000 in
theorem variant_dyldInfo (c : Cfg) (o : Nat) (k : List UInt8) : variant c ⟨0x80000022, o, k⟩ =
    (Bytes.readAt k 0 48).bind fun img => .ok (.dyldInfo [(field c.en img 8 4, field c.en img 12 4), (field c.en img 16 4, field c.en img 20 4),
      (field c.en img 24 4, field c.en img 28 4), (field c.en img 32 4, field c.en img 36 4), (field c.en img 40 4, field c.en img 44 4)]) := by
  unfold variant
  simp [isLinkedit]
theorem variant_build (c : Cfg) (o : Nat) (k : List UInt8) : variant c ⟨0x32, o, k⟩ =
    match Bytes.read k 24 with
    | (.ok img, rest) => .ok (.buildVersion (BuildVersion.decode c img) rest)
    | (.err, _) => .err
    | (.panic, _) => .panic := rfl
theorem variant_dylib (c : Cfg) (n o : Nat) (k : List UInt8) (h : n ∈ [0xc, 0x80000018, 0x8000001f, 0x20, 0x80000023]) : variant c ⟨n, o, k⟩ =
    (Bytes.readAt k 0 24).bind fun img => .ok (.dylib img) := by
  simp only [List.mem_cons, List.not_mem_nil, or_false] at h
  rcases h with rfl | rfl | rfl | rfl | rfl <;> simp [variant, isLinkedit, isDylib, rawSize]
theorem variant_id (c : Cfg) (o : Nat) (k : List UInt8) : variant c ⟨0xd, o, k⟩ = (Bytes.readAt k 0 24).bind fun img => .ok (.idDylib img) := rfl
theorem variant_raw (c : Cfg) (n m o : Nat) (k : List UInt8) (h : (n, m) ∈ rawCommands) : variant c ⟨n, o, k⟩ = (Bytes.readAt k 0 m).bind fun _ => .ok .raw := by
  simp only [rawCommands, List.mem_cons, Prod.mk.injEq, List.not_mem_nil, or_false] at h
  rcases h with ⟨rfl, rfl⟩ | ⟨rfl, rfl⟩ | ⟨rfl, rfl⟩ | ⟨rfl, rfl⟩ | ⟨rfl, rfl⟩ | ⟨rfl, rfl⟩ <;> simp [variant, isLinkedit, isDylib, rawSize]

/-- The command is of a kind that is supported. -/
def Known (n : Nat) : Prop :=
  n ∈ [1, 0x19] ∨ n = 2 ∨ n = 0xb ∨ n ∈ linkeditNumbers ∨ n = 0x80000022 ∨ n = 0x32 ∨ n ∈ [0xc, 0x80000018, 0x8000001f, 0x20, 0x80000023] ∨ n = 0xd ∨
  ∃ m, (n, m) ∈ rawCommands

theorem isLinkedit_false {n : Nat} (h : n ∉ linkeditNumbers) : isLinkedit n = false := by
  simp only [linkeditNumbers, List.mem_cons, List.not_mem_nil, or_false, not_or] at h
  simp [isLinkedit, h]

theorem isDylib_false {n : Nat} (h : n ∉ [0xc, 0x80000018, 0x8000001f, 0x20, 0x80000023]) : isDylib n = false := by
  simp only [List.mem_cons, List.not_mem_nil, or_false, not_or] at h
  simp [isDylib, h]

theorem rawSize_none {n : Nat} (h : ¬ ∃ m, (n, m) ∈ rawCommands) : rawSize n = none := by
  unfold rawSize
  rw [if_neg, if_neg, if_neg, if_neg, if_neg, if_neg] <;> (rintro rfl; exact h (by simp [rawCommands]))

theorem variant_other (c : Cfg) (n o : Nat) (k : List UInt8) (h : ¬ Known n) : variant c ⟨n, o, k⟩ = .ok .other := by
  unfold Known at h
  simp only [not_or] at h
  obtain ⟨h1, h2, h3, h4, h5, h6, h7, h8, h9⟩ := h
  simp only [List.mem_cons, List.not_mem_nil, or_false] at h1
  unfold variant
  dsimp only
  rw [if_neg h1, if_neg h2, if_neg h3, if_neg (by rw [isLinkedit_false h4]; simp), if_neg h5, if_neg h6, if_neg (by rw [isDylib_false h7]; simp), if_neg h8,
    rawSize_none h9]

/-! ## The second loop -/

/-- Other commands than those for segments, symbols and libraries. -/
def plain : Cmd → Bool
  | .segment _ => false
  | .symtab => false
  | .dylib _ => false
  | _ => true

/-- What the body of the second loop does. -/
def Step (c : Cfg) (data : List UInt8) (t : Totals) (k : List UInt8) (b b' : Builder) : Prop :=
  (isSegment c.en k = true ∧ SegStep c.en data t k b b') ∨ (isSymtab c.en k = true ∧ SymStep c data t k b b') ∨
  (isLibrary c.en k = true ∧ ∃ d, LibraryIs c.en k d ∧ b' = { b with dylibs := b.dylibs ++ [d], commands := b.commands ++ [.dylib b.dylibs.length] }) ∨
  ((isDysymtab c.en k = true → 80 ≤ k.length) ∧ ∃ x, CommandIs c.en data k x ∧ plain x = true ∧ b' = { b with commands := b.commands ++ [x] })

theorem read_eq (k : List UInt8) (n : Nat) : Bytes.read k n = if n ≤ k.length then (.ok (k.take n), k.drop n) else (.err, []) := by
  unfold Bytes.read Bytes.readBytes
  split <;> simp [*]

theorem seg_slice (c : Cfg) (k : List UInt8) (h : segmentSize c.is64 ≤ k.length) : Seg.decode c (k.take (segSize c)) = segmentIn c k := by
  have h4 : 36 + 4 * Spec.MachoF.width c.is64 + 4 = segmentSize c.is64 := by unfold Spec.MachoF.width segmentSize; split <;> rfl
  have e : k.take (segSize c) = slice k 0 (segmentSize c.is64) := by rw [segSize_eq]; simp [slice]
  have hw : 4 ≤ Spec.MachoF.width c.is64 := by unfold Spec.MachoF.width; split <;> omega
  rw [seg_decode]
  unfold segmentIn
  dsimp only
  rw [e, slice_slice _ _ _ _ _ (by omega)]
  rw [num_slice _ _ _ _ _ _ (by omega), num_slice _ _ _ _ _ _ (by omega), num_slice _ _ _ _ _ _ (by omega), num_slice _ _ _ _ _ _ (by omega),
    num_slice _ _ _ _ _ _ (by omega), num_slice _ _ _ _ _ _ (by omega), num_slice _ _ _ _ _ _ (by omega), num_slice _ _ _ _ _ _ (by omega)]
  simp only [Nat.zero_add]

/-- The number decides the kind. -/
theorem isSegment_of {en : Endianness} {k : List UInt8} : isSegment en k = true ↔ number en k = 1 ∨ number en k = 0x19 := by simp [isSegment]
theorem isSymtab_of {en : Endianness} {k : List UInt8} : isSymtab en k = true ↔ number en k = 2 := by simp [isSymtab]
theorem isDysymtab_of {en : Endianness} {k : List UInt8} : isDysymtab en k = true ↔ number en k = 0xb := by simp [isDysymtab]
theorem isLibrary_of {en : Endianness} {k : List UInt8} : isLibrary en k = true ↔ number en k ∈ [0xc, 0x80000018, 0x8000001f, 0x20, 0x80000023] := by
  simp only [isLibrary, decide_eq_true_iff]

/-- The kind of a command by the number of the command: a small number for each. -/
def kindOf (n : Nat) : Nat :=
  if n = 1 ∨ n = 0x19 then 1 else if n = 2 then 2 else if n = 0xb then 3 else if n ∈ linkeditNumbers then 4 else if n = 0x80000022 then 5
  else if n = 0x32 then 6 else if n ∈ [0xc, 0x80000018, 0x8000001f, 0x20, 0x80000023] then 7 else if n = 0xd then 8
  else if n ∈ rawCommands.map Prod.fst then 9 else 0

theorem kind_seg {n : Nat} (h : n = 1 ∨ n = 0x19) : kindOf n = 1 := by rw [kindOf, if_pos h]
theorem kind_link {n : Nat} (h : n ∈ linkeditNumbers) : kindOf n = 4 := by
  simp only [linkeditNumbers, List.mem_cons, List.not_mem_nil, or_false] at h
  rcases h with rfl | rfl | rfl | rfl | rfl | rfl | rfl | rfl <;> simp [kindOf, linkeditNumbers, rawCommands]
theorem kind_lib {n : Nat} (h : n ∈ [0xc, 0x80000018, 0x8000001f, 0x20, 0x80000023]) : kindOf n = 7 := by
  simp only [List.mem_cons, List.not_mem_nil, or_false] at h
  rcases h with rfl | rfl | rfl | rfl | rfl <;> simp [kindOf, linkeditNumbers, rawCommands]
theorem kind_raw {n m : Nat} (h : (n, m) ∈ rawCommands) : kindOf n = 9 := by
  simp only [rawCommands, List.mem_cons, Prod.mk.injEq, List.not_mem_nil, or_false] at h
  rcases h with ⟨rfl, rfl⟩ | ⟨rfl, rfl⟩ | ⟨rfl, rfl⟩ | ⟨rfl, rfl⟩ | ⟨rfl, rfl⟩ | ⟨rfl, rfl⟩ <;> simp [kindOf, linkeditNumbers, rawCommands]

/-- The kind of a result. -/
def cmdKind : Cmd → Nat
  | .segment _ => 1 | .symtab => 2 | .dysymtab => 3 | .linkedit _ _ => 4 | .dyldInfo _ _ _ _ _ => 5 | .buildVersion _ _ _ _ => 6 | .dylib _ => 7
  | .idDylib _ => 8 | .other _ _ => 9

/-- The kinds of the results. -/
theorem command_kind {en : Endianness} {data k : List UInt8} {x : Cmd} (h : CommandIs en data k x) : kindOf (number en k) = cmdKind x := by
  cases h with
  | segment h => exact kind_seg (isSegment_of.1 h)
  | symtab h => rw [isSymtab_of.1 h]; rfl
  | dysymtab h => rw [isDysymtab_of.1 h]; rfl
  | dylib h => exact kind_lib (isLibrary_of.1 h)
  | idDylib h => rw [h]; rfl
  | buildVersion h => rw [h]; rfl
  | linkedit h => exact kind_link h
  | dyldInfo h => rw [h]; rfl
  | other h => exact kind_raw h

/-- What a step does for each kind. -/
theorem step_seg {c : Cfg} {data : List UInt8} {t : Totals} {k : List UInt8} {b b' : Builder} (h : kindOf (number c.en k) = 1) :
    Step c data t k b b' ↔ isSegment c.en k = true ∧ SegStep c.en data t k b b' := by
  refine ⟨fun hs => ?_, Or.inl⟩
  rcases hs with hs | ⟨h1, _⟩ | ⟨h1, _⟩ | ⟨_, x, hx, hp, _⟩
  · exact hs
  · rw [isSymtab_of.1 h1] at h; cases h
  · rw [kind_lib (isLibrary_of.1 h1)] at h; cases h
  · rw [command_kind hx] at h; cases x <;> first | (simp [cmdKind] at h; done) | (simp [plain] at hp; done)

theorem step_sym {c : Cfg} {data : List UInt8} {t : Totals} {k : List UInt8} {b b' : Builder} (h : kindOf (number c.en k) = 2) :
    Step c data t k b b' ↔ isSymtab c.en k = true ∧ SymStep c data t k b b' := by
  refine ⟨fun hs => ?_, fun h => Or.inr (Or.inl h)⟩
  rcases hs with ⟨h1, _⟩ | hs | ⟨h1, _⟩ | ⟨_, x, hx, hp, _⟩
  · rw [kind_seg (isSegment_of.1 h1)] at h; cases h
  · exact hs
  · rw [kind_lib (isLibrary_of.1 h1)] at h; cases h
  · rw [command_kind hx] at h; cases x <;> first | (simp [cmdKind] at h; done) | (simp [plain] at hp; done)

theorem step_lib {c : Cfg} {data : List UInt8} {t : Totals} {k : List UInt8} {b b' : Builder} (h : kindOf (number c.en k) = 7) :
    Step c data t k b b' ↔ isLibrary c.en k = true ∧ ∃ d, LibraryIs c.en k d ∧ b' = { b with dylibs := b.dylibs ++ [d], commands := b.commands ++ [.dylib b.dylibs.length] } := by
  refine ⟨fun hs => ?_, fun h => Or.inr (Or.inr (Or.inl h))⟩
  rcases hs with ⟨h1, _⟩ | ⟨h1, _⟩ | hs | ⟨_, x, hx, hp, _⟩
  · rw [kind_seg (isSegment_of.1 h1)] at h; cases h
  · rw [isSymtab_of.1 h1] at h; cases h
  · exact hs
  · rw [command_kind hx] at h; cases x <;> first | (simp [cmdKind] at h; done) | (simp [plain] at hp; done)

theorem step_plain {c : Cfg} {data : List UInt8} {t : Totals} {k : List UInt8} {b b' : Builder} (h1 : kindOf (number c.en k) ≠ 1) (h2 : kindOf (number c.en k) ≠ 2)
    (h7 : kindOf (number c.en k) ≠ 7) : Step c data t k b b' ↔
    (isDysymtab c.en k = true → 80 ≤ k.length) ∧ ∃ x, CommandIs c.en data k x ∧ b' = { b with commands := b.commands ++ [x] } := by
  constructor
  · intro hs
    rcases hs with ⟨h, _⟩ | ⟨h, _⟩ | ⟨h, _⟩ | ⟨hd, x, hx, hp, h⟩
    · exact absurd (kind_seg (isSegment_of.1 h)) h1
    · exact absurd (by rw [isSymtab_of.1 h]; rfl) h2
    · exact absurd (kind_lib (isLibrary_of.1 h)) h7
    · exact ⟨hd, x, hx, h⟩
  · rintro ⟨hd, x, hx, h⟩
    refine Or.inr (Or.inr (Or.inr ⟨hd, x, hx, ?_, h⟩))
    have := command_kind hx
    cases x <;> first | rfl | exact absurd this h1 | exact absurd this h2 | exact absurd this h7

theorem parts_iff (en : Endianness) (data k : List UInt8) (o : Nat) (n : Nat) (l : List UInt8) :
    ReadRef.readBytesAt data (num en k o 4) (num en k n 4) = .ok l ↔ PartIs data (num en k o 4) (num en k n 4) l := MachoI.part_iff ..

theorem raw_unique {n m m' : Nat} (h : (n, m) ∈ rawCommands) (h' : (n, m') ∈ rawCommands) : m' = m := by
  simp only [rawCommands, List.mem_cons, Prod.mk.injEq, List.not_mem_nil, or_false] at h h'
  omega

theorem dysymtab_slice (c : Cfg) (b : List UInt8) (h : 80 ≤ b.length) : DysymtabCmd.decode c (slice b 0 80) =
    ⟨num c.en b 8 4, num c.en b 12 4, num c.en b 16 4, num c.en b 20 4, num c.en b 24 4, num c.en b 28 4,
      (List.range 12).map fun i => num c.en b (32 + 4 * i) 4⟩ := by
  unfold DysymtabCmd.decode
  have h0 : slice b 0 80 = (slice b 0 80).drop 0 := rfl
  rw [h0]
  simp only [List.replicate, List.cons_append, List.nil_append]
  simp only [decode_one, Nat.reduceAdd]
  simp (discharger := decide) only [num_slice, Nat.zero_add]
  rfl

/-- The other kinds of commands. -/
theorem step_known {st : State} {t : Totals} (_ht : TotalsEq st t) (c : Cfg) (data : List UInt8) (k : List UInt8) (o : Nat)
    (b b' : Builder) (hk1 : ¬ (number c.en k = 1 ∨ number c.en k = 0x19)) (hk2 : number c.en k ≠ 2)
    (hk7 : number c.en k ∉ [0xc, 0x80000018, 0x8000001f, 0x20, 0x80000023]) (hkn : Known (number c.en k)) :
    readStep c data st b ⟨number c.en k, o, k⟩ = .ok b' ↔ Step c data t k b b' := by
  rcases hkn with h | h | h | h | h | h | h | h | ⟨m, h⟩
  · simp only [List.mem_cons, List.not_mem_nil, or_false] at h; exact absurd h hk1
  · exact absurd h hk2
  · have hq : kindOf (number c.en k) = 3 := by rw [h]; rfl
    rw [step_plain (by rw [hq]; simp) (by rw [hq]; simp) (by rw [hq]; simp)]
    unfold readStep
    rw [h, variant_dysymtab, MachoI.readAt_eq, Nat.zero_add]
    by_cases hs : 80 ≤ k.length
    · rw [if_pos hs, Res.ok_bind, Res.ok_bind, dysymtab_slice c k hs]
      have e : ((List.range 12).map fun i => num c.en k (32 + 4 * i) 4) = [num c.en k 32 4, num c.en k 36 4, num c.en k 40 4, num c.en k 44 4, num c.en k 48 4,
        num c.en k 52 4, num c.en k 56 4, num c.en k 60 4, num c.en k 64 4, num c.en k 68 4, num c.en k 72 4, num c.en k 76 4] := rfl
      rw [e]
      simp only [List.getD_cons_zero, List.getD_cons_succ]
      by_cases hz : ∀ o ∈ [36, 44, 52, 68, 76], num c.en k o 4 = 0
      · rw [if_neg (by simp only [List.mem_cons, List.not_mem_nil, or_false, forall_eq_or_imp, forall_eq] at hz; omega)]
        constructor
        · intro hb
          injection hb with hb
          exact ⟨fun _ => hs, _, .dysymtab (isDysymtab_of.2 h) hz, hb.symm⟩
        · rintro ⟨_, x, hx, rfl⟩
          have hq' := command_kind hx
          rw [hq] at hq'
          cases hx <;> first | rfl | (simp [cmdKind] at hq'; done)
      · rw [if_pos (by
          simp only [List.mem_cons, List.not_mem_nil, or_false, forall_eq_or_imp, forall_eq] at hz
          omega)]
        simp only [reduceCtorEq, false_iff]
        rintro ⟨_, x, hx, rfl⟩
        have hq' := command_kind hx
        rw [hq] at hq'
        cases hx <;> first | (rename_i hz'; exact hz hz') | (simp [cmdKind] at hq'; done)
    · rw [if_neg hs]
      simp only [Res.err_bind, reduceCtorEq, false_iff]
      rintro ⟨hd, _⟩
      exact hs (hd (isDysymtab_of.2 h))
  · have hq := kind_link h
    have hnd : isDysymtab c.en k = false := by
      rcases hx : isDysymtab c.en k with _ | _
      · rfl
      · rw [isDysymtab_of.1 hx] at hq; cases hq
    rw [step_plain (by rw [hq]; simp) (by rw [hq]; simp) (by rw [hq]; simp)]
    unfold readStep
    rw [variant_linkedit c _ o k h, MachoI.readAt_eq, Nat.zero_add]
    by_cases hs : 16 ≤ k.length
    · rw [if_pos hs, Res.ok_bind, Res.ok_bind]
      dsimp only
      rw [field_slice _ _ _ _ _ (by omega), field_slice _ _ _ _ _ (by omega), Res.bind_eq_ok]
      constructor
      · rintro ⟨l, h1, h2⟩
        injection h2 with h2
        exact ⟨by simp [hnd], _, .linkedit h hs ((MachoI.part_iff ..).1 h1), h2.symm⟩
      · rintro ⟨_, x, hx, rfl⟩
        have hq' := command_kind hx
        rw [hq] at hq'
        cases hx <;> first | (simp [cmdKind] at hq'; done) | skip
        rename_i hp
        exact ⟨_, (MachoI.part_iff ..).2 hp, rfl⟩
    · rw [if_neg hs]
      simp only [Res.err_bind, reduceCtorEq, false_iff]
      rintro ⟨_, x, hx, rfl⟩
      have hq' := command_kind hx
      rw [hq] at hq'
      cases hx <;> first | (rename_i hs' _; exact hs hs') | (simp [cmdKind] at hq'; done)
  · have hq : kindOf (number c.en k) = 5 := by rw [h]; rfl
    have hnd : isDysymtab c.en k = false := by
      rcases hx : isDysymtab c.en k with _ | _
      · rfl
      · rw [isDysymtab_of.1 hx] at hq; cases hq
    rw [step_plain (by rw [hq]; simp) (by rw [hq]; simp) (by rw [hq]; simp)]
    unfold readStep
    rw [h, variant_dyldInfo, MachoI.readAt_eq, Nat.zero_add]
    by_cases hs : 48 ≤ k.length
    · rw [if_pos hs, Res.ok_bind, Res.ok_bind]
      dsimp only
      simp (discharger := decide) only [field_slice]
      unfold readParts
      simp only [Res.bind_eq_ok, Res.ok.injEq, MachoI.part_iff]
      constructor
      · rintro ⟨_, ⟨l1, h1, l2, h2, l3, h3, l4, h4, l5, h5, rfl⟩, rfl⟩
        exact ⟨by simp [hnd], _, .dyldInfo h hs h1 h2 h3 h4 h5, rfl⟩
      · rintro ⟨_, x, hx, rfl⟩
        have hq' := command_kind hx
        rw [hq] at hq'
        cases hx <;> first | (simp [cmdKind] at hq'; done) | skip
        rename_i h1 h2 h3 h4 h5
        exact ⟨_, ⟨_, h1, _, h2, _, h3, _, h4, _, h5, rfl⟩, rfl⟩
    · rw [if_neg hs]
      simp only [Res.err_bind, reduceCtorEq, false_iff]
      rintro ⟨_, x, hx, rfl⟩
      have hq' := command_kind hx
      rw [hq] at hq'
      cases hx <;> first | (rename_i hs' _ _ _ _ _; exact hs hs') | (simp [cmdKind] at hq'; done)
  · have hq : kindOf (number c.en k) = 6 := by rw [h]; rfl
    have hnd : isDysymtab c.en k = false := by
      rcases hx : isDysymtab c.en k with _ | _
      · rfl
      · rw [isDysymtab_of.1 hx] at hq; cases hq
    rw [step_plain (by rw [hq]; simp) (by rw [hq]; simp) (by rw [hq]; simp)]
    unfold readStep
    rw [h, variant_build, read_eq]
    by_cases hs : 24 ≤ k.length
    · rw [if_pos hs]
      dsimp only
      rw [Res.ok_bind]
      dsimp only
      have hd : BuildVersion.decode c (k.take 24) = ⟨num c.en k 8 4, num c.en k 12 4, num c.en k 16 4, num c.en k 20 4⟩ := by
        have e : k.take 24 = slice k 0 24 := by simp [slice]
        rw [buildVersion_decode, e, num_slice _ _ _ _ _ _ (by omega), num_slice _ _ _ _ _ _ (by omega), num_slice _ _ _ _ _ _ (by omega),
          num_slice _ _ _ _ _ _ (by omega)]
      rw [hd]
      dsimp only
      have hn := num_lt c.en k 20 4
      have hu : num c.en k 20 4 * 8 < U64 := by
        have : (U64 : Nat) = 2 ^ 64 := rfl
        simp only [Nat.reducePow] at *; omega
      have hm : (((List.range (num c.en k 20 4)).map fun i => slice (k.drop 24) (0 + 8 * i) 8).map fun i => (field c.en i 0 4, field c.en i 4 4)) =
          (List.range (num c.en k 20 4)).map fun i => (num c.en k (24 + 8 * i) 4, num c.en k (28 + 8 * i) 4) := by
        rw [List.map_map]
        apply List.map_congr_left
        intro i _
        have e : slice (k.drop 24) (0 + 8 * i) 8 = slice k (24 + 8 * i) 8 := by simp only [slice, List.drop_drop, Nat.zero_add]
        simp only [Function.comp]
        rw [e]
        have e1 := num_slice c.en k (24 + 8 * i) 8 0 4 (by omega)
        have e2 := num_slice c.en k (24 + 8 * i) 8 4 4 (by omega)
        rw [show 24 + 8 * i + 4 = 28 + 8 * i by omega] at e2
        exact Prod.ext e1 e2
      rw [Res.bind_eq_ok]
      constructor
      · rintro ⟨l, h1, h2⟩
        obtain ⟨h3, rfl⟩ := (Pe.readSliceAt_iff _ _ _ _ hu _).1 h1
        rw [hm] at h2
        injection h2 with h2
        rw [List.length_drop] at h3
        exact ⟨by simp [hnd], _, .buildVersion h (by omega), h2.symm⟩
      · rintro ⟨_, x, hx, rfl⟩
        have hq' := command_kind hx
        rw [hq] at hq'
        cases hx <;> first | (simp [cmdKind] at hq'; done) | skip
        rename_i h3
        exact ⟨_, (Pe.readSliceAt_iff _ _ _ _ hu _).2 ⟨by rw [List.length_drop]; omega, rfl⟩, by rw [hm]; rfl⟩
    · rw [if_neg hs]
      simp only [Res.err_bind, reduceCtorEq, false_iff]
      rintro ⟨_, x, hx, rfl⟩
      have hq' := command_kind hx
      rw [hq] at hq'
      cases hx <;> first | (rename_i hs'; omega) | (simp [cmdKind] at hq'; done)
  · exact absurd h hk7
  · have hq : kindOf (number c.en k) = 8 := by rw [h]; rfl
    have hnd : isDysymtab c.en k = false := by
      rcases hx : isDysymtab c.en k with _ | _
      · rfl
      · rw [isDysymtab_of.1 hx] at hq; cases hq
    rw [step_plain (by rw [hq]; simp) (by rw [hq]; simp) (by rw [hq]; simp)]
    unfold readStep
    rw [show variant c ⟨number c.en k, o, k⟩ = variant c ⟨0xd, o, k⟩ by rw [h], variant_id, MachoI.readAt_eq, Nat.zero_add]
    by_cases hs : 24 ≤ k.length
    · rw [if_pos hs, Res.ok_bind, Res.ok_bind]
      dsimp only
      rw [Res.bind_eq_ok]
      constructor
      · rintro ⟨d, h1, h2⟩
        injection h2 with h2
        exact ⟨by simp [hnd], _, .idDylib h ((readDylib_iff c o k hs d).1 h1), h2.symm⟩
      · rintro ⟨_, x, hx, rfl⟩
        have hq' := command_kind hx
        rw [hq] at hq'
        cases hx <;> first | (simp [cmdKind] at hq'; done) | skip
        rename_i h1
        exact ⟨_, (readDylib_iff c o k hs _).2 h1, rfl⟩
    · rw [if_neg hs]
      simp only [Res.err_bind, reduceCtorEq, false_iff]
      rintro ⟨_, x, hx, rfl⟩
      have hq' := command_kind hx
      rw [hq] at hq'
      cases hx <;> first | (rename_i hs'; exact hs hs'.size) | (simp [cmdKind] at hq'; done)
  · have hq := kind_raw h
    have hnd : isDysymtab c.en k = false := by
      rcases hx : isDysymtab c.en k with _ | _
      · rfl
      · rw [isDysymtab_of.1 hx] at hq; cases hq
    rw [step_plain (by rw [hq]; simp) (by rw [hq]; simp) (by rw [hq]; simp)]
    unfold readStep
    rw [variant_raw c _ m o k h, MachoI.readAt_eq, Nat.zero_add]
    by_cases hs : m ≤ k.length
    · rw [if_pos hs, Res.ok_bind, Res.ok_bind]
      constructor
      · intro hb
        injection hb with hb
        exact ⟨by simp [hnd], _, .other h hs, hb.symm⟩
      · rintro ⟨_, x, hx, rfl⟩
        have hq' := command_kind hx
        rw [hq] at hq'
        cases hx <;> first | (simp [cmdKind] at hq'; done) | rfl
    · rw [if_neg hs]
      simp only [Res.err_bind, reduceCtorEq, false_iff]
      rintro ⟨_, x, hx, rfl⟩
      have hq' := command_kind hx
      rw [hq] at hq'
      cases hx <;> first | (rename_i n hr hs'; exact hs (raw_unique h hr ▸ hs')) | (simp [cmdKind] at hq'; done)

theorem step_iff {st : State} {t : Totals} (ht : TotalsEq st t) (c : Cfg) (data : List UInt8) (hl : data.length < 2 ^ 63) (k : List UInt8) (o : Nat)
    (b b' : Builder) : readStep c data st b ⟨number c.en k, o, k⟩ = .ok b' ↔ Step c data t k b b' := by
  by_cases hk1 : number c.en k = 1 ∨ number c.en k = 0x19
  · rw [step_seg (kind_seg hk1)]
    unfold readStep
    rw [variant_seg c _ o k hk1, read_eq]
    have hcfg : (⟨decide (number c.en k = 0x19), c.en⟩ : Cfg) = segCfg c.en k := rfl
    rw [hcfg]
    by_cases hs : segmentSize (segCfg c.en k).is64 ≤ k.length
    · rw [segSize_eq, if_pos hs]
      dsimp only
      rw [Res.ok_bind]
      dsimp only
      rw [← segSize_eq, seg_slice _ _ hs, segSize_eq, readSegment_iff ht c.en data k hs]
      exact ⟨fun h => ⟨isSegment_of.2 hk1, h⟩, fun h => h.2⟩
    · rw [segSize_eq, if_neg hs]
      simp only [Res.err_bind, reduceCtorEq, false_iff]
      rintro ⟨_, g, hg, _⟩
      have := hg.size
      omega
  by_cases hk2 : number c.en k = 2
  · rw [step_sym (by rw [hk2]; rfl)]
    unfold readStep
    rw [hk2, variant_symtab, MachoI.readAt_eq, Nat.zero_add]
    by_cases hs : 24 ≤ k.length
    · rw [if_pos hs, Res.ok_bind, Res.ok_bind]
      dsimp only
      have e : SymtabCmd.decode c (slice k 0 24) = SymtabCmd.decode c k := by
        rw [symtab_decode, symtab_decode, num_slice _ _ _ _ _ _ (by omega), num_slice _ _ _ _ _ _ (by omega), num_slice _ _ _ _ _ _ (by omega),
          num_slice _ _ _ _ _ _ (by omega)]
      rw [e, readSymbols_iff ht c data hl k hs]
      exact ⟨fun h => ⟨isSymtab_of.2 hk2, h⟩, fun h => h.2⟩
    · rw [if_neg hs]
      simp only [Res.err_bind, reduceCtorEq, false_iff]
      rintro ⟨_, ys, ⟨tab, hg, _⟩, _⟩
      exact hs hg.1
  by_cases hk7 : number c.en k ∈ [0xc, 0x80000018, 0x8000001f, 0x20, 0x80000023]
  · rw [step_lib (kind_lib hk7)]
    unfold readStep
    rw [variant_dylib c _ o k hk7, MachoI.readAt_eq, Nat.zero_add]
    by_cases hs : 24 ≤ k.length
    · rw [if_pos hs, Res.ok_bind, Res.ok_bind]
      dsimp only
      rw [Res.bind_eq_ok]
      constructor
      · rintro ⟨d, h1, h2⟩
        injection h2 with h2
        exact ⟨isLibrary_of.2 hk7, d, (readDylib_iff c o k hs d).1 h1, h2.symm⟩
      · rintro ⟨_, d, h1, rfl⟩
        exact ⟨d, (readDylib_iff c o k hs d).2 h1, rfl⟩
    · rw [if_neg hs]
      simp only [Res.err_bind, reduceCtorEq, false_iff]
      rintro ⟨_, d, hd, _⟩
      exact hs hd.size
  rcases Classical.em (Known (number c.en k)) with hkn | hkn
  · exact step_known ht c data k o b b' hk1 hk2 hk7 hkn
  · have h0 : kindOf (number c.en k) = 0 := by
      unfold Known at hkn
      simp only [not_or] at hkn
      obtain ⟨h1, h2, h3, h4, h5, h6, h7, h8, h9⟩ := hkn
      unfold kindOf
      rw [if_neg hk1, if_neg hk2, if_neg h3, if_neg h4, if_neg h5, if_neg h6, if_neg h7, if_neg h8, if_neg]
      intro hm
      obtain ⟨⟨a, m⟩, hm, e⟩ := List.mem_map.1 hm
      exact h9 ⟨m, by rw [← e]; exact hm⟩
    unfold readStep
    rw [variant_other c _ o k hkn, Res.ok_bind]
    simp only [reduceCtorEq, false_iff]
    rw [step_plain (by rw [h0]; simp) (by rw [h0]; simp) (by rw [h0]; simp)]
    rintro ⟨_, x, hx, _⟩
    rw [command_kind hx] at h0
    cases x <;> (simp [cmdKind] at h0; done)

end Obj.MachoB

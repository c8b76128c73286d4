import Verif.Proof.MachoFile

/-! # Reading Mach-O files: the load commands -/

namespace Obj.MachoF
open Obj Obj.MachoR Obj.Spec.MachoF
open Obj.MachO (LoadCommands LoadCommandData)

theorem sectionOffsets_length (o : Bool) (e prev : Nat) (ss : List Sect) (os : List Nat) (h : MachoR.sectionOffsets o e prev ss = .ok os) :
    os.length = ss.length := by
  induction ss generalizing prev os with
  | nil =>
    simp only [MachoR.sectionOffsets, Res.ok.injEq] at h
    subst h; rfl
  | cons s ss ih =>
    cases o with
    | false =>
      rw [offsets_small] at h
      simp only [Res.ok.injEq] at h
      subst h; simp
    | true =>
      cases hf : s.fileSize with
      | some size =>
        rw [so_some _ _ _ _ _ hf] at h
        dsimp only at h
        generalize (if (s.offset ||| prev &&& 18446744069414584320) < prev then _ else _ : Nat) = x at h
        split at h
        · simp at h
        · obtain ⟨r, h1, h2⟩ := (Res.bind_eq_ok ..).1 h
          simp only [Res.ok.injEq] at h2
          subst h2
          simp [ih _ _ h1]
      | none =>
        rw [so_none _ _ _ _ hf] at h
        obtain ⟨r, h1, h2⟩ := (Res.bind_eq_ok ..).1 h
        simp only [Res.ok.injEq] at h2
        subst h2
        simp [ih _ _ h1]

theorem zip_iff (K : Sect → SectionKind) (ss : List Sect) (os : List Nat) (hl : os.length = ss.length) (xs : List SecInt) :
    (ss.zip os).map (fun p => (⟨K p.1, p.1, p.2⟩ : SecInt)) = xs ↔
      xs.map (·.sect) = ss ∧ xs.map (·.offset) = os ∧ ∀ x ∈ xs, K x.sect = x.kind := by
  induction ss generalizing os xs with
  | nil =>
    have : os = [] := List.length_eq_zero_iff.1 hl
    subst this
    constructor
    · rintro rfl; simp
    · rintro ⟨h, -⟩
      rw [List.map_eq_nil_iff] at h
      subst h; rfl
  | cons s ss ih =>
    cases os with
    | nil => simp at hl
    | cons o os =>
      simp only [List.length_cons, Nat.add_right_cancel_iff] at hl
      rw [List.zip_cons_cons, List.map_cons]
      constructor
      · rintro rfl
        obtain ⟨h1, h2, h3⟩ := (ih os hl _).1 rfl
        refine ⟨by rw [List.map_cons, h1], by rw [List.map_cons, h2], ?_⟩
        intro x hx
        rcases List.mem_cons.1 hx with rfl | hx
        · rfl
        · exact h3 x hx
      · rintro ⟨h1, h2, h3⟩
        cases xs with
        | nil => simp at h1
        | cons x xs =>
          simp only [List.map_cons, List.cons.injEq] at h1 h2
          rw [(ih os hl xs).2 ⟨h1.2, h2.2, fun x hx => h3 x (by simp [hx])⟩]
          have := h3 x (by simp)
          cases x
          simp only at *
          obtain ⟨rfl, -⟩ := h1
          obtain ⟨rfl, -⟩ := h2
          rw [this]

theorem segSize_eq (c : Cfg) : segSize c = segmentSize c.is64 := rfl
theorem sectSize_eq (c : Cfg) : sectSize c = sectionSize c.is64 := rfl

theorem segmentIn_bounds (c : Cfg) (b : List UInt8) : (segmentIn c b).fileoff < 2 ^ 64 ∧ (segmentIn c b).nsects < 2 ^ 32 := by
  unfold segmentIn
  refine ⟨?_, num_lt ..⟩
  have := num_lt c.en b (24 + 2 * Spec.MachoF.width c.is64) (Spec.MachoF.width c.is64)
  refine Nat.lt_of_lt_of_le this ?_
  unfold Spec.MachoF.width
  split <;> decide

theorem sectionsIn_offset (c : Cfg) (b : List UInt8) : ∀ s ∈ sectionsIn c b, s.offset < 2 ^ 32 := by
  intro s hs
  obtain ⟨i, -, rfl⟩ := List.mem_map.1 hs
  exact num_lt ..

theorem parseSections_iff (c : Cfg) (h : Mhdr) (b : List UInt8) (hb : segmentSize c.is64 ≤ b.length) (xs : List SecInt) :
    parseSections c h (segmentIn c b) (b.drop (segmentSize c.is64)) = .ok xs ↔ SectionsOf c h.filetype b xs := by
  unfold parseSections SectionsOf
  obtain ⟨hf, hn⟩ := segmentIn_bounds c b
  have hw : sectionSize c.is64 ≤ 80 := by unfold sectionSize; split <;> omega
  have hw0 : 0 < sectionSize c.is64 := by unfold sectionSize; split <;> omega
  have hu : (segmentIn c b).nsects * sectSize c < U64 := by
    rw [sectSize_eq]
    have := Nat.mul_le_mul (Nat.le_of_lt hn) hw
    simp only [Nat.reducePow, Nat.reduceMul] at *
    omega
  have hmap : ((List.range (segmentIn c b).nsects).map fun i => slice (b.drop (segmentSize c.is64)) (0 + sectSize c * i) (sectSize c)).map (Sect.decode c) =
      sectionsIn c b := by
    unfold sectionsIn
    rw [List.map_map]
    apply List.map_congr_left
    intro i _
    simp only [Function.comp_apply]
    rw [show slice (b.drop (segmentSize c.is64)) (0 + sectSize c * i) (sectSize c) = slice b (segmentSize c.is64 + sectSize c * i) (sectSize c) by
      simp only [slice, List.drop_drop, Nat.zero_add]]
    rw [sect_decode]; rfl
  have hin : ((segmentIn c b).nsects * sectSize c = 0 ∨ 0 + sectSize c * (segmentIn c b).nsects ≤ (b.drop (segmentSize c.is64)).length) ↔
      segmentSize c.is64 + sectionSize c.is64 * (segmentIn c b).nsects ≤ b.length := by
    rw [List.length_drop, sectSize_eq]
    rw [Nat.mul_comm]
    omega
  have hoff := fun os => offsetsOf_iff (segmentIn c b) hf (sectionsIn c b) (sectionsIn_offset c b) os
  constructor
  · intro hh
    obtain ⟨imgs, h1, h2⟩ := (Res.bind_eq_ok ..).1 hh
    obtain ⟨h3, rfl⟩ := (Pe.readSliceAt_iff _ _ _ _ hu _).1 h1
    dsimp only at h2
    rw [hmap] at h2
    obtain ⟨os, h4, h5⟩ := (Res.bind_eq_ok ..).1 h2
    simp only [Res.ok.injEq] at h5
    obtain ⟨h6, h7, h8⟩ := (zip_iff (sectKind (readonlyOf h (segmentIn c b))) _ _ (sectionOffsets_length _ _ _ _ _ h4) _).1 h5
    refine ⟨hb, hin.1 h3, h6, ?_, fun x hx => (kind_iff h _ _ _).2 (h8 x hx)⟩
    rw [h7]; exact (hoff _).1 h4
  · rintro ⟨-, h3, h6, h7, h8⟩
    rw [(Pe.readSliceAt_iff _ _ _ _ hu _).2 ⟨hin.2 h3, rfl⟩, Res.ok_bind]
    dsimp only
    rw [hmap, (hoff _).2 h7, Res.ok_bind]
    rw [(zip_iff (sectKind (readonlyOf h (segmentIn c b))) _ _ (by rw [← h6]; simp) _).2 ⟨h6, rfl, fun x hx => (kind_iff h _ _ _).1 (h8 x hx)⟩]

theorem symbols_iff (c : Cfg) (data b : List UInt8) (hb : 24 ≤ b.length) (t : SymTab) :
    (SymtabCmd.decode c b).symbols c data = .ok t ↔ SymbolsOf c data b t := by
  unfold SymtabCmd.symbols SymbolsOf
  rw [symtab_decode]
  dsimp only
  have hn := num_lt c.en b 12 4
  have hs := num_lt c.en b 16 4
  have hz := num_lt c.en b 20 4
  have hw : nlistSize c = 8 + Spec.MachoF.width c.is64 := by unfold nlistSize Spec.MachoF.width; split <;> rfl
  have hw' : nlistSize c ≤ 16 ∧ 0 < nlistSize c := by unfold nlistSize; split <;> omega
  have hu : num c.en b 12 4 * nlistSize c < U64 := by
    have := Nat.mul_le_mul (Nat.le_of_lt hn) hw'.1
    simp only [Nat.reducePow, Nat.reduceMul] at *
    omega
  rw [← hw]
  have hmap : ((List.range (num c.en b 12 4)).map fun i => slice data (num c.en b 8 4 + nlistSize c * i) (nlistSize c)).map (Nlist.decode c) =
      (List.range (num c.en b 12 4)).map fun i => symbolAt c data (num c.en b 8 4 + nlistSize c * i) := by
    rw [List.map_map]
    apply List.map_congr_left
    intro i _
    simp only [Function.comp_apply, nlist_decode]
  have hz0 : num c.en b 12 4 * nlistSize c = 0 ↔ num c.en b 12 4 = 0 := by
    rw [Nat.mul_eq_zero]; omega
  have hno : ¬ U64 ≤ num c.en b 16 4 + num c.en b 20 4 := by
    have : (U64 : Nat) = 2 ^ 64 := rfl
    simp only [Nat.reducePow] at *
    omega
  constructor
  · intro hh
    obtain ⟨imgs, h1, h2⟩ := (Res.bind_eq_ok ..).1 hh
    obtain ⟨h3, rfl⟩ := (Pe.readSliceAt_iff _ _ _ _ hu _).1 h1
    rw [hz0] at h3
    rw [if_neg hno] at h2
    simp only [Res.ok.injEq] at h2
    subst h2
    exact ⟨hb, h3, hmap, rfl⟩
  · rintro ⟨-, h1, h2, h3⟩
    rw [(Pe.readSliceAt_iff _ _ _ _ hu _).2 ⟨by rw [hz0]; exact h1, rfl⟩, Res.ok_bind, if_neg hno, hmap, ← h2, ← h3]

theorem isSegment_symtab {c : Cfg} {b : List UInt8} (h : IsSegment c b) : ¬ IsSymtab c.en b := by
  unfold IsSegment at h
  unfold IsSymtab
  rw [h]
  split <;> decide

theorem segmentOf_eq (c : Cfg) (o : Nat) (b : List UInt8) : segmentOf c ⟨num c.en b 0 4, o, b⟩ =
    if IsSegment c b then (if segmentSize c.is64 ≤ b.length then .ok (some (segmentIn c b, b.drop (segmentSize c.is64))) else .err) else .ok none := by
  unfold segmentOf
  dsimp only
  by_cases hi : IsSegment c b
  · rw [if_pos hi, if_pos (show num c.en b 0 4 = segCmd c from hi)]
    unfold Bytes.read Bytes.readBytes
    rw [segSize_eq]
    by_cases h : segmentSize c.is64 ≤ b.length
    · simp only [if_pos h]
      rw [← seg_decode]
      congr 3
      rw [seg_decode, seg_decode]
      have h4 : 36 + 4 * Spec.MachoF.width c.is64 + 4 = segmentSize c.is64 := by unfold Spec.MachoF.width segmentSize; split <;> rfl
      have e : b.take (segmentSize c.is64) = slice b 0 (segmentSize c.is64) := by simp [slice]
      have hw : 4 ≤ Spec.MachoF.width c.is64 := by unfold Spec.MachoF.width; split <;> omega
      unfold segmentIn
      dsimp only
      rw [e, slice_slice _ _ _ _ _ (by omega)]
      rw [num_slice _ _ _ _ _ _ (by omega), num_slice _ _ _ _ _ _ (by omega), num_slice _ _ _ _ _ _ (by omega), num_slice _ _ _ _ _ _ (by omega),
        num_slice _ _ _ _ _ _ (by omega), num_slice _ _ _ _ _ _ (by omega), num_slice _ _ _ _ _ _ (by omega), num_slice _ _ _ _ _ _ (by omega)]
      simp only [Nat.zero_add]
    · simp only [if_neg h]
  · rw [if_neg hi, if_neg (show ¬ num c.en b 0 4 = segCmd c from hi)]

theorem symtabOf_eq (c : Cfg) (o : Nat) (b : List UInt8) : symtabOf c ⟨num c.en b 0 4, o, b⟩ =
    if IsSymtab c.en b then (if 24 ≤ b.length then .ok (some (SymtabCmd.decode c b)) else .err) else .ok none := by
  unfold symtabOf
  dsimp only
  by_cases h : num c.en b 0 4 = 2
  · rw [if_pos h, if_pos (show IsSymtab c.en b from h), MachoI.readAt_eq]
    by_cases h2 : 24 ≤ b.length
    · rw [if_pos (by omega), if_pos h2, Res.ok_bind]
      rw [symtab_decode, symtab_decode, num_slice _ _ _ _ _ _ (by omega), num_slice _ _ _ _ _ _ (by omega), num_slice _ _ _ _ _ _ (by omega),
        num_slice _ _ _ _ _ _ (by omega)]
    · rw [if_neg (by omega), if_neg h2]; rfl
  · rw [if_neg h, if_neg (show ¬ IsSymtab c.en b from h)]

/-! ## The body of the loop -/

theorem parseStep_iff (c : Cfg) (data : List UInt8) (f f' : File) (o : Nat) (b : List UInt8) :
    parseStep c data f ⟨num c.en b 0 4, o, b⟩ = .ok f' ↔
      (IsSegment c b ∧ ∃ xs, SectionsOf c f.header.filetype b xs ∧
        f' = { f with segments := f.segments ++ [segmentIn c b], sections := f.sections ++ xs }) ∨
      (IsSymtab c.en b ∧ ∃ t, SymbolsOf c data b t ∧ f' = { f with symbols := t }) ∨
      (¬ IsSegment c b ∧ ¬ IsSymtab c.en b ∧ f' = f) := by
  unfold parseStep
  rw [segmentOf_eq, symtabOf_eq]
  by_cases hs : IsSegment c b
  · have hns := isSegment_symtab hs
    rw [if_pos hs]
    simp only [hs, hns, true_and, false_and, not_true, or_false]
    by_cases hl : segmentSize c.is64 ≤ b.length
    · rw [if_pos hl, Res.ok_bind]
      dsimp only
      rw [Res.bind_eq_ok]
      simp only [parseSections_iff c f.header b hl, Res.ok.injEq, eq_comm]
    · rw [if_neg hl]
      simp only [Res.err_bind, reduceCtorEq, false_iff]
      rintro ⟨xs, h, -⟩
      exact hl h.1
  · rw [if_neg hs, Res.ok_bind]
    by_cases ht : IsSymtab c.en b
    · dsimp only
      rw [if_pos ht]
      simp only [hs, ht, true_and, false_and, not_true, or_false, false_or, and_false]
      by_cases hl : 24 ≤ b.length
      · rw [if_pos hl, Res.ok_bind]
        dsimp only
        rw [Res.bind_eq_ok]
        simp only [symbols_iff c data b hl, Res.ok.injEq, eq_comm]
      · rw [if_neg hl]
        simp only [Res.err_bind, reduceCtorEq, false_iff]
        rintro ⟨xs, h, -⟩
        exact hl h.1
    · dsimp only
      rw [if_neg ht, Res.ok_bind]
      simp only [hs, ht, not_false_eq_true, true_and, false_and, false_or, Res.ok.injEq, eq_comm]

theorem sectionOffsets_no_panic (o : Bool) (e prev : Nat) (ss : List Sect) : MachoR.sectionOffsets o e prev ss ≠ .panic := by
  induction ss generalizing prev with
  | nil => simp [MachoR.sectionOffsets]
  | cons s ss ih =>
    cases o with
    | false => rw [offsets_small]; simp
    | true =>
      cases hf : s.fileSize with
      | some size =>
        rw [so_some _ _ _ _ _ hf]
        dsimp only
        generalize (if (s.offset ||| prev &&& 18446744069414584320) < prev then _ else _ : Nat) = x
        split
        · simp
        · exact Res.bind_no_panic (ih _) fun r _ => by simp
      | none =>
        rw [so_none _ _ _ _ hf]
        exact Res.bind_no_panic (ih _) fun r _ => by simp

theorem parseStep_no_panic (c : Cfg) (data : List UInt8) (f : File) (o : Nat) (b : List UInt8) :
    parseStep c data f ⟨num c.en b 0 4, o, b⟩ ≠ .panic := by
  unfold parseStep
  rw [segmentOf_eq, symtabOf_eq]
  refine Res.bind_no_panic ?_ fun r _ => ?_
  · split
    · split <;> simp
    · simp
  split
  · refine Res.bind_no_panic ?_ fun _ _ => by simp
    unfold parseSections
    refine Res.bind_no_panic (readSliceAt_no_panic _ _ _ _) fun _ _ => ?_
    exact Res.bind_no_panic (sectionOffsets_no_panic _ _ _ _) fun _ _ => by simp
  · refine Res.bind_no_panic ?_ fun r _ => ?_
    · split
      · split <;> simp
      · simp
    split
    · refine Res.bind_no_panic ?_ fun _ _ => by simp
      unfold SymtabCmd.symbols
      refine Res.bind_no_panic (readSliceAt_no_panic _ _ _ _) fun _ _ => ?_
      split <;> simp
    · simp

/-! ## The loop -/

/-- What the loop does with the commands. -/
def foldFile (c : Cfg) (data : List UInt8) : List LoadCommandData → File → Res File
  | [], f => .ok f
  | x :: xs, f => (parseStep c data f x).bind fun f => foldFile c data xs f

theorem next_ncmds {en : Endianness} {s s' : LoadCommands} {x : LoadCommandData} (h1 : s.next en = (.ok (some x), s')) : s.ncmds = s'.ncmds + 1 := by
  unfold LoadCommands.next at h1
  split at h1
  · simp at h1
  · split at h1
    · rename_i c' s'' hp
      simp only [Prod.mk.injEq] at h1
      obtain ⟨-, rfl⟩ := h1
      have : s''.ncmds = s.ncmds := by
        unfold LoadCommands.parse at hp
        repeat' (first | split at hp | dsimp only at hp)
        all_goals first | (simp only [Prod.mk.injEq] at hp; obtain ⟨-, rfl⟩ := hp; rfl) | simp at hp
      simp only [this]; omega
    · simp at h1
    · simp at h1

theorem parseLoop_eq (c : Cfg) (data : List UInt8) {cs : LoadCommands} {cmds : List LoadCommandData} {e : End}
    (h : Runs (LoadCommands.next c.en) cs cmds e) (he : e ≠ .panic) (f : File) (n : Nat) (hn : n = cs.ncmds) :
    parseLoop c data n cs f = foldFile c data cmds f := by
  induction h generalizing f n with
  | @done s s' h1 =>
    cases n with
    | zero => rfl
    | succ n => rw [parseLoop, h1]; rfl
  | @err s s' h1 =>
    cases n with
    | zero => rfl
    | succ n => rw [parseLoop, h1]; rfl
  | panic _ => exact absurd rfl he
  | @item s s' x xs e h1 _ ih =>
    cases n with
    | zero =>
      exfalso
      unfold LoadCommands.next at h1
      rw [if_pos hn.symm] at h1
      simp at h1
    | succ n =>
      have hs := next_ncmds h1
      rw [parseLoop, h1]
      dsimp only
      unfold foldFile
      congr 1
      funext f
      exact ih he f n (by omega)

theorem each_append {α β : Type} {P : α → β → Prop} {y : α} {ys : List α} {xs : List β} : Each P (y :: ys) xs ↔ ∃ x xs', xs = x :: xs' ∧ P y x ∧ Each P ys xs' := by
  constructor
  · intro h; cases h with | cons h1 h2 => exact ⟨_, _, rfl, h1, h2⟩
  · rintro ⟨x, xs', rfl, h1, h2⟩; exact .cons h1 h2

theorem lastOf_cons {α : Type} {P : α → Prop} {y : α} {ys : List α} {x : α} : LastOf P (y :: ys) x ↔ LastOf P ys x ∨ (y = x ∧ P x ∧ ∀ z ∈ ys, ¬ P z) := by
  constructor
  · rintro ⟨pre, post, h, h1, h2⟩
    cases pre with
    | nil =>
      simp only [List.nil_append, List.cons.injEq] at h
      obtain ⟨rfl, rfl⟩ := h
      exact .inr ⟨rfl, h1, h2⟩
    | cons p pre =>
      simp only [List.cons_append, List.cons.injEq] at h
      obtain ⟨rfl, rfl⟩ := h
      exact .inl ⟨pre, post, rfl, h1, h2⟩
  · rintro (⟨pre, post, rfl, h1, h2⟩ | ⟨rfl, h1, h2⟩)
    · exact ⟨y :: pre, post, rfl, h1, h2⟩
    · exact ⟨[], ys, rfl, h1, h2⟩

theorem foldFile_iff (c : Cfg) (data : List UInt8) (bs : List (List UInt8)) (o : Nat) (f f' : File) :
    foldFile c data (Props.commandList c.en o bs) f = .ok f' ↔
      f'.cfg = f.cfg ∧ f'.header = f.header ∧
      f'.segments = f.segments ++ (bs.filter fun b => IsSegment c b).map (segmentIn c) ∧
      (∃ xss, Each (SectionsOf c f.header.filetype) (bs.filter fun b => IsSegment c b) xss ∧ f'.sections = f.sections ++ xss.flatten) ∧
      (∀ b ∈ bs, IsSymtab c.en b → ∃ t, SymbolsOf c data b t) ∧
      ((∃ b, LastOf (IsSymtab c.en) bs b ∧ SymbolsOf c data b f'.symbols) ∨
        ((∀ b ∈ bs, ¬ IsSymtab c.en b) ∧ f'.symbols = f.symbols)) := by
  induction bs generalizing o f with
  | nil =>
    simp only [Props.commandList, foldFile, Res.ok.injEq, List.filter_nil, List.map_nil, List.append_nil, List.not_mem_nil, false_imp_iff,
      implies_true, true_and]
    constructor
    · rintro rfl
      exact ⟨rfl, rfl, rfl, ⟨[], .nil, by simp⟩, .inr rfl⟩
    · rintro ⟨h1, h2, h3, ⟨xss, h4, h5⟩, h6⟩
      cases h4
      simp only [List.flatten_nil, List.append_nil] at h5
      rcases h6 with ⟨b, ⟨pre, post, h, -⟩, -⟩ | h6
      · simp at h
      · cases f; cases f'; simp_all
  | cons b bs ih =>
    rw [Props.commandList, foldFile, Res.bind_eq_ok]
    rw [show (⟨field c.en b 0 4, o, b⟩ : LoadCommandData) = ⟨num c.en b 0 4, o, b⟩ from rfl]
    simp only [parseStep_iff, ih]
    by_cases hs : IsSegment c b
    · have hns := isSegment_symtab hs
      simp only [hs, hns, true_and, false_and, not_true, or_false, List.filter_cons, decide_true, if_true, List.map_cons, List.mem_cons,
        forall_eq_or_imp, false_imp_iff, not_false_eq_true, lastOf_cons, each_append]
      constructor
      · rintro ⟨g, ⟨xs, h1, rfl⟩, h2, h3, h4, ⟨xss, h5, h6⟩, h7, h8⟩
        refine ⟨h2, h3, by rw [h4]; simp, ⟨xs :: xss, ⟨xs, xss, rfl, h1, h5⟩, by rw [h6]; simp⟩, h7, ?_⟩
        rcases h8 with ⟨d, h8, h9⟩ | h8
        · exact .inl ⟨d, .inl h8, h9⟩
        · exact .inr h8
      · rintro ⟨h2, h3, h4, ⟨_, ⟨xs, xss, rfl, h1, h5⟩, h6⟩, h7, h8⟩
        refine ⟨_, ⟨xs, h1, rfl⟩, h2, h3, by rw [h4]; simp, ⟨xss, h5, by rw [h6]; simp⟩, h7, ?_⟩
        rcases h8 with ⟨d, h8 | ⟨rfl, h8, -⟩, h9⟩ | h8
        · exact .inl ⟨d, h8, h9⟩
        · exact absurd h8 hns
        · exact .inr h8
    · by_cases ht : IsSymtab c.en b
      · simp only [hs, ht, true_and, false_and, not_true, not_false_eq_true, and_false, or_false, false_or, List.filter_cons, decide_false, if_false, List.mem_cons,
          forall_eq_or_imp, lastOf_cons, Bool.false_eq_true, true_imp_iff]
        constructor
        · rintro ⟨g, ⟨t, h1, rfl⟩, h2, h3, h4, h5, h7, h8⟩
          refine ⟨h2, h3, h4, h5, ⟨⟨t, h1⟩, h7⟩, ?_⟩
          rcases h8 with ⟨d, h8, h9⟩ | ⟨h8, h9⟩
          · exact ⟨d, .inl h8, h9⟩
          · exact ⟨b, .inr ⟨rfl, ht, h8⟩, by rw [h9]; exact h1⟩
        · rintro ⟨h2, h3, h4, h5, ⟨⟨t, h1⟩, h7⟩, ⟨d, h8, h9⟩⟩
          rcases h8 with h8 | ⟨rfl, -, h8⟩
          · exact ⟨_, ⟨t, h1, rfl⟩, h2, h3, h4, h5, h7, .inl ⟨d, h8, h9⟩⟩
          · exact ⟨_, ⟨_, h9, rfl⟩, h2, h3, h4, h5, h7, .inr ⟨h8, rfl⟩⟩
      · simp only [hs, ht, true_and, false_and, not_false_eq_true, false_or, List.filter_cons, decide_false, if_false, List.mem_cons,
          forall_eq_or_imp, lastOf_cons, Bool.false_eq_true, false_imp_iff]
        constructor
        · rintro ⟨g, rfl, h2, h3, h4, h5, h7, h8⟩
          refine ⟨h2, h3, h4, h5, h7, ?_⟩
          rcases h8 with ⟨d, h8, h9⟩ | h8
          · exact .inl ⟨d, .inl h8, h9⟩
          · exact .inr h8
        · rintro ⟨h2, h3, h4, h5, h7, h8⟩
          refine ⟨_, rfl, h2, h3, h4, h5, h7, ?_⟩
          rcases h8 with ⟨d, h8 | ⟨rfl, h8, -⟩, h9⟩ | h8
          · exact .inl ⟨d, h8, h9⟩
          · exact absurd h8 ht
          · exact .inr h8

theorem foldFile_no_panic (c : Cfg) (data : List UInt8) (bs : List (List UInt8)) (o : Nat) (f : File) :
    foldFile c data (Props.commandList c.en o bs) f ≠ .panic := by
  induction bs generalizing o f with
  | nil => simp [Props.commandList, foldFile]
  | cons b bs ih =>
    rw [Props.commandList, foldFile]
    exact Res.bind_no_panic (parseStep_no_panic _ _ _ _ _) fun f _ => ih _ f

/-! ## The load commands of a file -/

theorem commandsIn_unique {en : Endianness} {region : List UInt8} {n : Nat} {as bs : List (List UInt8)} (ha : CommandsIn en region n as)
    (hb : CommandsIn en region n bs) : as = bs := by
  induction as generalizing region n bs with
  | nil =>
    cases bs with
    | nil => rfl
    | cons b bs =>
      obtain ⟨r, h1, h2, h3, h4⟩ := ha
      obtain ⟨r', g1, g2, g3, g4⟩ := hb
      exfalso
      refine h4 (by simp only [List.length_nil, List.length_cons] at *; omega) ⟨b, bs.flatten ++ r', ?_, g2 b (by simp)⟩
      simp only [List.flatten_nil, List.nil_append] at h1
      rw [← h1, g1]; simp
  | cons a as ih =>
    obtain ⟨r, h1, h2, h3, h4⟩ := ha
    cases bs with
    | nil =>
      obtain ⟨r', g1, g2, g3, g4⟩ := hb
      exfalso
      refine g4 (by simp only [List.length_nil, List.length_cons] at *; omega) ⟨a, as.flatten ++ r, ?_, h2 a (by simp)⟩
      simp only [List.flatten_nil, List.nil_append] at g1
      rw [← g1, h1]; simp
    | cons b bs =>
      obtain ⟨r', g1, g2, g3, g4⟩ := hb
      have ca := h2 a (by simp)
      have cb := g2 b (by simp)
      have e1 : region = a ++ (as.flatten ++ r) := by rw [h1]; simp
      have e2 : region = b ++ (bs.flatten ++ r') := by rw [g1]; simp
      have l : a.length = b.length := by
        have h8 := ca.1
        have h8' := cb.1
        rw [← ca.2, ← cb.2]
        have k1 : num en region 4 4 = num en a 4 4 := by
          rw [e1]; exact field_append en a _ 4 4 (by omega)
        have k2 : num en region 4 4 = num en b 4 4 := by
          rw [e2]; exact field_append en b _ 4 4 (by omega)
        rw [← k1, k2]
      obtain ⟨rfl, e3⟩ := List.append_inj (e1.symm.trans e2) l
      congr 1
      simp only [List.length_cons] at h3 h4 g3 g4
      exact ih (region := as.flatten ++ r) (n := n - 1) ⟨r, rfl, fun b hb => h2 b (by simp [hb]), by omega, fun h => h4 (by omega)⟩
        ⟨r', e3, fun b hb => g2 b (by simp [hb]), by omega, fun h => g4 (by omega)⟩

theorem commandsOf_unique {c : Cfg} {h : Mhdr} {data : List UInt8} {as bs : List (List UInt8)} (ha : CommandsOf c h data as) (hb : CommandsOf c h data bs) :
    as = bs := by
  unfold CommandsOf at *
  split at ha
  · rw [if_pos ‹_›] at hb
    exact commandsIn_unique ha hb
  · rw [if_neg ‹_›] at hb
    rw [ha, hb]

theorem hdrSize_eq (c : Cfg) : hdrSize c = headerSize c.is64 := rfl

/-- The iterator gives the load commands of the file. -/
theorem commands_run (c : Cfg) (h : Mhdr) (data : List UInt8) (hl : data.length < 2 ^ 63) :
    (∃ cs cmds e, loadCommands c h data = .ok cs ∧ cs.ncmds = h.ncmds ∧ CommandsOf c h data cmds ∧
      (h.sizeofcmds = 0 ∨ headerSize c.is64 + h.sizeofcmds ≤ data.length) ∧
      Runs (LoadCommands.next c.en) cs (Props.commandList c.en (headerSize c.is64) cmds) e ∧ e ≠ .panic ∧
      (e = .done ↔ cmds.length = h.ncmds)) ∨
    (loadCommands c h data = .err ∧ CommandsOf c h data [] ∧ ¬ (h.sizeofcmds = 0 ∨ headerSize c.is64 + h.sizeofcmds ≤ data.length)) := by
  unfold loadCommands CommandsOf
  rw [readRef_readBytesAt_eq, hdrSize_eq]
  have hs : headerSize c.is64 ≤ 32 := by unfold headerSize; split <;> omega
  by_cases hi : h.sizeofcmds = 0 ∨ headerSize c.is64 + h.sizeofcmds ≤ data.length
  · left
    simp only [if_pos hi]
    have hlen : (slice data (headerSize c.is64) h.sizeofcmds).length ≤ data.length := by
      simp only [slice, List.length_take, List.length_drop]; omega
    obtain ⟨cl, rest, e, h1, h2, h3, h4, h5, h6, h7⟩ := Props.C27_load_commands c.en (slice data (headerSize c.is64) h.sizeofcmds) h.ncmds
      (headerSize c.is64) (by simp only [Nat.reducePow] at *; omega)
    refine ⟨⟨slice data (headerSize c.is64) h.sizeofcmds, h.ncmds, headerSize c.is64⟩, cl, e, ?_, rfl, ?_, hi, h1, h2, h6⟩
    · rfl
    · refine ⟨rest, h3, h4, h5, fun hlt => ?_⟩
      refine (h7.1 ?_).2
      cases e with
      | done => have := h6.1 rfl; omega
      | err => rfl
      | panic => exact absurd rfl h2
  · right
    simp only [if_neg hi]
    exact ⟨rfl, trivial, hi⟩

theorem parse_image (is64 : Bool) (data : List UInt8) (hl : data.length < 2 ^ 63) (f : File) :
    File.parse is64 data = .ok f ↔ Image is64 data f := by
  unfold File.parse
  rw [Res.bind_eq_ok]
  constructor
  · rintro ⟨⟨c, h⟩, h1, h2⟩
    obtain ⟨h3, h4, h5, h6⟩ := (parseHeader_iff ..).1 h1
    rcases commands_run c h data hl with ⟨cs, cmds, e, g1, g2, g3, g4, g5, g6, g7⟩ | ⟨g1, g2, g3⟩
    · dsimp only at h2
      rw [g1] at h2
      dsimp only at h2
      rw [parseLoop_eq _ _ g5 g6 _ _ rfl, foldFile_iff] at h2
      dsimp only at h2
      obtain ⟨k1, k2, k3, k4, k5, k6⟩ := h2
      simp only [List.nil_append] at k3 k4
      subst k1 k2
      exact ⟨h3, h4, h5, h6, cmds, g3, k3, k4, k5, k6⟩
    · dsimp only at h2
      rw [g1] at h2
      simp only [Res.ok.injEq] at h2
      subst h2
      exact ⟨h3, h4, h5, h6, [], g2, rfl, ⟨[], .nil, rfl⟩, by simp, .inr ⟨by simp, rfl⟩⟩
  · rintro ⟨h3, h4, h5, h6, cmds, g3, k3, k4, k5, k6⟩
    refine ⟨(f.cfg, f.header), (parseHeader_iff ..).2 ⟨h3, h4, h5, h6⟩, ?_⟩
    dsimp only
    rcases commands_run f.cfg f.header data hl with ⟨cs, cmds', e, g1, g2, g3', g4, g5, g6, g7⟩ | ⟨g1, g2, _⟩
    · obtain rfl := commandsOf_unique g3 g3'
      rw [g1]
      dsimp only
      rw [parseLoop_eq _ _ g5 g6 _ _ rfl, foldFile_iff]
      exact ⟨rfl, rfl, by simpa using k3, by simpa using k4, k5, k6⟩
    · obtain rfl := commandsOf_unique g3 g2
      rw [g1]
      dsimp only
      have k6' : f.symbols = ⟨[], none⟩ := by
        rcases k6 with ⟨b, ⟨pre, post, h, -⟩, -⟩ | h
        · simp at h
        · exact h.2
      obtain ⟨xss, k4, k4'⟩ := k4
      cases k4
      cases f
      simp_all

theorem parse_no_panic (is64 : Bool) (data : List UInt8) (hl : data.length < 2 ^ 63) : File.parse is64 data ≠ .panic := by
  unfold File.parse
  refine Res.bind_no_panic (parseHeader_no_panic _ _) fun p _ => ?_
  dsimp only
  rcases commands_run p.1 p.2 data hl with ⟨cs, cmds, e, g1, g2, g3, g4, g5, g6, g7⟩ | ⟨g1, g2, _⟩
  · rw [g1]
    dsimp only
    rw [parseLoop_eq _ _ g5 g6 _ _ rfl]
    exact foldFile_no_panic _ _ _ _ _
  · rw [g1]; simp

end Obj.MachoF

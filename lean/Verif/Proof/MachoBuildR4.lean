import Verif.Proof.MachoBuildR3

/-! Reading of load commands by the Mach-O builder: the loops. -/

namespace Obj.MachoB
open Obj Obj.MachoR Obj.Spec.MachoB
open Obj.BuildW (foldR mapR)
open Obj.Spec.MachoF (Each num width headerSize headerIn IsCommand segmentSize sectionSize segmentIn sectionsIn Zerofill OffsetsOf SymbolsOf IndirectOf)
open Obj.Spec.MachoI (PartIs)
open Obj.MachO (LoadCommands LoadCommandData)
open Obj.MachoF Obj.MachoI

/-! ## The first loop -/

/-- The command can be decoded. -/
def VarOk (c : Cfg) (k : List UInt8) : Prop := ∃ v, variant c ⟨number c.en k, 0, k⟩ = .ok v

theorem variant_off (c : Cfg) (n o : Nat) (k : List UInt8) : variant c ⟨n, o, k⟩ = variant c ⟨n, 0, k⟩ := rfl

/-- What the body of the first loop does. -/
def scanned (c : Cfg) (k : List UInt8) (st : State) (table : List Nat) : State :=
  if isSegment c.en k then
    { st with sections := st.sections + (segmentIn (segCfg c.en k) k).nsects,
              pageBits := min st.pageBits (trailingZeros (8 * (segCfg c.en k).w) (segmentIn (segCfg c.en k) k).fileoff) }
  else if isSymtab c.en k then { st with symbols := num c.en k 12 4 }
  else if isDysymtab c.en k then { st with indirect := table }
  else st

theorem scan_seg (c : Cfg) (data k : List UInt8) (o : Nat) (st st' : State) (h : isSegment c.en k = true) :
    scanStep c data st ⟨number c.en k, o, k⟩ = .ok st' ↔ VarOk c k ∧ st' = scanned c k st [] := by
  unfold scanStep VarOk
  have h' := isSegment_of.1 h
  rw [variant_seg c _ o k h', variant_seg c _ 0 k h', read_eq]
  have hcfg : (⟨decide (number c.en k = 0x19), c.en⟩ : Cfg) = segCfg c.en k := rfl
  rw [hcfg, segSize_eq]
  by_cases hs : segmentSize (segCfg c.en k).is64 ≤ k.length
  · rw [if_pos hs]
    dsimp only
    rw [Res.ok_bind]
    dsimp only
    have := seg_slice (segCfg c.en k) k hs
    rw [segSize_eq] at this
    rw [this]
    unfold scanned
    rw [if_pos h]
    simp only [Res.ok.injEq, exists_eq', true_and]
    exact eq_comm
  · rw [if_neg hs]
    simp [Res.err_bind]

theorem scan_sym (c : Cfg) (data k : List UInt8) (o : Nat) (st st' : State) (h : isSymtab c.en k = true) :
    scanStep c data st ⟨number c.en k, o, k⟩ = .ok st' ↔ VarOk c k ∧ st' = scanned c k st [] := by
  unfold scanStep VarOk
  have h' := isSymtab_of.1 h
  have hn : isSegment c.en k = false := by
    rcases hx : isSegment c.en k with _ | _
    · rfl
    · have := isSegment_of.1 hx; omega
  rw [h', variant_symtab, variant_symtab, MachoI.readAt_eq, Nat.zero_add]
  by_cases hs : 24 ≤ k.length
  · rw [if_pos hs, Res.ok_bind, Res.ok_bind]
    dsimp only
    rw [symtab_decode, num_slice _ _ _ _ _ _ (by omega), num_slice _ _ _ _ _ _ (by omega), num_slice _ _ _ _ _ _ (by omega),
          num_slice _ _ _ _ _ _ (by omega)]
    unfold scanned
    rw [if_neg (by simp [hn]), if_pos h]
    simp only [Res.ok.injEq, exists_eq', true_and, Nat.zero_add, Res.ok_bind]
    exact eq_comm
  · rw [if_neg hs]
    simp [Res.err_bind]

theorem scan_dysym (c : Cfg) (data k : List UInt8) (o : Nat) (st st' : State) (h : isDysymtab c.en k = true) :
    scanStep c data st ⟨number c.en k, o, k⟩ = .ok st' ↔ ∃ table, IndirectTable c.en data k table ∧ st' = scanned c k st table := by
  unfold scanStep
  have h' := isDysymtab_of.1 h
  have hn : isSegment c.en k = false := by
    rcases hx : isSegment c.en k with _ | _
    · rfl
    · have := isSegment_of.1 hx; omega
  have hn2 : isSymtab c.en k = false := by
    rcases hx : isSymtab c.en k with _ | _
    · rfl
    · have := isSymtab_of.1 hx; omega
  rw [h', variant_dysymtab, MachoI.readAt_eq, Nat.zero_add]
  unfold scanned IndirectTable
  simp only [hn, hn2, h, if_true, if_false, Bool.false_eq_true]
  by_cases hs : 80 ≤ k.length
  · rw [if_pos hs, Res.ok_bind, Res.ok_bind, dysymtab_slice c k hs]
    dsimp only
    rw [Res.bind_eq_ok]
    have e7 : (((List.range 12).map fun i => num c.en k (32 + 4 * i) 4).getD 7 0) = num c.en k 60 4 := rfl
    have e6 : (((List.range 12).map fun i => num c.en k (32 + 4 * i) 4).getD 6 0) = num c.en k 56 4 := rfl
    have hb := num_lt c.en k 60 4
    refine ⟨fun ⟨l, h1, h2⟩ => ?_, fun ⟨l, ⟨_, h1, h2⟩, h3⟩ => ?_⟩
    · injection h2 with h2
      obtain ⟨h3, h4⟩ := (indirectTable_iff c _ data (by dsimp only; rw [e7]; simpa using hb) l).1 h1
      dsimp only at h3 h4
      rw [e6, e7] at h3 h4
      exact ⟨l, ⟨hs, h3, h4⟩, h2.symm⟩
    · refine ⟨l, (indirectTable_iff c _ data (by dsimp only; rw [e7]; simpa using hb) l).2 ?_, by rw [h3]⟩
      dsimp only
      rw [e6, e7]
      exact ⟨h1, h2⟩
  · rw [if_neg hs]
    simp only [Res.err_bind, reduceCtorEq, false_iff]
    rintro ⟨t, ⟨h, _⟩, _⟩
    exact hs h

/-- Kinds that the first loop skips. -/
def plainV : Variant → Bool
  | .segment _ _ _ => false
  | .symtab _ => false
  | .dysymtab _ => false
  | _ => true

theorem scan_other (c : Cfg) (data k : List UInt8) (o : Nat) (st st' : State) (h1 : isSegment c.en k = false) (h2 : isSymtab c.en k = false)
    (h3 : isDysymtab c.en k = false) : scanStep c data st ⟨number c.en k, o, k⟩ = .ok st' ↔ VarOk c k ∧ st' = scanned c k st [] := by
  unfold scanStep VarOk scanned
  rw [if_neg (by simp [h1]), if_neg (by simp [h2]), if_neg (by simp [h3])]
  rw [variant_off]
  have k1 : ¬ (number c.en k = 1 ∨ number c.en k = 0x19) := fun h => by rw [isSegment_of.2 h] at h1; cases h1
  have k2 : number c.en k ≠ 2 := fun h => by rw [isSymtab_of.2 h] at h2; cases h2
  have k3 : number c.en k ≠ 0xb := fun h => by rw [isDysymtab_of.2 h] at h3; cases h3
  rcases hv : variant c ⟨number c.en k, 0, k⟩ with v | _ | _
  · rw [Res.ok_bind]
    have hp : plainV v = true := by
      unfold variant at hv
      dsimp only at hv
      rw [if_neg k1, if_neg k2, if_neg k3] at hv
      repeat' split at hv
      all_goals first
        | (injection hv with hv; subst hv; rfl)
        | cases hv
        | (obtain ⟨_, _, hv⟩ := (Res.bind_eq_ok ..).1 hv; injection hv with hv; subst hv; rfl)
    simp only [Res.ok.injEq, exists_eq', true_and]
    cases v <;> first | (simp [plainV] at hp; done) | (simp only [Res.ok.injEq]; exact eq_comm)
  · simp [Res.err_bind]
  · simp [Res.bind]

/-- The totals after the first loop. -/
def Scanned (c : Cfg) (data : List UInt8) (cmds : List (List UInt8)) (st st' : State) : Prop :=
  ∃ tables, Each (IndirectTable c.en data) (cmds.filter (isDysymtab c.en)) tables ∧
    st' = ⟨st.sections + ((cmds.filter (isSegment c.en)).map fun k => (segmentIn (segCfg c.en k) k).nsects).sum,
      (((cmds.filter (isSymtab c.en)).map fun k => num c.en k 12 4).getLast?).getD st.symbols,
      tables.getLast?.getD st.indirect,
      (cmds.filter (isSegment c.en)).foldl (fun a k => min a (trailingZeros (8 * (segCfg c.en k).w) (segmentIn (segCfg c.en k) k).fileoff)) st.pageBits⟩

theorem indirect_varOk {c : Cfg} {data k : List UInt8} {table : List Nat} (hd : isDysymtab c.en k = true) (h : IndirectTable c.en data k table) : VarOk c k := by
  unfold VarOk
  rw [isDysymtab_of.1 hd, variant_dysymtab, MachoI.readAt_eq, Nat.zero_add, if_pos h.1]
  exact ⟨_, rfl⟩

theorem scan_fold (c : Cfg) (data : List UInt8) (cmds : List (List UInt8)) (o : Nat) (st st' : State) :
    foldRes (scanStep c data) st (Props.commandList c.en o cmds) = .ok st' ↔ (∀ k ∈ cmds, VarOk c k) ∧ Scanned c data cmds st st' := by
  induction cmds generalizing o st with
  | nil =>
    unfold Scanned
    simp only [Props.commandList, foldRes, List.filter_nil, BuildR.each_nil_left, List.map_nil, List.sum_nil, List.getLast?_nil, Option.getD_none, List.foldl_nil, List.not_mem_nil,
      false_imp_iff, implies_true, true_and, exists_eq_left, Nat.add_zero, Res.ok.injEq]
    exact eq_comm
  | cons k cmds ih =>
    rw [Props.commandList, foldRes, Res.bind_eq_ok]
    rw [show (⟨field c.en k 0 4, o, k⟩ : LoadCommandData) = ⟨number c.en k, o, k⟩ from rfl]
    simp only [ih, List.mem_cons, forall_eq_or_imp]
    by_cases h1 : isSegment c.en k = true
    · have h2 : isSymtab c.en k = false := by
        rcases hx : isSymtab c.en k with _ | _
        · rfl
        · have := isSegment_of.1 h1; have := isSymtab_of.1 hx; omega
      have h3 : isDysymtab c.en k = false := by
        rcases hx : isDysymtab c.en k with _ | _
        · rfl
        · have := isSegment_of.1 h1; have := isDysymtab_of.1 hx; omega
      simp only [scan_seg c data k o st _ h1]
      unfold Scanned scanned
      simp only [h1, h2, h3, List.filter_cons, if_true, if_false, List.map_cons, List.sum_cons, List.foldl_cons, Bool.false_eq_true, ← Nat.add_assoc]
      constructor
      · rintro ⟨_, ⟨hv, rfl⟩, ha, ts, ht, rfl⟩; exact ⟨⟨hv, ha⟩, ts, ht, rfl⟩
      · rintro ⟨⟨hv, ha⟩, ts, ht, rfl⟩; exact ⟨_, ⟨hv, rfl⟩, ha, ts, ht, rfl⟩
    replace h1 : isSegment c.en k = false := by simpa using h1
    by_cases h2 : isSymtab c.en k = true
    · have h3 : isDysymtab c.en k = false := by
        rcases hx : isDysymtab c.en k with _ | _
        · rfl
        · have := isSymtab_of.1 h2; have := isDysymtab_of.1 hx; omega
      simp only [scan_sym c data k o st _ h2]
      unfold Scanned scanned
      simp only [h1, h2, h3, List.filter_cons, if_true, if_false, List.map_cons, List.getLast?_cons, Option.getD_some, Bool.false_eq_true]
      constructor
      · rintro ⟨_, ⟨hv, rfl⟩, ha, ts, ht, rfl⟩; exact ⟨⟨hv, ha⟩, ts, ht, rfl⟩
      · rintro ⟨⟨hv, ha⟩, ts, ht, rfl⟩; exact ⟨_, ⟨hv, rfl⟩, ha, ts, ht, rfl⟩
    replace h2 : isSymtab c.en k = false := by simpa using h2
    by_cases h3 : isDysymtab c.en k = true
    · simp only [scan_dysym c data k o st _ h3]
      unfold Scanned scanned
      simp only [h1, h2, h3, List.filter_cons, if_true, if_false, Bool.false_eq_true, BuildR.each_cons_left]
      constructor
      · rintro ⟨_, ⟨t, hv, rfl⟩, ha, ts, ht, rfl⟩
        exact ⟨⟨indirect_varOk h3 hv, ha⟩, t :: ts, ⟨t, ts, rfl, hv, ht⟩, by rw [List.getLast?_cons, Option.getD_some]⟩
      · rintro ⟨⟨hv, ha⟩, _, ⟨t, ts, rfl, hi, ht⟩, rfl⟩
        exact ⟨_, ⟨t, hi, rfl⟩, ha, ts, ht, by rw [List.getLast?_cons, Option.getD_some]⟩
    replace h3 : isDysymtab c.en k = false := by simpa using h3
    simp only [scan_other c data k o st _ h1 h2 h3]
    unfold Scanned scanned
    simp only [h1, h2, h3, List.filter_cons, if_false, Bool.false_eq_true]
    constructor
    · rintro ⟨_, ⟨hv, rfl⟩, ha, ts, ht, rfl⟩; exact ⟨⟨hv, ha⟩, ts, ht, rfl⟩
    · rintro ⟨⟨hv, ha⟩, ts, ht, rfl⟩; exact ⟨_, ⟨hv, rfl⟩, ha, ts, ht, rfl⟩

/-! ## The second loop -/

theorem read_varOk (c : Cfg) (data : List UInt8) (st : State) (cmds : List (List UInt8)) (o : Nat) (b b' : Builder)
    (h : foldRes (readStep c data st) b (Props.commandList c.en o cmds) = .ok b') : ∀ k ∈ cmds, VarOk c k := by
  induction cmds generalizing o b with
  | nil => intro k hk; cases hk
  | cons k cmds ih =>
    rw [Props.commandList, foldRes, Res.bind_eq_ok] at h
    obtain ⟨b1, h1, h2⟩ := h
    intro k' hk'
    rcases List.mem_cons.1 hk' with rfl | hk'
    · unfold readStep at h1
      obtain ⟨v, hv, _⟩ := (Res.bind_eq_ok ..).1 h1
      exact ⟨v, hv⟩
    · exact ih _ _ h2 k' hk'

theorem idsFrom_append {β : Type} {f : β → Nat} {n : Nat} {l l' : List β} : IdsFrom f n (l ++ l') ↔ IdsFrom f n l ∧ IdsFrom f (n + l.length) l' := by
  unfold IdsFrom
  constructor
  · intro h
    refine ⟨fun i y hy => h i y ?_, fun i y hy => ?_⟩
    · rw [List.getElem?_append_left]
      · exact hy
      · exact (List.getElem?_eq_some_iff.1 hy).1
    · have := h (l.length + i) y (by rw [List.getElem?_append_right (by omega)]; rw [Nat.add_sub_cancel_left]; exact hy)
      omega
  · rintro ⟨h1, h2⟩ i y hy
    rcases Nat.lt_or_ge i l.length with hi | hi
    · rw [List.getElem?_append_left hi] at hy; exact h1 i y hy
    · rw [List.getElem?_append_right hi] at hy
      have := h2 _ _ hy
      omega

theorem idsFrom_single {β : Type} {f : β → Nat} {n : Nat} {y : β} : IdsFrom f n [y] ↔ f y = n := by
  unfold IdsFrom
  constructor
  · intro h; exact h 0 y rfl
  · intro h i z hz
    cases i with
    | zero => simp at hz; subst hz; exact h
    | succ i => simp at hz

/-- What the second loop does. -/
def Folded (c : Cfg) (data : List UInt8) (t : Totals) (cmds : List (List UInt8)) (b b' : Builder) : Prop :=
  ∃ ks gs yss ds, Each (CommandIs c.en data) cmds ks ∧ segmentsOf ks = List.range' b.segments.length gs.length ∧
    librariesOf ks = List.range' b.dylibs.length ds.length ∧ Each (SegmentIs c.en data t) (cmds.filter (isSegment c.en)) gs ∧
    Each (SymbolsAre c data t) (cmds.filter (isSymtab c.en)) yss ∧ Each (LibraryIs c.en) (cmds.filter (isLibrary c.en)) ds ∧
    IdsFrom (·.id) b.segments.length (gs.map (·.1)) ∧ IdsFrom (·.id) b.sections.length (gs.flatMap (·.2)) ∧
    IdsFrom (·.id) b.symbols.length yss.flatten ∧ (∀ k ∈ cmds, isDysymtab c.en k = true → 80 ≤ k.length) ∧
    b' = { b with
      commands := b.commands ++ ks
      segments := b.segments ++ gs.map (·.1)
      sections := b.sections ++ gs.flatMap (·.2)
      symbols := b.symbols ++ yss.flatten
      dylibs := b.dylibs ++ ds }

theorem kindSeg {en : Endianness} {k : List UInt8} (h : isSegment en k = true) : kindOf (number en k) = 1 := kind_seg (isSegment_of.1 h)
theorem kindSym {en : Endianness} {k : List UInt8} (h : isSymtab en k = true) : kindOf (number en k) = 2 := by rw [isSymtab_of.1 h]; rfl
theorem kindDys {en : Endianness} {k : List UInt8} (h : isDysymtab en k = true) : kindOf (number en k) = 3 := by rw [isDysymtab_of.1 h]; rfl
theorem kindLib {en : Endianness} {k : List UInt8} (h : isLibrary en k = true) : kindOf (number en k) = 7 := kind_lib (isLibrary_of.1 h)

theorem kind_false {en : Endianness} {k : List UInt8} : (kindOf (number en k) ≠ 1 → isSegment en k = false) ∧ (kindOf (number en k) ≠ 2 → isSymtab en k = false) ∧
    (kindOf (number en k) ≠ 3 → isDysymtab en k = false) ∧ (kindOf (number en k) ≠ 7 → isLibrary en k = false) := by
  refine ⟨fun h => ?_, fun h => ?_, fun h => ?_, fun h => ?_⟩
  · exact Bool.eq_false_iff.2 fun hx => h (kindSeg hx)
  · exact Bool.eq_false_iff.2 fun hx => h (kindSym hx)
  · exact Bool.eq_false_iff.2 fun hx => h (kindDys hx)
  · exact Bool.eq_false_iff.2 fun hx => h (kindLib hx)

theorem fold_iff {st : State} {t : Totals} (ht : TotalsEq st t) (c : Cfg) (data : List UInt8) (hl : data.length < 2 ^ 63) (cmds : List (List UInt8)) (o : Nat)
    (b b' : Builder) : foldRes (readStep c data st) b (Props.commandList c.en o cmds) = .ok b' ↔ Folded c data t cmds b b' := by
  induction cmds generalizing o b with
  | nil =>
    unfold Folded
    simp only [Props.commandList, foldRes, List.filter_nil, BuildR.each_nil_left, Res.ok.injEq]
    constructor
    · rintro rfl
      exact ⟨[], [], [], [], rfl, rfl, rfl, rfl, rfl, rfl, by intro i y h; simp at h, by intro i y h; simp at h, by intro i y h; simp at h,
        by simp, by simp⟩
    · rintro ⟨_, _, _, _, rfl, _, _, rfl, rfl, rfl, _, _, _, _, rfl⟩
      simp
  | cons k cmds ih =>
    rw [Props.commandList, foldRes, Res.bind_eq_ok]
    rw [show (⟨field c.en k 0 4, o, k⟩ : LoadCommandData) = ⟨number c.en k, o, k⟩ from rfl]
    simp only [ih, step_iff ht c data hl]
    obtain ⟨f1, f2, f3, f7⟩ := kind_false (en := c.en) (k := k)
    unfold Folded
    by_cases h1 : kindOf (number c.en k) = 1
    · rw [h1] at f2 f3 f7
      replace f2 := f2 (by simp)
      replace f3 := f3 (by simp)
      replace f7 := f7 (by simp)
      simp only [step_seg h1]
      constructor
      · rintro ⟨b1, ⟨hs, g, hg, hi, hj, rfl⟩, ks, gs, yss, ds, q1, q2, q3, q4, q5, q6, q7, q8, q9, q10, rfl⟩
        refine ⟨.segment b.segments.length :: ks, g :: gs, yss, ds, .cons (.segment hs) q1, ?_, ?_, ?_, ?_, ?_, ?_, ?_, q9, ?_, ?_⟩
        · simp only [segmentsOf, List.filterMap_cons] at q2 ⊢
          rw [q2]
          simp [List.range'_succ]
        · exact q3
        · rw [List.filter_cons, if_pos hs]; exact .cons hg q4
        · rw [List.filter_cons, if_neg (by simp [f2])]; exact q5
        · rw [List.filter_cons, if_neg (by simp [f7])]; exact q6
        · rw [List.map_cons, ← List.singleton_append, idsFrom_append, idsFrom_single]
          refine ⟨hi, ?_⟩
          simpa using q7
        · rw [List.flatMap_cons, idsFrom_append]
          refine ⟨hj, ?_⟩
          simpa using q8
        · intro k' hk'
          rcases List.mem_cons.1 hk' with rfl | hk'
          · simp [f3]
          · exact q10 k' hk'
        · simp
      · rintro ⟨ks, gs, yss, ds, q1, q2, q3, q4, q5, q6, q7, q8, q9, q10, rfl⟩
        have hs : isSegment c.en k = true := by
          rcases hx : isSegment c.en k with _ | _
          · unfold kindOf at h1
            rw [if_neg (fun h => by rw [isSegment_of.2 h] at hx; cases hx)] at h1
            repeat' split at h1
            all_goals cases h1
          · rfl
        rw [List.filter_cons, if_pos hs] at q4
        rw [List.filter_cons, if_neg (by simp [f2])] at q5
        rw [List.filter_cons, if_neg (by simp [f7])] at q6
        obtain ⟨g, gs, rfl, hg, q4⟩ := BuildR.each_cons_left.1 q4
        obtain ⟨x, ks, rfl, hx, q1'⟩ := BuildR.each_cons_left.1 q1
        rw [List.map_cons, ← List.singleton_append, idsFrom_append, idsFrom_single] at q7
        rw [List.flatMap_cons, idsFrom_append] at q8
        have hk := command_kind hx
        rw [h1] at hk
        cases hx <;> first | (simp [cmdKind] at hk; done) | skip
        simp only [segmentsOf, List.filterMap_cons, List.length_cons, List.range'_succ, List.cons.injEq] at q2
        obtain ⟨rfl, q2⟩ := q2
        refine ⟨_, ⟨hs, g, hg, q7.1, q8.1, rfl⟩, ks, gs, yss, ds, q1', ?_, q3, q4, q5, q6, ?_, ?_, q9, ?_, ?_⟩
        · simpa [segmentsOf] using q2
        · simpa using q7.2
        · simpa using q8.2
        · exact fun k' hk' => q10 k' (List.mem_cons_of_mem _ hk')
        · simp
    by_cases h2 : kindOf (number c.en k) = 2
    · rw [h2] at f1 f3 f7
      replace f1 := f1 (by simp)
      replace f3 := f3 (by simp)
      replace f7 := f7 (by simp)
      simp only [step_sym h2]
      constructor
      · rintro ⟨b1, ⟨hs, ys, hg, hj, rfl⟩, ks, gs, yss, ds, q1, q2, q3, q4, q5, q6, q7, q8, q9, q10, rfl⟩
        refine ⟨.symtab :: ks, gs, ys :: yss, ds, .cons (.symtab hs) q1, q2, q3, ?_, ?_, ?_, q7, q8, ?_, ?_, ?_⟩
        · rw [List.filter_cons, if_neg (by simp [f1])]; exact q4
        · rw [List.filter_cons, if_pos hs]; exact .cons hg q5
        · rw [List.filter_cons, if_neg (by simp [f7])]; exact q6
        · rw [List.flatten_cons, idsFrom_append]
          refine ⟨hj, ?_⟩
          simpa using q9
        · intro k' hk'
          rcases List.mem_cons.1 hk' with rfl | hk'
          · simp [f3]
          · exact q10 k' hk'
        · simp
      · rintro ⟨ks, gs, yss, ds, q1, q2, q3, q4, q5, q6, q7, q8, q9, q10, rfl⟩
        obtain ⟨x, ks, rfl, hx, q1'⟩ := BuildR.each_cons_left.1 q1
        have hk := command_kind hx
        rw [h2] at hk
        cases hx <;> first | (simp [cmdKind] at hk; done) | skip
        rename_i hs
        rw [List.filter_cons, if_neg (by simp [f1])] at q4
        rw [List.filter_cons, if_pos hs] at q5
        rw [List.filter_cons, if_neg (by simp [f7])] at q6
        obtain ⟨ys, yss, rfl, hg, q5⟩ := BuildR.each_cons_left.1 q5
        rw [List.flatten_cons, idsFrom_append] at q9
        refine ⟨_, ⟨hs, ys, hg, q9.1, rfl⟩, ks, gs, yss, ds, q1', q2, q3, q4, q5, q6, q7, q8, ?_, ?_, ?_⟩
        · simpa using q9.2
        · exact fun k' hk' => q10 k' (List.mem_cons_of_mem _ hk')
        · simp
    by_cases h7 : kindOf (number c.en k) = 7
    · rw [h7] at f1 f2 f3
      replace f1 := f1 (by simp)
      replace f2 := f2 (by simp)
      replace f3 := f3 (by simp)
      simp only [step_lib h7]
      constructor
      · rintro ⟨b1, ⟨hs, d, hg, rfl⟩, ks, gs, yss, ds, q1, q2, q3, q4, q5, q6, q7, q8, q9, q10, rfl⟩
        refine ⟨.dylib b.dylibs.length :: ks, gs, yss, d :: ds, .cons (.dylib hs) q1, q2, ?_, ?_, ?_, ?_, q7, q8, q9, ?_, ?_⟩
        · simp only [librariesOf, List.filterMap_cons] at q3 ⊢
          rw [q3]
          simp [List.range'_succ]
        · rw [List.filter_cons, if_neg (by simp [f1])]; exact q4
        · rw [List.filter_cons, if_neg (by simp [f2])]; exact q5
        · rw [List.filter_cons, if_pos hs]; exact .cons hg q6
        · intro k' hk'
          rcases List.mem_cons.1 hk' with rfl | hk'
          · simp [f3]
          · exact q10 k' hk'
        · simp
      · rintro ⟨ks, gs, yss, ds, q1, q2, q3, q4, q5, q6, q7, q8, q9, q10, rfl⟩
        obtain ⟨x, ks, rfl, hx, q1'⟩ := BuildR.each_cons_left.1 q1
        have hk := command_kind hx
        rw [h7] at hk
        cases hx <;> first | (simp [cmdKind] at hk; done) | skip
        rename_i hs
        rw [List.filter_cons, if_neg (by simp [f1])] at q4
        rw [List.filter_cons, if_neg (by simp [f2])] at q5
        rw [List.filter_cons, if_pos hs] at q6
        obtain ⟨d, ds, rfl, hg, q6⟩ := BuildR.each_cons_left.1 q6
        simp only [librariesOf, List.filterMap_cons, List.length_cons, List.range'_succ, List.cons.injEq] at q3
        obtain ⟨rfl, q3⟩ := q3
        refine ⟨_, ⟨hs, d, hg, rfl⟩, ks, gs, yss, ds, q1', q2, ?_, q4, q5, q6, q7, q8, q9, ?_, ?_⟩
        · simpa [librariesOf] using q3
        · exact fun k' hk' => q10 k' (List.mem_cons_of_mem _ hk')
        · simp
    replace f1 := f1 h1
    replace f2 := f2 h2
    replace f7 := f7 h7
    simp only [step_plain h1 h2 h7]
    rw [List.filter_cons, if_neg (by simp [f1]), List.filter_cons, if_neg (by simp [f2]), List.filter_cons, if_neg (by simp [f7])]
    constructor
    · rintro ⟨b1, ⟨hs, x, hx, rfl⟩, ks, gs, yss, ds, q1, q2, q3, q4, q5, q6, q7, q8, q9, q10, rfl⟩
      have hk := command_kind hx
      refine ⟨x :: ks, gs, yss, ds, .cons hx q1, ?_, ?_, q4, q5, q6, q7, q8, q9, ?_, ?_⟩
      · cases x <;> first | exact q2 | (simp [cmdKind] at hk; exact absurd hk h1)
      · cases x <;> first | exact q3 | (simp [cmdKind] at hk; exact absurd hk h7)
      · intro k' hk'
        rcases List.mem_cons.1 hk' with rfl | hk'
        · exact hs
        · exact q10 k' hk'
      · simp
    · rintro ⟨ks, gs, yss, ds, q1, q2, q3, q4, q5, q6, q7, q8, q9, q10, rfl⟩
      obtain ⟨x, ks, rfl, hx, q1'⟩ := BuildR.each_cons_left.1 q1
      have hk := command_kind hx
      refine ⟨_, ⟨q10 _ List.mem_cons_self, x, hx, rfl⟩, ks, gs, yss, ds, q1', ?_, ?_, q4, q5, q6, q7, q8, q9, ?_, ?_⟩
      · cases x <;> first | exact q2 | (simp [cmdKind] at hk; exact absurd hk h1)
      · cases x <;> first | exact q3 | (simp [cmdKind] at hk; exact absurd hk h7)
      · exact fun k' hk' => q10 k' (List.mem_cons_of_mem _ hk')
      · simp

end Obj.MachoB

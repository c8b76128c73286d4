import Verif.Proof.MachoFile2
import Verif.Props.SymbolMap

/-! # Reading Mach-O files: what is found in the load commands, sections by name, the object map -/

namespace Obj.MachoF
open Obj Obj.MachoR Obj.Spec.MachoF
open Obj.MachO (LoadCommands LoadCommandData)

theorem firstOf_cons {α : Type} {P : α → Prop} {y : α} {ys : List α} {x : α} : FirstOf P (y :: ys) x ↔ (P y ∧ y = x) ∨ (¬ P y ∧ FirstOf P ys x) := by
  constructor
  · rintro ⟨pre, post, h, h1, h2⟩
    cases pre with
    | nil =>
      simp only [List.nil_append, List.cons.injEq] at h
      obtain ⟨rfl, rfl⟩ := h
      exact .inl ⟨h1, rfl⟩
    | cons p pre =>
      simp only [List.cons_append, List.cons.injEq] at h
      obtain ⟨rfl, rfl⟩ := h
      exact .inr ⟨h2 y (by simp), pre, post, rfl, h1, fun z hz => h2 z (by simp [hz])⟩
  · rintro (⟨h1, rfl⟩ | ⟨h0, pre, post, rfl, h1, h2⟩)
    · exact ⟨[], ys, rfl, h1, by simp⟩
    · refine ⟨y :: pre, post, rfl, h1, ?_⟩
      intro z hz
      rcases List.mem_cons.1 hz with rfl | hz
      · exact h0
      · exact h2 z hz

theorem firstOf_nil {α : Type} {P : α → Prop} {x : α} : ¬ FirstOf P [] x := by
  rintro ⟨pre, post, h, -⟩
  simp at h

/-! ## Commands -/

theorem uuidOf_eq (en : Endianness) (o : Nat) (b : List UInt8) : uuidOf ⟨num en b 0 4, o, b⟩ =
    if num en b 0 4 = 0x1b then (if 24 ≤ b.length then .ok (some (slice b 8 16)) else .err) else .ok none := by
  unfold uuidOf
  dsimp only
  split
  · rw [MachoI.readAt_eq, Nat.zero_add]
    split
    · rw [Res.ok_bind, slice_slice _ _ _ _ _ (by omega)]
    · rfl
  · rfl

theorem uuidLoop_iff (en : Endianness) {cs : LoadCommands} {bs : List (List UInt8)} {o : Nat} {e : End}
    (h : Runs (LoadCommands.next en) cs (Props.commandList en o bs) e) (he : e ≠ .panic) (n : Nat) (hn : n = cs.ncmds) :
    (∀ u, uuidLoop en n cs = .ok (some u) ↔ ∃ b, FirstOf (UuidIn en) bs b ∧ u = slice b 8 16) ∧
    (uuidLoop en n cs = .ok none ↔ (∀ b ∈ bs, ¬ UuidIn en b) ∧ e = .done) ∧ uuidLoop en n cs ≠ .panic := by
  induction bs generalizing cs o n with
  | nil =>
    have hz : uuidLoop en n cs = if e = .done then .ok none else .err := by
      cases h with
      | done h1 =>
        rw [if_pos rfl]
        cases n with
        | zero => rfl
        | succ n => rw [uuidLoop, h1]
      | err h1 =>
        rw [if_neg (by decide)]
        cases n with
        | zero => unfold LoadCommands.next at h1; rw [if_pos hn.symm] at h1; simp at h1
        | succ n => rw [uuidLoop, h1]
      | panic _ => exact absurd rfl he
    rw [hz]
    refine ⟨fun u => ?_, ?_, by split <;> simp⟩
    · constructor
      · intro h; split at h <;> simp at h
      · rintro ⟨b, hb, -⟩; exact absurd hb firstOf_nil
    · split <;> simp_all
  | cons b bs ih =>
    rw [Props.commandList] at h
    cases h with
    | @item _ s' _ _ _ h1 h2 =>
      have hs := next_ncmds h1
      cases n with
      | zero => omega
      | succ n =>
        obtain ⟨i1, i2, i3⟩ := ih h2 n (by omega)
        have hstep := uuidOf_eq en o b
        rw [uuidLoop, h1]
        dsimp only
        rw [show (⟨field en b 0 4, o, b⟩ : LoadCommandData) = ⟨num en b 0 4, o, b⟩ from rfl, hstep]
        by_cases hu : UuidIn en b
        · rw [if_pos hu.1, if_pos hu.2]
          dsimp only
          refine ⟨fun u => ?_, ?_, by simp⟩
          · simp only [firstOf_cons, hu, true_and, not_true, false_and, or_false, exists_eq_left', Res.ok.injEq, Option.some.injEq, eq_comm]
          · simp [hu]
        · have fin : ∀ x : Res (Option (List UInt8)), x = uuidLoop en n s' → ((∀ u, x = .ok (some u) ↔ ∃ d, FirstOf (UuidIn en) (b :: bs) d ∧ u = slice d 8 16) ∧
              (x = .ok none ↔ (∀ d ∈ b :: bs, ¬ UuidIn en d) ∧ e = .done) ∧ x ≠ .panic) := by
            rintro x rfl
            refine ⟨fun u => ?_, ?_, i3⟩
            · rw [i1]
              simp only [firstOf_cons, hu, false_and, not_false_eq_true, true_and, false_or]
            · rw [i2]
              simp [hu]
          apply fin
          by_cases c1 : num en b 0 4 = 0x1b
          · rw [if_pos c1, if_neg (fun c2 => hu ⟨c1, c2⟩)]
          · rw [if_neg c1]

theorem buildVersion_ok (c : Cfg) (o : Nat) (b : List UInt8) (hb : IsBuildVersion c.en b) (r : Option (BuildVersion × List (List UInt8))) :
    MachoR.buildVersion c ⟨num c.en b 0 4, o, b⟩ = .ok r ↔ ∃ v, r = some v ∧ BuildVersionIn c.en b v := by
  unfold MachoR.buildVersion
  dsimp only
  rw [if_neg (by rw [show num c.en b 0 4 = 0x32 from hb]; simp)]
  unfold Bytes.read Bytes.readBytes
  by_cases hl : 24 ≤ b.length
  · simp only [if_pos hl]
    have hd : BuildVersion.decode c (b.take 24) = ⟨num c.en b 8 4, num c.en b 12 4, num c.en b 16 4, num c.en b 20 4⟩ := by
      have e : b.take 24 = slice b 0 24 := by simp [slice]
      rw [buildVersion_decode, e, num_slice _ _ _ _ _ _ (by omega), num_slice _ _ _ _ _ _ (by omega), num_slice _ _ _ _ _ _ (by omega),
        num_slice _ _ _ _ _ _ (by omega)]
    rw [hd]
    dsimp only
    have hn := num_lt c.en b 20 4
    have hu : num c.en b 20 4 * 8 < U64 := by
      have : (U64 : Nat) = 2 ^ 64 := rfl
      simp only [Nat.reducePow] at *; omega
    have hm : ((List.range (num c.en b 20 4)).map fun i => slice (b.drop 24) (0 + 8 * i) 8) = (List.range (num c.en b 20 4)).map fun i => slice b (24 + 8 * i) 8 := by
      apply List.map_congr_left
      intro i _
      simp only [slice, List.drop_drop, Nat.zero_add]
    constructor
    · intro h
      obtain ⟨l, h1, h2⟩ := (Res.bind_eq_ok ..).1 h
      obtain ⟨h3, rfl⟩ := (Pe.readSliceAt_iff _ _ _ _ hu _).1 h1
      simp only [Res.ok.injEq] at h2
      subst h2
      refine ⟨_, rfl, ?_, rfl, hm⟩
      rw [List.length_drop] at h3
      omega
    · rintro ⟨⟨v, l⟩, rfl, h1, h2, h3⟩
      dsimp only at h2 h3
      subst h2 h3
      rw [(Pe.readSliceAt_iff _ _ _ _ hu _).2 ⟨by rw [List.length_drop]; omega, rfl⟩, hm]
      rfl
  · simp only [if_neg hl, reduceCtorEq, false_iff]
    rintro ⟨v, -, h, -⟩
    omega

theorem buildVersion_no_panic (c : Cfg) (d : LoadCommandData) : MachoR.buildVersion c d ≠ .panic := by
  unfold MachoR.buildVersion
  split
  · simp
  · unfold Bytes.read Bytes.readBytes
    by_cases hl : 24 ≤ d.data.length
    · simp only [if_pos hl]
      exact Res.bind_no_panic (readSliceAt_no_panic _ _ _ _) fun _ _ => by simp
    · simp only [if_neg hl]; simp

theorem buildVersionLoop_iff (c : Cfg) {cs : LoadCommands} {bs : List (List UInt8)} {o : Nat} {e : End}
    (h : Runs (LoadCommands.next c.en) cs (Props.commandList c.en o bs) e) (he : e ≠ .panic) (n : Nat) (hn : n = cs.ncmds) :
    (∀ v, buildVersionLoop c n cs = .ok (some v) ↔ ∃ b, FirstOf (IsBuildVersion c.en) bs b ∧ BuildVersionIn c.en b v) ∧
    (buildVersionLoop c n cs = .ok none ↔ (∀ b ∈ bs, ¬ IsBuildVersion c.en b) ∧ e = .done) ∧ buildVersionLoop c n cs ≠ .panic := by
  induction bs generalizing cs o n with
  | nil =>
    have hz : buildVersionLoop c n cs = if e = .done then .ok none else .err := by
      cases h with
      | done h1 =>
        rw [if_pos rfl]
        cases n with
        | zero => rfl
        | succ n => rw [buildVersionLoop, h1]
      | err h1 =>
        rw [if_neg (by decide)]
        cases n with
        | zero => unfold LoadCommands.next at h1; rw [if_pos hn.symm] at h1; simp at h1
        | succ n => rw [buildVersionLoop, h1]
      | panic _ => exact absurd rfl he
    rw [hz]
    refine ⟨fun u => ?_, ?_, by split <;> simp⟩
    · constructor
      · intro h; split at h <;> simp at h
      · rintro ⟨b, hb, -⟩; exact absurd hb firstOf_nil
    · split <;> simp_all
  | cons b bs ih =>
    rw [Props.commandList] at h
    cases h with
    | item h1 h2 =>
      have hs := next_ncmds h1
      cases n with
      | zero => omega
      | succ n =>
        obtain ⟨i1, i2, i3⟩ := ih h2 n (by omega)
        rw [buildVersionLoop, h1]
        dsimp only
        rw [show (⟨field c.en b 0 4, o, b⟩ : LoadCommandData) = ⟨num c.en b 0 4, o, b⟩ from rfl]
        by_cases hu : IsBuildVersion c.en b
        · have hb := buildVersion_ok c o b hu
          refine ⟨fun v => ?_, ?_, ?_⟩
          · simp only [firstOf_cons, hu, true_and, not_true, false_and, or_false, exists_eq_left']
            rw [Res.bind_eq_ok]
            constructor
            · rintro ⟨r, g1, g2⟩
              obtain ⟨v', rfl, g3⟩ := (hb r).1 g1
              simp only [Res.ok.injEq, Option.some.injEq] at g2
              subst g2; exact g3
            · intro g
              exact ⟨some v, (hb _).2 ⟨v, rfl, g⟩, rfl⟩
          · simp only [List.mem_cons, forall_eq_or_imp, hu, not_true, false_and, iff_false]
            rw [Res.bind_eq_ok]
            rintro ⟨r, g1, g2⟩
            obtain ⟨v', rfl, g3⟩ := (hb r).1 g1
            simp at g2
          · refine Res.bind_no_panic (buildVersion_no_panic _ _) fun r hr => ?_
            obtain ⟨v', rfl, g3⟩ := (hb r).1 hr
            simp
        · have hr : MachoR.buildVersion c ⟨num c.en b 0 4, o, b⟩ = .ok none := by
            unfold MachoR.buildVersion
            dsimp only
            rw [if_pos (show num c.en b 0 4 ≠ 0x32 from hu)]
          rw [hr, Res.ok_bind]
          refine ⟨fun u => ?_, ?_, i3⟩
          · dsimp only
            rw [i1]
            simp only [firstOf_cons, hu, false_and, not_false_eq_true, true_and, false_or]
          · dsimp only
            rw [i2]
            simp [hu]

/-! ## The entry point -/

theorem entryPointOf_eq (en : Endianness) (o : Nat) (b : List UInt8) : entryPointOf en ⟨num en b 0 4, o, b⟩ =
    if num en b 0 4 = 0x80000028 then (if 24 ≤ b.length then .ok (some (num en b 8 8)) else .err) else .ok none := by
  unfold entryPointOf
  dsimp only
  split
  · rw [MachoI.readAt_eq, Nat.zero_add]
    split
    · rw [Res.ok_bind]
      rw [show field en (slice b 0 24) 8 8 = num en (slice b 0 24) 8 8 from rfl, num_slice _ _ _ _ _ _ (by omega), Nat.zero_add]
    · rfl
  · rfl

theorem unixThreadOf_eq (en : Endianness) (o : Nat) (b : List UInt8) : unixThreadOf ⟨num en b 0 4, o, b⟩ =
    if num en b 0 4 = 5 then (if 8 ≤ b.length then .ok (some (b.drop 8)) else .err) else .ok none := by
  unfold unixThreadOf
  dsimp only
  split
  · unfold Bytes.read Bytes.readBytes
    by_cases h : 8 ≤ b.length
    · simp only [if_pos h]
    · simp only [if_neg h]
  · rfl

theorem pcOf_iff (en : Endianness) (cputype : Nat) (b : List UInt8) (e : Nat) : pcOf en cputype (b.drop 8) = some e ↔
    ∃ n w, (cputype, n, w) ∈ pcTable ∧ 8 ≤ b.length ∧ 8 + 8 + n * w + w ≤ b.length ∧ e = num en b (8 + 8 + n * w) w := by
  have hsl : ∀ k w, rd en (slice (b.drop 8) k w) = num en b (8 + k) w := by
    intro k w; unfold num slice; rw [List.drop_drop]
  unfold pcOf pcPlace
  rw [List.length_drop]
  simp only [hsl]
  simp only [pcTable, List.mem_cons, List.not_mem_nil, or_false, Prod.mk.injEq]
  by_cases h1 : cputype = 0x1000007
  · subst h1
    simp only [if_true, Nat.reduceAdd, Nat.reduceMul, Nat.reduceEqDiff, false_and, or_false, true_and]
    constructor
    · intro h
      split at h
      · exact ⟨16, 8, ⟨rfl, rfl⟩, by omega, by omega, by simp at h; rw [← h]⟩
      · simp at h
    · rintro ⟨n, w, ⟨rfl, rfl⟩, hl, h, rfl⟩
      rw [if_pos (by omega)]
  simp only [if_neg h1]
  by_cases h2 : cputype = 0x100000c
  · subst h2
    simp only [if_true, Nat.reduceAdd, Nat.reduceMul, Nat.reduceEqDiff, false_and, or_false, true_and, false_or]
    constructor
    · intro h
      split at h
      · exact ⟨32, 8, ⟨rfl, rfl⟩, by omega, by omega, by simp at h; rw [← h]⟩
      · simp at h
    · rintro ⟨n, w, ⟨rfl, rfl⟩, hl, h, rfl⟩
      rw [if_pos (by omega)]
  simp only [if_neg h2]
  by_cases h3 : cputype = 7
  · subst h3
    simp only [if_true, if_false, Nat.reduceAdd, Nat.reduceMul, Nat.reduceEqDiff, false_and, or_false, true_and, false_or]
    constructor
    · intro h
      split at h
      · exact ⟨10, 4, ⟨rfl, rfl⟩, by omega, by omega, by simp at h; rw [← h]⟩
      · simp at h
    · rintro ⟨n, w, ⟨rfl, rfl⟩, hl, h, rfl⟩
      rw [if_pos (by omega)]
  simp only [if_neg h3]
  by_cases h4 : cputype = 12
  · subst h4
    simp only [if_true, if_false, Nat.reduceAdd, Nat.reduceMul, Nat.reduceEqDiff, false_and, or_false, true_and, false_or]
    constructor
    · intro h
      split at h
      · exact ⟨15, 4, ⟨rfl, rfl⟩, by omega, by omega, by simp at h; rw [← h]⟩
      · simp at h
    · rintro ⟨n, w, ⟨rfl, rfl⟩, hl, h, rfl⟩
      rw [if_pos (by omega)]
  simp only [if_neg h4, h1, h2, h3, h4, false_and, or_false, exists_const, iff_false]
  simp

/-- The value that a command gives. -/
def entryStep (en : Endianness) (cputype : Nat) (cmd : LoadCommandData) : Option Nat :=
  match entryPointOf en cmd with
  | .ok (some e) => some e
  | _ =>
    match unixThreadOf cmd with
    | .ok (some thread) => pcOf en cputype thread
    | _ => none

theorem entryStep_iff (en : Endianness) (cputype o : Nat) (b : List UInt8) (e : Nat) :
    entryStep en cputype ⟨num en b 0 4, o, b⟩ = some e ↔ EntryIn en cputype b e := by
  unfold entryStep
  rw [entryPointOf_eq, unixThreadOf_eq]
  constructor
  · intro h
    split at h
    · rename_i e' heq
      split at heq
      · split at heq
        · simp only [Res.ok.injEq, Option.some.injEq] at heq h
          subst heq h
          exact .main ‹_› ‹_›
        · simp at heq
      · simp at heq
    · split at h
      · rename_i th heq
        split at heq
        · split at heq
          · simp only [Res.ok.injEq, Option.some.injEq] at heq
            subst heq
            obtain ⟨n, w, h1, -, h2, rfl⟩ := (pcOf_iff ..).1 h
            exact .thread ‹_› h1 h2
          · simp at heq
        · simp at heq
      · simp at h
  · intro h
    cases h with
    | main h1 h2 => rw [if_pos h1, if_pos h2]
    | @thread n w h1 h2 h3 =>
      rw [if_neg (by rw [h1]; decide)]
      dsimp only
      rw [if_pos h1, if_pos (by omega)]
      exact (pcOf_iff ..).2 ⟨n, w, h2, by omega, h3, rfl⟩

theorem entryLoop_step (en : Endianness) (cputype n : Nat) (cs cs' : LoadCommands) (cmd : LoadCommandData) (h : cs.next en = (.ok (some cmd), cs')) :
    entryLoop en cputype (n + 1) cs = (entryStep en cputype cmd).getD (entryLoop en cputype n cs') := by
  rw [entryLoop, h]
  unfold entryStep
  dsimp only
  have rest : (match unixThreadOf cmd with
      | .ok (some thread) =>
        match pcOf en cputype thread with
        | some pc => pc
        | none => entryLoop en cputype n cs'
      | _ => entryLoop en cputype n cs') = (match unixThreadOf cmd with
      | .ok (some thread) => pcOf en cputype thread
      | _ => none).getD (entryLoop en cputype n cs') := by
    cases unixThreadOf cmd with
    | ok r =>
      cases r with
      | some t => dsimp only; cases pcOf en cputype t <;> rfl
      | none => rfl
    | err => rfl
    | panic => rfl
  cases entryPointOf en cmd with
  | ok r =>
    cases r with
    | some t => rfl
    | none => exact rest
  | err => exact rest
  | panic => exact rest

theorem entryLoop_iff (en : Endianness) (cputype : Nat) {cs : LoadCommands} {bs : List (List UInt8)} {o : Nat} {e : End}
    (h : Runs (LoadCommands.next en) cs (Props.commandList en o bs) e) (n : Nat) (hn : n = cs.ncmds) :
    (∃ b, FirstOf (fun b => ∃ a, EntryIn en cputype b a) bs b ∧ EntryIn en cputype b (entryLoop en cputype n cs)) ∨
    ((∀ b ∈ bs, ∀ a, ¬ EntryIn en cputype b a) ∧ entryLoop en cputype n cs = 0) := by
  induction bs generalizing cs o n with
  | nil =>
    right
    refine ⟨by simp, ?_⟩
    cases n with
    | zero => rfl
    | succ n =>
      cases h with
      | done h1 => rw [entryLoop, h1]
      | err h1 => rw [entryLoop, h1]
      | panic h1 => rw [entryLoop, h1]
  | cons b bs ih =>
    rw [Props.commandList] at h
    cases h with
    | item h1 h2 =>
      have hs := next_ncmds h1
      cases n with
      | zero => omega
      | succ n =>
        rw [entryLoop_step _ _ _ _ _ _ h1, show (⟨field en b 0 4, o, b⟩ : LoadCommandData) = ⟨num en b 0 4, o, b⟩ from rfl]
        cases hst : entryStep en cputype ⟨num en b 0 4, o, b⟩ with
        | some a =>
          have ha := (entryStep_iff ..).1 hst
          exact .inl ⟨b, firstOf_cons.2 (.inl ⟨⟨a, ha⟩, rfl⟩), ha⟩
        | none =>
          have hno : ∀ a, ¬ EntryIn en cputype b a := by
            intro a ha
            rw [(entryStep_iff ..).2 ha] at hst
            simp at hst
          rw [Option.getD_none]
          rcases ih h2 n (by omega) with ⟨d, h3, h4⟩ | ⟨h3, h4⟩
          · exact .inl ⟨d, firstOf_cons.2 (.inr ⟨fun ⟨a, ha⟩ => hno a ha, h3⟩), h4⟩
          · refine .inr ⟨?_, h4⟩
            intro d hd
            rcases List.mem_cons.1 hd with rfl | hd
            · exact hno
            · exact h3 d hd

/-! ## Sections by name -/

theorem strip_iff (p l r : List UInt8) : stripPrefix p l = some r ↔ l = p ++ r := by
  unfold stripPrefix
  constructor
  · intro h
    split at h
    · rename_i e
      simp only [Option.some.injEq] at h
      rw [← h]
      conv => lhs; rw [← List.take_append_drop p.length l, e]
    · simp at h
  · rintro rfl
    simp

theorem prefixMatches_iff (qp np query name : List UInt8) (h16 : np.length ≤ 16) :
    prefixMatches qp np query name = true ↔ ∃ s, query = qp ++ s ∧ name = (np ++ s).take 16 := by
  have ht : ∀ s : List UInt8, (np ++ s).take 16 = np ++ s.take (min s.length (16 - np.length)) := by
    intro s
    rw [List.take_append, List.take_of_length_le h16]
    congr 1
    rw [Nat.min_def]
    split
    · rw [List.take_of_length_le (by omega), List.take_of_length_le (by omega)]
    · rfl
  unfold prefixMatches
  cases hs : stripPrefix qp query with
  | some s =>
    have hq := (strip_iff ..).1 hs
    simp only [decide_eq_true_eq, strip_iff]
    constructor
    · intro h
      exact ⟨s, hq, by rw [ht, h]⟩
    · rintro ⟨s', h1, h2⟩
      rw [hq] at h1
      have := List.append_cancel_left h1
      subst this
      rw [h2, ht]
  | none =>
    simp only [Bool.false_eq_true, false_iff]
    rintro ⟨s, h1, -⟩
    rw [(strip_iff ..).2 h1] at hs
    simp at hs

theorem nameMatches_iff (query name : List UInt8) : nameMatches query name = true ↔ StandsFor query name := by
  unfold nameMatches
  simp only [Bool.or_eq_true, decide_eq_true_eq]
  rw [prefixMatches_iff _ _ _ _ (by decide), prefixMatches_iff _ _ _ _ (by decide)]
  constructor
  · rintro ((rfl | ⟨s, h1, rfl⟩) | ⟨s, h1, rfl⟩)
    · exact .same
    · exact .dot h1
    · exact .zdebug h1
  · intro h
    cases h with
    | same => exact .inl (.inl rfl)
    | @dot s h => exact .inl (.inr ⟨s, h, rfl⟩)
    | @zdebug s h => exact .inr ⟨s, h, rfl⟩

theorem sectionFor_iff (query : List UInt8) (s : SecInt) : SectionFor query s ↔ nameMatches query (upToNul s.sect.sectname) = true := by
  unfold SectionFor
  rw [nameMatches_iff]
  constructor
  · rintro ⟨name, h1, h2⟩
    rw [hasName_iff] at h1
    rw [h1]; exact h2
  · intro h
    exact ⟨_, (hasName_iff ..).2 rfl, h⟩

theorem find_iff {α : Type} (p : α → Bool) (P : α → Prop) (hp : ∀ x, P x ↔ p x = true) (l : List α) (x : α) :
    l.find? p = some x ↔ FirstOf P l x := by
  induction l with
  | nil =>
    simp only [List.find?_nil, reduceCtorEq, false_iff]
    exact firstOf_nil
  | cons y ys ih =>
    rw [firstOf_cons, List.find?_cons]
    cases h : p y with
    | true => simp [(hp y).2 h]
    | false =>
      have : ¬ P y := fun e => by rw [(hp y).1 e] at h; simp at h
      simp [this, ih]

end Obj.MachoF

import Verif.Spec.DyldImage
import Verif.Proof.MachoFile2
import Verif.Props.DyldCache

/-! # Images of the dyld shared cache -/

namespace Obj.DyldI
open Obj Obj.Dyld Obj.MachoR Obj.MachoF Obj.Spec.MachoF Obj.Spec.DyldI
open Obj.MachO (LoadCommands LoadCommandData)

theorem located_iff (c : Dyld.Cache) (a i o : Nat) : c.dataAndOffset a = some (i, o) ↔ Located c a i o := Props.C92_lookup c a i o

theorem contents_iff {c : Dyld.Cache} {a i o : Nat} (h : Located c a i o) (d : List UInt8) : Contents c i d ↔ d = fileData c i := by
  obtain ⟨f, h1, -⟩ := h
  unfold Contents fileData
  rw [h1]
  simp [eq_comm]

theorem located_file {c : Dyld.Cache} {a i o i' o' : Nat} (h : Located c a i o) (h' : Located c a i' o') : i = i' ∧ o = o' := by
  rw [← located_iff] at h h'
  rw [h] at h'
  simpa using h'

/-! ## An image at an offset is one in the rest of the data -/

theorem read_drop (data : List UInt8) (off a n : Nat) :
    ReadRef.readBytesAt data (off + a) n = ReadRef.readBytesAt (data.drop off) a n := by
  rw [Obj.readRef_readBytesAt_eq, Obj.readRef_readBytesAt_eq]
  have hs : slice data (off + a) n = slice (data.drop off) a n := by simp [slice, List.drop_drop]
  rw [hs]
  by_cases h0 : n = 0
  · simp [h0]
  · have : (n = 0 ∨ off + a + n ≤ data.length) ↔ (n = 0 ∨ a + n ≤ (data.drop off).length) := by
      rw [List.length_drop]; omega
    simp only [this]

theorem parseHeaderAt_eq (is64 : Bool) (data : List UInt8) (off : Nat) : parseHeaderAt is64 data off = parseHeader is64 (data.drop off) := by
  unfold parseHeaderAt parseHeader
  rw [← read_drop, Nat.add_zero]

theorem loadCommandsAt_eq (c : Cfg) (h : Mhdr) (data : List UInt8) (off : Nat) : loadCommandsAt c h data off = loadCommands c h (data.drop off) := by
  unfold loadCommandsAt loadCommands
  rw [read_drop]

theorem num_drop (en : Endianness) (data : List UInt8) (off w : Nat) : num en (data.drop off) 0 w = num en data off w := by
  simp [num, slice]

theorem header_iff (is64 : Bool) (data : List UInt8) (off : Nat) (c : Cfg) (h : Mhdr) :
    parseHeaderAt is64 data off = .ok (c, h) ↔
      c.is64 = is64 ∧ off + headerSize is64 ≤ data.length ∧ num c.en data off 4 = (if is64 then 0xfeedfacf else 0xfeedface) ∧
        h = headerIn c.en (data.drop off) := by
  rw [parseHeaderAt_eq, parseHeader_iff, num_drop, List.length_drop]
  have h0 : 0 < headerSize is64 := by unfold headerSize; split <;> omega
  rw [show (headerSize is64 ≤ data.length - off) ↔ off + headerSize is64 ≤ data.length by omega]
  rfl

/-! ## The loop -/

theorem linkedit_iff (g : Seg) : upToNul g.segname = segLinkedit ↔ HasName g.segname (ascii "__LINKEDIT") := by
  rw [hasName_iff]
  rw [show ascii "__LINKEDIT" = segLinkedit by decide +kernel]

/-- What the loop does with the commands. -/
def fold (cache : Dyld.Cache) (c : Cfg) (h : Mhdr) : List LoadCommandData → St → Res St
  | [], s => .ok s
  | x :: xs, s => (imageStep cache c h s x).bind fun s => fold cache c h xs s

theorem loop_eq (cache : Dyld.Cache) (c : Cfg) (h : Mhdr) {cs : LoadCommands} {cmds : List LoadCommandData} {e : End}
    (hr : Runs (LoadCommands.next c.en) cs cmds e) (he : e ≠ .panic) (s : St) (n : Nat) (hn : n = cs.ncmds) :
    imageLoop cache c h n cs s = fold cache c h cmds s := by
  induction hr generalizing s n with
  | @done _ _ h1 =>
    cases n with
    | zero => rfl
    | succ n => rw [imageLoop, h1]; rfl
  | @err _ _ h1 =>
    cases n with
    | zero => rfl
    | succ n => rw [imageLoop, h1]; rfl
  | panic _ => exact absurd rfl he
  | @item st st' x xs e h1 _ ih =>
    cases n with
    | zero =>
      exfalso
      have := next_ncmds h1
      omega
    | succ n =>
      rw [imageLoop, h1]
      dsimp only
      rw [fold]
      congr 1
      funext s'
      exact ih he s' n (by have := next_ncmds h1; omega)

theorem step_iff (cache : Dyld.Cache) (c : Cfg) (h : Mhdr) (s s' : St) (o : Nat) (b : List UInt8) :
    imageStep cache c h s ⟨num c.en b 0 4, o, b⟩ = .ok s' ↔
      (IsSegment c b ∧ ∃ p : Part, PartOf cache c h.filetype b p ∧
        ((IsLinkedit p ∧ s'.linkedit = some p.file) ∨ (¬ IsLinkedit p ∧ s'.linkedit = s.linkedit)) ∧
        s'.segments = s.segments ++ [(p.seg, p.file)] ∧ s'.sections = s.sections ++ p.sections.map (fun x => (x, p.file)) ∧
        s'.symtab = s.symtab) ∨
      (IsSymtab c.en b ∧ 24 ≤ b.length ∧ s' = { s with symtab := some (SymtabCmd.decode c b) }) ∨
      (¬ IsSegment c b ∧ ¬ IsSymtab c.en b ∧ s' = s) := by
  unfold imageStep
  rw [segmentOf_eq, symtabOf_eq]
  by_cases hs : IsSegment c b
  · have hns := isSegment_symtab hs
    rw [if_pos hs]
    simp only [hs, hns, true_and, false_and, not_true, or_false]
    by_cases hl : segmentSize c.is64 ≤ b.length
    · rw [if_pos hl, Res.ok_bind]
      dsimp only
      cases hd : cache.dataAndOffset (segmentIn c b).vmaddr with
      | none =>
        simp only [reduceCtorEq, false_iff]
        rintro ⟨p, ⟨h1, ⟨o', h2⟩, -⟩, -⟩
        rw [← located_iff, h1, hd] at h2
        cases h2
      | some q =>
        obtain ⟨i, off⟩ := q
        dsimp only
        rw [Res.bind_eq_ok]
        simp only [parseSections_iff c h b hl, Res.ok.injEq]
        constructor
        · rintro ⟨xs, h1, rfl⟩
          refine ⟨⟨segmentIn c b, i, xs⟩, ⟨rfl, ⟨off, (located_iff ..).1 hd⟩, h1⟩, ?_, rfl, rfl, rfl⟩
          by_cases hk : upToNul (segmentIn c b).segname = segLinkedit
          · exact .inl ⟨(linkedit_iff _).1 hk, by simp [hk]⟩
          · exact .inr ⟨fun hh => hk ((linkedit_iff _).2 hh), by simp [hk]⟩
        · rintro ⟨⟨g, i', xs⟩, ⟨rfl, ⟨o', h2⟩, h3⟩, h4, h5, h6, h7⟩
          obtain ⟨rfl, rfl⟩ := located_file h2 ((located_iff ..).1 hd)
          refine ⟨xs, h3, ?_⟩
          cases s'
          simp only at h4 h5 h6 h7
          subst h5 h6 h7
          simp only [St.mk.injEq, true_and, and_true]
          rcases h4 with ⟨h4, h8⟩ | ⟨h4, h8⟩
          · rw [if_pos ((linkedit_iff _).2 h4), h8]
          · rw [if_neg fun hh => h4 ((linkedit_iff _).1 hh), h8]
    · rw [if_neg hl]
      simp only [Res.err_bind, reduceCtorEq, false_iff]
      rintro ⟨p, ⟨-, -, h1⟩, -⟩
      exact hl h1.1
  · rw [if_neg hs, Res.ok_bind]
    dsimp only
    by_cases ht : IsSymtab c.en b
    · rw [if_pos ht]
      simp only [hs, ht, true_and, false_and, not_true, or_false, false_or, and_false]
      by_cases hl : 24 ≤ b.length
      · rw [if_pos hl, Res.ok_bind]
        simp only [hl, true_and, Res.ok.injEq, eq_comm]
      · rw [if_neg hl]
        simp [hl]
    · rw [if_neg ht, Res.ok_bind]
      simp only [hs, ht, not_false_eq_true, true_and, false_and, false_or, Res.ok.injEq, eq_comm]

theorem fold_iff (cache : Dyld.Cache) (c : Cfg) (h : Mhdr) (bs : List (List UInt8)) (o : Nat) (s s' : St) :
    fold cache c h (Props.commandList c.en o bs) s = .ok s' ↔
      ∃ parts, Each (PartOf cache c h.filetype) (bs.filter fun b => IsSegment c b) parts ∧
        s'.segments = s.segments ++ parts.map (fun p => (p.seg, p.file)) ∧
        s'.sections = s.sections ++ parts.flatMap (fun p => p.sections.map fun x => (x, p.file)) ∧
        ((∃ p, LastOf IsLinkedit parts p ∧ s'.linkedit = some p.file) ∨ ((∀ p ∈ parts, ¬ IsLinkedit p) ∧ s'.linkedit = s.linkedit)) ∧
        (∀ b ∈ bs, IsSymtab c.en b → 24 ≤ b.length) ∧
        ((∃ b, LastOf (IsSymtab c.en) bs b ∧ s'.symtab = some (SymtabCmd.decode c b)) ∨
          ((∀ b ∈ bs, ¬ IsSymtab c.en b) ∧ s'.symtab = s.symtab)) := by
  induction bs generalizing o s with
  | nil =>
    simp only [Props.commandList, fold, Res.ok.injEq, List.filter_nil, List.not_mem_nil, false_imp_iff, implies_true, true_and]
    constructor
    · rintro rfl
      exact ⟨[], .nil, by simp, by simp, .inr (by simp), .inr rfl⟩
    · rintro ⟨parts, h1, h2, h3, h4, h5⟩
      cases h1
      rcases h4 with ⟨p, ⟨pre, post, h4, -⟩, -⟩ | ⟨-, h4⟩
      · simp at h4
      rcases h5 with ⟨p, ⟨pre, post, h5, -⟩, -⟩ | h5
      · simp at h5
      cases s; cases s'; simp_all
  | cons b bs ih =>
    have hlast : ¬ IsSymtab c.en b → ∀ x, LastOf (IsSymtab c.en) (b :: bs) x ↔ LastOf (IsSymtab c.en) bs x := by
      intro hb x
      rw [lastOf_cons]
      constructor
      · rintro (hx | ⟨rfl, hx, -⟩)
        · exact hx
        · exact absurd hx hb
      · exact .inl
    rw [Props.commandList, fold, Res.bind_eq_ok]
    rw [show (⟨field c.en b 0 4, o, b⟩ : LoadCommandData) = ⟨num c.en b 0 4, o, b⟩ from rfl]
    simp only [step_iff, ih]
    by_cases hs : IsSegment c b
    · have hns := isSegment_symtab hs
      simp only [hs, hns, true_and, false_and, not_true, or_false, List.filter_cons, decide_true, if_true, List.mem_cons,
        forall_eq_or_imp, false_imp_iff, not_false_eq_true, hlast hns, and_false]
      constructor
      · rintro ⟨u, ⟨p, h1, h2, h3, h4, h5⟩, parts, k1, k2, k3, k4, k5, k6⟩
        refine ⟨p :: parts, .cons h1 k1, by rw [k2, h3]; simp, by rw [k3, h4]; simp, ?_, k5, ?_⟩
        · rcases k4 with ⟨q, k4, k4'⟩ | ⟨k4, k4'⟩
          · exact .inl ⟨q, (lastOf_cons ..).2 (.inl k4), k4'⟩
          · rcases h2 with ⟨h2, h2'⟩ | ⟨h2, h2'⟩
            · exact .inl ⟨p, (lastOf_cons ..).2 (.inr ⟨rfl, h2, k4⟩), by rw [k4', h2']⟩
            · refine .inr ⟨?_, by rw [k4', h2']⟩
              intro q hq
              rcases List.mem_cons.1 hq with rfl | hq
              · exact h2
              · exact k4 q hq
        · rw [← h5]; exact k6
      · rintro ⟨parts', k1, k2, k3, k4, k5, k6⟩
        cases k1 with
        | @cons _ p _ parts h1 k1 =>
        refine ⟨⟨s.segments ++ [(p.seg, p.file)], s.sections ++ p.sections.map (fun x => (x, p.file)),
          (open Classical in if IsLinkedit p then some p.file else s.linkedit), s.symtab⟩,
          ⟨p, h1, ?_, rfl, rfl, rfl⟩, parts, k1, by rw [k2]; simp, by rw [k3]; simp, ?_, k5, k6⟩
        · by_cases hk : IsLinkedit p
          · exact .inl ⟨hk, by simp [hk]⟩
          · exact .inr ⟨hk, by simp [hk]⟩
        · rcases k4 with ⟨q, k4, k4'⟩ | ⟨k4, k4'⟩
          · rcases (lastOf_cons ..).1 k4 with k4 | ⟨rfl, k7, k8⟩
            · exact .inl ⟨q, k4, k4'⟩
            · exact .inr ⟨k8, by simp [k7, k4']⟩
          · refine .inr ⟨fun q hq => k4 q (List.mem_cons_of_mem _ hq), ?_⟩
            have := k4 p List.mem_cons_self
            simp [this, k4']
    · by_cases ht : IsSymtab c.en b
      · simp only [hs, ht, true_and, false_and, not_true, not_false_eq_true, and_false, or_false, false_or, List.filter_cons, decide_false, if_false, List.mem_cons,
          forall_eq_or_imp, lastOf_cons, Bool.false_eq_true, true_imp_iff]
        constructor
        · rintro ⟨u, ⟨h1, rfl⟩, parts, k1, k2, k3, k4, k5, k6⟩
          refine ⟨parts, k1, k2, k3, k4, ⟨h1, k5⟩, ?_⟩
          rcases k6 with ⟨d, h8, h9⟩ | ⟨h8, h9⟩
          · exact ⟨d, .inl h8, h9⟩
          · exact ⟨b, .inr ⟨rfl, ht, h8⟩, h9⟩
        · rintro ⟨parts, k1, k2, k3, k4, ⟨h1, k5⟩, ⟨d, h8, h9⟩⟩
          refine ⟨_, ⟨h1, rfl⟩, parts, k1, k2, k3, k4, k5, ?_⟩
          rcases h8 with h8 | ⟨rfl, -, h8⟩
          · exact .inl ⟨d, h8, h9⟩
          · exact .inr ⟨h8, h9⟩
      · simp only [hs, ht, true_and, false_and, not_false_eq_true, false_or, List.filter_cons, decide_false, if_false, List.mem_cons,
          forall_eq_or_imp, hlast ht, Bool.false_eq_true, false_imp_iff, and_false, or_false, exists_eq_left]

theorem step_no_panic (cache : Dyld.Cache) (c : Cfg) (h : Mhdr) (s : St) (o : Nat) (b : List UInt8) :
    imageStep cache c h s ⟨num c.en b 0 4, o, b⟩ ≠ .panic := by
  -- the loop of a single file makes the same calls
  have hp := parseStep_no_panic c [] ⟨c, h, [], [], ⟨[], none⟩⟩ o b
  unfold parseStep at hp
  unfold imageStep
  cases hr : segmentOf c ⟨num c.en b 0 4, o, b⟩ with
  | err => simp
  | panic => rw [hr] at hp; exact absurd rfl hp
  | ok r =>
    rw [hr] at hp
    simp only [Res.ok_bind] at hp ⊢
    cases r with
    | some q =>
      obtain ⟨g, rest⟩ := q
      dsimp only at hp ⊢
      cases hd : cache.dataAndOffset g.vmaddr with
      | none => simp
      | some q =>
        obtain ⟨i, off⟩ := q
        dsimp only
        cases hx : parseSections c h g rest with
        | err => simp
        | panic => rw [hx] at hp; exact absurd rfl hp
        | ok xs => simp
    | none =>
      dsimp only at hp ⊢
      cases hx : symtabOf c ⟨num c.en b 0 4, o, b⟩ with
      | err => simp
      | panic => rw [hx] at hp; exact absurd rfl hp
      | ok t => rw [Res.ok_bind]; cases t <;> simp

theorem fold_no_panic (cache : Dyld.Cache) (c : Cfg) (h : Mhdr) (bs : List (List UInt8)) (o : Nat) (s : St) :
    fold cache c h (Props.commandList c.en o bs) s ≠ .panic := by
  induction bs generalizing o s with
  | nil => simp [Props.commandList, fold]
  | cons b bs ih =>
    rw [Props.commandList, fold]
    exact Res.bind_no_panic (step_no_panic _ _ _ _ _ _) fun s _ => ih _ s

/-- The load commands of an image. -/
theorem run_iff (cache : Dyld.Cache) (c : Cfg) (h : Mhdr) (data : List UInt8) (off : Nat) (hl : data.length < 2 ^ 63) :
    ∃ cmds, CommandsOf c h (data.drop off) cmds ∧
      imageCommands cache c h data off = fold cache c h (Props.commandList c.en (headerSize c.is64) cmds) ⟨[], [], none, none⟩ := by
  unfold imageCommands
  rw [loadCommandsAt_eq]
  rcases commands_run c h (data.drop off) (by rw [List.length_drop]; omega) with ⟨cs, cmds, e, g1, g2, g3, g4, g5, g6, g7⟩ | ⟨g1, g2, _⟩
  · refine ⟨cmds, g3, ?_⟩
    rw [g1]
    dsimp only
    exact loop_eq cache c h g5 g6 _ _ rfl
  · refine ⟨[], g2, ?_⟩
    rw [g1]
    rfl

end Obj.DyldI

import Verif.Proof.MachoBW9
import Verif.Proof.MachoBuildR6

/-! Writing with the Mach-O builder: reading the file gives the same items. -/

namespace Obj.MachoB
open Obj Obj.MachoR
open Obj.BuildW (mapR mapR_each Blk)
open Obj.Spec.MachoF (Each num headerSize headerIn IsCommand segmentIn)
open Obj.Spec.MachoB

/-! ## Lists -/

theorem each_join {α β γ : Type} {P : α → β → Prop} {Q : α → γ → Prop} {R : β → γ → Prop} {xs : List α} {ys : List β} {zs : List γ}
    (h : Each P xs ys) (g : Each Q xs zs) (hi : ∀ x y z, P x y → Q x z → R y z) : Each R ys zs := by
  induction h generalizing zs with
  | nil => cases g; exact .nil
  | cons h1 _ ih => cases g with | cons g1 g2 => exact .cons (hi _ _ _ h1 g1) (ih g2)

theorem each_choose {α β γ : Type} {P : α → γ → Prop} {Q : β → γ → Prop} {xs : List α} {ys : List β}
    (h : Each (fun x y => ∃ d, P x d ∧ Q y d) xs ys) : ∃ ds, Each P xs ds ∧ Each Q ys ds := by
  induction h with
  | nil => exact ⟨[], .nil, .nil⟩
  | cons h1 _ ih =>
    obtain ⟨d, p, q⟩ := h1
    obtain ⟨ds, ps, qs⟩ := ih
    exact ⟨d :: ds, .cons p ps, .cons q qs⟩

theorem zipIdx_flat {α β : Type} (f : α → List β) (xs : List α) (k : Nat) : (xs.zipIdx k).flatMap (fun p => f p.1) = xs.flatMap f := by
  induction xs generalizing k with
  | nil => rfl
  | cons x xs ih => rw [List.zipIdx_cons, List.flatMap_cons, List.flatMap_cons, ih]

/-! ## Numbers of segments and libraries -/

def renum : Nat → Nat → List Cmd → List Cmd
  | _, _, [] => []
  | i, j, .segment _ :: ks => .segment i :: renum (i + 1) j ks
  | i, j, .dylib _ :: ks => .dylib j :: renum i (j + 1) ks
  | i, j, k :: ks => k :: renum i j ks

theorem renum_ok (i j : Nat) (ks : List Cmd) : Each CmdSame ks (renum i j ks) ∧ segmentsOf (renum i j ks) = List.range' i (segmentsOf ks).length ∧
    librariesOf (renum i j ks) = List.range' j (librariesOf ks).length := by
  induction ks generalizing i j with
  | nil => exact ⟨.nil, rfl, rfl⟩
  | cons k ks ih =>
    cases k with
    | segment n =>
      obtain ⟨h1, h2, h3⟩ := ih (i + 1) j
      exact ⟨.cons .segment h1, by simp [renum, segmentsOf, List.range'_succ] at h2 ⊢; exact h2, by simp [renum, librariesOf] at h3 ⊢; exact h3⟩
    | dylib n =>
      obtain ⟨h1, h2, h3⟩ := ih i (j + 1)
      exact ⟨.cons .dylib h1, by simp [renum, segmentsOf] at h2 ⊢; exact h2, by simp [renum, librariesOf, List.range'_succ] at h3 ⊢; exact h3⟩
    | _ =>
      obtain ⟨h1, h2, h3⟩ := ih i j
      exact ⟨.cons (cmdSame_refl _) h1, by simp [renum, segmentsOf] at h2 ⊢; exact h2, by simp [renum, librariesOf] at h3 ⊢; exact h3⟩

section
variable {b : Builder} {o : Order} {l : Layout} {out : List UInt8}

/-! ## Segments -/

/-- The segments after reading. -/
def newSegs (b : Builder) (o : Order) (l : Layout) : List (Segm × List Sec) :=
  o.segs.zipIdx.map fun p => (newSegm b o l p.2 p.1, p.1.2.map (newSec o))

theorem newSegs_get {i : Nat} {g : Segm × List Sec} (h : (newSegs b o l)[i]? = some g) :
    ∃ p, o.segs[i]? = some p ∧ g = (newSegm b o l i p, p.2.map (newSec o)) := by
  unfold newSegs at h
  rw [List.getElem?_map, Option.map_eq_some_iff] at h
  obtain ⟨⟨p, j⟩, h1, h2⟩ := h
  rw [List.getElem?_zipIdx, Option.map_eq_some_iff] at h1
  obtain ⟨p', h3, h4⟩ := h1
  cases h4
  rw [Nat.zero_add] at h2
  exact ⟨_, h3, h2.symm⟩

theorem length_newSegs : (newSegs b o l).length = o.segs.length := by rw [newSegs, List.length_map, List.length_zipIdx]

theorem Written.newSecs (x : Written b o l out) : (newSegs b o l).flatMap (·.2) = o.secs.map (newSec o) := by
  rw [x.ord.secs, newSegs, List.flatMap_map, List.map_flatMap]
  exact zipIdx_flat (fun g : Segm × List Sec => g.2.map (newSec o)) o.segs 0

theorem Written.segs_length (x : Written b o l out) : o.segs.length = (segmentsOf b.commands).length := BuildR.each_length x.ord.segs

theorem Written.segs_cmds {ks : List (List UInt8)} (x : Written b o l out) (h : Each (CmdOut b o l out) b.commands ks) :
    Each (fun i bs => CmdOut b o l out (.segment i) bs) (List.range o.segs.length) (ks.filter (isSegment b.endian)) := by
  have := each_filter (p := isSegC) (q := isSegment b.endian) h fun _ _ => CmdOut.isSeg
  rw [segmentsOf_filter, BuildR.each_map_left, x.sound.order, ← x.segs_length] at this
  exact this

theorem Written.segs_is {ks : List (List UInt8)} (x : Written b o l out) (h : Each (CmdOut b o l out) b.commands ks) :
    Each (SegmentIs b.endian out (totals o l (indTable o))) (ks.filter (isSegment b.endian)) (newSegs b o l) := by
  have hs := x.segs_cmds h
  refine BuildW.each_of_forall ?_ fun i bs g hb hg => ?_
  · rw [BuildR.each_length hs, List.length_range, length_newSegs]
  · obtain ⟨p, hp, rfl⟩ := newSegs_get hg
    obtain ⟨j, hj, hc⟩ := BuildR.each_get hs hb
    have hji : j = i := by
      obtain ⟨hi, e⟩ := List.getElem?_eq_some_iff.1 hj
      simpa using e.symm
    subst hji
    obtain ⟨g, h1, -, h3, -⟩ := x.segment_is hc
    rw [hp] at h1
    cases h1
    exact h3

theorem Written.segs_same {ks : List (List UInt8)} (x : Written b o l out) (h : Each (CmdOut b o l out) b.commands ks) :
    Each (fun i g => ∃ g0, b.segments[i]? = some g0 ∧ SegSame b (sectionOrder b) g0 g) (segmentsOf b.commands) ((newSegs b o l).map (·.1)) := by
  have hs := x.segs_cmds h
  rw [x.sound.order, ← x.segs_length]
  refine BuildW.each_of_forall ?_ fun i j g hj hg => ?_
  · rw [List.length_range, List.length_map, length_newSegs]
  · rw [List.getElem?_map, Option.map_eq_some_iff] at hg
    obtain ⟨g', hg, rfl⟩ := hg
    obtain ⟨p, hp, rfl⟩ := newSegs_get hg
    obtain ⟨bs, hb, hc⟩ := BuildW.each_get_left hs hj
    have hji : j = i := by
      obtain ⟨hi, e⟩ := List.getElem?_eq_some_iff.1 hj
      simpa using e.symm
    subst hji
    obtain ⟨g, h1, h2, -, -, -, -, h3⟩ := x.segment_is hc
    rw [hp] at h1
    cases h1
    exact ⟨_, h2, h3⟩

theorem Written.secs_same (x : Written b o l out) :
    Each (fun i s => ∃ s0, b.sections[i]? = some s0 ∧ SecSame (sectionOrder b) (o.syms.map (·.id)) s0 s) (sectionOrder b) (o.secs.map (newSec o)) := by
  rw [← x.secIds, BuildR.each_map_left, x.secIds]
  refine BuildW.each_map_right _ (BuildW.each_self _ fun s hs => ?_)
  refine ⟨s, ?_, (x.section_ok hs).2⟩
  obtain ⟨j, hj⟩ := List.mem_iff_getElem?.1 (x.sec_mem hs).1
  rwa [x.sound.numbered.sections j s hj]

/-! ## Libraries -/

theorem Written.libs_is {ks : List (List UInt8)} (x : Written b o l out) (h : Each (CmdOut b o l out) b.commands ks) :
    ∃ ds, Each (fun i d => b.dylibs[i]? = some d) (librariesOf b.commands) ds ∧ Each (LibraryIs b.endian) (ks.filter (isLibrary b.endian)) ds := by
  have hs := each_filter (p := isLibC) (q := isLibrary b.endian) h fun _ _ => CmdOut.isLib
  rw [librariesOf_filter, BuildR.each_map_left] at hs
  refine each_choose (BuildR.each_imp hs fun i _ bs hc => ?_)
  obtain ⟨hm, ⟨lk, hk⟩, hl, -, -, -⟩ := hc
  rw [cmdBytes, Res.bind_eq_ok] at hk
  obtain ⟨d, h1, h2⟩ := hk
  have h1' := fetch_ok h1
  exact ⟨d, h1', (dylib_ok h2 lib_lt (x.sound.libraries i d hm h1') hl).2.2.2⟩

/-! ## Symbols -/

theorem Written.symtab_shape {ks : List (List UInt8)} (x : Written b o l out) (h : Each (CmdOut b o l out) b.commands ks) :
    ks.filter (isSymtab b.endian) = [] ∧ o.syms = [] ∨
      ks.filter (isSymtab b.endian) = [SymtabCmd.encode b.cfg ⟨l.symoff, o.syms.length, l.stroff, l.strsize⟩] := by
  have hs := each_filter (p := fun k => decide (k = Cmd.symtab)) (q := isSymtab b.endian) h fun _ _ => CmdOut.isSym
  have hl := x.sound.symtab
  have hall : ∀ k ∈ b.commands.filter fun k => decide (k = Cmd.symtab), k = .symtab := fun k hk => by simpa using (List.mem_filter.1 hk).2
  have hne : Cmd.symtab ∈ b.commands → Cmd.symtab ∈ b.commands.filter fun k => decide (k = Cmd.symtab) := fun hm => List.mem_filter.2 ⟨hm, by simp⟩
  revert hs hl hall hne
  generalize b.commands.filter (fun k => decide (k = Cmd.symtab)) = cs
  generalize ks.filter (isSymtab b.endian) = fs
  intro hs hl hall hne
  cases hs with
  | nil =>
    refine .inl ⟨rfl, ?_⟩
    rcases x.ord.symtab with h | h
    · exact h
    · exact absurd (hne h) (by simp)
  | cons h1 h2 =>
    cases h2 with
    | nil =>
      right
      have := hall _ (List.mem_singleton.2 rfl)
      subst this
      obtain ⟨-, ⟨lk, hk⟩, -⟩ := h1
      cases hk
      rfl
    | cons _ _ => simp at hl

/-! ## Totals -/

theorem Written.indirect_table {ks : List (List UInt8)} (x : Written b o l out) (h : Each (CmdOut b o l out) b.commands ks) :
    ∃ tables, Each (IndirectTable b.endian out) (ks.filter (isDysymtab b.endian)) tables ∧ indTable o = tables.getLast?.getD [] := by
  have hs := each_filter (p := fun k => decide (k = Cmd.dysymtab)) (q := isDysymtab b.endian) h fun _ _ => CmdOut.isDys
  refine ⟨(ks.filter (isDysymtab b.endian)).map fun _ => indTable o, ?_, ?_⟩
  · refine BuildW.each_map_right _ (BuildW.each_self _ fun k hk => ?_)
    obtain ⟨c, hc, -, ⟨lk, e⟩, -⟩ := BuildR.each_mem hs hk
    have : c = .dysymtab := by simpa using (List.mem_filter.1 hc).2
    subst this
    cases e
    obtain ⟨t1, t2, t3⟩ := x.table_ok
    have hlt := x.lt
    obtain ⟨-, -, -, f1, f2⟩ := dysym_fields b.cfg 0 (localSyms b.symbols).length (localSyms b.symbols).length (extSyms b.symbols).length
      ((localSyms b.symbols).length + (extSyms b.symbols).length) (undefSyms b.symbols).length l.indoff (indCount o.secs)
    rw [mod_lt4 (by omega)] at f2
    refine ⟨by rw [MachoW.length_dysymtab _ _ rfl], ?_, ?_⟩
    · rw [show num b.endian _ 60 4 = indCount o.secs from f2, show num b.endian _ 56 4 = l.indoff % 256 ^ 4 from f1]
      rcases t2 with t2 | ⟨t2, t4⟩
      · exact .inl t2
      · rw [mod_lt4 t2]; exact .inr t4
    · rw [show num b.endian _ 60 4 = indCount o.secs from f2, show num b.endian _ 56 4 = l.indoff % 256 ^ 4 from f1]
      rcases t2 with t2 | ⟨t2, t4⟩
      · rw [← t3, t2]; rfl
      · rw [mod_lt4 t2]; exact t3.symm
  · by_cases he : ks.filter (isDysymtab b.endian) = []
    · rw [he]
      show indTable o = []
      unfold indTable
      rw [List.map_eq_nil_iff, List.flatMap_eq_nil_iff]
      intro s hm
      rcases Classical.em (s.indirect = []) with hi | hi
      · exact hi
      · obtain ⟨m1, m2⟩ := x.sec_mem hm
        have hd := x.sound.dysymtab s m1 m2 hi
        have : Cmd.dysymtab ∈ b.commands.filter fun k => decide (k = Cmd.dysymtab) := List.mem_filter.2 ⟨hd, by simp⟩
        rw [he] at hs
        cases hs' : b.commands.filter fun k => decide (k = Cmd.dysymtab) with
        | nil => rw [hs'] at this; cases this
        | cons c cs => rw [hs'] at hs; cases hs
    · rw [List.getLast?_map, List.getLast?_eq_some_getLast he]
      rfl

theorem Written.totals_ok {ks : List (List UInt8)} (x : Written b o l out) (h : Each (CmdOut b o l out) b.commands ks) :
    TotalsOf b.endian out ks (totals o l (indTable o)) := by
  refine ⟨?_, ?_, x.indirect_table h⟩
  · rw [← sections_count (x.segs_is h), x.newSecs, List.length_map]; rfl
  · show o.syms.length = _
    rcases x.symtab_shape h with ⟨h1, h2⟩ | h1
    · rw [h1, h2]; rfl
    · rw [h1]
      show _ = num b.endian (SymtabCmd.encode b.cfg ⟨l.symoff, o.syms.length, l.stroff, l.strsize⟩) 12 4
      have := symbols_count x.symbols_ok.1
      rw [List.length_map] at this
      exact this

/-! ## Reading -/

/-- The builder after reading. -/
def newBuilder (b : Builder) (o : Order) (l : Layout) (ks : List (List UInt8)) (ds : List Dylib) : Builder where
  endian := b.endian
  is64 := b.is64
  pageSize := 2 ^ bits b.endian (ks.filter (isSegment b.endian)) 14
  cputype := b.cputype
  cpusubtype := b.cpusubtype
  filetype := b.filetype
  flags := b.flags
  commands := renum 0 0 b.commands
  segments := (newSegs b o l).map (·.1)
  sections := o.secs.map (newSec o)
  symbols := o.syms.map (newSym o)
  dylibs := ds

theorem Written.numbered (x : Written b o l out) (ks : List (List UInt8)) (ds : List Dylib) : Numbered (newBuilder b o l ks ds) := by
  constructor
  · intro i g h
    change ((newSegs b o l).map (·.1))[i]? = some g at h
    rw [List.getElem?_map, Option.map_eq_some_iff] at h
    obtain ⟨g', h, rfl⟩ := h
    obtain ⟨p, -, rfl⟩ := newSegs_get h
    rfl
  · intro i s h
    change (o.secs.map (newSec o))[i]? = some s at h
    rw [List.getElem?_map, Option.map_eq_some_iff] at h
    obtain ⟨s', h, rfl⟩ := h
    exact x.sec_pos h
  · intro i y h
    change (o.syms.map (newSym o))[i]? = some y at h
    rw [List.getElem?_map, Option.map_eq_some_iff] at h
    obtain ⟨s', h, rfl⟩ := h
    exact x.sym_pos h

theorem Written.reads (x : Written b o l out) : ∃ y, Reads b.is64 out y ∧ Same b y := by
  obtain ⟨ks, h1, h2, h3, h4, h5, h6, h7, h8⟩ := x.commands
  obtain ⟨ds, d1, d2⟩ := x.libs_is h1
  obtain ⟨r1, r2, r3⟩ := renum_ok 0 0 b.commands
  have e1 : segmentsOf (renum 0 0 b.commands) = List.range ((newSegs b o l).map (·.1)).length := by
    rw [r2, List.length_map, length_newSegs, x.segs_length, List.range_eq_range']
  have e2 : librariesOf (renum 0 0 b.commands) = List.range ds.length := by
    rw [r3, BuildR.each_length d1, List.range_eq_range']
  have hsy := x.symbols_ok
  refine ⟨newBuilder b o l ks ds, ⟨rfl, h3, h4, h5, h6, h7, h8, x.numbered ks ds, ks, totals o l (indTable o), h2, x.totals_ok h1,
    (pageSize_iff b.endian ks _).1 rfl, ?_, e1, e2, ⟨newSegs b o l, x.segs_is h1, rfl, x.newSecs.symm⟩, ?_, d2, ?_⟩, ?_⟩
  · exact each_join h1 r1 fun k bs k' hc hs => hc.2.2.2.2.2 k' hs
  · rcases x.symtab_shape h1 with ⟨s1, s2⟩ | s1
    · refine ⟨[], ?_, ?_⟩
      · rw [show (newBuilder b o l ks ds).endian = b.endian from rfl, s1]; exact .nil
      · show o.syms.map (newSym o) = _
        rw [s2]; rfl
    · refine ⟨[o.syms.map (newSym o)], ?_, ?_⟩
      · rw [show (newBuilder b o l ks ds).endian = b.endian from rfl, s1]; exact .cons hsy.1 .nil
      · show o.syms.map (newSym o) = _
        rw [List.flatten_cons, List.flatten_nil, List.append_nil]
  · show (o.syms.map (newSym o)).length = o.syms.length
    rw [List.length_map]
  · refine ⟨rfl, rfl, rfl, rfl, rfl, rfl, x.numbered ks ds, r1, e1, e2, ?_, ?_, ?_, x.segs_same h1, d1, o.syms, x.sym_order, hsy.2, x.secs_same⟩
    · intro i g hg hd
      have := x.ord.allSegments g (List.mem_of_getElem? hg) hd
      rwa [x.sound.numbered.segments i g hg] at this
    · intro i s hs hd
      have := x.ord.allSections s (List.mem_of_getElem? hs) hd
      rwa [x.secIds, x.sound.numbered.sections i s hs] at this
    · intro i d hg hd
      exact List.mem_filterMap.2 ⟨_, x.ord.allLibraries i d hg hd, rfl⟩

end

/-- The steps of writing. -/
theorem write_steps {b : Builder} {out : List UInt8} (h : write b = .ok out) :
    InRange b ∧ ∃ o l, Ordered (cleaned b) o ∧ Laid ⟨b.is64, b.endian⟩ (cleaned b) o l ∧ Emitted ⟨b.is64, b.endian⟩ (cleaned b) o l out := by
  unfold write at h
  rw [Res.bind_eq_ok] at h
  obtain ⟨b', hd, h⟩ := h
  have hr : InRange b := by
    rcases Classical.em (InRange b) with hr | hr
    · exact hr
    · rw [(deleteOrphans_ok b).2 hr] at hd; cases hd
  rw [(deleteOrphans_ok b).1 hr] at hd
  cases hd
  unfold writeClean at h
  rw [Res.bind_eq_ok] at h
  obtain ⟨o, ho, h⟩ := h
  rw [Res.bind_eq_ok] at h
  obtain ⟨l, hl, h⟩ := h
  have hord := order_ok ho
  exact ⟨hr, o, l, hord, layout_ok hord.secs hl, emit_ok h⟩

theorem write_order {b : Builder} {out : List UInt8} (h : write b = .ok out) : InRange b ∧ ∃ o, Ordered (cleaned b) o ∧ out.length < 2 ^ 32 := by
  obtain ⟨hr, o, l, h1, h2, h3⟩ := write_steps h
  exact ⟨hr, o, h1, by rw [h3.len]; exact h2.len⟩

/-- Writing and reading. -/
theorem write_reads {b : Builder} (hs : Sound (cleaned b)) {out : List UInt8} (h : write b = .ok out) :
    out.length < 2 ^ 32 ∧ ∃ y, Reads b.is64 out y ∧ Same (cleaned b) y := by
  obtain ⟨hr, o, l, h1, h2, h3⟩ := write_steps h
  have x : Written (cleaned b) o l out := ⟨hs, cleaned_noOrphans b, h1, h2, h3⟩
  exact ⟨x.lt, x.reads⟩

end Obj.MachoB

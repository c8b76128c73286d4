import Verif.Proof.BuildRead

/-! Segments and hash parameters of a builder that is read. -/

namespace Obj.BuildR
open Obj Obj.Build Obj.Spec Obj.Spec.BuildR Obj.Props
open Obj.Elf (StrTable Shdr Phdr Ehdr SymTab SectionTable Crel)
open Obj.Spec.MachoF (num Each)
open Obj.Spec.ElfF (word RecordsOf StringsOf DataOf relaAt)

/-! ## Segments -/

theorem loadStep_one (ps : List Phdr) : ps.foldl loadAlignStep 1 = 1 := by
  induction ps with
  | nil => rfl
  | cons p ps ih =>
    rw [List.foldl_cons]
    have : loadAlignStep 1 p = 1 := by unfold loadAlignStep; repeat' split
                                       all_goals omega
    rw [this, ih]

theorem loadStep_set (a : Nat) (ha : a ≠ 0) (ps : List Phdr) :
    ps.foldl loadAlignStep a = if (((ps.filter fun p => p.type = 1).map (·.align)).all (· = a)) = true then a else 1 := by
  induction ps with
  | nil => rfl
  | cons p ps ih =>
    rw [List.foldl_cons]
    by_cases h : p.type = 1
    · by_cases hp : p.align = a
      · have hs : loadAlignStep a p = a := by unfold loadAlignStep; rw [if_pos h, if_neg ha, if_neg (by omega)]
        rw [hs, ih]; simp [h, hp]
      · have hs : loadAlignStep a p = 1 := by unfold loadAlignStep; rw [if_pos h, if_neg ha, if_pos (by omega)]
        rw [hs, loadStep_one]; simp [h, hp]
    · have hs : loadAlignStep a p = a := by unfold loadAlignStep; rw [if_neg h]
      rw [hs, ih]; simp [h]

theorem loadStep_zero (ps : List Phdr) :
    ps.foldl loadAlignStep 0 = match ((ps.filter fun p => p.type = 1).map (·.align)).dropWhile (· = 0) with
      | [] => 0
      | a :: l => if l.all (· = a) then a else 1 := by
  induction ps with
  | nil => rfl
  | cons p ps ih =>
    rw [List.foldl_cons]
    by_cases h : p.type = 1
    · have hs : loadAlignStep 0 p = p.align := by unfold loadAlignStep; rw [if_pos h, if_pos rfl]
      rw [hs, List.filter_cons, if_pos (by simpa using h), List.map_cons, List.dropWhile_cons]
      by_cases hp : p.align = 0
      · rw [hp, ih]; simp
      · rw [loadStep_set _ hp]; simp [hp]
    · have hs : loadAlignStep 0 p = 0 := by unfold loadAlignStep; rw [if_neg h]
      rw [hs, ih, List.filter_cons, if_neg (by simpa using h)]

theorem loadAlign_eq (ps : List Phdr) : readLoadAlign ps = loadAlignOf ps := by
  unfold readLoadAlign loadAlignOf
  rw [loadStep_zero]
  split
  · rename_i h; rw [h]; rfl
  · rename_i a l h
    rw [h]
    have ha : a ≠ 0 := by
      have := List.head?_dropWhile_not (p := fun x : Nat => decide (x = 0)) (l := (ps.filter fun p => p.type = 1).map (·.align))
      rw [h] at this
      simpa using this
    simp only []
    split <;> simp_all

/-- A segment before its sections are known. -/
def seg0 (p : Phdr × Nat) : Seg :=
  { id := p.2, delete := false, pType := p.1.type, pFlags := p.1.flags, pOffset := p.1.offset, pVaddr := p.1.vaddr, pPaddr := p.1.paddr,
    pFilesz := p.1.filesz, pMemsz := p.1.memsz, pAlign := p.1.align, sections := [] }

theorem readSegments_eq (t : List Seg) (ps : List Phdr) : readSegments t ps = t ++ (ps.zipIdx t.length).map seg0 := by
  induction ps generalizing t with
  | nil => simp [readSegments]
  | cons p ps ih =>
    rw [readSegments, ih]
    simp only [push, nextId, List.length_append, List.length_singleton, List.zipIdx_cons, List.map_cons, List.append_assoc, List.singleton_append]
    rfl

/-- Whether a section is put into a segment. -/
def inSeg (g : Seg) (x : Sec) : Bool := x.shFlags.testBit 1 && decide (g.pVaddr ≤ x.shAddr ∧ x.shAddr < g.pVaddr + g.pMemsz)

theorem assign_eq (segs : List Seg) (hd : ∀ g ∈ segs, g.delete = false) (x : Sec) :
    assignSection segs x = segs.map fun g => { g with sections := g.sections ++ ([x].filter (inSeg g)).map (·.id) } := by
  unfold assignSection
  have hf : x.shFlags &&& 2 ≠ 0 ↔ x.shFlags.testBit 1 = true := flag_test x.shFlags 1
  by_cases h : x.shFlags &&& 2 ≠ 0
  · rw [if_pos h]
    apply List.map_congr_left
    intro g hg
    rw [hd g hg]
    simp only [Bool.false_eq_true, if_false]
    have h := hf.1 h
    have hc : g.containsAddress x.shAddr = inSeg g x := by
      unfold Seg.containsAddress inSeg
      rw [h, Bool.true_and]
      apply decide_eq_decide.2
      omega
    rw [hc]
    have hg' := hd g hg
    cases hi : inSeg g x
    · simp only [Bool.false_eq_true, if_false, List.filter_cons, hi, List.filter_nil, List.map_nil, List.append_nil]
      cases g; simp only at hg'; rw [hg']
    · simp only [if_true, List.filter_cons, hi, List.filter_nil, List.map_cons, List.map_nil]
  · rw [if_neg h]
    have h : x.shFlags.testBit 1 = false := by rw [Bool.eq_false_iff]; exact fun h' => h (hf.2 h')
    symm
    conv => rhs; rw [← List.map_id segs]
    apply List.map_congr_left
    intro g _
    have : inSeg g x = false := by unfold inSeg; rw [h]; rfl
    simp [this]

theorem assign_fold (secs : List Sec) (segs : List Seg) (hd : ∀ g ∈ segs, g.delete = false) :
    secs.foldl assignSection segs = segs.map fun g => { g with sections := g.sections ++ (secs.filter (inSeg g)).map (·.id) } := by
  induction secs generalizing segs with
  | nil => simp
  | cons x secs ih =>
    rw [List.foldl_cons, assign_eq _ hd, ih]
    · rw [List.map_map]
      apply List.map_congr_left
      intro g _
      simp only [Function.comp]
      have e : ∀ l : List Nat, (g.sections ++ ([x].filter (inSeg g)).map (·.id)) ++ (secs.filter (inSeg { g with sections := l })).map (·.id) =
          g.sections ++ ((x :: secs).filter (inSeg g)).map (·.id) := by
        intro l
        have : inSeg { g with sections := l } = inSeg g := rfl
        rw [this, List.append_assoc, ← List.map_append, ← List.filter_append]
        rfl
      rw [e]
    · intro g hg
      obtain ⟨g', h1, rfl⟩ := List.mem_map.1 hg
      exact hd g' h1

theorem segments_eq (ps : List Phdr) (secs : List Sec) : secs.foldl assignSection (readSegments [] ps) = ps.zipIdx.map (segmentOf secs) := by
  rw [readSegments_eq, assign_fold]
  · simp only [List.nil_append, List.length_nil, List.map_map]
    apply List.map_congr_left
    intro p _
    rfl
  · intro g hg
    simp only [List.nil_append, List.mem_map] at hg
    obtain ⟨p, -, rfl⟩ := hg
    rfl

/-! ## Parameters of the hash tables -/

/-- The parameters after a section. -/
def upd (en : Endianness) (data : List UInt8) (p : HashParams) (s : Shdr) : HashParams :=
  if s.type = 5 then { p with buckets := num en data s.offset 4 }
  else if s.type = 0x6ffffff6 then
    { p with bloomShift := num en data (s.offset + 12) 4, bloomCount := num en data (s.offset + 8) 4, gnuBuckets := num en data s.offset 4 }
  else p

theorem upd_fold {en : Endianness} {data : List UInt8} (f : HashParams → Nat) (ty : Nat) (g : Shdr → Nat)
    (h1 : ∀ p s, s.type = ty → f (upd en data p s) = g s) (h2 : ∀ p s, s.type ≠ ty → f (upd en data p s) = f p) (l : List Shdr) (p : HashParams) :
    f (l.foldl (upd en data) p) = match (l.filter fun s => s.type = ty).getLast? with
      | some s => g s
      | none => f p := by
  induction l generalizing p with
  | nil => rfl
  | cons s l ih =>
    rw [List.foldl_cons, ih]
    by_cases h : s.type = ty
    · rw [List.filter_cons, if_pos (by simpa using h), List.getLast?_cons]
      cases (l.filter fun s => s.type = ty).getLast? with
      | none => simp [h1 p s h]
      | some x => simp
    · rw [List.filter_cons, if_neg (by simpa using h), h2 p s h]

theorem params_eq (en : Endianness) (data : List UInt8) (ss : List Shdr) :
    ((ss.drop 1).foldl (upd en data) ⟨0, 0, 0, 0⟩).buckets = paramOf en data ss 5 0 ∧
    ((ss.drop 1).foldl (upd en data) ⟨0, 0, 0, 0⟩).bloomShift = paramOf en data ss 0x6ffffff6 12 ∧
    ((ss.drop 1).foldl (upd en data) ⟨0, 0, 0, 0⟩).bloomCount = paramOf en data ss 0x6ffffff6 8 ∧
    ((ss.drop 1).foldl (upd en data) ⟨0, 0, 0, 0⟩).gnuBuckets = paramOf en data ss 0x6ffffff6 0 := by
  unfold paramOf lastOfType
  refine ⟨?_, ?_, ?_, ?_⟩
  · rw [upd_fold (fun p => p.buckets) 5 (fun s => num en data s.offset 4)]
    · rfl
    · intro p s h; unfold upd; rw [if_pos h]
    · intro p s h; unfold upd; rw [if_neg h]; split <;> rfl
  · rw [upd_fold (fun p => p.bloomShift) 0x6ffffff6 (fun s => num en data (s.offset + 12) 4)]
    · rfl
    · intro p s h; unfold upd; rw [if_neg (by omega), if_pos h]
    · intro p s h; unfold upd; rw [if_neg h]; split <;> rfl
  · rw [upd_fold (fun p => p.bloomCount) 0x6ffffff6 (fun s => num en data (s.offset + 8) 4)]
    · rfl
    · intro p s h; unfold upd; rw [if_neg (by omega), if_pos h]
    · intro p s h; unfold upd; rw [if_neg h]; split <;> rfl
  · rw [upd_fold (fun p => p.gnuBuckets) 0x6ffffff6 (fun s => num en data s.offset 4)]
    · rfl
    · intro p s h; unfold upd; rw [if_neg (by omega), if_pos h]
    · intro p s h; unfold upd; rw [if_neg h]; split <;> rfl

end Obj.BuildR

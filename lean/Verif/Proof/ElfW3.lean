import Verif.Proof.ElfW2

/-! The reserving phase of `elf_write`: the whole plan. -/

namespace Obj.ElfW
open Obj Obj.Elf Obj.Reserve Obj.Parts Obj.Spec Obj.W Obj.Spec.ElfO

/-! ## Positions -/

theorem secOffs_get (T : StrTab) (r : Bool) : ∀ (ss : List Section) (len n i : Nat),
    (secOffs T r len n ss)[i]? = (ss[i]?).map fun s =>
      ⟨n + hdrs (ss.take i), up (endOf len (secSizes (ss.take i))) s.align, idOf T s.name, 0, relId T r s⟩
  | [], _, _, _ => by simp [secOffs]
  | s :: ss, len, n, 0 => by simp [secOffs, hdrs, secSizes, endOf]
  | s :: ss, len, n, i + 1 => by
    have := secOffs_get T r ss (up len s.align + s.data.length) (n + hdrCount s) i
    simp only [secOffs, List.getElem?_cons_succ, this, List.take_succ_cons, hdrs_cons, Nat.add_assoc]
    rfl

theorem length_secOffs (T : StrTab) (r : Bool) : ∀ (ss : List Section) (len n : Nat), (secOffs T r len n ss).length = ss.length
  | [], _, _ => rfl
  | s :: ss, len, n => by simp [secOffs, length_secOffs T r ss]

theorem relOffs_get (c : Cfg) (r : Bool) : ∀ (ss : List Section) (sos : List SecOff) (len i : Nat), sos.length = ss.length →
    (relOffs c r len ss sos)[i]? = (ss[i]?).bind fun s => (sos[i]?).map fun so =>
      { so with relocOffset := if s.relocs = [] then 0 else up (endOf len (relSizes c r (ss.take i))) c.w }
  | [], _, _, _, _ => by simp [relOffs]
  | s :: ss, [], _, _, h => by simp at h
  | s :: ss, so :: sos, len, 0, _ => by simp [relOffs, relSizes, endOf]
  | s :: ss, so :: sos, len, i + 1, h => by
    have := relOffs_get c r ss sos (endOf len (relSize1 c r s)) i (by simpa using h)
    simp only [relOffs, List.getElem?_cons_succ, this, List.take_succ_cons, relSizes, endOf_append]

theorem length_relOffs (c : Cfg) (r : Bool) : ∀ (ss : List Section) (sos : List SecOff) (len : Nat), sos.length = ss.length →
    (relOffs c r len ss sos).length = ss.length
  | [], [], _, _ => rfl
  | [], _ :: _, _, h => by simp at h
  | s :: ss, [], _, h => by simp at h
  | s :: ss, so :: sos, len, h => by
    simp [relOffs, length_relOffs c r ss sos _ (by simpa using h)]

/-! ## Names -/

/-- The section names, in the order they are added. -/
def shNames (o : Object) (r need : Bool) : List (List UInt8) :=
  List.replicate o.comdats.length nGroup ++ (secNames r o.sections ++ ([nSymtab] ++ (shndxNames need ++ ([nStrtab] ++ [nShstrtab]))))

/-- The table of section names. -/
def shT (o : Object) (r need : Bool) : StrTab := addAll StrTab.new (shNames o r need)

/-- The table of symbol names. -/
def stT (o : Object) : StrTab := addAll StrTab.new (symNames o.symbols)

/-- Whether extended indices are needed. -/
def needB (o : Object) : Bool := o.symbols.any fun s => match s.section_ with
  | .inSec i => decide (0xff00 ≤ secIndex o i)
  | _ => false

theorem storedSize_add_mem {t : StrTab} {s : List UInt8} (h : s ∈ t.strings) : (t.add s).2.strings = t.strings := by
  rw [StrTab.add_strings, if_pos h]

theorem storedSize_replicate (s : List UInt8) : ∀ (k : Nat) (t : StrTab),
    storedSize (addAll t (List.replicate k s)).strings ≤ storedSize t.strings + (s.length + 1)
  | 0, t => by simp [addAll]
  | k + 1, t => by
    rw [List.replicate_succ, addAll_cons]
    have hm : s ∈ (t.add s).2.strings := by rw [StrTab.add_strings]; split <;> simp [*]
    have h1 : ∀ (k : Nat) (u : StrTab), s ∈ u.strings → (addAll u (List.replicate k s)).strings = u.strings := by
      intro k
      induction k with
      | zero => intro u _; rfl
      | succ k ih =>
        intro u hu
        rw [List.replicate_succ, addAll_cons, ih _ (by rw [storedSize_add_mem hu]; exact hu), storedSize_add_mem hu]
    rw [h1 k _ hm, StrTab.add_strings]
    split
    · omega
    · rw [storedSize_append]; simp [storedSize]

theorem storedSize_cons (s : List UInt8) (l : List (List UInt8)) : storedSize (s :: l) = s.length + 1 + storedSize l := by
  simp [storedSize]

theorem storedSize_secNames (r : Bool) : ∀ ss : List Section, storedSize (secNames r ss) ≤
    storedSize (ss.map (·.name)) + storedSize (ss.map fun s => ".rela".toUTF8.toList ++ s.name)
  | [] => by simp [secNames, storedSize]
  | s :: ss => by
    have h := storedSize_secNames r ss
    have e : ".rela".toUTF8.toList.length = 5 := by decide +kernel
    unfold secNames
    rw [storedSize_cons, storedSize_append, List.map_cons, List.map_cons, storedSize_cons, storedSize_cons, List.length_append, e]
    have h2 : storedSize (if s.relocs = [] then [] else [relocName r s]) ≤ 5 + s.name.length + 1 := by
      split
      · simp [storedSize]
      · have : (relocName r s).length ≤ 5 + s.name.length := by
          unfold relocName; rw [List.length_append]; cases r <;> simp [nRela, nRel]
        rw [storedSize_cons]; simp [storedSize]; omega
    omega

theorem storedSize_symNames : ∀ ss : List Symbol, storedSize (symNames ss) ≤ storedSize (ss.map storedName)
  | [] => by simp [symNames, storedSize]
  | s :: ss => by
    have h := storedSize_symNames ss
    rw [List.map_cons, storedSize_cons]
    unfold symNames at *
    rw [List.filter_cons]
    split
    · rename_i hn
      have : storedName s = s.name := by
        unfold storedName
        rw [if_neg]
        intro hk
        unfold hasName at hn
        rw [hk] at hn
        revert hn; simp
      rw [List.map_cons, storedSize_cons, this]; omega
    · omega

theorem storedSize_tables (o : Object) (r need : Bool) :
    storedSize (shT o r need).strings + storedSize (stT o).strings + 2 ≤ storedSize (names o) + 64 := by
  have h1 := storedSize_replicate nGroup o.comdats.length StrTab.new
  have h2 := storedSize_addAll (secNames r o.sections ++ ([nSymtab] ++ (shndxNames need ++ ([nStrtab] ++ [nShstrtab]))))
    (addAll StrTab.new (List.replicate o.comdats.length nGroup))
  rw [← addAll_append] at h2
  have h3 := storedSize_addAll (symNames o.symbols) StrTab.new
  have h4 : storedSize StrTab.new.strings = 0 := rfl
  have h5 := storedSize_secNames r o.sections
  have h6 := storedSize_symNames o.symbols
  have h7 : storedSize ([nSymtab] ++ (shndxNames need ++ ([nStrtab] ++ [nShstrtab]))) ≤ 40 := by
    cases need <;> decide
  rw [storedSize_append] at h2
  have h8 : nGroup.length = 6 := rfl
  have h9 : storedSize (names o) = storedSize (o.sections.map (·.name)) +
      storedSize (o.sections.map fun s => ".rela".toUTF8.toList ++ s.name) + storedSize (o.symbols.map storedName) := by
    unfold names; rw [storedSize_append, storedSize_append]
  unfold shT stT shNames
  omega

/-! ## Sizes -/

theorem cost_comdats : ∀ ds : List Comdat,
    cost (comdatSizes ds) + 64 * ds.length ≤ (ds.map fun d => 4 * d.sections.length + 128).sum
  | [] => by simp [comdatSizes, cost]
  | d :: ds => by
    have h := cost_comdats ds
    have h1 : cost (comdatSizes (d :: ds)) = 4 + (d.sections.length + 1) * 4 + cost (comdatSizes ds) := rfl
    simp only [List.map_cons, List.sum_cons, List.length_cons]
    omega

theorem cost_secs (c : Cfg) (r : Bool) : ∀ ss : List Section,
    cost (secSizes ss) + cost (relSizes c r ss) + 64 * hdrs ss ≤
      (ss.map fun s => s.align + s.data.length + 32 + 24 * s.relocs.length + 2 * 64).sum
  | [] => by simp [secSizes, relSizes, cost, hdrs]
  | s :: ss => by
    have h := cost_secs c r ss
    have h1 : cost (secSizes (s :: ss)) = s.align + s.data.length + cost (secSizes ss) := rfl
    have h2 : cost (relSizes c r (s :: ss)) = cost (relSize1 c r s) + cost (relSizes c r ss) := by
      unfold relSizes; rw [cost_append]; cases ss <;> rfl
    have h3 : cost (relSize1 c r s) ≤ 8 + 24 * s.relocs.length := by
      unfold relSize1
      split
      · simp [cost]
      · have hw : c.w ≤ 8 := by unfold Cfg.w; split <;> omega
        have hr : c.relSize r ≤ 24 := by unfold Cfg.relSize; split <;> omega
        have := Nat.mul_le_mul_left s.relocs.length hr
        simp only [cost]; omega
    have h4 : hdrCount s ≤ 2 := by unfold hdrCount; split <;> omega
    rw [hdrs_cons]
    simp only [List.map_cons, List.sum_cons]
    omega

/-- Number of section headers, with the null header. -/
def total (o : Object) (need : Bool) : Nat := 4 + o.comdats.length + hdrs o.sections + ifn need 1

def L1 (o : Object) (c : Cfg) : Nat := endOf c.ehdrSize (comdatSizes o.comdats)
def L2 (o : Object) (c : Cfg) : Nat := endOf (L1 o c) (secSizes o.sections)
def num (o : Object) : Nat := 1 + o.symbols.length
def L3 (o : Object) (c : Cfg) : Nat := up (L2 o c) c.w + num o * c.symSize
def L4 (o : Object) (c : Cfg) (need : Bool) : Nat := endOf (L3 o c) (shndxSizes need (num o))
def L6 (o : Object) (c : Cfg) (r need : Bool) (a : Nat) : Nat := endOf (L4 o c need + a) (relSizes c r o.sections)
def L8 (o : Object) (c : Cfg) (r need : Bool) (a b : Nat) : Nat := up (L6 o c r need a + b) c.w + total o need * c.shdrSize

theorem ehdrSize_le (c : Cfg) : c.ehdrSize ≤ 64 ∧ 0 < c.ehdrSize := by unfold Cfg.ehdrSize; split <;> omega

theorem room_bound (o : Object) (c : Cfg) (r need : Bool) :
    c.ehdrSize + cost (comdatSizes o.comdats) + cost (secSizes o.sections) + (8 + num o * 24) + (4 + num o * 4) +
      cost (relSizes c r o.sections) + (8 + total o need * 64) ≤ room o := by
  have h1 := cost_comdats o.comdats
  have h2 := cost_secs c r o.sections
  have h3 := (ehdrSize_le c).1
  have h4 : ifn need 1 ≤ 1 := by cases need <;> decide
  unfold room num total
  omega

theorem bounds (o : Object) (c : Cfg) (r need : Bool) (a b : Nat) :
    c.ehdrSize ≤ L1 o c ∧ L1 o c ≤ L2 o c ∧ L2 o c + c.w + num o * c.symSize ≤ room o ∧
    L3 o c + 4 + num o * 4 ≤ room o ∧ L4 o c need + cost (relSizes c r o.sections) ≤ room o ∧
    L6 o c r need a + c.w + total o need * c.shdrSize ≤ room o + a ∧
    L8 o c r need a b ≤ room o + a + b ∧ c.ehdrSize + cost (comdatSizes o.comdats) ≤ room o ∧
    L1 o c + cost (secSizes o.sections) ≤ room o := by
  have h0 := room_bound o c r need
  have h1 := endOf_le (comdatSizes o.comdats) c.ehdrSize
  have h1' := le_endOf (comdatSizes o.comdats) c.ehdrSize
  have h2 := endOf_le (secSizes o.sections) (L1 o c)
  have h2' := le_endOf (secSizes o.sections) (L1 o c)
  have h3 := up_le (L2 o c) c.w
  have h4 := endOf_le (shndxSizes need (num o)) (L3 o c)
  have h5 : cost (shndxSizes need (num o)) ≤ 4 + num o * 4 := by unfold shndxSizes; split <;> simp [cost]
  have h6 := endOf_le (relSizes c r o.sections) (L4 o c need + a)
  have h7 := up_le (L6 o c r need a + b) c.w
  have hw : c.w ≤ 8 := by unfold Cfg.w; split <;> omega
  have hs : num o * c.symSize ≤ num o * 24 := Nat.mul_le_mul_left _ (by unfold Cfg.symSize; split <;> omega)
  have ht : total o need * c.shdrSize ≤ total o need * 64 := Nat.mul_le_mul_left _ (by unfold Cfg.shdrSize; split <;> omega)
  have e1 : L1 o c = endOf c.ehdrSize (comdatSizes o.comdats) := rfl
  have e2 : L2 o c = endOf (L1 o c) (secSizes o.sections) := rfl
  have e3 : L3 o c = up (L2 o c) c.w + num o * c.symSize := rfl
  have e4 : L4 o c need = endOf (L3 o c) (shndxSizes need (num o)) := rfl
  have e6 : L6 o c r need a = endOf (L4 o c need + a) (relSizes c r o.sections) := rfl
  have e8 : L8 o c r need a b = up (L6 o c r need a + b) c.w + total o need * c.shdrSize := rfl
  generalize num o * c.symSize = x at *
  generalize total o need * c.shdrSize = y at *
  refine ⟨?_, ?_, ?_, ?_, ?_, ?_, ?_, ?_, ?_⟩ <;> omega

end Obj.ElfW

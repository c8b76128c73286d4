import Verif.Proof.BuildW13
import Verif.Proof.BuildRead4

/-! Writing with the ELF builder: the records of version definitions and requirements. -/

namespace Obj.BuildW
open Obj Obj.Build Obj.BuildR Obj.Spec
open Obj.Spec.MachoF (Each num)
open Obj.Elf (WVerdef WVerneed WVernaux Verdef Verdaux Verneed Vernaux)
open Obj.Spec.BuildR (Auxs Chain Defs Needs verdefAt verdauxAt verneedAt vernauxAt)

theorem blk_slice {d b : List UInt8} {o n : Nat} (h : Blk d o b) (hn : b.length = n) : slice d o n = b := by rw [← hn]; exact h.1

section
variable {en : Endianness} {d : List UInt8}

theorem verdef_blk {o : Nat} {v : Verdef} (h : Blk d o (v.encode en)) (h1 : v.version < 2 ^ 16) (h2 : v.flags < 2 ^ 16) (h3 : v.ndx < 2 ^ 16)
    (h4 : v.cnt < 2 ^ 16) (h5 : v.hash < 2 ^ 32) (h6 : v.aux < 2 ^ 32) (h7 : v.next < 2 ^ 32) : verdefAt en d o = v := by
  rw [← verdef_dec, blk_slice h (by simp)]
  have := Verdef.decode_encode en v h1 h2 h3 h4 h5 h6 h7 []
  rwa [List.append_nil] at this

theorem verdaux_blk {o : Nat} {v : Verdaux} (h : Blk d o (v.encode en)) (h1 : v.name < 2 ^ 32) (h2 : v.next < 2 ^ 32) : verdauxAt en d o = v := by
  rw [← verdaux_dec, blk_slice h (by simp)]
  have := Verdaux.decode_encode en v h1 h2 []
  rwa [List.append_nil] at this

theorem verneed_blk {o : Nat} {v : Verneed} (h : Blk d o (v.encode en)) (h1 : v.version < 2 ^ 16) (h2 : v.cnt < 2 ^ 16)
    (h3 : v.file < 2 ^ 32) (h4 : v.aux < 2 ^ 32) (h5 : v.next < 2 ^ 32) : verneedAt en d o = v := by
  rw [← verneed_dec, blk_slice h (by simp)]
  have := Verneed.decode_encode en v h1 h2 h3 h4 h5 []
  rwa [List.append_nil] at this

theorem vernaux_blk {o : Nat} {v : Vernaux} (h : Blk d o (v.encode en)) (h1 : v.hash < 2 ^ 32) (h2 : v.flags < 2 ^ 16)
    (h3 : v.other < 2 ^ 16) (h4 : v.name < 2 ^ 32) (h5 : v.next < 2 ^ 32) : vernauxAt en d o = v := by
  rw [← vernaux_dec, blk_slice h (by simp)]
  have := Vernaux.decode_encode en v h1 h2 h3 h4 h5 []
  rwa [List.append_nil] at this

/-! ## Definitions -/

def auxRecs : List Nat → List Verdaux
  | [] => []
  | n :: ns => ⟨n, if ns.length ≠ 0 then 8 else 0⟩ :: auxRecs ns

theorem length_auxRecs (ns : List Nat) : (auxRecs ns).length = ns.length := by
  induction ns with
  | nil => rfl
  | cons n ns ih => simp [auxRecs, ih]

theorem auxRecs_names (ns : List Nat) : (auxRecs ns).map (·.name) = ns := by
  induction ns with
  | nil => rfl
  | cons n ns ih => simp [auxRecs, ih]

theorem auxs_blk (ns : List Nat) (hn : ∀ n ∈ ns, n < 2 ^ 32) {o : Nat} (h : Blk d o (Elf.writeVerdauxs en ns.length ns)) :
    Auxs 8 (verdauxAt en d) Verdaux.next d.length o ns.length (auxRecs ns) := by
  induction ns generalizing o with
  | nil => exact .nil
  | cons n ns ih =>
    unfold Elf.writeVerdauxs at h
    simp only [List.length_cons, Nat.add_sub_cancel] at h
    obtain ⟨h1, h2⟩ := blk_append.1 h
    unfold Elf.encVerdaux at h1 h2
    rw [Elf.length_verdaux] at h2
    have e : verdauxAt en d o = ⟨n, if ns.length ≠ 0 then 8 else 0⟩ := by
      rw [verdaux_blk h1 (hn n (by simp)) (by show (if _ then 8 else 0) < 2 ^ 32; split <;> decide)]
      congr 1
      cases ns <;> simp
    have hb := h1.2
    rw [Elf.length_verdaux] at hb
    unfold auxRecs
    rw [← e]
    refine .cons hb ?_ ?_
    · rw [e]; show o + (if ns.length ≠ 0 then 8 else 0) ≤ _; split <;> omega
    · rw [e]
      show Auxs 8 (verdauxAt en d) Verdaux.next d.length (o + (if ns.length ≠ 0 then 8 else 0)) ns.length (auxRecs ns)
      cases ns with
      | nil => exact .nil
      | cons m ms => exact ih (fun n hn' => hn n (by simp [hn'])) h2

def defRec (more : Bool) (v : WVerdef) : Verdef := ⟨v.version, v.flags, v.index, v.auxCount, v.hash, 20, if more then 20 + v.auxCount * 8 else 0⟩

def defRecs : List WVerdef → List (Verdef × List Verdaux)
  | [] => []
  | v :: vs => (defRec (vs.length != 0) v, auxRecs (v.name :: v.rest)) :: defRecs vs

structure DefFit (v : WVerdef) : Prop where
  version : v.version = 1
  flags : v.flags < 2 ^ 16
  index : v.index < 2 ^ 16
  count : v.auxCount < 2 ^ 16
  hash : v.hash < 2 ^ 32
  names : ∀ n ∈ v.name :: v.rest, n < 2 ^ 32

theorem defOne_eq (more : Bool) (v : WVerdef) : Elf.encVerdef en more v ++ Elf.writeVerdauxs en v.rest.length v.rest =
    (defRec more v).encode en ++ Elf.writeVerdauxs en (v.name :: v.rest).length (v.name :: v.rest) := by
  unfold Elf.encVerdef
  rw [List.append_assoc]
  congr 1
  rw [Elf.writeVerdauxs]
  simp only [List.length_cons, Nat.add_sub_cancel]
  congr 1
  unfold Elf.WVerdef.auxCount
  congr 1
  cases v.rest <;> simp

theorem length_auxBytes (ns : List Nat) (k : Nat) : (Elf.writeVerdauxs en k ns).length = 8 * ns.length := by
  induction ns generalizing k with
  | nil => rfl
  | cons n ns ih => simp [Elf.writeVerdauxs, Elf.encVerdaux, ih]; omega

theorem length_defOne (more : Bool) (v : WVerdef) : (Elf.encVerdef en more v ++ Elf.writeVerdauxs en v.rest.length v.rest).length = 20 + 8 * v.auxCount := by
  rw [defOne_eq, List.length_append, length_auxBytes, Elf.length_verdef, List.length_cons]
  unfold Elf.WVerdef.auxCount
  omega

theorem defs_blk (vs : List WVerdef) (hv : ∀ v ∈ vs, DefFit v) {o : Nat} (h : Blk d o (defsBytes en vs)) (ho : o + (defsBytes en vs).length = d.length) :
    Chain 20 8 (verdefAt en d) (verdauxAt en d) Verdef.aux Verdef.cnt Verdef.next Verdaux.next d.length o (defRecs vs) := by
  induction vs generalizing o with
  | nil => exact .nil (by simp [defsBytes] at ho; omega)
  | cons v vs ih =>
    have hf := hv v (by simp)
    unfold defsBytes at h ho
    obtain ⟨h1, h2⟩ := blk_append.1 h
    rw [List.length_append] at ho
    rw [length_defOne] at h2 ho
    rw [defOne_eq] at h1
    obtain ⟨h3, h4⟩ := blk_append.1 h1
    rw [Elf.length_verdef] at h4
    have hc := hf.count
    have e : verdefAt en d o = defRec (vs.length != 0) v :=
      verdef_blk h3 (by show v.version < _; rw [hf.version]; decide) hf.flags hf.index hf.count hf.hash (by show 20 < 2 ^ 32; decide)
        (by have : (defRec (vs.length != 0) v).next ≤ 20 + v.auxCount * 8 := by unfold defRec; dsimp only; split <;> omega
            omega)
    have hb := h3.2
    rw [Elf.length_verdef] at hb
    have ha := auxs_blk (v.name :: v.rest) hf.names h4
    have hcnt : (v.name :: v.rest).length = v.auxCount := by simp [Elf.WVerdef.auxCount]; omega
    rw [hcnt] at ha
    unfold defRecs
    rw [← e]
    have i1 : Verdef.aux (verdefAt en d o) = 20 := by rw [e]; rfl
    have i2 : Verdef.cnt (verdefAt en d o) = v.auxCount := by rw [e]; rfl
    cases vs with
    | nil =>
      refine .last hb (by rw [e]; rfl) (by rw [i1]; omega) ?_
      rw [i1, i2]; exact ha
    | cons w ws =>
      have i3 : Verdef.next (verdefAt en d o) = 20 + v.auxCount * 8 := by rw [e]; rfl
      refine .cons hb (by rw [i3]; omega) (by rw [i1]; omega) ?_ ?_ ?_
      · rw [i3]; omega
      · rw [i1, i2]; exact ha
      · rw [i3]
        rw [show o + (20 + v.auxCount * 8) = o + (20 + 8 * v.auxCount) by omega]
        exact ih (fun x hx => hv x (by simp [hx])) h2 (by omega)

/-- The base version shares the name of the first definition. -/
def sharedRec (v : WVerdef) : Verdef := ⟨v.version, v.flags, v.index, v.auxCount, v.hash, 40, 20⟩

theorem shared_blk {b v : WVerdef} {vs : List WVerdef} (hb : DefFit b) (hb0 : b.rest = []) (hv : ∀ x ∈ v :: vs, DefFit x) (hv0 : v.rest = [])
    (e : d = Elf.encVerdefShared en b ++ defsBytes en (v :: vs)) :
    Defs en d ((sharedRec b, auxRecs [v.name]) :: defRecs (v :: vs)) := by
  have hblk : Blk d 0 d := by unfold Blk; simp [slice]
  have hlen : d.length = 20 + (defsBytes en (v :: vs)).length := by rw [e]; simp [Elf.encVerdefShared]
  have hblk2 := hblk
  rw [e] at hblk2
  rw [← e] at hblk2
  have h : Blk d 0 (Elf.encVerdefShared en b ++ defsBytes en (v :: vs)) := by rw [← e]; exact hblk
  obtain ⟨h1, h2⟩ := blk_append.1 h
  have hl : (Elf.encVerdefShared en b).length = 20 := by simp [Elf.encVerdefShared]
  rw [hl] at h2
  have er : verdefAt en d 0 = sharedRec b :=
    verdef_blk h1 (by show b.version < _; rw [hb.version]; decide) hb.flags hb.index hb.count hb.hash (by show 40 < 2 ^ 32; decide) (by show 20 < 2 ^ 32; decide)
  have hc := defs_blk (v :: vs) hv h2 (by omega)
  have h3 := h2
  unfold defsBytes at h3
  have h4 := (blk_append.1 h3).1
  rw [defOne_eq] at h4
  have h5 := (blk_append.1 h4).2
  rw [Elf.length_verdef, hv0] at h5
  have ha := auxs_blk [v.name] (by simp; exact (hv v (by simp)).names v.name (by simp)) h5
  have hlen2 : 28 ≤ (defsBytes en (v :: vs)).length := by
    unfold defsBytes
    rw [List.length_append, length_defOne]
    unfold Elf.WVerdef.auxCount
    omega
  unfold Defs
  rw [← er]
  have i1 : Verdef.aux (verdefAt en d 0) = 40 := by rw [er]; rfl
  have i2 : Verdef.cnt (verdefAt en d 0) = 1 := by rw [er]; show b.auxCount = 1; unfold Elf.WVerdef.auxCount; rw [hb0]; rfl
  have i3 : Verdef.next (verdefAt en d 0) = 20 := by rw [er]; rfl
  refine .cons (by omega) (by rw [i3]; decide) (by rw [i1]; omega) (by rw [i3]; omega) ?_ ?_
  · rw [i1, i2]; exact ha
  · rw [i3]; exact hc

/-! ## Requirements -/

def needAuxs : List WVernaux → List Vernaux
  | [] => []
  | a :: as => ⟨a.hash, a.flags, a.index, a.name, if as.length != 0 then 16 else 0⟩ :: needAuxs as

structure NeedFit (a : WVernaux) : Prop where
  hash : a.hash < 2 ^ 32
  flags : a.flags < 2 ^ 16
  index : a.index < 2 ^ 16
  name : a.name < 2 ^ 32

theorem needAuxs_blk (as : List WVernaux) (hn : ∀ a ∈ as, NeedFit a) {o : Nat} (h : Blk d o (Elf.writeVernauxs en as)) :
    Auxs 16 (vernauxAt en d) Vernaux.next d.length o as.length (needAuxs as) := by
  induction as generalizing o with
  | nil => exact .nil
  | cons a as ih =>
    have hf := hn a (by simp)
    unfold Elf.writeVernauxs at h
    obtain ⟨h1, h2⟩ := blk_append.1 h
    unfold Elf.encVernaux at h1 h2
    rw [Elf.length_vernaux] at h2
    have e : vernauxAt en d o = ⟨a.hash, a.flags, a.index, a.name, if as.length != 0 then 16 else 0⟩ :=
      vernaux_blk h1 hf.hash hf.flags hf.index hf.name (by show (if _ then 16 else 0) < 2 ^ 32; split <;> decide)
    have hb := h1.2
    rw [Elf.length_vernaux] at hb
    unfold needAuxs
    rw [← e]
    refine .cons hb ?_ ?_
    · rw [e]; show o + (if _ then 16 else 0) ≤ _; split <;> omega
    · rw [e]
      show Auxs 16 (vernauxAt en d) Vernaux.next d.length (o + (if _ then 16 else 0)) as.length (needAuxs as)
      cases as with
      | nil => exact .nil
      | cons m ms => exact ih (fun n hn' => hn n (by simp [hn'])) h2

def needRec (more : Bool) (v : WVerneed) : Verneed :=
  ⟨v.version, v.auxs.length, v.file, if v.auxs.length ≠ 0 then 16 else 0, if more then 16 + v.auxs.length * 16 else 0⟩

def needRecs : List WVerneed → List (Verneed × List Vernaux)
  | [] => []
  | v :: vs => (needRec (vs.length != 0) v, needAuxs v.auxs) :: needRecs vs

structure FileFit (v : WVerneed) : Prop where
  version : v.version = 1
  count : v.auxs.length < 2 ^ 16
  file : v.file < 2 ^ 32
  auxs : ∀ a ∈ v.auxs, NeedFit a

theorem length_vernauxs (as : List WVernaux) : (Elf.writeVernauxs en as).length = 16 * as.length := by
  induction as with
  | nil => rfl
  | cons n ns ih => simp [Elf.writeVernauxs, Elf.encVernaux, ih]; omega

theorem length_needOne (more : Bool) (v : WVerneed) : (Elf.encVerneed en more v ++ Elf.writeVernauxs en v.auxs).length = 16 + 16 * v.auxs.length := by
  rw [List.length_append, length_vernauxs]
  simp [Elf.encVerneed]

theorem needs_blk (vs : List WVerneed) (hv : ∀ v ∈ vs, FileFit v) {o : Nat} (h : Blk d o (Elf.verneedBytes en vs))
    (ho : o + (Elf.verneedBytes en vs).length = d.length) :
    Chain 16 16 (verneedAt en d) (vernauxAt en d) Verneed.aux Verneed.cnt Verneed.next Vernaux.next d.length o (needRecs vs) := by
  induction vs generalizing o with
  | nil => exact .nil (by simp [Elf.verneedBytes] at ho; omega)
  | cons v vs ih =>
    have hf := hv v (by simp)
    unfold Elf.verneedBytes at h ho
    obtain ⟨h1, h2⟩ := blk_append.1 h
    rw [List.length_append] at ho
    rw [length_needOne] at h2 ho
    obtain ⟨h3, h4⟩ := blk_append.1 h1
    have hl : (Elf.encVerneed en (vs.length != 0) v).length = 16 := by simp [Elf.encVerneed]
    rw [hl] at h4
    have hc := hf.count
    have e : verneedAt en d o = needRec (vs.length != 0) v :=
      verneed_blk h3 (by show v.version < _; rw [hf.version]; decide) hf.count hf.file (by show (if _ then 16 else 0) < 2 ^ 32; split <;> decide)
        (by have : (needRec (vs.length != 0) v).next ≤ 16 + v.auxs.length * 16 := by unfold needRec; dsimp only; split <;> omega
            omega)
    have hb := h3.2
    rw [hl] at hb
    have i1 : Verneed.aux (verneedAt en d o) = if v.auxs.length ≠ 0 then 16 else 0 := by rw [e]; rfl
    have i2 : Verneed.cnt (verneedAt en d o) = v.auxs.length := by rw [e]; rfl
    have i4 : o + Verneed.aux (verneedAt en d o) ≤ d.length := by rw [i1]; split <;> omega
    have ha : Auxs 16 (vernauxAt en d) Vernaux.next d.length (o + Verneed.aux (verneedAt en d o)) (Verneed.cnt (verneedAt en d o)) (needAuxs v.auxs) := by
      rw [i1, i2]
      cases hx : v.auxs with
      | nil => exact .nil
      | cons a as =>
        have := needAuxs_blk v.auxs hf.auxs h4
        rw [hx] at this
        exact this
    unfold needRecs
    rw [← e]
    cases vs with
    | nil => exact .last hb (by rw [e]; rfl) i4 ha
    | cons w ws =>
      have i3 : Verneed.next (verneedAt en d o) = 16 + v.auxs.length * 16 := by rw [e]; rfl
      refine .cons hb (by rw [i3]; omega) i4 (by rw [i3]; omega) ha ?_
      rw [i3, show o + (16 + v.auxs.length * 16) = o + (16 + 16 * v.auxs.length) by omega]
      exact ih (fun x hx => hv x (by simp [hx])) h2 (by omega)

end
end Obj.BuildW

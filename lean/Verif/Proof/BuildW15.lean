import Verif.Proof.BuildW13
import Verif.Proof.BuildW14

/-! Writing with the ELF builder: the counts and strings of versions. -/

namespace Obj.BuildW
open Obj Obj.Build Obj.BuildR Obj.Spec
open Obj.Spec.MachoF (Each num)
open Obj.Spec.ElfF (DataOf RecordsOf)
open Obj.Spec.BuildR (InFirst Defs Needs VersionsOf VersionOf SymVersions Tables StrAt DefOf NeedOf BaseOf indices isBase)
open Obj.Spec.BuildW (live Place Ref Sound isDef needsFrom versionOrder VerOk)
open Obj.Elf (Shdr WVerdef WVerneed WVernaux Verdef Verdaux Verneed Vernaux)

theorem sysv_lt (s : List UInt8) : Elf.sysvHash s < 2 ^ 32 := by
  unfold Elf.sysvHash
  exact Nat.lt_of_le_of_lt Nat.and_le_right (by decide)

/-! ## The loop over the versions -/

def nameCount (v : Ver) : Nat := match v.data with | .def_ names _ => names.length | _ => 0
def needEntry (f : Nat) (v : Ver) : Option (Nat × List UInt8 × Nat) :=
  match v.data with
  | .need file name flags => if file = f then some (v.id + 2, name, flags) else none
  | _ => none
def verStrings (v : Ver) : List (List UInt8) := match v.data with | .def_ names _ => names | .need _ name _ => [name]

structure VerInv (base : Option (List UInt8)) (n : Nat) (vs : List Ver) (o : VerOut) : Prop where
  built : Built o.tab
  defs : o.defs = base.toList.length + (vs.filter isDef).length
  auxs : o.auxs + (if o.shared then 1 else 0) = base.toList.length + (vs.map nameCount).sum
  shared : o.shared = true → ∃ n v rest flags, base = some n ∧ vs.filter isDef = v :: rest ∧ v.data = .def_ [n] flags
  vernauxs : o.vernauxs = (vs.filter fun v => !isDef v).length
  flen : o.files.length = n
  files : ∀ (f : Nat) l, o.files[f]? = some l → l = vs.filterMap (needEntry f)
  strings : (∀ s, base = some s → s ∈ o.tab.strings) ∧ ∀ v ∈ vs, ∀ s ∈ verStrings v, s ∈ o.tab.strings

theorem verInv_base {n : Nat} {base : Option (List UInt8)} {t : StrTab} {o : VerOut} (hb : Built t) (h : verBase n base t = .ok o) :
    VerInv base n [] o := by
  unfold verBase at h
  cases base with
  | none =>
    cases h
    refine ⟨hb, rfl, rfl, by simp, rfl, by simp, ?_, by simp, by simp⟩
    intro f l hl
    have := List.mem_of_getElem? hl
    simp at this
    rw [this.2]; rfl
  | some s =>
    simp only [Res.bind_eq_ok] at h
    obtain ⟨⟨id, t'⟩, h1, h2⟩ := h
    cases h2
    obtain ⟨a, b, -, -⟩ := tabAdd_ok hb h1
    refine ⟨a, rfl, rfl, by simp, rfl, by simp, ?_, ?_, by simp⟩
    · intro f l hl
      have := List.mem_of_getElem? hl
      simp at this
      rw [this.2]; rfl
    · intro x hx
      cases hx
      have : addAll t [s] = .ok t' := by
        unfold addAll
        rw [foldR_cons]
        exact ⟨t', by rw [h1]; rfl, rfl⟩
      exact (addAll_ok hb this).2.2 s (by simp)

theorem verInv_step {n : Nat} {base : Option (List UInt8)} {vs : List Ver} {v : Ver} {o o' : VerOut} (i : VerInv base n vs o)
    (h : verStep base o v = .ok o') : VerInv base n (vs ++ [v]) o' := by
  unfold verStep at h
  cases hd : v.data with
  | def_ names flags =>
    have hdef : isDef v = true := by unfold isDef; rw [hd]
    have hcnt : nameCount v = names.length := by unfold nameCount; rw [hd]
    have hfil : (vs ++ [v]).filter isDef = vs.filter isDef ++ [v] := by rw [List.filter_append]; simp [hdef]
    have hneed : ∀ f, (vs ++ [v]).filterMap (needEntry f) = vs.filterMap (needEntry f) := by
      intro f
      rw [List.filterMap_append]
      simp [needEntry, hd]
    have hstr : verStrings v = names := by unfold verStrings; rw [hd]
    simp only [hd] at h
    split at h
    · next hs =>
      cases h
      unfold isShared at hs
      have hs := of_decide_eq_true hs
      obtain ⟨s1, s2, s3⟩ := hs
      obtain ⟨x, rfl⟩ : ∃ x, names = [x] := List.length_eq_one_iff.1 s2
      cases s3
      have hn0 : vs.filter isDef = [] := by
        have := i.defs
        rw [s1] at this
        simp only [List.head?_cons, Option.toList_some, List.length_cons, List.length_nil] at this
        exact List.length_eq_zero_iff.1 (by omega)
      have hsh : o.shared = false := by
        cases hs : o.shared with
        | false => rfl
        | true =>
          obtain ⟨_, _, _, _, _, e, _⟩ := i.shared hs
          rw [hn0] at e; cases e
      refine ⟨i.built, ?_, ?_, ?_, ?_, i.flen, ?_, i.strings.1, ?_⟩
      · rw [hfil, List.length_append]
        have := i.defs
        simp only [List.length_cons, List.length_nil] at *; omega
      · have := i.auxs
        rw [hsh] at this
        simp only [List.map_append, List.sum_append, List.map_cons, List.map_nil, List.sum_cons, List.sum_nil, hcnt, List.length_cons, List.length_nil, Bool.false_eq_true, if_false] at *
        simp only [if_true]
        omega
      · intro _
        exact ⟨x, v, [], flags, rfl, by rw [hfil, hn0]; rfl, hd⟩
      · rw [List.filter_append]; simp [hdef, i.vernauxs]
      · intro f l hl
        rw [hneed]; exact i.files f l hl
      · intro w hw s hs
        rcases List.mem_append.1 hw with hw | hw
        · exact i.strings.2 w hw s hs
        · rw [List.mem_singleton.1 hw, hstr] at hs
          rw [List.mem_singleton.1 hs]
          exact i.strings.1 x rfl
    · rw [Res.bind_eq_ok] at h
      obtain ⟨t, h1, h2⟩ := h
      cases h2
      obtain ⟨a, b, c⟩ := addAll_ok i.built h1
      refine ⟨a, ?_, ?_, ?_, ?_, i.flen, ?_, fun s hs => b.subset (i.strings.1 s hs), ?_⟩
      · rw [hfil, List.length_append]
        have := i.defs
        simp only [List.length_cons, List.length_nil] at *; omega
      · have := i.auxs
        simp only [List.map_append, List.sum_append, List.map_cons, List.map_nil, List.sum_cons, List.sum_nil, hcnt] at *
        omega
      · intro hs
        obtain ⟨x, w, r, g, e1, e2, e3⟩ := i.shared hs
        exact ⟨x, w, r ++ [v], g, e1, by rw [hfil, e2]; rfl, e3⟩
      · rw [List.filter_append]; simp [hdef, i.vernauxs]
      · intro f l hl
        rw [hneed]; exact i.files f l hl
      · intro w hw s hs
        rcases List.mem_append.1 hw with hw | hw
        · exact b.subset (i.strings.2 w hw s hs)
        · rw [List.mem_singleton.1 hw, hstr] at hs
          exact c s hs
  | need file name flags =>
    have hdef : isDef v = false := by unfold isDef; rw [hd]
    have hcnt : nameCount v = 0 := by unfold nameCount; rw [hd]
    have hfil : (vs ++ [v]).filter isDef = vs.filter isDef := by rw [List.filter_append]; simp [hdef]
    have hstr : verStrings v = [name] := by unfold verStrings; rw [hd]
    simp only [hd, Res.bind_eq_ok] at h
    obtain ⟨⟨id, t⟩, h1, h2⟩ := h
    have hadd : addAll o.tab [name] = .ok t := by
      unfold addAll
      rw [foldR_cons]
      exact ⟨t, by rw [h1]; rfl, rfl⟩
    obtain ⟨a, b, c⟩ := addAll_ok i.built hadd
    split at h2
    · cases h2
    · next l0 hl0 =>
      cases h2
      refine ⟨a, ?_, ?_, ?_, ?_, by simp [i.flen], ?_, fun s hs => b.subset (i.strings.1 s hs), ?_⟩
      · rw [hfil]; exact i.defs
      · have := i.auxs
        simp only [List.map_append, List.sum_append, List.map_cons, List.map_nil, List.sum_cons, List.sum_nil, hcnt] at *
        omega
      · intro hs
        obtain ⟨x, w, r, g, e1, e2, e3⟩ := i.shared hs
        exact ⟨x, w, r, g, e1, by rw [hfil, e2], e3⟩
      · rw [List.filter_append]; simp [hdef, i.vernauxs]
      · intro f l hl
        rw [List.filterMap_append]
        by_cases hf : file = f
        · subst hf
          have hlt := (List.getElem?_eq_some_iff.1 hl0).1
          rw [List.getElem?_set_self hlt] at hl
          cases hl
          rw [i.files _ _ hl0]
          simp [needEntry, hd]
        · rw [List.getElem?_set_ne hf] at hl
          rw [i.files _ _ hl]
          simp [needEntry, hd, hf]
      · intro w hw s hs
        rcases List.mem_append.1 hw with hw | hw
        · exact b.subset (i.strings.2 w hw s hs)
        · rw [List.mem_singleton.1 hw, hstr] at hs
          exact c s hs

theorem verInv_fold {n : Nat} {base : Option (List UInt8)} (ws : List Ver) {vs : List Ver} {o o' : VerOut} (i : VerInv base n vs o)
    (h : foldR (verStep base) o ws = .ok o') : VerInv base n (vs ++ ws) o' := by
  induction ws generalizing vs o with
  | nil => cases h; simpa using i
  | cons w ws ih =>
    obtain ⟨u, h1, h2⟩ := foldR_cons.1 h
    have := ih (verInv_step i h1) h2
    rwa [List.append_assoc] at this

theorem verInv {b : Full} {t : StrTab} {o : VerOut} (hb : Built t) (h : versions b t = .ok o) :
    VerInv b.versionBase b.tables.versionFiles.length (live b.tables.versions) o ∧ ∀ f ∈ live b.tables.versionFiles, f.name ∈ o.tab.strings := by
  unfold versions at h
  split at h
  · cases h
  · simp only [Res.bind_eq_ok] at h
    obtain ⟨o1, h1, o2, h2, t3, h3, h4⟩ := h
    split at h4
    · cases h4
    cases h4
    have i := verInv_fold _ (verInv_base hb h1) h2
    rw [List.nil_append, iter_eq] at i
    obtain ⟨a, b, c⟩ := addAll_ok i.built h3
    refine ⟨⟨a, i.defs, i.auxs, i.shared, i.vernauxs, i.flen, i.files, fun s hs => b.subset (i.strings.1 s hs),
      fun v hv s hs => b.subset (i.strings.2 v hv s hs)⟩, ?_⟩
    intro f hf
    rw [iter_eq] at c
    exact c _ (List.mem_map.2 ⟨f, hf, rfl⟩)

/-! ## The number of required versions -/

theorem countP_id {fs : List VerFile} (hn : (fs.map (·.id)).Nodup) {i : Nat} (h : i ∈ fs.map (·.id)) : (fs.filter fun f => i == f.id).length = 1 := by
  induction fs with
  | nil => simp at h
  | cons f fs ih =>
    rw [List.map_cons, List.nodup_cons] at hn
    rw [List.map_cons] at h
    rcases List.mem_cons.1 h with h | h
    · subst h
      have : (fs.filter fun g => f.id == g.id) = [] := by
        rw [List.filter_eq_nil_iff]
        intro g hg e
        exact hn.1 (List.mem_map.2 ⟨g, hg, (of_decide_eq_true e).symm⟩)
      rw [List.filter_cons_of_pos (by simp), this]; rfl
    · have hne : ¬ (i == f.id) = true := by
        intro e
        have := of_decide_eq_true e
        rw [this] at h
        exact hn.1 h
      rw [List.filter_cons, if_neg hne]
      exact ih hn.2 h

theorem sum_add {α : Type} (l : List α) (f g : α → Nat) : (l.map fun x => f x + g x).sum = (l.map f).sum + (l.map g).sum := by
  induction l with
  | nil => rfl
  | cons x l ih => simp [ih]; omega

theorem sum_ite {α : Type} (l : List α) (q : α → Bool) : (l.map fun x => if q x then 1 else 0).sum = (l.filter q).length := by
  induction l with
  | nil => rfl
  | cons x l ih =>
    rw [List.map_cons, List.sum_cons, ih, List.filter_cons]
    split <;> simp <;> omega

theorem needs_count {fs : List VerFile} (hn : (fs.map (·.id)).Nodup) (vs : List Ver)
    (h : ∀ v ∈ vs, ∀ file name flags, v.data = .need file name flags → file ∈ fs.map (·.id)) :
    (fs.map fun f => (vs.filterMap (needEntry f.id)).length).sum = (vs.filter fun v => !isDef v).length := by
  induction vs with
  | nil =>
    clear hn h
    induction fs with
    | nil => rfl
    | cons f fs ih => rw [List.map_cons, List.sum_cons, ih]; rfl
  | cons v vs ih =>
    have ih := ih (fun w hw => h w (by simp [hw]))
    cases hd : v.data with
    | def_ names flags =>
      have e1 : ∀ f, needEntry f v = none := by intro f; simp [needEntry, hd]
      have e2 : isDef v = true := by simp [isDef, hd]
      simp only [List.filterMap_cons, e1, e2, List.filter_cons]
      simpa using ih
    | need file name flags =>
      have e2 : isDef v = false := by simp [isDef, hd]
      have e1 : ∀ f : VerFile, ((v :: vs).filterMap (needEntry f.id)).length = (if (file == f.id) then 1 else 0) + (vs.filterMap (needEntry f.id)).length := by
        intro f
        by_cases hf : file = f.id
        · have : needEntry f.id v = some (v.id + 2, name, flags) := by simp [needEntry, hd, hf]
          rw [List.filterMap_cons, this]
          simp [hf]; omega
        · have : needEntry f.id v = none := by simp [needEntry, hd, hf]
          rw [List.filterMap_cons, this]
          simp [hf]
      simp only [e1, sum_add, ih, sum_ite]
      rw [countP_id hn (h v (by simp) _ _ _ hd)]
      simp [e2]; omega

end Obj.BuildW

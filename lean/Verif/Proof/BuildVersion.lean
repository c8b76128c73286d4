import Verif.Proof.BuildDelete

namespace Obj.Build

open Obj Obj.Build.Spec

theorem mark_ok {v v' : List Bool} {i : Nat} (h : mark v i = .ok v') :
    v'.length = v.length ∧ ∀ j : Nat, v'[j]? = some true ↔ v[j]? = some true ∨ (j = i ∧ i < v.length) := by
  unfold mark at h
  split at h
  · rename_i hi
    cases h
    refine ⟨by simp, fun j => ?_⟩
    by_cases hj : j = i
    · subst hj
      rw [List.getElem?_set_self hi]
      simp [hi]
    · rw [List.getElem?_set_ne (fun h => hj h.symm)]
      simp [hj]
  · cases h

theorem mark_of {v : List Bool} {i : Nat} (h : i < v.length) : ∃ v', mark v i = .ok v' :=
  ⟨_, by unfold mark; rw [if_pos h]⟩

theorem markAll_of {v : List Bool} {l : List Nat} (h : ∀ i ∈ l, i < v.length) :
    ∃ v', markAll v l = .ok v' ∧ v'.length = v.length ∧
      ∀ j : Nat, v'[j]? = some true ↔ v[j]? = some true ∨ j ∈ l := by
  induction l generalizing v with
  | nil => exact ⟨v, rfl, rfl, by simp⟩
  | cons i is ih =>
    obtain ⟨v1, h1⟩ := mark_of (h i (by simp))
    obtain ⟨hl, hm⟩ := mark_ok h1
    obtain ⟨v2, h2, hl2, hm2⟩ := ih (v := v1) (fun j hj => by rw [hl]; exact h j (List.mem_cons_of_mem _ hj))
    refine ⟨v2, by simp only [markAll, h1, Res.ok_bind, h2], by rw [hl2, hl], fun j => ?_⟩
    rw [hm2, hm, List.mem_cons, or_assoc]
    have := h i (by simp)
    constructor
    · rintro (a | ⟨rfl, _⟩ | c)
      · exact .inl a
      · exact .inr (.inl rfl)
      · exact .inr (.inr c)
    · rintro (a | rfl | c)
      · exact .inl a
      · exact .inr (.inl ⟨rfl, this⟩)
      · exact .inr (.inr c)

theorem flag_of {v : List Bool} {i : Nat} (h : i < v.length) :
    flag v i = .ok (v[i]) := by
  unfold flag
  rw [List.getElem?_eq_getElem h]

/-- The version is the relative relocation marker. -/
def IsRelr (v : Ver) : Prop := ∃ file flags, v.data = .need file relrName flags

/-- The loop over the versions. -/
theorem verLoop (vs : List Ver) : ∀ (k : Nat) (used fu : List Bool),
    (∀ (i : Nat) v, vs[i]? = some v → v.id = k + i) → k + vs.length + 2 ≤ used.length →
    (∀ v ∈ vs, v.delete = false → ∀ f n fl, v.data = .need f n fl → f < fu.length) →
    ∃ used' fu' vs', forMut verBody (used, fu) vs = .ok ((used', fu'), vs') ∧ fu'.length = fu.length ∧
      Pointwise (fun v v' => v' = { v with delete := v'.delete } ∧
        (v'.delete = true ↔ v.delete = true ∨ ¬ (used[v.id + 2]? = some true ∨ IsRelr v))) vs vs' ∧
      ∀ j : Nat, fu'[j]? = some true ↔ fu[j]? = some true ∨
        ∃ v ∈ vs', v.delete = false ∧ ∃ n fl, v.data = .need j n fl := by
  induction vs with
  | nil =>
    intro k used fu _ _ _
    exact ⟨used, fu, [], rfl, rfl, ⟨rfl, by simp⟩, by simp⟩
  | cons v vs ih =>
    intro k used fu hid hlen hf
    have hid0 : v.id = k := hid 0 v rfl
    have hids : ∀ (i : Nat) w, vs[i]? = some w → w.id = k + 1 + i := by
      intro i w hw
      have := hid (i + 1) w hw
      omega
    have hlen' : k + vs.length + 3 ≤ used.length := by
      simp only [List.length_cons] at hlen; omega
    by_cases hd : v.delete = true
    · obtain ⟨u', f', vs', h1, h2, h3, h4⟩ := ih (k + 1) used fu hids (by omega)
        (fun w hw => hf w (List.mem_cons_of_mem _ hw))
      refine ⟨u', f', v :: vs', ?_, h2, ⟨by simp [h3.1], ?_⟩, ?_⟩
      · simp only [forMut]
        rw [if_pos (show Item.deleted v = true from hd), h1]
        rfl
      · intro i x hx
        cases i with
        | zero => cases hx; exact ⟨v, rfl, rfl, by simp [hd]⟩
        | succ i => exact h3.2 i x hx
      · intro j
        rw [h4]
        constructor
        · rintro (a | ⟨w, hw, b⟩)
          · exact .inl a
          · exact .inr ⟨w, List.mem_cons_of_mem _ hw, b⟩
        · rintro (a | ⟨w, hw, b, c⟩)
          · exact .inl a
          · rcases List.mem_cons.1 hw with rfl | hw
            · rw [hd] at b; cases b
            · exact .inr ⟨w, hw, b, c⟩
    · have hd' : v.delete = false := by simpa using hd
      -- marking
      have hmark : ∃ used1, markRelr used v = .ok used1 ∧ used1.length = used.length ∧
          (∀ j : Nat, j ≠ v.id + 2 → (used1[j]? = some true ↔ used[j]? = some true)) ∧
          (used1[v.id + 2]? = some true ↔ used[v.id + 2]? = some true ∨ IsRelr v) := by
        unfold markRelr
        cases hdat : v.data with
        | def_ names flags =>
          refine ⟨used, rfl, rfl, fun _ _ => Iff.rfl, ?_⟩
          unfold IsRelr
          simp [hdat]
        | need file name flags =>
          by_cases hn : name = relrName
          · obtain ⟨u1, hu1⟩ := mark_of (v := used) (i := v.id + 2) (by omega)
            obtain ⟨hl1, hm1⟩ := mark_ok hu1
            refine ⟨u1, by simp only [if_pos hn, hu1], hl1, fun j hj => by rw [hm1]; simp [hj], ?_⟩
            rw [hm1]
            constructor
            · intro _
              exact .inr ⟨file, flags, by rw [hdat, hn]⟩
            · intro _
              exact .inr ⟨rfl, by omega⟩
          · refine ⟨used, by simp only [if_neg hn], rfl, fun _ _ => Iff.rfl, ?_⟩
            unfold IsRelr
            simp [hdat, hn]
      obtain ⟨used1, hm, hml, hmo, hms⟩ := hmark
      have hlt : v.id + 2 < used1.length := by omega
      have hflag := flag_of hlt
      have hf1 : used1[v.id + 2]? = some true ↔ used1[v.id + 2] = true := by
        rw [List.getElem?_eq_getElem hlt]; simp
      -- the congruence for the rest
      have hrest : ∀ {fu1 : List Bool} {vs' : List Ver}, Pointwise (fun w w' => w' = { w with delete := w'.delete } ∧
          (w'.delete = true ↔ w.delete = true ∨ ¬ (used1[w.id + 2]? = some true ∨ IsRelr w))) vs vs' →
          Pointwise (fun w w' => w' = { w with delete := w'.delete } ∧
          (w'.delete = true ↔ w.delete = true ∨ ¬ (used[w.id + 2]? = some true ∨ IsRelr w))) vs vs' := by
        intro _ vs' hp
        refine hp.imp fun w hw w' he => ⟨he.1, ?_⟩
        rw [he.2]
        obtain ⟨i, hi⟩ := List.getElem?_of_mem hw
        have := hids i w hi
        rw [hmo (w.id + 2) (by omega)]
      by_cases hu : used1[v.id + 2] = true
      · -- kept
        have hfile : ∃ fu1, markFile fu v = .ok fu1 ∧ fu1.length = fu.length ∧
            ∀ j : Nat, fu1[j]? = some true ↔ fu[j]? = some true ∨ ∃ n fl, v.data = .need j n fl := by
          unfold markFile
          cases hdat : v.data with
          | def_ names flags => exact ⟨fu, rfl, rfl, by simp⟩
          | need file name flags =>
            have hlf := hf v (by simp) hd' file name flags hdat
            obtain ⟨f1, hf1⟩ := mark_of hlf
            obtain ⟨hl1, hm1⟩ := mark_ok hf1
            refine ⟨f1, by simp only [hf1], hl1, fun j => ?_⟩
            rw [hm1]
            constructor
            · rintro (a | ⟨rfl, _⟩)
              · exact .inl a
              · exact .inr ⟨name, flags, rfl⟩
            · rintro (a | ⟨n, fl, he⟩)
              · exact .inl a
              · cases he; exact .inr ⟨rfl, hlf⟩
        obtain ⟨fu1, hfe, hfl, hfm⟩ := hfile
        obtain ⟨u', f', vs', h1, h2, h3, h4⟩ := ih (k + 1) used1 fu1 hids (by omega)
          (fun w hw => by rw [hfl]; exact hf w (List.mem_cons_of_mem _ hw))
        refine ⟨u', f', v :: vs', ?_, by rw [h2, hfl], ⟨by simp [h3.1], ?_⟩, ?_⟩
        · simp only [forMut]
          rw [if_neg (show ¬ Item.deleted v = true from hd)]
          have : verBody (used, fu) v = .ok ((used1, fu1), v) := by
            unfold verBody
            simp only
            rw [hm, Res.ok_bind, hflag, Res.ok_bind, if_neg (by rw [hu]; simp), hfe, Res.ok_bind]
          rw [this, Res.ok_bind, h1]
          rfl
        · intro i x hx
          cases i with
          | zero =>
            cases hx
            refine ⟨v, rfl, rfl, ?_⟩
            rw [← hms, hf1]
            simp [hu]
          | succ i => exact (hrest (fu1 := fu1) h3).2 i x hx
        · intro j
          rw [h4, hfm]
          constructor
          · rintro ((a | b) | ⟨w, hw, b⟩)
            · exact .inl a
            · exact .inr ⟨v, by simp, hd', b⟩
            · exact .inr ⟨w, List.mem_cons_of_mem _ hw, b⟩
          · rintro (a | ⟨w, hw, b, c⟩)
            · exact .inl (.inl a)
            · rcases List.mem_cons.1 hw with rfl | hw
              · exact .inl (.inr c)
              · exact .inr ⟨w, hw, b, c⟩
      · -- deleted
        obtain ⟨u', f', vs', h1, h2, h3, h4⟩ := ih (k + 1) used1 fu hids (by omega)
          (fun w hw => hf w (List.mem_cons_of_mem _ hw))
        refine ⟨u', f', { v with delete := true } :: vs', ?_, h2, ⟨by simp [h3.1], ?_⟩, ?_⟩
        · simp only [forMut]
          rw [if_neg (show ¬ Item.deleted v = true from hd)]
          have : verBody (used, fu) v = .ok ((used1, fu), { v with delete := true }) := by
            unfold verBody
            simp only
            rw [hm, Res.ok_bind, hflag, Res.ok_bind, if_pos (by simpa using hu)]
          rw [this, Res.ok_bind, h1]
          rfl
        · intro i x hx
          cases i with
          | zero =>
            cases hx
            refine ⟨{ v with delete := true }, rfl, rfl, ?_⟩
            rw [← hms, hf1]
            simp [hu]
          | succ i => exact (hrest (fu1 := fu) h3).2 i x hx
        · intro j
          rw [h4]
          constructor
          · rintro (a | ⟨w, hw, b⟩)
            · exact .inl a
            · exact .inr ⟨w, List.mem_cons_of_mem _ hw, b⟩
          · rintro (a | ⟨w, hw, b, c⟩)
            · exact .inl a
            · rcases List.mem_cons.1 hw with rfl | hw
              · cases b
              · exact .inr ⟨w, hw, b, c⟩

end Obj.Build

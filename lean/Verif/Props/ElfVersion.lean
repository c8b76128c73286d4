import Verif.Proof.ElfVersion

/-! # C36: ELF symbol versions -/

namespace Obj.Props
open Obj Obj.Elf Obj.Spec.ElfVersionS

/-! ## Safety -/

private theorem auxNext_fused {α : Type} {size : Nat} {dec : List UInt8 → α} {next : α → Nat} {s s' : AuxIter}
    (h : auxNext size dec next s = (.err, s')) : auxNext size dec next s' = (.ok none, s') := by
  have h0 : s'.2 = 0 := by
    unfold auxNext at h
    split at h
    · simp at h
    · split at h <;> simp at h
      rw [← h]
  unfold auxNext
  rw [if_pos h0]

/-- C36: iterating definitions and requirements terminates on any data (with at most one item per byte), never panics,
and is fused: an error ends the iteration.  The auxiliary iterators yield at most the recorded number of records. -/
theorem C36_iterators_terminate (en : Endianness) (data : List UInt8) (s : AuxIter) :
    (∃ xs e, Runs (verdefNext en) data xs e ∧ xs.length ≤ data.length ∧ e ≠ .panic) ∧
    (∃ xs e, Runs (verneedNext en) data xs e ∧ xs.length ≤ data.length ∧ e ≠ .panic) ∧
    (∃ xs e, Runs (verdauxNext en) s xs e ∧ xs.length ≤ s.2 ∧ e ≠ .panic) ∧
    (∃ xs e, Runs (vernauxNext en) s xs e ∧ xs.length ≤ s.2 ∧ e ≠ .panic) ∧
    (∀ d', verdefNext en data = (.err, d') → verdefNext en d' = (.ok none, [])) ∧
    (∀ d', verneedNext en data = (.err, d') → verneedNext en d' = (.ok none, [])) ∧
    (∀ s', verdauxNext en s = (.err, s') → verdauxNext en s' = (.ok none, s')) ∧
    (∀ s', vernauxNext en s = (.err, s') → vernauxNext en s' = (.ok none, s')) := by
  refine ⟨?_, ?_, aux_terminates .., aux_terminates .., fun d' h => fuseNext_fused h, fun d' h => fuseNext_fused h,
    fun s' h => auxNext_fused h, fun s' h => auxNext_fused h⟩
  · exact fuse_runs (fun d x d' h => (verParse_cases 20 (by decide) _ _ _ _ d).2 x d' h)
      (fun d => (verParse_cases 20 (by decide) _ _ _ _ d).1) data
  · exact fuse_runs (fun d x d' h => (verParse_cases 16 (by decide) _ _ _ _ d).2 x d' h)
      (fun d => (verParse_cases 16 (by decide) _ _ _ _ d).1) data

private theorem setVersion_ok {vs : List Version} {i : Nat} (h : i < vs.length) (v : Version) : setVersion vs i v = .ok (vs.set i v) := by
  unfold setVersion; rw [if_pos h]

private theorem get_no_panic (t : StrTable) (data : List UInt8) (o : Nat) : t.get data o ≠ .panic := by
  unfold StrTable.get stringTableGet
  cases t with
  | none => simp
  | some p =>
    simp only
    split
    · simp
    · unfold ReadRef.readBytesAtUntil
      split
      · dsimp only
        split <;> simp
      · simp

private theorem maxDef_ge (m : Nat) (v : Verdef) : m ≤ maxDef m v := by
  unfold maxDef; split
  · omega
  · split <;> omega

private theorem maxNeed_ge (m : Nat) (v : Vernaux) : m ≤ maxNeed m v := by
  unfold maxNeed; split <;> omega

private theorem foldl_ge {α : Type} (f : Nat → α → Nat) (hf : ∀ m v, m ≤ f m v) (l : List α) (m : Nat) : m ≤ l.foldl f m := by
  induction l generalizing m with
  | nil => simp
  | cons a l ih => exact Nat.le_trans (hf m a) (ih _)

private theorem foldl_maxDef (l : List Verdef) (m : Nat) : ∀ v ∈ l, v.isBase = false → v.ndx ≤ l.foldl maxDef m := by
  induction l generalizing m with
  | nil => simp
  | cons a l ih =>
    intro v hv hb
    rcases List.mem_cons.1 hv with rfl | hv
    · refine Nat.le_trans ?_ (foldl_ge maxDef maxDef_ge l _)
      unfold maxDef; rw [hb]
      simp only [Bool.false_eq_true, if_false]
      split <;> omega
    · exact ih _ v hv hb

private theorem foldl_maxNeed (l : List Vernaux) (m : Nat) : ∀ v ∈ l, versymIndex v.other ≤ l.foldl maxNeed m := by
  induction l generalizing m with
  | nil => simp
  | cons a l ih =>
    intro v hv
    rcases List.mem_cons.1 hv with rfl | hv
    · refine Nat.le_trans ?_ (foldl_ge maxNeed maxNeed_ge l _)
      unfold maxNeed
      split <;> omega
    · exact ih _ v hv

private theorem fillDefs_no_panic (en : Endianness) (strings : StrTable) (data : List UInt8) (defs : List (Verdef × AuxIter))
    (vs : List Version) (h : ∀ v ∈ defs, v.1.isBase = false → v.1.ndx < vs.length) :
    fillDefs en strings data defs vs ≠ .panic ∧ ∀ vs', fillDefs en strings data defs vs = .ok vs' → vs'.length = vs.length := by
  induction defs generalizing vs with
  | nil => simp [fillDefs]
  | cons p rest ih =>
    obtain ⟨v, it⟩ := p
    have ih' := fun vs' (hv : vs'.length = vs.length) => ih vs' (fun x hx hb => by rw [hv]; exact h x (by simp [hx]) hb)
    unfold fillDefs
    cases hb : v.isBase with
    | true => simpa using ih' vs rfl
    | false =>
      simp only [Bool.false_eq_true, if_false]
      split
      · exact ih' vs rfl
      · have hnp := auxNext_no_panic 8 (Verdaux.decode en) Verdaux.next it
        unfold verdauxNext
        cases hn : (auxNext 8 (Verdaux.decode en) Verdaux.next it).1 with
        | panic => exact absurd hn hnp
        | err => simp
        | ok o =>
          cases o with
          | none => exact ih' vs rfl
          | some a =>
            simp only [Res.bind_eq]
            have hg := get_no_panic strings data a.name
            cases hg' : strings.get data a.name with
            | panic => exact absurd hg' hg
            | err => simp
            | ok name =>
              simp only [Res.ok_bind, setVersion_ok (h (v, it) (by simp) hb)]
              have := ih' (vs.set v.ndx ⟨name, v.hash, true, none⟩) (by simp)
              simpa using this

private theorem fillNeed_no_panic (strings : StrTable) (data : List UInt8) (v : Verneed) (as : List Vernaux)
    (vs : List Version) (h : ∀ a ∈ as, versymIndex a.other < vs.length) :
    fillNeed strings data v as vs ≠ .panic ∧ ∀ vs', fillNeed strings data v as vs = .ok vs' → vs'.length = vs.length := by
  induction as generalizing vs with
  | nil => simp [fillNeed]
  | cons a rest ih =>
    have ih' := fun vs' (hv : vs'.length = vs.length) => ih vs' (fun x hx => by rw [hv]; exact h x (by simp [hx]))
    unfold fillNeed
    split
    · exact ih' vs rfl
    · simp only [Res.bind_eq]
      have hg := get_no_panic strings data a.name
      cases hg' : strings.get data a.name with
      | panic => exact absurd hg' hg
      | err => simp
      | ok name =>
        have hf := get_no_panic strings data v.file
        cases hf' : strings.get data v.file with
        | panic => exact absurd hf' hf
        | err => simp
        | ok file =>
          simp only [Res.ok_bind, setVersion_ok (h a (by simp))]
          have := ih' (vs.set (versymIndex a.other) ⟨name, a.hash, true, some file⟩) (by simp)
          simpa using this

private theorem fillNeeds_no_panic (strings : StrTable) (data : List UInt8) (needs : List (Verneed × List Vernaux))
    (vs : List Version) (h : ∀ a ∈ needs.flatMap Prod.snd, versymIndex a.other < vs.length) :
    fillNeeds strings data needs vs ≠ .panic := by
  induction needs generalizing vs with
  | nil => simp [fillNeeds]
  | cons p rest ih =>
    obtain ⟨v, as⟩ := p
    unfold fillNeeds
    simp only [Res.bind_eq]
    have hn := fillNeed_no_panic strings data v as vs (fun a ha => h a (by simp [ha]))
    cases hr : fillNeed strings data v as vs with
    | panic => exact absurd hr hn.1
    | err => simp
    | ok vs' =>
      simp only [Res.ok_bind]
      refine ih vs' (fun a ha => ?_)
      rw [hn.2 vs' hr]
      exact h a (by simp only [List.flatMap_cons, List.mem_append]; exact Or.inr ha)

private theorem drainDefs_no_panic (en : Endianness) (d : Option (List UInt8)) : drainDefs en d ≠ .panic := by
  cases d with
  | none => simp [drainDefs]
  | some d =>
    obtain ⟨xs, e, h1, h2, h3⟩ := (C36_iterators_terminate en d ([], 0)).1
    exact drain_no_panic ⟨xs, e, h1, by omega, h3⟩

private theorem drainAux_no_panic (en : Endianness) (l : List (Verneed × AuxIter)) : drainAux en l ≠ .panic := by
  induction l with
  | nil => simp [drainAux]
  | cons p rest ih =>
    obtain ⟨v, it⟩ := p
    unfold drainAux
    simp only [Res.bind_eq]
    obtain ⟨xs, e, h1, h2, h3⟩ := aux_terminates 16 (Vernaux.decode en) Vernaux.next it
    have := drain_no_panic (next := vernauxNext en) (s := it) (fuel := it.2 + 1) ⟨xs, e, h1, by omega, h3⟩
    cases hd : drain (vernauxNext en) (it.2 + 1) it with
    | panic => exact absurd hd this
    | err => simp
    | ok as =>
      simp only [Res.ok_bind]
      cases hr : drainAux en rest with
      | panic => exact absurd hr ih
      | err => simp
      | ok r => simp

private theorem drainNeeds_no_panic (en : Endianness) (d : Option (List UInt8)) : drainNeeds en d ≠ .panic := by
  cases d with
  | none => simp [drainNeeds]
  | some d =>
    obtain ⟨xs, e, h1, h2, h3⟩ := (C36_iterators_terminate en d ([], 0)).2.1
    have := drain_no_panic (next := verneedNext en) (s := d) (fuel := d.length + 1) ⟨xs, e, h1, by omega, h3⟩
    change (drain (verneedNext en) (d.length + 1) d).bind (drainAux en) ≠ .panic
    cases hd : drain (verneedNext en) (d.length + 1) d with
    | panic => exact absurd hd this
    | err => simp
    | ok as => exact drainAux_no_panic en as

/-- C36: building the version table never panics (in particular it never indexes out of bounds), whatever the contents
of the version sections. -/
theorem C36_table_no_panic (en : Endianness) (versyms : List Nat) (verdefs verneeds : Option (List UInt8)) (strings : StrTable)
    (data : List UInt8) : VersionTable.parse en versyms verdefs verneeds strings data ≠ .panic := by
  unfold VersionTable.parse
  simp only [Res.bind_eq]
  cases hd : drainDefs en verdefs with
  | panic => exact absurd hd (drainDefs_no_panic en verdefs)
  | err => simp
  | ok defs =>
    simp only [Res.ok_bind]
    cases hn : drainNeeds en verneeds with
    | panic => exact absurd hn (drainNeeds_no_panic en verneeds)
    | err => simp
    | ok needs =>
      simp only [Res.ok_bind]
      generalize hM : List.foldl maxNeed (List.foldl maxDef 0 (List.map Prod.fst defs)) (List.flatMap Prod.snd needs) = M
      have h1 := fillDefs_no_panic en strings data defs (List.replicate (M + 1) Version.dflt) (by
        intro v hv hb
        have a := foldl_maxDef (defs.map Prod.fst) 0 v.1 (List.mem_map_of_mem hv) hb
        have b := foldl_ge maxNeed maxNeed_ge (List.flatMap Prod.snd needs) (List.foldl maxDef 0 (List.map Prod.fst defs))
        rw [List.length_replicate]; omega)
      cases hf : fillDefs en strings data defs (List.replicate (M + 1) Version.dflt) with
      | panic => exact absurd hf h1.1
      | err => simp
      | ok vs =>
        simp only [Res.ok_bind]
        have h2 := fillNeeds_no_panic strings data needs vs (by
          intro a ha
          have := foldl_maxNeed (List.flatMap Prod.snd needs) (List.foldl maxDef 0 (List.map Prod.fst defs)) a ha
          rw [h1.2 vs hf, List.length_replicate]; omega)
        cases hg : fillNeeds strings data needs vs with
        | panic => exact absurd hg h2
        | err => simp
        | ok vs' => simp

/-! ## Round trip -/

private def auxRecs : (remaining : Nat) → List Nat → List Verdaux
  | _, [] => []
  | remaining, name :: names => ⟨name, if remaining - 1 != 0 then 8 else 0⟩ :: auxRecs (remaining - 1) names

private theorem writeVerdauxs_eq (en : Endianness) (r : Nat) (names : List Nat) :
    writeVerdauxs en r names = (auxRecs r names).flatMap (Verdaux.encode en) := by
  induction names generalizing r with
  | nil => rfl
  | cons n ns ih => simp only [writeVerdauxs, auxRecs, List.flatMap_cons, ih, encVerdaux]

private theorem auxRecs_names (r : Nat) (names : List Nat) : (auxRecs r names).map Verdaux.name = names := by
  induction names generalizing r with
  | nil => rfl
  | cons n ns ih => simp [auxRecs, ih]

private theorem length_auxRecs (r : Nat) (names : List Nat) : (auxRecs r names).length = names.length := by
  rw [← List.length_map Verdaux.name, auxRecs_names]

private theorem auxRecs_fits (r : Nat) (names : List Nat) (h : ∀ n ∈ names, n < 2 ^ 32) :
    ∀ x ∈ auxRecs r names, x.name < 2 ^ 32 ∧ x.next < 2 ^ 32 := by
  induction names generalizing r with
  | nil => simp [auxRecs]
  | cons n ns ih =>
    intro x hx
    simp only [auxRecs, List.mem_cons] at hx
    rcases hx with rfl | hx
    · exact ⟨h n (by simp), by simp only; split <;> decide⟩
    · exact ih _ (fun m hm => h m (by simp [hm])) x hx

private theorem auxRecs_chain (r : Nat) (names : List Nat) (h : names.length ≤ r) : ChainOk Verdaux.next 8 (auxRecs r names) := by
  induction names generalizing r with
  | nil => trivial
  | cons n ns ih =>
    have ih' := ih (r - 1) (by simp at h; omega)
    cases ns with
    | nil => simp only [auxRecs, ChainOk]; split <;> decide
    | cons m ms =>
      simp only [auxRecs, ChainOk] at ih' ⊢
      refine ⟨?_, ih'⟩
      simp at h
      have : (r - 1 != 0) = true := by simp; omega
      rw [this]; rfl

/-- All the name records of a definition written in full. -/
private def defRecs (v : WVerdef) : List Verdaux :=
  ⟨v.name, if decide (1 < v.auxCount) then 8 else 0⟩ :: auxRecs v.auxCount v.rest

private theorem defRecs_chain (v : WVerdef) : ChainOk Verdaux.next 8 (defRecs v) := by
  unfold defRecs
  have hc := auxRecs_chain v.auxCount v.rest (by simp [WVerdef.auxCount])
  cases hr : v.rest with
  | nil => simp only [auxRecs, ChainOk]; split <;> decide
  | cons n ns =>
    rw [hr] at hc
    simp only [auxRecs, ChainOk] at hc ⊢
    refine ⟨?_, hc⟩
    rw [if_pos (by simp [WVerdef.auxCount, hr])]

private theorem defRecs_fits (v : WVerdef) (h : DefFits v) : ∀ x ∈ defRecs v, x.name < 2 ^ 32 ∧ x.next < 2 ^ 32 := by
  intro x hx
  simp only [defRecs, List.mem_cons] at hx
  rcases hx with rfl | hx
  · exact ⟨h.names _ (by simp), by simp only; split <;> decide⟩
  · exact auxRecs_fits _ _ (fun n hn => h.names n (by simp [hn])) x hx

private theorem length_defRecs (v : WVerdef) : (defRecs v).length = v.auxCount := by
  simp only [defRecs, List.length_cons, length_auxRecs, WVerdef.auxCount]; omega

private theorem defRecs_names (v : WVerdef) : (defRecs v).map Verdaux.name = v.name :: v.rest := by
  simp [defRecs, auxRecs_names]

private theorem verdefBytes_own (en : Endianness) (v : WVerdef) (vs : List WVerdef) (h : v.shared = false) :
    verdefBytes en (v :: vs) =
      Verdef.encode en ⟨v.version, v.flags, v.index, v.auxCount, v.hash, 20, if vs.length != 0 then 20 + v.auxCount * 8 else 0⟩ ++
        ((defRecs v).flatMap (Verdaux.encode en) ++ verdefBytes en vs) := by
  simp only [verdefBytes, h, Bool.false_eq_true, if_false, encVerdef, encVerdaux, writeVerdauxs_eq, defRecs, List.flatMap_cons,
    List.append_assoc]

private theorem length_recs (en : Endianness) (v : WVerdef) : ((defRecs v).flatMap (Verdaux.encode en)).length = v.auxCount * 8 := by
  rw [length_flatMap_const (Verdaux.encode en) 8 _ (by simp), length_defRecs]

/-- The record of a definition as stored. -/
private def defRec (v : WVerdef) (more : Bool) : Verdef :=
  if v.shared then ⟨v.version, v.flags, v.index, v.auxCount, v.hash, 40, 20⟩
  else ⟨v.version, v.flags, v.index, v.auxCount, v.hash, 20, if more then 20 + v.auxCount * 8 else 0⟩

/-- What reading yields. -/
private def readDefs (en : Endianness) : List WVerdef → List (Verdef × AuxIter)
  | [] => []
  | v :: vs => (defRec v (vs.length != 0), ((verdefBytes en (v :: vs)).drop (if v.shared then 40 else 20), v.auxCount)) :: readDefs en vs

private theorem defRec_decode (en : Endianness) (v : WVerdef) (more : Bool) (h : DefFits v) (tl : List UInt8) :
    Verdef.decode en ((defRec v more).encode en ++ tl) = defRec v more := by
  have hc := h.count
  apply Verdef.decode_encode
  · unfold defRec; split <;> exact h.version
  · unfold defRec; split <;> exact h.flags
  · unfold defRec; split <;> exact h.index
  · unfold defRec WVerdef.auxCount; split <;> exact h.count
  · unfold defRec; split <;> exact h.hash
  · unfold defRec; split <;> simp
  · unfold defRec WVerdef.auxCount; split
    · simp
    · simp only; split <;> omega

private theorem verdefBytes_shape (en : Endianness) (v : WVerdef) (vs : List WVerdef) :
    ∃ tl, verdefBytes en (v :: vs) = (defRec v (vs.length != 0)).encode en ++ tl := by
  unfold defRec
  cases h : v.shared with
  | false =>
    rw [verdefBytes_own en v vs h]
    exact ⟨_, rfl⟩
  | true =>
    simp only [verdefBytes, h, if_true, encVerdefShared]
    exact ⟨_, rfl⟩

private theorem own_drop (en : Endianness) (v : WVerdef) (vs : List WVerdef) (h : v.shared = false) :
    (verdefBytes en (v :: vs)).drop (20 + v.auxCount * 8) = verdefBytes en vs := by
  rw [verdefBytes_own en v vs h, ← List.drop_drop, List.drop_left' (by simp), List.drop_left' (length_recs en v)]

private theorem length_own (en : Endianness) (v : WVerdef) (vs : List WVerdef) (h : v.shared = false) :
    (verdefBytes en (v :: vs)).length = 20 + v.auxCount * 8 + (verdefBytes en vs).length := by
  rw [verdefBytes_own en v vs h]
  simp only [List.length_append, length_verdef, length_recs]; omega

private theorem verParse_def (en : Endianness) (v : WVerdef) (vs : List WVerdef) (hf : DefFits v) (hs : SharedOk (v :: vs)) :
    verParse 20 (Verdef.decode en) Verdef.aux Verdef.cnt Verdef.next (verdefBytes en (v :: vs)) =
      (.ok (defRec v (vs.length != 0), ((verdefBytes en (v :: vs)).drop (if v.shared then 40 else 20), v.auxCount)), verdefBytes en vs) := by
  obtain ⟨tl, htl⟩ := verdefBytes_shape en v vs
  have hr : Bytes.readAt (verdefBytes en (v :: vs)) 0 20 = .ok ((defRec v (vs.length != 0)).encode en) := by
    rw [htl]; exact readAt_append _ _ _ (by simp)
  have hdec : Verdef.decode en ((defRec v (vs.length != 0)).encode en) = defRec v (vs.length != 0) := by
    have := defRec_decode en v (vs.length != 0) hf []
    simpa using this
  unfold verParse
  rw [hr]
  simp only [hdec]
  cases hsh : v.shared with
  | false =>
    have hl := length_own en v vs hsh
    have hR : defRec v (vs.length != 0) = ⟨v.version, v.flags, v.index, v.auxCount, v.hash, 20, if vs.length != 0 then 20 + v.auxCount * 8 else 0⟩ := by
      unfold defRec; rw [hsh]; rfl
    rw [hR]
    simp only [skip_eq]
    rw [if_pos (by omega)]
    simp only [Bool.false_eq_true, if_false]
    cases vs with
    | nil => simp [verdefBytes]
    | cons w ws =>
      simp only [List.length_cons, bne_iff_ne, ne_eq, Nat.succ_ne_zero, not_false_eq_true, if_true]
      rw [if_pos (by omega), if_pos (by omega), own_drop en v _ hsh]
  | true =>
    obtain ⟨w, ws, rfl, hw, _, _⟩ := hs.1 hsh
    have hR : defRec v ((w :: ws).length != 0) = ⟨v.version, v.flags, v.index, v.auxCount, v.hash, 40, 20⟩ := by
      unfold defRec; rw [hsh]; rfl
    have hb : verdefBytes en (v :: w :: ws) = Verdef.encode en ⟨v.version, v.flags, v.index, v.auxCount, v.hash, 40, 20⟩ ++ verdefBytes en (w :: ws) := by
      rw [verdefBytes.eq_2]; simp only [hsh, if_true, encVerdefShared]
    have hl : (verdefBytes en (v :: w :: ws)).length = 20 + (verdefBytes en (w :: ws)).length := by
      rw [hb]; simp
    have hl2 := length_own en w ws hw
    rw [hR]
    simp only [skip_eq]
    rw [if_pos (by omega)]
    simp only [if_true]
    rw [if_pos (by decide), if_pos (by omega)]
    have : (verdefBytes en (v :: w :: ws)).drop 20 = verdefBytes en (w :: ws) := by
      rw [hb, List.drop_left' (by simp)]
    rw [this]

private theorem readDefs_runs (en : Endianness) (defs : List WVerdef) (hf : ∀ v ∈ defs, DefFits v) (hs : SharedOk defs) :
    Runs (verdefNext en) (verdefBytes en defs) (readDefs en defs) .done := by
  induction defs with
  | nil => exact .done fuseNext_nil
  | cons v vs ih =>
    refine .item (s' := verdefBytes en vs) (x := (defRec v (vs.length != 0), ((verdefBytes en (v :: vs)).drop (if v.shared then 40 else 20), v.auxCount))) ?_
      (ih (fun x hx => hf x (by simp [hx])) hs.2)
    apply fuseNext_item
    · obtain ⟨tl, htl⟩ := verdefBytes_shape en v vs
      intro h
      rw [h] at htl
      have := congrArg List.length htl
      simp only [List.length_nil, List.length_append, length_verdef] at this
      omega
    · exact verParse_def en v vs (hf v (by simp)) hs

private theorem readDefs_aux (en : Endianness) (defs : List WVerdef) (hf : ∀ v ∈ defs, DefFits v) (hs : SharedOk defs) :
    ∀ p ∈ (readDefs en defs).zip defs, ∃ as, Runs (verdauxNext en) p.1.2 as .done ∧ as.map Verdaux.name = p.2.name :: p.2.rest ∧
      (p.1.1.version, p.1.1.flags, p.1.1.ndx, p.1.1.hash, p.1.1.cnt) = (p.2.version, p.2.flags, p.2.index, p.2.hash, 1 + p.2.rest.length) := by
  induction defs with
  | nil => simp [readDefs]
  | cons v vs ih =>
    intro p hp
    simp only [readDefs, List.zip_cons_cons, List.mem_cons] at hp
    rcases hp with rfl | hp
    · have key : ∀ w : WVerdef, DefFits w → ∀ tl, Runs (verdauxNext en) ((defRecs w).flatMap (Verdaux.encode en) ++ tl, w.auxCount) (defRecs w) .done := by
        intro w hw tl
        have := aux_runs 8 (Verdaux.decode en) Verdaux.next (Verdaux.encode en) (defRecs w) (by simp)
          (fun r hr => by
            have h := defRecs_fits w hw r hr
            have := Verdaux.decode_encode en r h.1 h.2 []
            simpa using this) (defRecs_chain w) tl
        rw [length_defRecs] at this
        exact this
      cases hsh : v.shared with
      | false =>
        refine ⟨defRecs v, ?_, defRecs_names v, ?_⟩
        · have : (verdefBytes en (v :: vs)).drop 20 = (defRecs v).flatMap (Verdaux.encode en) ++ verdefBytes en vs := by
            rw [verdefBytes_own en v vs hsh, List.drop_left' (by simp)]
          simp only [Bool.false_eq_true, if_false, this]
          exact key v (hf v (by simp)) _
        · unfold defRec WVerdef.auxCount; rw [hsh]; rfl
      | true =>
        obtain ⟨w, ws, rfl, hw, hn, hr⟩ := hs.1 hsh
        have hac : v.auxCount = w.auxCount := by simp [WVerdef.auxCount, hr]
        refine ⟨defRecs w, ?_, by rw [defRecs_names, hn, hr], ?_⟩
        · have hb : verdefBytes en (v :: w :: ws) = Verdef.encode en ⟨v.version, v.flags, v.index, v.auxCount, v.hash, 40, 20⟩ ++ verdefBytes en (w :: ws) := by
            rw [verdefBytes.eq_2]; simp only [hsh, if_true, encVerdefShared]
          have : (verdefBytes en (v :: w :: ws)).drop 40 = (defRecs w).flatMap (Verdaux.encode en) ++ verdefBytes en ws := by
            rw [hb, show (40 : Nat) = 20 + 20 from rfl, ← List.drop_drop, List.drop_left' (by simp), verdefBytes_own en w ws hw,
              List.drop_left' (by simp)]
          simp only [if_true, this, hac]
          exact key w (hf w (by simp)) _
        · unfold defRec WVerdef.auxCount; rw [hsh]; rfl
    · exact ih (fun x hx => hf x (by simp [hx])) hs.2 p hp

private theorem length_readDefs (en : Endianness) (defs : List WVerdef) : (readDefs en defs).length = defs.length := by
  induction defs with
  | nil => rfl
  | cons v vs ih => simp [readDefs, ih]

/-- C36: version definitions written (in full, or sharing the names of the next one) are read back in order with all
their fields and names. -/
theorem C36_definitions_round_trip (en : Endianness) (defs : List WVerdef) (hf : ∀ v ∈ defs, DefFits v) (hs : SharedOk defs) :
    ∃ xs, Runs (verdefNext en) (verdefBytes en defs) xs .done ∧ xs.length = defs.length ∧
      ∀ p ∈ xs.zip defs, ∃ as, Runs (verdauxNext en) p.1.2 as .done ∧ as.map Verdaux.name = p.2.name :: p.2.rest ∧
        (p.1.1.version, p.1.1.flags, p.1.1.ndx, p.1.1.hash, p.1.1.cnt) =
          (p.2.version, p.2.flags, p.2.index, p.2.hash, 1 + p.2.rest.length) :=
  ⟨readDefs en defs, readDefs_runs en defs hf hs, length_readDefs en defs, readDefs_aux en defs hf hs⟩

/-! Requirements -/

private def needRecs : List WVernaux → List Vernaux
  | [] => []
  | a :: as => ⟨a.hash, a.flags, a.index, a.name, if as.length != 0 then 16 else 0⟩ :: needRecs as

private theorem writeVernauxs_eq (en : Endianness) (as : List WVernaux) : writeVernauxs en as = (needRecs as).flatMap (Vernaux.encode en) := by
  induction as with
  | nil => rfl
  | cons a as ih => simp only [writeVernauxs, needRecs, List.flatMap_cons, ih, encVernaux]

private theorem length_needRecs (as : List WVernaux) : (needRecs as).length = as.length := by
  induction as with
  | nil => rfl
  | cons a as ih => simp [needRecs, ih]

private theorem needRecs_vals (as : List WVernaux) :
    (needRecs as).map (fun r => (⟨r.flags, r.other, r.name, r.hash⟩ : WVernaux)) = as := by
  induction as with
  | nil => rfl
  | cons a as ih => simp [needRecs, ih]

private theorem needRecs_chain (as : List WVernaux) : ChainOk Vernaux.next 16 (needRecs as) := by
  induction as with
  | nil => trivial
  | cons a as ih =>
    cases as with
    | nil => simp [needRecs, ChainOk]
    | cons b bs =>
      simp only [needRecs, ChainOk] at ih ⊢
      exact ⟨by simp, ih⟩

private theorem needRecs_decode (en : Endianness) (as : List WVernaux) (h : ∀ a ∈ as, AuxFits a) :
    ∀ r ∈ needRecs as, Vernaux.decode en (r.encode en) = r := by
  induction as with
  | nil => simp [needRecs]
  | cons a as ih =>
    intro r hr
    simp only [needRecs, List.mem_cons] at hr
    rcases hr with rfl | hr
    · obtain ⟨h1, h2, h3, h4⟩ := h a (by simp)
      have := Vernaux.decode_encode en ⟨a.hash, a.flags, a.index, a.name, if as.length != 0 then 16 else 0⟩ h4 h1 h2 h3
        (by simp only; split <;> decide) []
      simpa using this
    · exact ih (fun x hx => h x (by simp [hx])) r hr

private theorem length_needBytes (en : Endianness) (as : List WVernaux) : ((needRecs as).flatMap (Vernaux.encode en)).length = as.length * 16 := by
  rw [length_flatMap_const (Vernaux.encode en) 16 _ (by simp), length_needRecs]

private def needRec (v : WVerneed) (more : Bool) : Verneed :=
  ⟨v.version, v.auxs.length, v.file, if v.auxs.length ≠ 0 then 16 else 0, if more then 16 + v.auxs.length * 16 else 0⟩

private def readNeeds (en : Endianness) : List WVerneed → List (Verneed × AuxIter)
  | [] => []
  | v :: vs => (needRec v (vs.length != 0),
      ((verneedBytes en (v :: vs)).drop (if v.auxs.length ≠ 0 then 16 else 0), v.auxs.length)) :: readNeeds en vs

private theorem verneedBytes_cons (en : Endianness) (v : WVerneed) (vs : List WVerneed) :
    verneedBytes en (v :: vs) = (needRec v (vs.length != 0)).encode en ++ ((needRecs v.auxs).flatMap (Vernaux.encode en) ++ verneedBytes en vs) := by
  simp only [verneedBytes, encVerneed, writeVernauxs_eq, List.append_assoc]; rfl

private theorem verParse_need (en : Endianness) (v : WVerneed) (vs : List WVerneed) (hf : NeedFits v) :
    verParse 16 (Verneed.decode en) Verneed.aux Verneed.cnt Verneed.next (verneedBytes en (v :: vs)) =
      (.ok (needRec v (vs.length != 0),
        ((verneedBytes en (v :: vs)).drop (if v.auxs.length ≠ 0 then 16 else 0), v.auxs.length)), verneedBytes en vs) := by
  have hb := verneedBytes_cons en v vs
  have hl : (verneedBytes en (v :: vs)).length = 16 + (v.auxs.length * 16 + (verneedBytes en vs).length) := by
    rw [hb]; simp only [List.length_append, length_verneed, length_needBytes]
  have hr : Bytes.readAt (verneedBytes en (v :: vs)) 0 16 = .ok ((needRec v (vs.length != 0)).encode en) := by
    rw [hb]; exact readAt_append _ _ _ (by simp)
  have hc := hf.count
  have hdec : Verneed.decode en ((needRec v (vs.length != 0)).encode en) = needRec v (vs.length != 0) := by
    have := Verneed.decode_encode en (needRec v (vs.length != 0)) hf.version hf.count hf.file
      (by unfold needRec; simp only; split <;> decide) (by unfold needRec; simp only; split <;> omega) []
    simpa using this
  have hdrop : (verneedBytes en (v :: vs)).drop (16 + v.auxs.length * 16) = verneedBytes en vs := by
    rw [hb, ← List.drop_drop, List.drop_left' (by simp), List.drop_left' (length_needBytes en v.auxs)]
  unfold verParse
  rw [hr]
  simp only [hdec, skip_eq]
  have ha : (needRec v (vs.length != 0)).aux = if v.auxs.length ≠ 0 then 16 else 0 := rfl
  have hnx : (needRec v (vs.length != 0)).next = if (vs.length != 0) = true then 16 + v.auxs.length * 16 else 0 := rfl
  have hcn : (needRec v (vs.length != 0)).cnt = v.auxs.length := rfl
  rw [ha, hnx, hcn]
  rw [if_pos (by split <;> omega)]
  cases vs with
  | nil => simp [verneedBytes]
  | cons w ws =>
    have ht : (((w :: ws).length != 0) = true) := by simp
    rw [ht]
    simp only [if_true]
    rw [if_pos (by omega), if_pos (by omega), hdrop]

private theorem readNeeds_runs (en : Endianness) (needs : List WVerneed) (hf : ∀ v ∈ needs, NeedFits v) :
    Runs (verneedNext en) (verneedBytes en needs) (readNeeds en needs) .done := by
  induction needs with
  | nil => exact .done fuseNext_nil
  | cons v vs ih =>
    refine .item (s' := verneedBytes en vs) (x := (needRec v (vs.length != 0),
        ((verneedBytes en (v :: vs)).drop (if v.auxs.length ≠ 0 then 16 else 0), v.auxs.length))) ?_ (ih (fun x hx => hf x (by simp [hx])))
    apply fuseNext_item
    · intro h
      have := congrArg List.length ((verneedBytes_cons en v vs).symm.trans h)
      simp at this
    · exact verParse_need en v vs (hf v (by simp))

private theorem readNeeds_aux1 (en : Endianness) (v : WVerneed) (vs : List WVerneed) (hf : NeedFits v) :
    Runs (vernauxNext en) ((verneedBytes en (v :: vs)).drop (if v.auxs.length ≠ 0 then 16 else 0), v.auxs.length) (needRecs v.auxs) .done := by
  by_cases h0 : v.auxs.length = 0
  · have : v.auxs = [] := List.eq_nil_of_length_eq_zero h0
    rw [this]
    exact .done (s' := ((verneedBytes en (v :: vs)).drop (if ([] : List WVernaux).length ≠ 0 then 16 else 0), 0)) (by simp [vernauxNext, auxNext])
  · rw [if_pos h0, verneedBytes_cons, List.drop_left' (by simp)]
    have := aux_runs 16 (Vernaux.decode en) Vernaux.next (Vernaux.encode en) (needRecs v.auxs) (by simp)
      (needRecs_decode en v.auxs hf.auxs) (needRecs_chain v.auxs) (verneedBytes en vs)
    rw [length_needRecs] at this
    exact this

private theorem length_readNeeds (en : Endianness) (needs : List WVerneed) : (readNeeds en needs).length = needs.length := by
  induction needs with
  | nil => rfl
  | cons v vs ih => simp [readNeeds, ih]

/-- C36: version requirements written are read back in order with all their fields and auxiliary records. -/
theorem C36_requirements_round_trip (en : Endianness) (needs : List WVerneed) (hf : ∀ v ∈ needs, NeedFits v) :
    ∃ xs, Runs (verneedNext en) (verneedBytes en needs) xs .done ∧ xs.length = needs.length ∧
      ∀ p ∈ xs.zip needs, ∃ as, Runs (vernauxNext en) p.1.2 as .done ∧
        as.map (fun r => (⟨r.flags, r.other, r.name, r.hash⟩ : WVernaux)) = p.2.auxs ∧
        (p.1.1.version, p.1.1.file, p.1.1.cnt) = (p.2.version, p.2.file, p.2.auxs.length) := by
  refine ⟨readNeeds en needs, readNeeds_runs en needs hf, length_readNeeds en needs, ?_⟩
  induction needs with
  | nil => simp [readNeeds]
  | cons v vs ih =>
    intro p hp
    simp only [readNeeds, List.zip_cons_cons, List.mem_cons] at hp
    rcases hp with rfl | hp
    · exact ⟨needRecs v.auxs, readNeeds_aux1 en v vs (hf v (by simp)), needRecs_vals v.auxs, rfl⟩
    · exact ih (fun x hx => hf x (by simp [hx])) p hp

/-! ## The table -/

private theorem lookup_cons (e : Nat × Version) (es : List (Nat × Version)) (i : Nat) :
    lookup (e :: es) i = (lookup es i).or (if e.1 = i then some e.2 else none) := by
  unfold lookup
  rw [List.reverse_cons, List.find?_append]
  cases h : es.reverse.find? fun e => e.1 == i with
  | some v => simp
  | none =>
    by_cases hi : e.1 = i
    · simp [hi]
    · simp [hi]

private def applyE (es : List (Nat × Version)) (vs : List Version) : List Version := es.foldl (fun vs e => vs.set e.1 e.2) vs

private theorem length_applyE (es : List (Nat × Version)) (vs : List Version) : (applyE es vs).length = vs.length := by
  induction es generalizing vs with
  | nil => rfl
  | cons e es ih => simp only [applyE, List.foldl_cons] at ih ⊢; rw [ih]; simp

private theorem applyE_get (es : List (Nat × Version)) (vs : List Version) (h : ∀ e ∈ es, e.1 < vs.length) (i : Nat) :
    (applyE es vs)[i]? = (lookup es i).or vs[i]? := by
  induction es generalizing vs with
  | nil => simp [applyE, lookup]
  | cons e es ih =>
    have := ih (vs.set e.1 e.2) (fun x hx => by rw [List.length_set]; exact h x (by simp [hx]))
    simp only [applyE, List.foldl_cons] at this ⊢
    rw [this, lookup_cons]
    have he := h e (by simp)
    cases lookup es i with
    | some v => simp
    | none =>
      by_cases hi : e.1 = i
      · subst hi; simp [he]
      · simp [hi]

private def defEntries (str : Nat → List UInt8) (defs : List WVerdef) : List (Nat × Version) :=
  (defs.filter fun v => v.flags % 2 = 0 ∧ 2 ≤ v.index).map fun v => (v.index, ⟨str v.name, v.hash, true, none⟩)

private def needEntries1 (str : Nat → List UInt8) (n : WVerneed) : List (Nat × Version) :=
  (n.auxs.filter fun a => 2 ≤ a.index % 2 ^ 15).map fun a => (a.index % 2 ^ 15, ⟨str a.name, a.hash, true, some (str n.file)⟩)

private theorem versymIndex_eq (n : Nat) : versymIndex n = n % 2 ^ 15 := by
  unfold versymIndex
  exact Nat.and_two_pow_sub_one_eq_mod n 15

private theorem isBase_eq (v : Verdef) : v.isBase = decide (v.flags % 2 ≠ 0) := by
  unfold Verdef.isBase
  rw [Nat.and_one_is_mod]
  rcases Nat.mod_two_eq_zero_or_one v.flags with h | h <;> rw [h] <;> decide

private theorem fillDefs_written (en : Endianness) (strings : StrTable) (data : List UInt8) (str : Nat → List UInt8)
    (defs : List WVerdef) (hf : ∀ v ∈ defs, DefFits v) (hs : SharedOk defs)
    (hstr : ∀ v ∈ defs, strings.get data v.name = .ok (str v.name)) (vs : List Version)
    (hb : ∀ v ∈ defs, v.flags % 2 = 0 → v.index < vs.length) :
    fillDefs en strings data (readDefs en defs) vs = .ok (applyE (defEntries str defs) vs) := by
  induction defs generalizing vs with
  | nil => rfl
  | cons v rest ih =>
    have haux := readDefs_aux en (v :: rest) hf hs _ (by
      show ((defRec v (rest.length != 0), ((verdefBytes en (v :: rest)).drop (if v.shared then 40 else 20), v.auxCount)), v) ∈ _
      simp [readDefs])
    obtain ⟨as, hrun, hnames, hfields⟩ := haux
    simp only [Prod.mk.injEq] at hfields
    obtain ⟨_, hflags, hndx, hhash, _⟩ := hfields
    have ih' := fun vs' (hl : vs'.length = vs.length) => ih (fun x hx => hf x (by simp [hx])) hs.2 (fun x hx => hstr x (by simp [hx])) vs'
      (fun x hx hx' => by rw [hl]; exact hb x (by simp [hx]) hx')
    simp only [readDefs, fillDefs, isBase_eq, hflags, hndx, hhash]
    by_cases hbase : v.flags % 2 = 0
    · rw [if_neg (by simp [hbase])]
      by_cases hsp : v.index ≤ 1
      · rw [if_pos (by simp [versionSpecial, hsp]), ih' vs rfl]
        have : defEntries str (v :: rest) = defEntries str rest := by
          unfold defEntries
          rw [List.filter_cons_of_neg (by simp; omega)]
        rw [this]
      · rw [if_neg (by simp [versionSpecial]; omega)]
        cases hrun with
        | done h => simp at hnames
        | @item _ _ a _ _ h _ =>
          have ha : a.name = v.name := by simp at hnames; exact hnames.1
          simp only at h
          rw [h]
          simp only [ha, hstr v (by simp), Res.bind_eq, Res.ok_bind]
          have hlt := hb v (by simp) hbase
          rw [setVersion_ok hlt]
          simp only [Res.ok_bind]
          rw [ih' _ (by simp)]
          have : defEntries str (v :: rest) = (v.index, ⟨str v.name, v.hash, true, none⟩) :: defEntries str rest := by
            unfold defEntries
            rw [List.filter_cons_of_pos (by simp [hbase]; omega)]
            rfl
          rw [this]
          rfl
    · rw [if_pos (by simp [hbase]), ih' vs rfl]
      have : defEntries str (v :: rest) = defEntries str rest := by
        unfold defEntries
        rw [List.filter_cons_of_neg (by simp [hbase])]
      rw [this]

private theorem fillNeed_written (strings : StrTable) (data : List UInt8) (str : Nat → List UInt8) (n : WVerneed) (more : Bool)
    (as : List WVernaux) (hfile : strings.get data n.file = .ok (str n.file))
    (hstr : ∀ a ∈ as, strings.get data a.name = .ok (str a.name)) (vs : List Version)
    (hb : ∀ a ∈ as, a.index % 2 ^ 15 < vs.length) :
    fillNeed strings data (needRec n more) (needRecs as) vs =
      .ok (applyE ((as.filter fun a => 2 ≤ a.index % 2 ^ 15).map fun a => (a.index % 2 ^ 15, ⟨str a.name, a.hash, true, some (str n.file)⟩)) vs) := by
  induction as generalizing vs with
  | nil => rfl
  | cons a rest ih =>
    have ih' := fun vs' (hl : vs'.length = vs.length) => ih (fun x hx => hstr x (by simp [hx])) vs'
      (fun x hx => by rw [hl]; exact hb x (by simp [hx]))
    simp only [needRecs, fillNeed, versymIndex_eq]
    by_cases hsp : a.index % 2 ^ 15 ≤ 1
    · rw [if_pos (by simp [versionSpecial]; omega), ih' vs rfl, List.filter_cons_of_neg (by simp; omega)]
    · rw [if_neg (by simp [versionSpecial]; omega)]
      have hfile' : strings.get data (needRec n more).file = .ok (str n.file) := hfile
      simp only [hstr a (by simp), hfile', Res.bind_eq, Res.ok_bind]
      rw [setVersion_ok (hb a (by simp))]
      simp only [Res.ok_bind]
      rw [ih' _ (by simp), List.filter_cons_of_pos (by simp; omega)]
      rfl

private def readNeeds' : List WVerneed → List (Verneed × List Vernaux)
  | [] => []
  | v :: vs => (needRec v (vs.length != 0), needRecs v.auxs) :: readNeeds' vs

private theorem drainAux_written' (en : Endianness) (needs : List WVerneed) (hf : ∀ v ∈ needs, NeedFits v) :
    drainAux en (readNeeds en needs) = .ok (readNeeds' needs) := by
  induction needs with
  | nil => rfl
  | cons v vs ih =>
    have h1 := readNeeds_aux1 en v vs (hf v (by simp))
    have h2 := drain_runs h1 (v.auxs.length + 1) (by rw [length_needRecs]; omega)
    simp only [readNeeds, drainAux, h2, Res.bind_eq, Res.ok_bind, ih (fun x hx => hf x (by simp [hx])), readNeeds']

private theorem fillNeeds_written (strings : StrTable) (data : List UInt8) (str : Nat → List UInt8) (needs : List WVerneed)
    (hstr : ∀ n ∈ needs, strings.get data n.file = .ok (str n.file) ∧ ∀ a ∈ n.auxs, strings.get data a.name = .ok (str a.name))
    (vs : List Version) (hb : ∀ n ∈ needs, ∀ a ∈ n.auxs, a.index % 2 ^ 15 < vs.length) :
    fillNeeds strings data (readNeeds' needs) vs = .ok (applyE (needs.flatMap (needEntries1 str)) vs) := by
  induction needs generalizing vs with
  | nil => rfl
  | cons n rest ih =>
    simp only [readNeeds', fillNeeds, Res.bind_eq]
    rw [fillNeed_written strings data str n _ n.auxs (hstr n (by simp)).1 (hstr n (by simp)).2 vs (hb n (by simp))]
    simp only [Res.ok_bind]
    rw [ih (fun x hx => hstr x (by simp [hx])) _ (fun x hx a ha => by rw [length_applyE]; exact hb x (by simp [hx]) a ha)]
    simp only [applyE, needEntries1, List.flatMap_cons, List.foldl_append]

private theorem readDefs_map (en : Endianness) (defs : List WVerdef) (v : WVerdef) (hv : v ∈ defs) :
    ∃ r ∈ (readDefs en defs).map Prod.fst, r.flags = v.flags ∧ r.ndx = v.index := by
  induction defs with
  | nil => simp at hv
  | cons w ws ih =>
    rcases List.mem_cons.1 hv with rfl | hv
    · refine ⟨defRec v (ws.length != 0), by simp [readDefs], ?_⟩
      unfold defRec; split <;> exact ⟨rfl, rfl⟩
    · obtain ⟨r, h1, h2⟩ := ih hv
      exact ⟨r, by simp only [readDefs, List.map_cons, List.mem_cons]; exact Or.inr h1, h2⟩

private theorem needRecs_mem (as : List WVernaux) (a : WVernaux) (ha : a ∈ as) : ∃ r ∈ needRecs as, r.other = a.index := by
  induction as with
  | nil => simp at ha
  | cons b bs ih =>
    rcases List.mem_cons.1 ha with rfl | ha
    · exact ⟨_, by simp only [needRecs]; exact List.mem_cons_self, rfl⟩
    · obtain ⟨r, h1, h2⟩ := ih ha
      exact ⟨r, by simp [needRecs, h1], h2⟩

private theorem readNeeds'_mem (needs : List WVerneed) (n : WVerneed) (hn : n ∈ needs) (a : WVernaux) (ha : a ∈ n.auxs) :
    ∃ r ∈ (readNeeds' needs).flatMap Prod.snd, r.other = a.index := by
  induction needs with
  | nil => simp at hn
  | cons m ms ih =>
    simp only [readNeeds', List.flatMap_cons, List.mem_append]
    rcases List.mem_cons.1 hn with rfl | hn
    · obtain ⟨r, h1, h2⟩ := needRecs_mem n.auxs a ha
      exact ⟨r, Or.inl h1, h2⟩
    · obtain ⟨r, h1, h2⟩ := ih hn
      exact ⟨r, Or.inr h1, h2⟩

private theorem entries_valid (str : Nat → List UInt8) (defs : List WVerdef) (needs : List WVerneed) :
    ∀ e ∈ entries str defs needs, e.2.valid = true := by
  intro e he
  simp only [entries, List.mem_append, List.mem_map, List.mem_flatMap] at he
  rcases he with ⟨v, _, rfl⟩ | ⟨n, _, a, _, rfl⟩ <;> rfl

private theorem lookup_mem {es : List (Nat × Version)} {i : Nat} {v : Version} (h : lookup es i = some v) : ∃ e ∈ es, e.2 = v := by
  unfold lookup at h
  cases hf : es.reverse.find? fun e => e.1 == i with
  | none => rw [hf] at h; simp at h
  | some e =>
    rw [hf] at h
    exact ⟨e, List.mem_reverse.1 (List.mem_of_find?_eq_some hf), by simpa using h⟩

/-- C36: the version table built from written definitions and requirements gives, for each version index, the name,
hash and file of the (last) version written with that index, and an error for an index that was not written. -/
theorem C36_table (en : Endianness) (versyms : List Nat) (defs : List WVerdef) (needs : List WVerneed) (strings : StrTable)
    (data : List UInt8) (str : Nat → List UInt8) (hf : ∀ v ∈ defs, DefFits v) (hs : SharedOk defs) (hn : ∀ v ∈ needs, NeedFits v)
    (hdstr : ∀ v ∈ defs, strings.get data v.name = .ok (str v.name))
    (hnstr : ∀ n ∈ needs, strings.get data n.file = .ok (str n.file) ∧ ∀ a ∈ n.auxs, strings.get data a.name = .ok (str a.name))
    (verdefs verneeds : Option (List UInt8))
    (hd : verdefs = some (verdefBytes en defs) ∨ verdefs = none ∧ defs = [])
    (hnd : verneeds = some (verneedBytes en needs) ∨ verneeds = none ∧ needs = []) :
    ∃ t, VersionTable.parse en versyms verdefs verneeds strings data = .ok t ∧
      (∀ i, t.versionIndex i = (versyms[i]?).getD 1) ∧
      ∀ index, t.version index = if index ≤ 1 then .ok none else
        match lookup (entries str defs needs) index with
        | some v => .ok (some v)
        | none => .err := by
  have h1 : drainDefs en verdefs = .ok (readDefs en defs) := by
    rcases hd with rfl | ⟨rfl, rfl⟩
    · have hr := readDefs_runs en defs hf hs
      obtain ⟨xs, e, hr', hl, _⟩ := (C36_iterators_terminate en (verdefBytes en defs) ([], 0)).1
      obtain ⟨rfl, rfl⟩ := Runs.unique hr hr'
      exact drain_runs hr _ (by omega)
    · rfl
  have h2 : drainNeeds en verneeds = .ok (readNeeds' needs) := by
    rcases hnd with rfl | ⟨rfl, rfl⟩
    · have hr := readNeeds_runs en needs hn
      obtain ⟨xs, e, hr', hl, _⟩ := (C36_iterators_terminate en (verneedBytes en needs) ([], 0)).2.1
      obtain ⟨rfl, rfl⟩ := Runs.unique hr hr'
      have := drain_runs hr ((verneedBytes en needs).length + 1) (by omega)
      simp only [drainNeeds, this, Res.ok_bind]
      exact drainAux_written' en needs hn
    · rfl
  unfold VersionTable.parse
  simp only [h1, h2, Res.bind_eq, Res.ok_bind]
  generalize hM : List.foldl maxNeed (List.foldl maxDef 0 (List.map Prod.fst (readDefs en defs))) (List.flatMap Prod.snd (readNeeds' needs)) = M
  have hbd : ∀ v ∈ defs, v.flags % 2 = 0 → v.index < M + 1 := by
    intro v hv hb
    obtain ⟨r, hr, hfl, hx⟩ := readDefs_map en defs v hv
    have a := foldl_maxDef _ 0 r hr (by rw [isBase_eq, hfl]; simp [hb])
    have b := foldl_ge maxNeed maxNeed_ge (List.flatMap Prod.snd (readNeeds' needs)) (List.foldl maxDef 0 (List.map Prod.fst (readDefs en defs)))
    omega
  have hbn : ∀ n ∈ needs, ∀ a ∈ n.auxs, a.index % 2 ^ 15 < M + 1 := by
    intro n hn' a ha
    obtain ⟨r, hr, ho⟩ := readNeeds'_mem needs n hn' a ha
    have := foldl_maxNeed _ (List.foldl maxDef 0 (List.map Prod.fst (readDefs en defs))) r hr
    rw [versymIndex_eq, ho] at this
    omega
  rw [fillDefs_written en strings data str defs hf hs hdstr _ (by rw [List.length_replicate]; exact hbd)]
  simp only [Res.ok_bind]
  rw [fillNeeds_written strings data str needs hnstr _ (by rw [length_applyE, List.length_replicate]; exact hbn)]
  simp only [Res.ok_bind]
  refine ⟨_, rfl, ?_, ?_⟩
  · intro i
    unfold VersionTable.versionIndex
    cases h : versyms[i]? <;> simp [h]
  · intro index
    unfold VersionTable.version versionSpecial
    by_cases hi : index ≤ 1
    · rw [if_pos (by simpa using hi), if_pos hi]
    · rw [if_neg (by simpa using hi), if_neg hi]
      have hes : applyE (needs.flatMap (needEntries1 str)) (applyE (defEntries str defs) (List.replicate (M + 1) Version.dflt)) =
          applyE (entries str defs needs) (List.replicate (M + 1) Version.dflt) := by
        show _ = List.foldl _ _ (defEntries str defs ++ needs.flatMap (needEntries1 str))
        rw [List.foldl_append]; rfl
      have hlt : ∀ e ∈ entries str defs needs, e.1 < (List.replicate (M + 1) Version.dflt).length := by
        intro e he
        rw [List.length_replicate]
        simp only [entries, List.mem_append, List.mem_map, List.mem_flatMap, List.mem_filter] at he
        rcases he with ⟨v, ⟨hv, hv'⟩, rfl⟩ | ⟨n, hn', a, ⟨ha, _⟩, rfl⟩
        · exact hbd v hv (by simp at hv'; exact hv'.1)
        · exact hbn n hn' a ha
      simp only
      rw [hes, applyE_get _ _ hlt]
      cases hlk : lookup (entries str defs needs) index with
      | some v =>
        obtain ⟨e, he, rfl⟩ := lookup_mem hlk
        simp [entries_valid str defs needs e he]
      | none =>
        simp only [Option.none_or]
        by_cases hlen : index < M + 1
        · rw [List.getElem?_replicate, if_pos hlen]; simp [Version.dflt]
        · rw [List.getElem?_replicate, if_neg hlen]

/-- C36: when a symbol satisfies a version requirement.  Without a requirement: it has no version, or a known one that
is not hidden.  With a requirement: it has a known version with the same name and hash. -/
theorem C36_matches (t : VersionTable) (i : Nat) (hv : t.versionIndex i < 2 ^ 16) :
    (t.matches i none = true ↔ t.versionIndex i % 2 ^ 15 ≤ 1 ∨
      t.versionIndex i < 2 ^ 15 ∧ ∃ v, t.version (t.versionIndex i) = .ok (some v)) ∧
    ∀ n, t.matches i (some n) = true ↔
      ∃ v, t.version (t.versionIndex i % 2 ^ 15) = .ok (some v) ∧ v.name = n.name ∧ v.hash = n.hash := by
  unfold VersionTable.matches
  rw [versymIndex_eq]
  generalize hvi : t.versionIndex i = x at *
  have hhid : versymHidden x = decide (2 ^ 15 ≤ x) := by
    have key : x &&& 0x8000 = 2 ^ 15 * (x / 2 ^ 15 % 2) := by
      have h := Nat.eq_of_testBit_eq (x := x &&& 2 ^ 15) (y := 2 ^ 15 * (x / 2 ^ 15 % 2)) (by
        intro j
        rw [Nat.testBit_and, Nat.testBit_two_pow, Nat.testBit_two_pow_mul]
        by_cases hj : 15 = j
        · subst hj
          simp only [decide_true, Bool.and_true, Nat.le_refl, Nat.sub_self, Bool.true_and]
          rw [Nat.testBit_zero, Nat.testBit_eq_decide_div_mod_eq]
          simp
        · simp only [hj, decide_false, Bool.and_false]
          by_cases hj2 : 15 ≤ j
          · have : (x / 2 ^ 15 % 2).testBit (j - 15) = false := by
              apply Nat.testBit_lt_two_pow
              have : 2 ≤ 2 ^ (j - 15) := by
                have : 2 ^ 1 ≤ 2 ^ (j - 15) := Nat.pow_le_pow_right (by decide) (by omega)
                simpa using this
              omega
            simp [this]
          · simp [hj2])
      exact h
    unfold versymHidden
    rw [key]
    by_cases hx : 2 ^ 15 ≤ x
    · have : x / 2 ^ 15 % 2 = 1 := by omega
      rw [this]; simp; omega
    · have : x / 2 ^ 15 % 2 = 0 := by omega
      rw [this]; simp; omega
  have hspec : ∀ j, t.version j = .ok none ↔ j ≤ 1 := by
    intro j
    unfold VersionTable.version versionSpecial
    by_cases hj : j ≤ 1
    · simp [hj]
    · simp only [hj, decide_false, Bool.false_eq_true, if_false, iff_false]
      split
      · split <;> simp
      · simp
  constructor
  · cases hver : t.version (x % 2 ^ 15) with
    | panic =>
      simp only [Bool.false_eq_true, false_iff]
      rintro (h | ⟨h, v, hv'⟩)
      · rw [(hspec _).2 h] at hver; simp at hver
      · rw [Nat.mod_eq_of_lt h, hv'] at hver; simp at hver
    | err =>
      simp only [Bool.false_eq_true, false_iff]
      rintro (h | ⟨h, v, hv'⟩)
      · rw [(hspec _).2 h] at hver; simp at hver
      · rw [Nat.mod_eq_of_lt h, hv'] at hver; simp at hver
    | ok o =>
      cases o with
      | none =>
        have := (hspec _).1 hver
        simp [this]
      | some v =>
        have hns : ¬ x % 2 ^ 15 ≤ 1 := by
          intro h; rw [(hspec _).2 h] at hver; simp at hver
        simp only [hhid, hns, false_or]
        by_cases hx : x < 2 ^ 15
        · rw [Nat.mod_eq_of_lt hx] at hver
          simp [hver, hx]
        · simp; omega
  · intro n
    cases hver : t.version (x % 2 ^ 15) with
    | panic => simp
    | err => simp
    | ok o =>
      cases o with
      | none => simp
      | some v =>
        constructor
        · intro h
          simp only [Bool.and_eq_true, beq_iff_eq] at h
          exact ⟨v, rfl, h.2.symm, h.1.symm⟩
        · rintro ⟨w, hw, h1, h2⟩
          simp only [Res.ok.injEq, Option.some.injEq] at hw
          subst hw
          simp [h1, h2]

/-- Two definitions (the base one sharing its name with the second) and a requirement of two versions, one of them with
the hidden bit; the strings are at offsets 1, 3 and 5. -/
private def exDefs : List WVerdef :=
  [⟨1, 1, 1, 0x10, 1, [3], true⟩, ⟨1, 0, 2, 0x20, 1, [3], false⟩, ⟨1, 0, 5, 0x30, 3, [], false⟩]
private def exNeeds : List WVerneed := [⟨1, 5, [⟨0, 3, 1, 0x40⟩, ⟨0, 0x8004, 3, 0x50⟩]⟩, ⟨1, 5, []⟩]
private def exData : List UInt8 := [0, 0x61, 0, 0x62, 0, 0x63, 0]
private def exStr (o : Nat) : List UInt8 := [UInt8.ofNat (0x60 + (o + 1) / 2)]

example : ∃ t, VersionTable.parse .big [0, 2, 0x8004] (some (verdefBytes .big exDefs)) (some (verneedBytes .big exNeeds))
      (some (0, 7)) exData = .ok t ∧ t.version 2 = .ok (some ⟨[0x61], 0x20, true, none⟩) ∧
      t.version 4 = .ok (some ⟨[0x62], 0x50, true, some [0x63]⟩) ∧ t.version 6 = .err ∧
      t.matches 1 none = true ∧ t.matches 2 none = false := by
  have hd : ∀ v ∈ exDefs, DefFits v := by
    intro v hv
    simp only [exDefs, List.mem_cons, List.not_mem_nil, or_false] at hv
    rcases hv with rfl | rfl | rfl <;> constructor <;> decide
  have hs : SharedOk exDefs := ⟨fun _ => ⟨_, _, rfl, rfl, rfl, rfl⟩, by simp, by simp, trivial⟩
  have hn : ∀ v ∈ exNeeds, NeedFits v := by
    intro v hv
    simp only [exNeeds, List.mem_cons, List.not_mem_nil, or_false] at hv
    rcases hv with rfl | rfl
    · refine ⟨by decide, by decide, by decide, ?_⟩
      intro a ha
      simp only [List.mem_cons, List.not_mem_nil, or_false] at ha
      rcases ha with rfl | rfl <;> constructor <;> decide
    · exact ⟨by decide, by decide, by decide, by simp⟩
  obtain ⟨t, h1, h2, h3⟩ := C36_table .big [0, 2, 0x8004] exDefs exNeeds (some (0, 7)) exData exStr hd hs hn (by decide) (by decide)
    _ _ (Or.inl rfl) (Or.inl rfl)
  refine ⟨t, h1, ?_, ?_, ?_, ?_, ?_⟩
  · rw [h3]; decide
  · rw [h3]; decide
  · rw [h3]; decide
  · refine (C36_matches t 1 (by rw [h2]; decide)).1.2 (Or.inr ?_)
    rw [h2, h3]
    exact ⟨by decide, ⟨[0x61], 0x20, true, none⟩, by decide⟩
  · have := (C36_matches t 2 (by rw [h2]; decide)).1
    rw [h2] at this
    cases hm : t.matches 2 none with
    | false => rfl
    | true =>
      have := this.1 hm
      simp at this

end Obj.Props

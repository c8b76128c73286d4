import Verif.Proof.MachoFile3

/-! # Reading Mach-O files: offsets of large segments, indirect symbols, the object map -/

namespace Obj.MachoF
open Obj Obj.MachoR Obj.Spec.MachoF

/-! ## Offsets -/

theorem placed_large {e : Nat} (he : e < 2 ^ 64) {prev : Nat} {ss : List Sect} {os : List Nat} (h : Placed e prev ss os) : LargeOffsets e prev ss os := by
  induction h with
  | nil => exact .nil
  | zerofill h1 _ ih => exact .zerofill h1 ih
  | @data prev x s ss os h1 h2 h3 h4 h5 _ ih =>
    have e1 : (x + s.size) % 2 ^ 64 = x + s.size := Nat.mod_eq_of_lt (by omega)
    have e2 : x % 2 ^ 64 = x := Nat.mod_eq_of_lt (by omega)
    have := LargeOffsets.data (e := e) h1 h2.symm h3 h4 (by rw [e1]; exact h5) (by rw [e1]; exact ih)
    rwa [e2] at this

theorem placed_small {e : Nat} (he : e < 2 ^ 32) {prev : Nat} {ss : List Sect} {os : List Nat} (h : Placed e prev ss os) : os = ss.map (·.offset) := by
  induction h with
  | nil => rfl
  | zerofill h1 _ ih => rw [List.map_cons, ← ih]
  | @data prev x s ss os h1 h2 h3 h4 h5 _ ih =>
    rw [List.map_cons, ← ih, h2, Nat.mod_eq_of_lt (by omega)]

theorem placed_iff (g : Seg) (hg : g.fileoff + g.filesize < 2 ^ 64) (ss : List Sect) (os : List Nat) (h : Placed (g.fileoff + g.filesize) g.fileoff ss os) :
    OffsetsOf g ss os := by
  unfold OffsetsOf
  dsimp only
  rw [Nat.mod_eq_of_lt hg]
  split
  · exact placed_small ‹_› h
  · exact placed_large hg h

/-! ## Indirect symbols -/

theorem part_of (l : List Nat) (r n : Nat) (x : List Nat) :
    (if r ≤ l.length then if n ≤ (l.drop r).length then Res.ok ((l.drop r).take n) else .err else .err) = .ok x ↔
      ∃ pre post, l = pre ++ x ++ post ∧ pre.length = r ∧ x.length = n := by
  constructor
  · intro h
    split at h
    · split at h
      · simp only [Res.ok.injEq] at h
        refine ⟨l.take r, (l.drop r).drop n, ?_, by rw [List.length_take]; omega, by rw [← h, List.length_take]; omega⟩
        rw [← h, List.append_assoc, List.take_append_drop, List.take_append_drop]
      · simp at h
    · simp at h
  · rintro ⟨pre, post, rfl, rfl, rfl⟩
    simp

theorem indirect_iff (c : Cfg) (s : Sect) (table x : List Nat) : indirectSymbols c s table = .ok x ↔ IndirectOf c.is64 s table x := by
  have hw : c.w = width c.is64 := by unfold width Elf.Cfg.w; rfl
  unfold indirectSymbols
  rw [show (0xff : Nat) = 2 ^ 8 - 1 from rfl, Nat.and_two_pow_sub_one_eq_mod, show 2 ^ 8 = 256 from rfl]
  dsimp only
  constructor
  · intro h
    split at h
    · rename_i ht
      obtain ⟨pre, post, h1, h2, h3⟩ := (part_of ..).1 h
      rw [hw] at h3
      exact .part (.pointers (by simp; omega)) h1 h2 h3
    · split at h
      · split at h
        · simp at h
        · obtain ⟨pre, post, h1, h2, h3⟩ := (part_of ..).1 h
          exact .part (.stubs ‹_› ‹_›) h1 h2 h3
      · simp only [Res.ok.injEq] at h
        subst h
        exact .other (by simp; omega)
  · intro h
    cases h with
    | @part k pre _ post h1 h2 h3 h4 =>
      cases h1 with
      | pointers ht =>
        rw [if_pos (by simpa using ht), hw]
        exact (part_of ..).2 ⟨pre, post, h2, h3, h4⟩
      | stubs ht h0 =>
        rw [if_neg (by omega), if_pos ht, if_neg h0]
        exact (part_of ..).2 ⟨pre, post, h2, h3, h4⟩
    | other ht =>
      simp at ht
      rw [if_neg (by omega), if_neg (by omega)]

theorem dysymtab_iff (c : Cfg) (o : Nat) (b : List UInt8) (r : Option DysymtabCmd) (hb : num c.en b 0 4 = 0xb) : MachoR.dysymtab c ⟨num c.en b 0 4, o, b⟩ = .ok r ↔
    80 ≤ b.length ∧ r = some ⟨num c.en b 8 4, num c.en b 12 4, num c.en b 16 4, num c.en b 20 4, num c.en b 24 4, num c.en b 28 4,
      (List.range 12).map fun i => num c.en b (32 + 4 * i) 4⟩ := by
  have hd : DysymtabCmd.decode c (slice b 0 80) = ⟨num c.en b 8 4, num c.en b 12 4, num c.en b 16 4, num c.en b 20 4, num c.en b 24 4, num c.en b 28 4,
      (List.range 12).map fun i => num c.en b (32 + 4 * i) 4⟩ := by
    unfold DysymtabCmd.decode
    have h0 : slice b 0 80 = (slice b 0 80).drop 0 := rfl
    rw [h0]
    simp only [List.replicate, List.cons_append, List.nil_append]
    simp only [decode_one, Nat.reduceAdd]
    simp (discharger := decide) only [num_slice, Nat.zero_add]
    rfl
  unfold MachoR.dysymtab
  dsimp only
  rw [if_pos hb, MachoI.readAt_eq, Nat.zero_add]
  split
  · rw [Res.ok_bind, hd]
    simp only [Res.ok.injEq, eq_comm, true_and, *]
  · simp [*]

theorem indirectTable_iff (c : Cfg) (d : DysymtabCmd) (data : List UInt8) (hn : d.rest.getD 7 0 < 2 ^ 32) (l : List Nat) : indirectTable c d data = .ok l ↔
    (d.rest.getD 7 0 = 0 ∨ d.rest.getD 6 0 + 4 * d.rest.getD 7 0 ≤ data.length) ∧
    l = (List.range (d.rest.getD 7 0)).map fun i => num c.en data (d.rest.getD 6 0 + 4 * i) 4 := by
  unfold indirectTable
  generalize d.rest.getD 7 0 = n at *
  generalize d.rest.getD 6 0 = o at *
  have hu : n * 4 < U64 := by
    have : (U64 : Nat) = 2 ^ 64 := rfl
    simp only [Nat.reducePow] at *; omega
  rw [Res.bind_eq_ok]
  constructor
  · rintro ⟨imgs, h1, h2⟩
    obtain ⟨h3, rfl⟩ := (Pe.readSliceAt_iff _ _ _ _ hu _).1 h1
    simp only [Res.ok.injEq, List.map_map] at h2
    refine ⟨by omega, by rw [← h2]; rfl⟩
  · rintro ⟨h1, rfl⟩
    exact ⟨_, (Pe.readSliceAt_iff _ _ _ _ hu _).2 ⟨by omega, rfl⟩, by simp only [List.map_map]; rfl⟩

/-! ## Names of object files -/

theorem splitName_iff (n : List UInt8) (o : ObjFile) : splitName n = o ↔ ObjectName n o := by
  have key : ObjectName n (splitName n) := by
    unfold splitName
    split
    · rename_i hl
      obtain ⟨head, rfl⟩ : ∃ head, n = head ++ [41] := by
        have hne : n ≠ [] := by rintro rfl; simp at hl
        refine ⟨n.dropLast, ?_⟩
        rw [List.getLast?_eq_some_getLast hne] at hl
        simp only [Option.some.injEq] at hl
        rw [← hl, List.dropLast_concat_getLast]
      dsimp only
      rw [List.dropLast_concat]
      cases hf : head.findIdx? (· == 40) with
      | some i =>
        rw [List.findIdx?_eq_some_iff_getElem] at hf
        obtain ⟨hi, h1, h2⟩ := hf
        dsimp only
        rw [List.drop_drop]
        have h40 : (40 : UInt8) ∉ head.take i := by
          intro hm
          obtain ⟨j, hj, he⟩ := List.mem_iff_getElem.1 hm
          rw [List.length_take] at hj
          have := h2 j (by omega)
          rw [List.getElem_take] at he
          rw [he] at this
          simp at this
        have hm := ObjectName.member (member := head.drop (i + 1)) h40
        rw [show head.take i ++ ascii "(" ++ head.drop (i + 1) ++ ascii ")" = head ++ [41] from ?_] at hm
        · exact hm
        · have h3 : head.drop i = 40 :: head.drop (i + 1) := by
            rw [List.drop_eq_getElem_cons hi]
            congr 1
            simpa using h1
          have ha : ascii "(" = [40] := by decide +kernel
          have hb : ascii ")" = [41] := by decide +kernel
          rw [ha, hb, List.append_assoc (head.take i), List.singleton_append, ← h3, List.take_append_drop]
      | none =>
        rw [List.findIdx?_eq_none_iff] at hf
        refine .plain (.inr ?_)
        intro hm
        rcases List.mem_append.1 hm with hm | hm
        · have := hf _ hm; simp at this
        · simp at hm
    · exact .plain (.inl ‹_›)
  constructor
  · rintro rfl; exact key
  · intro h
    have uniq : ∀ o', ObjectName n o' → o' = o := by
      intro o' h'
      have ha : ascii "(" = [40] := by decide +kernel
      have hb : ascii ")" = [41] := by decide +kernel
      have aux : ∀ (p m p' m' : List UInt8), (40 : UInt8) ∉ p → (40 : UInt8) ∉ p' → p ++ 40 :: m = p' ++ 40 :: m' → p = p' ∧ m = m' := by
        intro p
        induction p with
        | nil =>
          intro m p' m' _ h2 h3
          cases p' with
          | nil => simpa using h3
          | cons a p' => simp at h3 h2; exact absurd h3.1 h2.1
        | cons a p ih =>
          intro m p' m' h1 h2 h3
          cases p' with
          | nil => simp at h3 h1; exact absurd h3.1.symm h1.1
          | cons a' p' =>
            simp only [List.cons_append, List.cons.injEq, List.mem_cons, not_or] at h1 h2 h3
            obtain ⟨e1, e2⟩ := ih m p' m' h1.2 h2.2 h3.2
            exact ⟨by rw [h3.1, e1], e2⟩
      have nope : ∀ (p m : List UInt8), ¬ ((p ++ ascii "(" ++ m ++ ascii ")").getLast? ≠ some 41 ∨ (40 : UInt8) ∉ p ++ ascii "(" ++ m ++ ascii ")") := by
        intro p m
        rw [ha, hb]
        intro h
        rcases h with h | h
        · rw [List.getLast?_concat] at h; exact h rfl
        · simp at h
      generalize hnn : n = n' at h'
      cases h with
      | @member p m hp =>
        cases h' with
        | @member p' m' hp' =>
          rw [ha, hb] at hnn
          have := List.append_inj_left' hnn rfl
          simp only [List.append_assoc, List.singleton_append] at this
          obtain ⟨rfl, rfl⟩ := aux _ _ _ _ hp hp' this
          rfl
        | plain hq => subst hnn; exact absurd hq (nope _ _)
      | plain hq =>
        cases h' with
        | member hp' => subst hnn; exact absurd hq (nope _ _)
        | plain => rw [hnn]
    exact uniq _ key

/-! ## The object map -/

theorem mapStep_ignored (name : Nlist → Res (List UInt8)) (st : MapState) (y : Nlist) (h : Ignored y) : mapStep name st y = st := by
  unfold Ignored at h
  simp only [List.mem_cons, List.not_mem_nil, or_false, not_or] at h
  unfold mapStep
  split
  · rfl
  · rw [if_neg h.1, if_neg h.2.1, if_neg h.2.2.1, if_neg h.2.2.2]

theorem foldl_ignored (name : Nlist → Res (List UInt8)) (st : MapState) (l : List Nlist) (h : ∀ y ∈ l, Ignored y) : l.foldl (mapStep name) st = st := by
  induction l with
  | nil => rfl
  | cons y l ih => rw [List.foldl_cons, mapStep_ignored _ _ _ (h y (by simp)), ih fun z hz => h z (by simp [hz])]

theorem isStab_of {y : Nlist} {t : Nat} (h : Stab y t) (ht : (t &&& 0xe0 ≠ 0) = True) : (!MachoV.isStab y) = false := by
  unfold MachoV.isStab
  rw [show y.typ = t from h]
  simpa using ht

theorem mapStep_so (name : Nlist → Res (List UInt8)) (st : MapState) (y : Nlist) (h : Stab y 0x64) : mapStep name st y = { st with object := none } := by
  unfold mapStep
  rw [isStab_of h (by decide), if_neg (by decide), if_pos (show y.typ = _ from h)]

theorem mapStep_oso (name : Nlist → Res (List UInt8)) (st : MapState) (y : Nlist) (h : Stab y 0x66) {n : List UInt8} (hn : name y = .ok n) (h0 : n ≠ []) :
    mapStep name st y = { st with object := some st.objects.length, objects := st.objects ++ [splitName n] } := by
  have ht : y.typ = 0x66 := h
  unfold mapStep
  rw [isStab_of h (by decide), if_neg (by decide), if_neg (by rw [ht]; decide), if_pos ht, hn]
  dsimp only
  rw [if_pos h0]

theorem mapStep_fun (name : Nlist → Res (List UInt8)) (st : MapState) (y : Nlist) (h : Stab y 0x24) {n : List UInt8} (hn : name y = .ok n) (h0 : n ≠ []) :
    mapStep name st y = { st with function := some (n, y.value) } := by
  have ht : y.typ = 0x24 := h
  unfold mapStep
  rw [isStab_of h (by decide), if_neg (by decide), if_neg (by rw [ht]; decide), if_neg (by rw [ht]; decide), if_pos ht, hn]
  dsimp only
  rw [if_pos h0]

theorem mapStep_end (name : Nlist → Res (List UInt8)) (st : MapState) (y : Nlist) (h : Stab y 0x24) (hn : name y = .ok []) {f : List UInt8} {a o : Nat}
    (hf : st.function = some (f, a)) (ho : st.object = some o) :
    mapStep name st y = { st with function := none, symbols := st.symbols ++ [(⟨a, y.value, f⟩, o)] } := by
  have ht : y.typ = 0x24 := h
  unfold mapStep
  rw [isStab_of h (by decide), if_neg (by decide), if_neg (by rw [ht]; decide), if_neg (by rw [ht]; decide), if_pos ht, hn, hf, ho]
  dsimp only
  rw [if_neg (by simp)]

theorem mapStep_static (name : Nlist → Res (List UInt8)) (st : MapState) (y : Nlist) (h : Stab y 0x26) {n : List UInt8} (hn : name y = .ok n) {o : Nat}
    (ho : st.object = some o) : mapStep name st y = { st with symbols := st.symbols ++ [(⟨y.value, 0, n⟩, o)] } := by
  have ht : y.typ = 0x26 := h
  unfold mapStep
  rw [isStab_of h (by decide), if_neg (by decide), if_neg (by rw [ht]; decide), if_neg (by rw [ht]; decide), if_neg (by rw [ht]; decide), if_pos ht, hn, ho]

theorem module_fold {name : Nlist → Res (List UInt8)} {i : Nat} {body : List Nlist} {es : List ObjEntry} (h : Module name i body es)
    (S : List ObjEntry) (O : List ObjFile) : body.foldl (mapStep name) ⟨S, O, some i, none⟩ = ⟨S ++ es, O, some i, none⟩ := by
  induction h generalizing S with
  | nil => simp
  | ignored h1 _ ih => rw [List.foldl_cons, mapStep_ignored _ _ _ h1, ih]
  | @function y z n mid ys es h1 h2 h3 h4 h5 h6 _ ih =>
    rw [List.foldl_cons, mapStep_fun _ _ _ h1 h2 h3, List.foldl_append, foldl_ignored _ _ _ h4, List.foldl_cons, mapStep_end _ _ _ h5 h6 rfl rfl, ih]
    simp
  | static h1 h2 _ ih =>
    rw [List.foldl_cons, mapStep_static _ _ _ h1 h2 rfl, ih]
    simp

theorem modules_fold {name : Nlist → Res (List UInt8)} {i : Nat} {ys : List Nlist} {os : List ObjFile} {es : List ObjEntry} (h : Modules name i ys os es)
    (S : List ObjEntry) (O : List ObjFile) (hi : i = O.length) : ys.foldl (mapStep name) ⟨S, O, none, none⟩ = ⟨S ++ es, O ++ os, none, none⟩ := by
  induction h generalizing S O with
  | nil => simp
  | ignored h1 _ ih =>
    rcases h1 with h1 | h1
    · rw [List.foldl_cons, mapStep_ignored _ _ _ h1, ih _ _ hi]
    · rw [List.foldl_cons, mapStep_so _ _ _ h1, ih _ _ hi]
  | @module i y z n o body ys es es' os h1 h2 h3 h4 h5 h6 _ ih =>
    rw [List.foldl_cons, mapStep_oso _ _ _ h1 h2 h3, List.foldl_append]
    dsimp only
    rw [← hi, module_fold h5, List.foldl_cons, mapStep_so _ _ _ h6, ih _ _ (by rw [List.length_append, hi]; rfl), (splitName_iff ..).2 h4]
    simp

/-- What holds of the variables of `object_map` at all times. -/
def MapOk (st : MapState) : Prop := (∀ e ∈ st.symbols, e.2 < st.objects.length) ∧ ∀ o, st.object = some o → o < st.objects.length

theorem mapStep_ok (name : Nlist → Res (List UInt8)) (st : MapState) (y : Nlist) (h : MapOk st) : MapOk (mapStep name st y) := by
  obtain ⟨h1, h2⟩ := h
  unfold mapStep
  split
  · exact ⟨h1, h2⟩
  split
  · exact ⟨h1, by simp⟩
  split
  · split
    · split
      · refine ⟨fun e he => ?_, ?_⟩
        · have := h1 e he
          simp only [List.length_append, List.length_singleton]; omega
        · simp
      · exact ⟨h1, by simp⟩
    · exact ⟨h1, by simp⟩
  split
  · split
    · split
      · exact ⟨h1, h2⟩
      · split
        · split
          · rename_i o ho
            refine ⟨?_, ?_⟩
            · intro e he
              rcases List.mem_append.1 he with he | he
              · exact h1 e he
              · simp only [List.mem_singleton] at he
                subst he; exact h2 o ho
            · simpa [ho] using h2 o ho
          · exact ⟨h1, h2⟩
        · exact ⟨h1, h2⟩
    · exact ⟨h1, h2⟩
  split
  · split
    · split
      · rename_i o ho
        refine ⟨?_, ?_⟩
        · intro e he
          rcases List.mem_append.1 he with he | he
          · exact h1 e he
          · simp only [List.mem_singleton] at he
            subst he; exact h2 o ho
        · simpa [ho] using h2 o ho
      · exact ⟨h1, h2⟩
    · exact ⟨h1, h2⟩
  · exact ⟨h1, h2⟩

theorem fold_ok (name : Nlist → Res (List UInt8)) (l : List Nlist) (st : MapState) (h : MapOk st) : MapOk (l.foldl (mapStep name) st) := by
  induction l generalizing st with
  | nil => exact h
  | cons y l ih => exact ih _ (mapStep_ok _ _ _ h)

/-! ## Lookup -/

theorem lookup_fst (search : List Nat → Nat → SymMap.Search) (m : ObjMap) (a : Nat) :
    (m.lookup search a).map (·.1) = SymMap.containing search (m.symbols.map (·.1)) a := by
  unfold ObjMap.lookup SymMap.containing SymMap.before
  rw [List.map_map]
  rw [show (SymMap.Entry.address ∘ fun (x : ObjEntry) => x.1) = fun (e : ObjEntry) => e.1.address from rfl]
  have hf : ∀ o : Option ObjEntry, (o.filter fun (e : ObjEntry) => decide (e.1.size = 0) || decide ((a + U64 - e.1.address) % U64 < e.1.size)).map (·.1) =
      (o.map (·.1)).filter fun (e : SymMap.Entry) => decide (e.size = 0) || decide ((a + U64 - e.address) % U64 < e.size) := by
    intro o
    cases o with
    | none => rfl
    | some e =>
      simp only [Option.map_some, Option.filter]
      split <;> rfl
  rw [hf]
  congr 1
  cases search (m.symbols.map fun (e : ObjEntry) => e.1.address) a with
  | found i => simp
  | missing i => dsimp only; split <;> simp

theorem lookup_mem (search : List Nat → Nat → SymMap.Search) (m : ObjMap) (a : Nat) (e : ObjEntry) (h : m.lookup search a = some e) : e ∈ m.symbols := by
  unfold ObjMap.lookup at h
  rw [Option.filter_eq_some_iff] at h
  obtain ⟨h, -⟩ := h
  cases hs : search (m.symbols.map fun (e : ObjEntry) => e.1.address) a with
  | found i => rw [hs] at h; exact List.mem_of_getElem? h
  | missing i =>
    rw [hs] at h
    dsimp only at h
    split at h
    · simp at h
    · exact List.mem_of_getElem? h

end Obj.MachoF

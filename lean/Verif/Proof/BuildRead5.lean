import Verif.Proof.BuildRead4

/-! Versions of a builder that is read. -/

namespace Obj.BuildR
open Obj Obj.Build Obj.Spec Obj.Spec.BuildR Obj.Props
open Obj.Elf (StrTable Shdr SymTab SectionTable Verdef Verdaux Verneed Vernaux AuxIter)
open Obj.Spec.MachoF (num Each)
open Obj.Spec.ElfF (RecordsOf DataOf)

/-! ## Definitions -/

theorem names_iff (data : List UInt8) (hlen : data.length < 2 ^ 64) (strings : StrTable) (as : List Verdaux) (names : List (List UInt8)) :
    readNames strings data as = .ok names ↔ Each (fun (a : Verdaux) str => StrAt data strings a.name str) as names := by
  rw [loop_each (fun a : Verdaux => strings.get data a.name) (readNames strings data) rfl (fun x xs => rfl)]
  exact each_congr fun a _ y => str_iff data hlen _ _ _

theorem names_np (data : List UInt8) (hlen : data.length < 2 ^ 64) (strings : StrTable) (as : List Verdaux) : readNames strings data as ≠ .panic :=
  loop_no_panic (fun a : Verdaux => strings.get data a.name) (readNames strings data) rfl (fun x xs => rfl) as fun _ _ => str_no_panic data hlen _ _

/-- The base version after the definitions. -/
def BaseR (data : List UInt8) (strings : StrTable) (b : Option (List UInt8)) (l : List (Verdef × List Verdaux)) (b' : Option (List UInt8)) : Prop :=
  (l.filter isBase = [] ∧ b' = b) ∨
  (b = none ∧ ∃ v a str, l.filter isBase = [(v, [a])] ∧ v.flags = 1 ∧ v.ndx = 1 ∧ StrAt data strings a.name str ∧ b' = some str)

/-- The indices of the definitions. -/
def defIdx (l : List (Verdef × List Verdaux)) : List Nat := (l.filter fun v => !isBase v).map (·.1.ndx)

abbrev DAux (en : Endianness) := AuxOf 8 (Verdaux.decode en) Verdaux.next Verdef.cnt
abbrev NAux (en : Endianness) := AuxOf 16 (Vernaux.decode en) Vernaux.next Verneed.cnt

theorem drain_len {σ α : Type} (next : σ → Res (Option α) × σ) (fuel : Nat) (s : σ) (xs : List α) (h : Elf.drain next fuel s = .ok xs) : xs.length < fuel := by
  induction fuel generalizing s xs with
  | zero => simp [Elf.drain] at h
  | succ fuel ih =>
    rw [Elf.drain] at h
    split at h
    · injection h with h; subst h; simp
    · simp only [Res.bind_eq_ok, Res.ok.injEq] at h
      obtain ⟨ys, h1, rfl⟩ := h
      have := ih _ ys h1
      simp; omega
    · cases h
    · cases h

theorem aux_len {α : Type} (size : Nat) (dec : List UInt8 → α) (next : α → Nat) (fuel : Nat) (it : AuxIter) (xs : List α)
    (h : Elf.drain (Elf.auxNext size dec next) fuel it = .ok xs) : xs.length = it.2 := by
  induction fuel generalizing it xs with
  | zero => simp [Elf.drain] at h
  | succ fuel ih =>
    rw [Elf.drain] at h
    match hn : Elf.auxNext size dec next it with
    | (.ok none, s) =>
      rw [hn] at h
      injection h with h; subst h
      unfold Elf.auxNext at hn
      split at hn
      · simp_all
      · split at hn <;> simp at hn
    | (.ok (some x), s) =>
      rw [hn] at h
      simp only [Res.bind_eq_ok, Res.ok.injEq] at h
      obtain ⟨ys, h1, rfl⟩ := h
      have := ih _ ys h1
      have := Elf.auxNext_item hn
      simp; omega
    | (.err, s) => rw [hn] at h; cases h
    | (.panic, s) => rw [hn] at h; cases h

theorem isBase_flag (v : Verdef) (as : List Verdaux) : isBase (v, as) = true ↔ v.flags &&& 1 ≠ 0 := (flag_test v.flags 0).symm

theorem defs_fold (en : Endianness) (data : List UInt8) (hlen : data.length < 2 ^ 64) (strings : StrTable) (fs : List (List UInt8))
    (vs : List (Verdef × AuxIter)) (hc : ∀ p ∈ vs, p.2.2 = p.1.cnt) (ks : List Nat) (b : Option (List UInt8)) (ds : List VerData)
    (hl : ds.length = ks.length) (hg : Good ks) (st : VerState) :
    readVerdefs en strings data (stOf ks b ds fs) vs = .ok st ↔
      ∃ l b' ds', Each (DAux en) vs l ∧ Good (ks ++ defIdx l) ∧ Each (DefOf data strings) (l.filter fun v => !isBase v) ds' ∧
        BaseR data strings b l b' ∧ st = stOf (ks ++ defIdx l) b' (ds ++ ds') fs := by
  induction vs generalizing ks b ds with
  | nil =>
    rw [readVerdefs]
    simp only [Res.ok.injEq, each_nil_left]
    constructor
    · rintro rfl
      exact ⟨[], b, [], rfl, by simpa [defIdx] using hg, .nil, .inl ⟨rfl, rfl⟩, by simp [defIdx]⟩
    · rintro ⟨_, b', ds', rfl, -, h1, h2, rfl⟩
      simp only [List.filter_nil, each_nil_left] at h1
      subst h1
      rcases h2 with ⟨-, rfl⟩ | ⟨-, v, a, str, h, -⟩
      · simp [defIdx]
      · simp at h
  | cons p vs ih =>
    obtain ⟨v, it⟩ := p
    have hcv : it.2 = v.cnt := hc (v, it) (by simp)
    have hcs : ∀ p ∈ vs, p.2.2 = p.1.cnt := fun p hp => hc p (by simp [hp])
    rw [readVerdefs]
    simp only [each_cons_left, Res.bind_eq_ok]
    by_cases hb : v.flags &&& 1 ≠ 0
    · have hbase : ∀ as, isBase (v, as) = true := fun as => (isBase_flag v as).2 hb
      have hstep : ∀ st1, readVerdef en strings data (stOf ks b ds fs) v it = .ok st1 ↔
          v.flags = 1 ∧ v.ndx = 1 ∧ b = none ∧ ∃ a str, Elf.drain (Elf.verdauxNext en) (it.2 + 1) it = .ok [a] ∧ StrAt data strings a.name str ∧
            st1 = stOf ks (some str) ds fs := by
        intro st1
        unfold readVerdef
        rw [if_pos hb]
        by_cases h1 : v.flags ≠ 1 ∨ v.ndx ≠ 1 ∨ v.cnt ≠ 1
        · rw [if_pos h1]
          simp only [reduceCtorEq, false_iff]
          rintro ⟨e1, e2, -, a, str, e3, -⟩
          have := aux_len _ _ _ _ _ _ e3
          simp at this
          omega
        · rw [if_neg h1]
          have hn : (stOf ks b ds fs).base = b := rfl
          rw [hn]
          have h1a : v.flags = 1 := by omega
          have h1b : v.ndx = 1 := by omega
          cases b with
          | some x => simp
          | none =>
            simp only [Option.isSome_none, Bool.false_eq_true, if_false, true_and, h1a, h1b]
            have hf := fun a => aux_first 8 (Verdaux.decode en) Verdaux.next it (by omega) a
            match hx : (Elf.verdauxNext en it).1 with
            | .ok (some a) =>
              simp only [Res.bind_eq_ok, Res.ok.injEq, str_iff data hlen]
              constructor
              · rintro ⟨n, h2, rfl⟩; exact ⟨a, n, (hf a).1 hx, h2, rfl⟩
              · rintro ⟨a', n, h2, h3, rfl⟩
                have := (hf a').2 h2
                have hx' : (Elf.auxNext 8 (Verdaux.decode en) Verdaux.next it).1 = .ok (some a) := hx
                rw [hx'] at this
                simp only [Res.ok.injEq, Option.some.injEq] at this
                subst this
                exact ⟨n, h3, rfl⟩
            | .ok none =>
              simp only [reduceCtorEq, false_iff]
              rintro ⟨a', n, h2, h3, rfl⟩
              have := (hf a').2 h2
              have hx' : (Elf.auxNext 8 (Verdaux.decode en) Verdaux.next it).1 = .ok none := hx
              rw [hx'] at this
              simp at this
            | .err =>
              simp only [reduceCtorEq, false_iff]
              rintro ⟨a', n, h2, h3, rfl⟩
              have := (hf a').2 h2
              have hx' : (Elf.auxNext 8 (Verdaux.decode en) Verdaux.next it).1 = .err := hx
              rw [hx'] at this
              simp at this
            | .panic =>
              simp only [reduceCtorEq, false_iff]
              rintro ⟨a', n, h2, h3, rfl⟩
              have := (hf a').2 h2
              have hx' : (Elf.auxNext 8 (Verdaux.decode en) Verdaux.next it).1 = .panic := hx
              rw [hx'] at this
              simp at this
      simp only [hstep]
      constructor
      · rintro ⟨st1, ⟨h1, h2, rfl, a, str, h3, h4, rfl⟩, h5⟩
        obtain ⟨l, b', ds', k1, k2, k3, k4, k5⟩ := (ih hcs ks (some str) ds hl hg).1 h5
        rcases k4 with ⟨k4, rfl⟩ | ⟨h, -⟩
        · refine ⟨(v, [a]) :: l, some str, ds', ⟨_, _, rfl, ⟨rfl, hcv, h3⟩, k1⟩, ?_, ?_, .inr ⟨rfl, v, a, str, ?_, h1, h2, h4, rfl⟩, ?_⟩
          · unfold defIdx; rw [List.filter_cons, if_neg (by simp [hbase])]; exact k2
          · rw [List.filter_cons, if_neg (by simp [hbase])]; exact k3
          · rw [List.filter_cons, if_pos (hbase _), k4]
          · have : defIdx ((v, [a]) :: l) = defIdx l := by unfold defIdx; rw [List.filter_cons, if_neg (by simp [hbase])]
            rw [this]; exact k5
        · cases h
      · rintro ⟨l, b', ds', ⟨q, l', rfl, ⟨q1, q2, q3⟩, k1⟩, k2, k3, k4, rfl⟩
        obtain ⟨v', as⟩ := q
        simp only at q1 q2 q3
        subst q1
        have hd : defIdx ((v', as) :: l') = defIdx l' := by unfold defIdx; rw [List.filter_cons, if_neg (by simp [hbase])]
        rw [hd] at k2
        rw [List.filter_cons, if_neg (by simp [hbase])] at k3
        rcases k4 with ⟨h, -⟩ | ⟨rfl, w, a, str, h, h1, h2, h4, rfl⟩
        · rw [List.filter_cons, if_pos (hbase _)] at h; cases h
        · rw [List.filter_cons, if_pos (hbase _)] at h
          simp only [List.cons.injEq, Prod.mk.injEq] at h
          obtain ⟨⟨rfl, rfl⟩, hf⟩ := h
          exact ⟨_, ⟨h1, h2, rfl, a, str, q3, h4, rfl⟩, (ih hcs ks (some str) ds hl hg).2 ⟨l', some str, ds', k1, k2, k3, .inl ⟨hf, rfl⟩, by rw [hd]⟩⟩
    · have hbase : ∀ as, isBase (v, as) = false := fun as => by rw [Bool.eq_false_iff]; exact fun h => hb ((isBase_flag v as).1 h)
      have hstep : ∀ st1, readVerdef en strings data (stOf ks b ds fs) v it = .ok st1 ↔
          ∃ as x, Elf.drain (Elf.verdauxNext en) (it.2 + 1) it = .ok as ∧ DefOf data strings (v, as) x ∧ Good (ks ++ [v.ndx]) ∧
            st1 = stOf (ks ++ [v.ndx]) b (ds ++ [x]) fs := by
        intro st1
        unfold readVerdef
        rw [if_neg hb]
        simp only [Res.bind_eq_ok, names_iff data hlen, add_iff ks b ds fs hl hg, DefOf]
        constructor
        · rintro ⟨as, h1, names, h2, h3, h4⟩; exact ⟨as, _, h1, ⟨names, h2, rfl⟩, h3, h4⟩
        · rintro ⟨as, _, h1, ⟨names, h2, rfl⟩, h3, h4⟩; exact ⟨as, h1, names, h2, h3, h4⟩
      simp only [hstep]
      have hd : ∀ as l, defIdx ((v, as) :: l) = v.ndx :: defIdx l := by
        intro as l; unfold defIdx; rw [List.filter_cons, if_pos (by simp [hbase])]; rfl
      have hbr : ∀ as l b', BaseR data strings b ((v, as) :: l) b' ↔ BaseR data strings b l b' := by
        intro as l b'
        unfold BaseR
        rw [List.filter_cons, if_neg (by simp [hbase])]
      constructor
      · rintro ⟨st1, ⟨as, x, h1, h2, h3, rfl⟩, h5⟩
        obtain ⟨l, b', ds', k1, k2, k3, k4, k5⟩ := (ih hcs (ks ++ [v.ndx]) b (ds ++ [x]) (by simp [hl]) h3).1 h5
        simp only [List.append_assoc, List.singleton_append] at k2 k5
        refine ⟨(v, as) :: l, b', x :: ds', ⟨_, _, rfl, ⟨rfl, hcv, h1⟩, k1⟩, by rw [hd]; exact k2, ?_, (hbr as l b').2 k4, by rw [hd]; exact k5⟩
        rw [List.filter_cons, if_pos (by simp [hbase])]
        exact .cons h2 k3
      · rintro ⟨l, b', ds', ⟨q, l', rfl, ⟨q1, q2, q3⟩, k1⟩, k2, k3, k4, rfl⟩
        obtain ⟨v', as⟩ := q
        simp only at q1 q2 q3
        subst q1
        rw [hd] at k2
        rw [List.filter_cons, if_pos (by simp [hbase]), each_cons_left] at k3
        obtain ⟨x, ds'', rfl, k3, k6⟩ := k3
        have hg1 : Good (ks ++ [v'.ndx]) := good_left (l := defIdx l') (by simpa using k2)
        refine ⟨_, ⟨as, x, q3, k3, hg1, rfl⟩, (ih hcs (ks ++ [v'.ndx]) b (ds ++ [x]) (by simp [hl]) hg1).2
          ⟨l', b', ds'', k1, by simpa using k2, k6, (hbr as l' b').1 k4, by rw [hd]; simp⟩⟩

theorem verdefs_np (en : Endianness) (data : List UInt8) (hlen : data.length < 2 ^ 64) (strings : StrTable) (vs : List (Verdef × AuxIter)) (st : VerState) :
    readVerdefs en strings data st vs ≠ .panic := by
  have ha : ∀ st i d, VerState.add st i d ≠ .panic := by intro st i d; unfold VerState.add; split <;> simp
  induction vs generalizing st with
  | nil => simp [readVerdefs]
  | cons p vs ih =>
    obtain ⟨v, it⟩ := p
    rw [readVerdefs]
    refine Res.bind_no_panic ?_ fun _ _ => ih _
    unfold readVerdef
    split
    · split
      · simp
      · split
        · simp
        · have := Elf.auxNext_no_panic 8 (Verdaux.decode en) Verdaux.next it
          split
          · exact Res.bind_no_panic (str_no_panic data hlen _ _) fun _ _ => by simp
          · simp
          · simp
          · rename_i h; exact absurd h this
    · refine Res.bind_no_panic ?_ fun _ _ => Res.bind_no_panic (names_np data hlen _ _) fun _ _ => ha _ _ _
      obtain ⟨xs, e, h1, h2, h3⟩ := Elf.aux_terminates 8 (Verdaux.decode en) Verdaux.next it
      exact Elf.drain_no_panic ⟨xs, e, h1, by omega, h3⟩

/-! ## Requirements -/

theorem vernauxs_fold (data : List UInt8) (hlen : data.length < 2 ^ 64) (strings : StrTable) (file : Nat) (b : Option (List UInt8)) (fs : List (List UInt8))
    (as : List Vernaux) (ks : List Nat) (ds : List VerData) (hl : ds.length = ks.length) (hg : Good ks) (st : VerState) :
    readVernauxs strings data file (stOf ks b ds fs) as = .ok st ↔
      ∃ ns, Each (NeedOf data strings) (as.map fun a => (file, a)) ns ∧ Good (ks ++ as.map (·.other)) ∧ st = stOf (ks ++ as.map (·.other)) b (ds ++ ns) fs := by
  induction as generalizing ks ds with
  | nil =>
    rw [readVernauxs]
    simp only [Res.ok.injEq, List.map_nil, each_nil_left, List.append_nil]
    constructor
    · rintro rfl; exact ⟨[], rfl, hg, by simp⟩
    · rintro ⟨_, rfl, -, rfl⟩; simp
  | cons a as ih =>
    rw [readVernauxs]
    simp only [Res.bind_eq_ok, str_iff data hlen, add_iff ks b ds fs hl hg, List.map_cons, each_cons_left]
    constructor
    · rintro ⟨name, h1, st1, ⟨h2, rfl⟩, h3⟩
      obtain ⟨ns, k1, k2, k3⟩ := (ih (ks ++ [a.other]) (ds ++ [.need file name a.flags]) (by simp [hl]) h2).1 h3
      exact ⟨_, ⟨_, ns, rfl, ⟨name, h1, rfl⟩, k1⟩, by simpa using k2, by rw [k3]; simp⟩
    · rintro ⟨_, ⟨y, ns, rfl, ⟨name, h1, rfl⟩, k1⟩, k2, rfl⟩
      have hg1 : Good (ks ++ [a.other]) := good_left (l := as.map (·.other)) (by simpa using k2)
      exact ⟨name, h1, _, ⟨hg1, rfl⟩, (ih (ks ++ [a.other]) (ds ++ [.need file name a.flags]) (by simp [hl]) hg1).2
        ⟨ns, k1, by simpa using k2, by simp⟩⟩

theorem filesOf_snoc (fs : List (List UInt8)) (n : List UInt8) : filesOf (fs ++ [n]) = filesOf fs ++ [⟨fs.length, false, n⟩] := by
  unfold filesOf
  rw [List.zipIdx_append]
  simp [List.zipIdx_cons]

theorem each_append {α β : Type} {P : α → β → Prop} {xs1 xs2 : List α} {ys : List β} :
    Each P (xs1 ++ xs2) ys ↔ ∃ ys1 ys2, ys = ys1 ++ ys2 ∧ Each P xs1 ys1 ∧ Each P xs2 ys2 := by
  induction xs1 generalizing ys with
  | nil =>
    simp only [List.nil_append, each_nil_left]
    constructor
    · intro h; exact ⟨[], ys, rfl, rfl, h⟩
    · rintro ⟨_, _, rfl, rfl, h⟩; exact h
  | cons x xs ih =>
    simp only [List.cons_append, each_cons_left, ih]
    constructor
    · rintro ⟨y, _, rfl, h1, ys1, ys2, rfl, h2, h3⟩; exact ⟨y :: ys1, ys2, rfl, ⟨y, ys1, rfl, h1, h2⟩, h3⟩
    · rintro ⟨_, ys2, rfl, ⟨y, ys1, rfl, h1, h2⟩, h3⟩; exact ⟨y, ys1 ++ ys2, rfl, h1, ys1, ys2, rfl, h2, h3⟩

theorem needs_fold (en : Endianness) (data : List UInt8) (hlen : data.length < 2 ^ 64) (strings : StrTable) (b : Option (List UInt8))
    (vs : List (Verneed × AuxIter)) (hc : ∀ p ∈ vs, p.2.2 = p.1.cnt) (ks : List Nat) (ds : List VerData) (fs : List (List UInt8))
    (hl : ds.length = ks.length) (hg : Good ks) (st : VerState) :
    readVerneeds en strings data (stOf ks b ds fs) vs = .ok st ↔
      ∃ l ns names, Each (NAux en) vs l ∧ Good (ks ++ l.flatMap fun n => n.2.map (·.other)) ∧
        Each (NeedOf data strings) ((l.zipIdx fs.length).flatMap fun n => n.1.2.map fun a => (n.2, a)) ns ∧
        Each (fun (n : Verneed × List Vernaux) str => StrAt data strings n.1.file str) l names ∧
        st = stOf (ks ++ l.flatMap fun n => n.2.map (·.other)) b (ds ++ ns) (fs ++ names) := by
  induction vs generalizing ks ds fs with
  | nil =>
    rw [readVerneeds]
    simp only [Res.ok.injEq, each_nil_left]
    constructor
    · rintro rfl
      exact ⟨[], [], [], rfl, by simpa using hg, .nil, .nil, by simp⟩
    · rintro ⟨_, ns, names, rfl, -, h1, h2, rfl⟩
      simp only [List.zipIdx_nil, List.flatMap_nil, each_nil_left] at h1 h2
      subst h1; subst h2
      simp
  | cons p vs ih =>
    obtain ⟨v, it⟩ := p
    have hcv : it.2 = v.cnt := hc (v, it) (by simp)
    have hcs : ∀ p ∈ vs, p.2.2 = p.1.cnt := fun p hp => hc p (by simp [hp])
    rw [readVerneeds]
    have hst : ∀ n : List UInt8, ({ stOf ks b ds fs with files := push (stOf ks b ds fs).files { id := (stOf ks b ds fs).files.length, delete := false, name := n } } : VerState) =
        stOf ks b ds (fs ++ [n]) := by
      intro n
      unfold stOf
      simp only [push]
      rw [filesOf_snoc]
      have : (filesOf fs).length = fs.length := by unfold filesOf; simp
      rw [this]
    have hfl : (stOf ks b ds fs).files.length = fs.length := by unfold stOf filesOf; simp
    rw [hfl]
    rw [hfl] at hst
    simp only [hst, Res.bind_eq_ok, str_iff data hlen, vernauxs_fold data hlen strings fs.length b _ _ ks ds hl hg, each_cons_left]
    constructor
    · rintro ⟨name, h1, as, h2, st1, ⟨ns, h3, h4, rfl⟩, h5⟩
      have hlen' : (ds ++ ns).length = (ks ++ as.map (·.other)).length := by
        have := each_length h3
        simp at this
        simp [hl, this]
      obtain ⟨l, ms, names, k1, k2, k3, k4, k5⟩ := (ih hcs _ _ (fs ++ [name]) hlen' h4).1 h5
      refine ⟨(v, as) :: l, ns ++ ms, name :: names, ⟨_, _, rfl, ⟨rfl, hcv, h2⟩, k1⟩, by simpa [List.flatMap_cons] using k2, ?_, .cons h1 k4, by rw [k5]; simp [List.flatMap_cons]⟩
      rw [List.zipIdx_cons, List.flatMap_cons, each_append]
      refine ⟨ns, ms, rfl, h3, ?_⟩
      simpa using k3
    · rintro ⟨l, xs, names, ⟨q, l', rfl, ⟨q1, q2, q3⟩, k1⟩, k2, k3, k4, rfl⟩
      obtain ⟨name, names', rfl, k4, k6⟩ := each_cons_left.1 k4
      obtain ⟨v', as⟩ := q
      simp only at q1 q2 q3
      subst q1
      rw [List.zipIdx_cons, List.flatMap_cons, each_append] at k3
      obtain ⟨ns, ms, rfl, k7, k8⟩ := k3
      simp only [List.flatMap_cons, ← List.append_assoc] at k2
      have hg1 : Good (ks ++ as.map (·.other)) := good_left k2
      have hlen' : (ds ++ ns).length = (ks ++ as.map (·.other)).length := by
        have := each_length k7
        simp at this
        simp [hl, this]
      refine ⟨name, k4, as, q3, _, ⟨ns, k7, hg1, rfl⟩, (ih hcs _ _ (fs ++ [name]) hlen' hg1).2 ⟨l', ms, names', k1, k2, ?_, k6, ?_⟩⟩
      · simpa using k8
      · simp [List.flatMap_cons]

theorem verneeds_np (en : Endianness) (data : List UInt8) (hlen : data.length < 2 ^ 64) (strings : StrTable) (vs : List (Verneed × AuxIter)) (st : VerState) :
    readVerneeds en strings data st vs ≠ .panic := by
  have ha : ∀ st i d, VerState.add st i d ≠ .panic := by intro st i d; unfold VerState.add; split <;> simp
  have hb : ∀ file as st, readVernauxs strings data file st as ≠ .panic := by
    intro file as
    induction as with
    | nil => intro st; simp [readVernauxs]
    | cons a as ih =>
      intro st
      rw [readVernauxs]
      exact Res.bind_no_panic (str_no_panic data hlen _ _) fun _ _ => Res.bind_no_panic (ha _ _ _) fun _ _ => ih _
  induction vs generalizing st with
  | nil => simp [readVerneeds]
  | cons p vs ih =>
    obtain ⟨v, it⟩ := p
    rw [readVerneeds]
    refine Res.bind_no_panic (str_no_panic data hlen _ _) fun _ _ => Res.bind_no_panic ?_ fun _ _ => Res.bind_no_panic (hb _ _ _) fun _ _ => ih _
    obtain ⟨xs, e, h1, h2, h3⟩ := Elf.aux_terminates 16 (Vernaux.decode en) Vernaux.next it
    exact Elf.drain_no_panic ⟨xs, e, h1, by omega, h3⟩

/-! ## Versions of symbols -/

/-- The symbol with its version. -/
def VR (ids : List (Nat × Nat)) (p : Build.Sym × Nat) (y : Build.Sym) : Prop :=
  ∃ version, lookupId ids (Elf.versymIndex p.2) = some version ∧ y = { p.1 with version := version, versionHidden := Elf.versymHidden p.2 }

theorem versyms_iff (ids : List (Nat × Nat)) (vs : List Nat) (pre rest : List Build.Sym) (hl : rest.length = vs.length) (t : List Build.Sym) :
    readVersyms ids pre.length (pre ++ rest) vs = .ok t ↔ ∃ rest', t = pre ++ rest' ∧ Each (VR ids) (rest.zip vs) rest' := by
  induction vs generalizing pre rest with
  | nil =>
    have : rest = [] := List.eq_nil_of_length_eq_zero hl
    subst this
    rw [readVersyms]
    simp only [Res.ok.injEq, List.append_nil, List.zip_nil_right, each_nil_left]
    constructor
    · rintro rfl; exact ⟨[], by simp, rfl⟩
    · rintro ⟨_, rfl, rfl⟩; simp
  | cons v vs ih =>
    cases rest with
    | nil => simp at hl
    | cons s rest =>
      have hs : (pre ++ s :: rest)[pre.length]? = some s := by simp
      rw [readVersyms, hs]
      simp only [List.zip_cons_cons, each_cons_left]
      cases hk : lookupId ids (Elf.versymIndex v) with
      | none =>
        simp only [reduceCtorEq, false_iff]
        rintro ⟨_, -, y, _, -, ⟨version, h, -⟩, -⟩
        rw [hk] at h; cases h
      | some version =>
        simp only []
        have hset : (pre ++ s :: rest).set pre.length { s with version := version, versionHidden := Elf.versymHidden v } =
            (pre ++ [{ s with version := version, versionHidden := Elf.versymHidden v }]) ++ rest := by simp
        have hlen2 : (pre ++ [{ s with version := version, versionHidden := Elf.versymHidden v }]).length = pre.length + 1 := by simp
        rw [hset, ← hlen2, ih _ _ (by simpa using hl)]
        constructor
        · rintro ⟨rest', rfl, h⟩; exact ⟨_, by simp, _, rest', rfl, ⟨version, hk, rfl⟩, h⟩
        · rintro ⟨_, rfl, y, rest', rfl, ⟨version', h1, rfl⟩, h2⟩
          rw [hk] at h1
          injection h1 with h1
          subst h1
          exact ⟨rest', by simp, h2⟩

theorem versyms_np (ids : List (Nat × Nat)) (vs : List Nat) (id : Nat) (t : List Build.Sym) (hl : id + vs.length ≤ t.length) :
    readVersyms ids id t vs ≠ .panic := by
  induction vs generalizing id t with
  | nil => simp [readVersyms]
  | cons v vs ih =>
    simp only [List.length_cons] at hl
    rw [readVersyms, List.getElem?_eq_getElem (by omega)]
    simp only []
    split
    · simp
    · exact ih _ _ (by simp; omega)

theorem versionOf_iff (ks : List Nat) (hg : Good ks) (v : Nat) (s y : Build.Sym) :
    (VR (idsOf ks) (s, v) y) ↔ VersionOf ks v y ∧ { y with version := s.version, versionHidden := s.versionHidden } = s := by
  unfold VR VersionOf
  have hi : Elf.versymIndex v = v % 2 ^ 15 := Nat.and_two_pow_sub_one_eq_mod v 15
  have hh : Elf.versymHidden v = v.testBit 15 := by
    unfold Elf.versymHidden
    have := flag_test v 15
    rw [Bool.eq_iff_iff, bne_iff_ne]
    exact this
  simp only [hi, hh, lookup_ids ks _ _ hg]
  constructor
  · rintro ⟨version, h, rfl⟩
    refine ⟨⟨rfl, ?_⟩, rfl⟩
    rcases h with ⟨h1, h2⟩ | ⟨h1, h2⟩ | ⟨k, h1, h2⟩
    · exact .inl ⟨h1, h2⟩
    · exact .inr (.inl ⟨h1, h2⟩)
    · exact .inr (.inr ⟨k, h1, h2⟩)
  · rintro ⟨⟨h1, h2⟩, h3⟩
    refine ⟨y.version, ?_, ?_⟩
    · rcases h2 with ⟨a, b⟩ | ⟨a, b⟩ | ⟨k, a, b⟩
      · exact .inl ⟨a, b⟩
      · exact .inr (.inl ⟨a, b⟩)
      · exact .inr (.inr ⟨k, a, b⟩)
    · rw [← h3, ← h1]

end Obj.BuildR

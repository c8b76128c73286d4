import Verif.Spec.Pe
import Verif.Drain
import Verif.Proof.Coff
import Verif.Proof.Util

namespace Obj.Pe
open Obj Obj.Coff Obj.Spec.Pe

/-! ### Mapping -/

theorem fileRangeAt1_iff (s : Coff.Section) (va o n : Nat) : fileRangeAt1 s va = some (o, n) ↔ Maps s va o n := by
  unfold fileRangeAt1 fileRange Maps
  by_cases h1 : va < s.virtualAddress
  · rw [if_pos h1]; constructor
    · intro h; simp at h
    · intro h; omega
  · rw [if_neg h1]
    simp only
    generalize min s.virtualSize s.sizeOfRawData = z
    by_cases h2 : va - s.virtualAddress < z
    · rw [if_pos h2]
      by_cases h3 : U32 ≤ s.pointerToRawData + (va - s.virtualAddress)
      · rw [if_pos h3]; constructor
        · intro h; simp at h
        · intro h; omega
      · rw [if_neg h3]; simp only [Option.some.injEq, Prod.mk.injEq]
        constructor
        · rintro ⟨rfl, rfl⟩; omega
        · intro h; omega
    · rw [if_neg h2]; constructor
      · intro h; simp at h
      · intro h; omega

theorem fileRangeAt1_none (s : Coff.Section) (va : Nat) : fileRangeAt1 s va = none ↔ ∀ o n, ¬ Maps s va o n := by
  constructor
  · intro h o n hm
    rw [(fileRangeAt1_iff ..).2 hm] at h; simp at h
  · intro h
    cases hr : fileRangeAt1 s va with
    | none => rfl
    | some p => exact absurd ((fileRangeAt1_iff s va p.1 p.2).1 hr) (h _ _)

theorem findSome_first {α : Type} (f : Coff.Section → Option α) (ss : List Coff.Section) (a : α) :
    ss.findSome? f = some a ↔ ∃ pre s post, ss = pre ++ s :: post ∧ f s = some a ∧ ∀ t ∈ pre, f t = none := by
  induction ss with
  | nil => simp
  | cons s ss ih =>
    rw [List.findSome?_cons]
    cases hf : f s with
    | some b =>
      simp only [Option.some.injEq]
      constructor
      · rintro rfl
        exact ⟨[], s, ss, rfl, hf, by simp⟩
      · rintro ⟨pre, t, post, h1, h2, h3⟩
        cases pre with
        | nil =>
          simp only [List.nil_append, List.cons.injEq] at h1
          rw [← h1.1, hf] at h2
          exact Option.some.inj h2
        | cons p pre =>
          simp only [List.cons_append, List.cons.injEq] at h1
          have := h3 p (by simp)
          rw [← h1.1, hf] at this
          simp at this
    | none =>
      simp only
      rw [ih]
      constructor
      · rintro ⟨pre, t, post, h1, h2, h3⟩
        refine ⟨s :: pre, t, post, by rw [h1]; rfl, h2, ?_⟩
        intro u hu
        rcases List.mem_cons.1 hu with rfl | hu
        · exact hf
        · exact h3 u hu
      · rintro ⟨pre, t, post, h1, h2, h3⟩
        cases pre with
        | nil =>
          simp only [List.nil_append, List.cons.injEq] at h1
          rw [← h1.1, hf] at h2
          simp at h2
        | cons p pre =>
          simp only [List.cons_append, List.cons.injEq] at h1
          exact ⟨pre, t, post, h1.2, h2, fun u hu => h3 u (by simp [hu])⟩

theorem findSome_none {α : Type} (f : Coff.Section → Option α) (ss : List Coff.Section) :
    ss.findSome? f = none ↔ ∀ s ∈ ss, f s = none := by
  simp [List.findSome?_eq_none_iff]

theorem okOpt_read (data : List UInt8) (o n : Nat) (h : 0 < n) (d : List UInt8) :
    okOpt (ReadRef.readBytesAt data o n) = some d ↔ o + n ≤ data.length ∧ d = slice data o n := by
  rw [readRef_readBytesAt_pos h]
  by_cases hl : o + n ≤ data.length
  · rw [if_pos hl]; simp [okOpt, hl, eq_comm]
  · rw [if_neg hl]; simp [okOpt, hl]

theorem okOpt_read_none (data : List UInt8) (o n : Nat) (h : 0 < n) :
    okOpt (ReadRef.readBytesAt data o n) = none ↔ data.length < o + n := by
  rw [readRef_readBytesAt_pos h]
  by_cases hl : o + n ≤ data.length
  · rw [if_pos hl]; simp [okOpt]; omega
  · rw [if_neg hl]; simp [okOpt]; omega

theorem dataAt1_iff (s : Coff.Section) (data : List UInt8) (va : Nat) (d : List UInt8) :
    dataAt1 s data va = some d ↔ ∃ o n, Maps s va o n ∧ o + n ≤ data.length ∧ d = slice data o n := by
  unfold dataAt1
  cases h : fileRangeAt1 s va with
  | none =>
    simp only [reduceCtorEq, false_iff]
    rintro ⟨o, n, hm, -⟩
    exact (fileRangeAt1_none ..).1 h _ _ hm
  | some p =>
    obtain ⟨o, n⟩ := p
    have hm := (fileRangeAt1_iff ..).1 h
    simp only
    rw [okOpt_read _ _ _ hm.2.2.1]
    constructor
    · rintro ⟨h1, h2⟩; exact ⟨o, n, hm, h1, h2⟩
    · rintro ⟨o', n', hm', h1, h2⟩
      have := (fileRangeAt1_iff ..).2 hm'
      rw [h] at this
      simp only [Option.some.injEq, Prod.mk.injEq] at this
      obtain ⟨rfl, rfl⟩ := this
      exact ⟨h1, h2⟩

theorem dataAt1_none (s : Coff.Section) (data : List UInt8) (va : Nat) :
    dataAt1 s data va = none ↔ ∀ o n, Maps s va o n → data.length < o + n := by
  constructor
  · intro h o n hm
    rcases Nat.lt_or_ge data.length (o + n) with hl | hl
    · exact hl
    · rw [(dataAt1_iff s data va _).2 ⟨o, n, hm, hl, rfl⟩] at h; simp at h
  · intro h
    cases hr : dataAt1 s data va with
    | none => rfl
    | some d =>
      obtain ⟨o, n, hm, hl, -⟩ := (dataAt1_iff ..).1 hr
      have := h o n hm
      omega

/-! ### Strings and numbers -/

theorem wsub_iff {a va : Nat} (ha : a < 2 ^ 32) (hva : va < 2 ^ 32) (off : Nat) : Rva va a off ↔ off = wsub a va := by
  unfold Rva wsub
  constructor
  · rintro ⟨h1, rfl⟩
    split <;> omega
  · intro h
    split at h <;> omega

theorem readStringAt_iff (data : List UInt8) (off : Nat) (s : List UInt8) :
    Bytes.readStringAt data off = .ok s ↔ CStrAt data off s := by
  unfold Bytes.readStringAt Bytes.skip CStrAt
  by_cases h : off ≤ data.length
  · rw [if_pos h]
    simp only
    constructor
    · intro hr
      rcases readString_cases (data.drop off) with ⟨s', tl, hd, hs, he⟩ | ⟨hn, he⟩
      · rw [he] at hr
        simp only [Res.ok.injEq] at hr
        subst hr
        refine ⟨data.take off, tl, ?_, by simp [h], hs⟩
        rw [List.append_assoc, ← hd, List.take_append_drop]
      · rw [he] at hr; simp at hr
    · rintro ⟨pre, tl, hd, hl, hs⟩
      rw [hd, ← hl, List.append_assoc, List.drop_left, readString_append hs]
  · rw [if_neg h]
    simp only [reduceCtorEq, false_iff]
    rintro ⟨pre, tl, hd, hl, -⟩
    rw [hd] at h
    simp at h
    omega

theorem readStringAt_no_panic (data : List UInt8) (off : Nat) : Bytes.readStringAt data off ≠ .panic := by
  unfold Bytes.readStringAt Bytes.skip
  by_cases h : off ≤ data.length
  · rw [if_pos h]
    simp only
    rcases readString_cases (data.drop off) with ⟨s', tl, hd, hs, he⟩ | ⟨hn, he⟩ <;> rw [he] <;> simp
  · rw [if_neg h]; simp

theorem nameFromPointer_iff (t : ExportTable) (p : Nat) (hp : p < 2 ^ 32) (hva : t.virtualAddress < 2 ^ 32) (s : List UInt8) :
    t.nameFromPointer p = .ok s ↔ NameAt t.data t.virtualAddress p s := by
  unfold ExportTable.nameFromPointer NameAt
  rw [readStringAt_iff]
  constructor
  · intro h; exact ⟨_, (wsub_iff hp hva _).2 rfl, h⟩
  · rintro ⟨off, h1, h2⟩; rw [← (wsub_iff hp hva _).1 h1]; exact h2

theorem ordinalLoop_iff (ds : List UInt8) (r v : Nat) (hr : r < 2 ^ 16) :
    ordinalLoop ds r = some v ↔ (∀ d ∈ ds, 48 ≤ d.toNat ∧ d.toNat ≤ 57) ∧ ds.foldl (fun a d => 10 * a + (d.toNat - 48)) r = v ∧
      v < 2 ^ 16 := by
  have mono : ∀ (ds : List UInt8) (r : Nat), r ≤ ds.foldl (fun a d => 10 * a + (d.toNat - 48)) r := by
    intro ds
    induction ds with
    | nil => intro r; simp
    | cons d ds ih => intro r; rw [List.foldl_cons]; have := ih (10 * r + (d.toNat - 48)); omega
  induction ds generalizing r with
  | nil => simp [ordinalLoop]; intro h; omega
  | cons d ds ih =>
    unfold ordinalLoop
    rw [List.foldl_cons]
    by_cases hd : 48 ≤ d.toNat ∧ d.toNat ≤ 57
    · rw [if_pos hd]
      have hm := mono ds (10 * r + (d.toNat - 48))
      by_cases h1 : U16 ≤ r * 10
      · rw [if_pos h1]; constructor
        · intro h; simp at h
        · rintro ⟨-, h2, h3⟩; omega
      · rw [if_neg h1]
        by_cases h2 : U16 ≤ r * 10 + (d.toNat - 48)
        · rw [if_pos h2]; constructor
          · intro h; simp at h
          · rintro ⟨-, h2, h3⟩; omega
        · have hlt : r * 10 + (d.toNat - 48) < 2 ^ 16 := by omega
          have hih := ih (r * 10 + (d.toNat - 48)) hlt
          rw [show r * 10 + (d.toNat - 48) = 10 * r + (d.toNat - 48) by omega] at hih h2 ⊢
          rw [if_neg h2]
          refine Iff.trans hih ?_
          constructor
          · rintro ⟨h3, h4⟩
            refine ⟨fun e he => ?_, h4⟩
            rcases List.mem_cons.1 he with rfl | he
            · exact hd
            · exact h3 e he
          · rintro ⟨h3, h4⟩
            exact ⟨fun e he => h3 e (by simp [he]), h4⟩
    · rw [if_neg hd]; constructor
      · intro h; simp at h
      · rintro ⟨h3, -⟩; exact absurd (h3 d (by simp)) hd

theorem parseOrdinal_iff (ds : List UInt8) (v : Nat) : parseOrdinal ds = some v ↔ Decimal ds v ∧ v < 2 ^ 16 := by
  unfold parseOrdinal Decimal
  by_cases h : ds = []
  · rw [if_pos h]; simp [h]
  · rw [if_neg h, ordinalLoop_iff _ _ _ (by decide)]
    constructor
    · rintro ⟨h1, h2, h3⟩; exact ⟨⟨h, h1, h2⟩, h3⟩
    · rintro ⟨⟨-, h1, h2⟩, h3⟩; exact ⟨h1, h2, h3⟩

theorem rposition_iff (c : UInt8) (l : List UInt8) (i : Nat) :
    rposition c l = some i ↔ ∃ a b, l = a ++ c :: b ∧ a.length = i ∧ c ∉ b := by
  unfold rposition
  constructor
  · intro h
    cases hm : memchr c l.reverse with
    | none => rw [hm] at h; simp at h
    | some j =>
      rw [hm] at h
      simp only [Option.some.injEq] at h
      obtain ⟨pre, suf, h1, h3, h2⟩ := (memchr_some_iff ..).1 hm
      have hl : l = suf.reverse ++ c :: pre.reverse := by
        have := congrArg List.reverse h1
        simpa using this
      refine ⟨suf.reverse, pre.reverse, hl, ?_, by simpa using h3⟩
      have := congrArg List.length hl
      simp at this ⊢
      omega
  · rintro ⟨a, b, rfl, hl, hb⟩
    have : memchr c (a ++ c :: b).reverse = some b.length := by
      rw [memchr_some_iff]
      exact ⟨b.reverse, a.reverse, by simp, by simpa using hb, by simp⟩
    rw [this]
    simp
    omega

theorem rposition_none (c : UInt8) (l : List UInt8) : rposition c l = none ↔ c ∉ l := by
  unfold rposition
  cases hm : memchr c l.reverse with
  | none => simp only [true_iff]; have := (memchr_none_iff ..).1 hm; simpa using this
  | some j =>
    simp only [reduceCtorEq, false_iff, Classical.not_not]
    obtain ⟨pre, suf, h1, -, -⟩ := (memchr_some_iff ..).1 hm
    have : c ∈ l.reverse := by rw [h1]; simp
    simpa using this

/-- Targets. -/
theorem target_iff (t : ExportTable) (a : Nat) (ha : a < 2 ^ 32) (hva : t.virtualAddress < 2 ^ 32) (x : ExportTarget) :
    t.targetFromAddress a = .ok x ↔ TargetOf t.data t.virtualAddress a x := by
  unfold ExportTable.targetFromAddress ExportTable.forwardString
  simp only
  have hr := fun off => wsub_iff ha hva off
  by_cases ho : wsub a t.virtualAddress < t.data.length
  · rw [if_pos ho]
    have hin : ∃ off, Rva t.virtualAddress a off ∧ off < t.data.length := ⟨_, (hr _).2 rfl, ho⟩
    have hname : ∀ s, Bytes.readStringAt t.data (wsub a t.virtualAddress) = .ok s ↔ NameAt t.data t.virtualAddress a s := by
      intro s
      have := nameFromPointer_iff t a ha hva s
      exact this
    cases hs : Bytes.readStringAt t.data (wsub a t.virtualAddress) with
    | panic => exact absurd hs (readStringAt_no_panic _ _)
    | err =>
      simp only [Res.err_bind, reduceCtorEq, false_iff]
      intro h
      cases h with
      | address h => exact absurd (h _ ((hr _).2 rfl)) (by omega)
      | byName _ h => rw [(hname _).2 h] at hs; simp at hs
      | byOrdinal _ h => rw [(hname _).2 h] at hs; simp at hs
    | ok f =>
      simp only [Res.ok_bind]
      have huniq : ∀ s, NameAt t.data t.virtualAddress a s → s = f := by
        intro s h
        have := (hname s).2 h
        rw [hs] at this
        exact (Res.ok.inj this).symm
      have hf := (hname f).1 hs
      cases hp : rposition 46 f with
      | none =>
        simp only [reduceCtorEq, false_iff]
        have hn := (rposition_none ..).1 hp
        intro h
        cases h with
        | address h => exact absurd (h _ ((hr _).2 rfl)) (by omega)
        | byName _ h => exact hn (by rw [← huniq _ h]; simp)
        | byOrdinal _ h => exact hn (by rw [← huniq _ h]; simp)
      | some i =>
        obtain ⟨lib, nm, hl, hi, hnm⟩ := (rposition_iff ..).1 hp
        have htake : f.take i = lib := by rw [hl, ← hi, List.take_left]
        have hdrop : f.drop (i + 1) = nm := by
          rw [hl, ← hi, show lib ++ 46 :: nm = (lib ++ [46]) ++ nm by simp, show lib.length + 1 = (lib ++ [46]).length by simp,
            List.drop_left]
        simp only
        rw [htake, hdrop]
        have hsplit : ∀ lib' nm', NameAt t.data t.virtualAddress a (lib' ++ 46 :: nm') → (46 : UInt8) ∉ nm' → lib' = lib ∧ nm' = nm := by
          intro lib' nm' h hn'
          have he : lib' ++ 46 :: nm' = lib ++ 46 :: nm := by rw [huniq _ h, hl]
          have hi' : rposition 46 f = some lib'.length := (rposition_iff ..).2 ⟨lib', nm', by rw [hl, he], rfl, hn'⟩
          rw [hp] at hi'
          have hlen : lib.length = lib'.length := by rw [hi]; exact Option.some.inj hi'
          have := List.append_inj he hlen.symm
          exact ⟨this.1, by simpa using this.2⟩
        rw [hl] at hf
        cases nm with
        | nil =>
          simp only [reduceCtorEq, false_iff]
          intro h
          cases h with
          | address h => exact absurd (h _ ((hr _).2 rfl)) (by omega)
          | byName _ h h46 hne => exact hne (hsplit _ _ h h46).2
          | byOrdinal _ h h46 =>
            have := (hsplit _ _ h (by simp [h46])).2
            simp at this
        | cons c ds =>
          simp only
          by_cases hc : c = 35
          · rw [if_pos hc]
            subst hc
            cases hpo : parseOrdinal ds with
            | none =>
              simp only [Res.ofOption_none, Res.err_bind, reduceCtorEq, false_iff]
              intro h
              cases h with
              | address h => exact absurd (h _ ((hr _).2 rfl)) (by omega)
              | byName _ h h46 hne hh =>
                have := (hsplit _ _ h h46).2
                rw [this] at hh; simp at hh
              | byOrdinal _ h h46 hd hlt =>
                have := (hsplit _ _ h (by simp [h46])).2
                simp only [List.cons.injEq, true_and] at this
                rw [this] at hd
                rw [(parseOrdinal_iff ..).2 ⟨hd, hlt⟩] at hpo
                simp at hpo
            | some o =>
              simp only [Res.ofOption_some, Res.ok_bind, Res.ok.injEq]
              have hpo' := (parseOrdinal_iff ..).1 hpo
              have h46 : (46 : UInt8) ∉ ds := fun h => hnm (by simp [h])
              constructor
              · rintro rfl
                exact .byOrdinal hin hf h46 hpo'.1 hpo'.2
              · intro h
                cases h with
                | address h => exact absurd (h _ ((hr _).2 rfl)) (by omega)
                | byName _ h h46 hne hh =>
                  have := (hsplit _ _ h h46).2
                  rw [this] at hh; simp at hh
                | byOrdinal _ h h46 hd hlt =>
                  obtain ⟨rfl, this⟩ := hsplit _ _ h (by simp [h46])
                  simp only [List.cons.injEq, true_and] at this
                  subst this
                  rw [(parseOrdinal_iff ..).2 ⟨hd, hlt⟩] at hpo
                  rw [Option.some.inj hpo]
          · rw [if_neg hc]
            simp only [Res.ok.injEq]
            constructor
            · rintro rfl
              exact .byName hin hf hnm (by simp) (by simpa using hc)
            · intro h
              cases h with
              | address h => exact absurd (h _ ((hr _).2 rfl)) (by omega)
              | byName _ h h46 hne hh =>
                obtain ⟨rfl, rfl⟩ := hsplit _ _ h h46
                rfl
              | byOrdinal _ h h46 hd hlt =>
                have := (hsplit _ _ h (by simp [h46])).2
                simp only [List.cons.injEq] at this
                exact absurd this.1.symm hc
  · rw [if_neg ho]
    simp only [Res.ok_bind, Res.ok.injEq]
    constructor
    · rintro rfl
      refine .address fun off h => ?_
      rw [(hr off).1 h]; omega
    · intro h
      cases h with
      | address h => rfl
      | byName h => obtain ⟨off, h1, h2⟩ := h; rw [(hr off).1 h1] at h2; exact absurd h2 ho
      | byOrdinal h => obtain ⟨off, h1, h2⟩ := h; rw [(hr off).1 h1] at h2; exact absurd h2 ho

theorem target_no_panic (t : ExportTable) (a : Nat) : t.targetFromAddress a ≠ .panic := by
  unfold ExportTable.targetFromAddress ExportTable.forwardString
  refine Res.bind_no_panic ?_ fun f _ => ?_
  · simp only
    split
    · exact Res.bind_no_panic (readStringAt_no_panic _ _) fun _ _ => by simp
    · simp
  · split
    · simp
    · split
      · simp
      · simp only
        split
        · simp
        · split
          · refine Res.bind_no_panic ?_ fun _ _ => by simp
            cases parseOrdinal _ <;> simp
          · simp

/-! ### Parsing the export table -/

theorem bytesSliceAt_iff (data : List UInt8) (off w n : Nat) (hn : n * w < U64) (l : List (List UInt8)) :
    bytesSliceAt data off w n = .ok l ↔ off + w * n ≤ data.length ∧ l = (List.range n).map fun i => slice data (off + w * i) w := by
  have hch : Bytes.chunks w n (data.drop off) = (List.range n).map fun i => slice data (off + w * i) w := by
    apply List.ext_getElem?
    intro i
    rcases Nat.lt_or_ge i n with h | h
    · rw [chunks_get _ _ _ _ h, List.getElem?_map, List.getElem?_range h]
      simp [slice]
    · rw [chunks_none _ _ _ _ h, List.getElem?_eq_none (by simpa using h)]
  unfold bytesSliceAt Bytes.skip
  by_cases h : off ≤ data.length
  · rw [if_pos h]
    simp only [Bytes.readSlice]
    by_cases h2 : n * w < U64 ∧ n * w ≤ (data.drop off).length
    · rw [if_pos h2]
      simp only [Res.ok.injEq]
      have h3 := h2.2
      rw [List.length_drop, Nat.mul_comm] at h3
      rw [hch]
      exact ⟨fun h => ⟨by omega, h.symm⟩, fun h => h.2.symm⟩
    · rw [if_neg h2]
      simp only [reduceCtorEq, false_iff]
      rintro ⟨h3, -⟩
      apply h2
      refine ⟨hn, ?_⟩
      rw [List.length_drop, Nat.mul_comm]; omega
  · rw [if_neg h]
    simp only [reduceCtorEq, false_iff]
    rintro ⟨h3, -⟩
    generalize w * n = k at *
    omega

theorem bytesSliceAt_no_panic (data : List UInt8) (off w n : Nat) : bytesSliceAt data off w n ≠ .panic := by
  unfold bytesSliceAt Bytes.skip Bytes.readSlice
  split <;> rename_i h
  · split <;> simp
  · simp
  · split at h <;> simp at h

/-- A table that is present. -/
theorem table_iff (data : List UInt8) (va w rva n : Nat) (hr : rva < 2 ^ 32) (hva : va < 2 ^ 32) (hn : n * w < U64) (h0 : rva ≠ 0)
    (xs : List Nat) :
    ((bytesSliceAt data (wsub rva va) w n).bind fun l => .ok (l.map (rd .little))) = .ok xs ↔ TableAt data va w rva n xs := by
  unfold TableAt
  constructor
  · intro h
    cases hb : bytesSliceAt data (wsub rva va) w n with
    | err => rw [hb] at h; simp at h
    | panic => rw [hb] at h; simp at h
    | ok l =>
      rw [hb] at h
      simp only [Res.ok_bind, Res.ok.injEq] at h
      obtain ⟨h1, h2⟩ := (bytesSliceAt_iff _ _ _ _ hn _).1 hb
      refine .inr ⟨h0, _, (wsub_iff hr hva _).2 rfl, h1, ?_⟩
      rw [← h, h2, List.map_map]; rfl
  · rintro (⟨h, -⟩ | ⟨-, off, h1, h2, h3⟩)
    · exact absurd h h0
    · rw [← (wsub_iff hr hva _).1 h1, (bytesSliceAt_iff _ _ _ _ hn _).2 ⟨h2, rfl⟩, h3]
      simp only [Res.ok_bind, List.map_map]; rfl

theorem field_slice (data : List UInt8) (o w n : Nat) (h : o + w ≤ n) : field .little (slice data 0 n) o w = field .little data o w := by
  have := slice_slice data 0 n o w h
  unfold field
  rw [Nat.zero_add] at this
  exact congrArg (rd .little) this

theorem parse_iff (data : List UInt8) (va : Nat) (hva : va < 2 ^ 32) (t : ExportTable) :
    ExportTable.parse data va = .ok t ↔
      40 ≤ data.length ∧ t.data = data ∧ t.virtualAddress = va ∧ t.ordinalBase = field .little data 16 4 ∧ t.ordinalBase < 2 ^ 16 ∧
      (field .little data 28 4 ≠ 0 → t.ordinalBase + field .little data 20 4 ≤ 2 ^ 16) ∧
      TableAt data va 4 (field .little data 28 4) (field .little data 20 4) t.addresses ∧
      (field .little data 32 4 ≠ 0 → field .little data 36 4 ≠ 0) ∧
      TableAt data va 4 (field .little data 32 4) (field .little data 24 4) t.names ∧
      TableAt data va 2 (if field .little data 32 4 = 0 then 0 else field .little data 36 4) (field .little data 24 4) t.nameOrdinals := by
  have f32 : ∀ o, field .little data o 4 < 2 ^ 32 := fun o => field_lt .little data o 4
  unfold ExportTable.parse parseExportDir
  rw [readRef_readBytesAt_pos (by decide)]
  by_cases hl : 0 + 40 ≤ data.length
  · rw [if_pos hl]
    simp only [Res.ok_bind]
    rw [field_slice _ _ _ _ (by decide), field_slice _ _ _ _ (by decide), field_slice _ _ _ _ (by decide),
      field_slice _ _ _ _ (by decide), field_slice _ _ _ _ (by decide), field_slice _ _ _ _ (by decide)]
    have g1 := f32 16; have g2 := f32 20; have g3 := f32 24; have g4 := f32 28; have g5 := f32 32; have g6 := f32 36
    generalize field .little data 16 4 = base at *
    generalize field .little data 20 4 = nf at *
    generalize field .little data 24 4 = nn at *
    generalize field .little data 28 4 = af at *
    generalize field .little data 32 4 = an at *
    generalize field .little data 36 4 = ao at *
    by_cases hb : U16 ≤ base
    · rw [if_pos hb]
      simp only [reduceCtorEq, false_iff]
      rintro ⟨-, -, -, h1, h2, -⟩
      omega
    · rw [if_neg hb]
      have hA : ∀ xs, (if af ≠ 0 then
          if (U16 - 1) - base + 1 < nf then (.err : Res (List Nat))
          else (bytesSliceAt data (wsub af va) 4 nf).bind fun l => .ok (l.map (rd .little))
          else .ok []) = .ok xs ↔ (af ≠ 0 → base + nf ≤ 2 ^ 16) ∧ TableAt data va 4 af nf xs := by
        intro xs
        by_cases ha : af = 0
        · rw [if_neg (by simpa using ha)]
          simp only [Res.ok.injEq, TableAt, ha]
          simp [eq_comm]
        · rw [if_pos ha]
          by_cases hm : (U16 - 1) - base + 1 < nf
          · rw [if_pos hm]
            simp only [reduceCtorEq, false_iff]
            rintro ⟨h1, -⟩
            have := h1 ha
            omega
          · rw [if_neg hm, table_iff data va 4 af nf g4 hva (by omega) ha]
            exact ⟨fun h => ⟨fun _ => by omega, h⟩, fun h => h.2⟩
      have hN : ∀ xs ys, (if an ≠ 0 then
          if ao = 0 then (.err : Res (List Nat × List Nat))
          else
            (bytesSliceAt data (wsub an va) 4 nn).bind fun n =>
            (bytesSliceAt data (wsub ao va) 2 nn).bind fun o =>
            .ok (n.map (rd .little), o.map (rd .little))
          else .ok ([], [])) = .ok (xs, ys) ↔ (an ≠ 0 → ao ≠ 0) ∧ TableAt data va 4 an nn xs ∧
            TableAt data va 2 (if an = 0 then 0 else ao) nn ys := by
        intro xs ys
        by_cases ha : an = 0
        · rw [if_neg (by simpa using ha), if_pos ha]
          simp only [Res.ok.injEq, Prod.mk.injEq, TableAt, ha]
          simp [eq_comm]
        · rw [if_pos ha, if_neg ha]
          by_cases ho : ao = 0
          · rw [if_pos ho]
            simp only [reduceCtorEq, false_iff]
            rintro ⟨h1, -⟩
            exact h1 ha ho
          · rw [if_neg ho, ← table_iff data va 4 an nn g5 hva (by omega) ha, ← table_iff data va 2 ao nn g6 hva (by omega) ho]
            cases h1 : bytesSliceAt data (wsub an va) 4 nn with
            | ok l =>
              cases h2 : bytesSliceAt data (wsub ao va) 2 nn with
              | ok m => simp [ho]
              | err => simp
              | panic => simp
            | err => simp
            | panic => simp
      constructor
      · intro h
        cases hx : (if af ≠ 0 then
          if (U16 - 1) - base + 1 < nf then (.err : Res (List Nat))
          else (bytesSliceAt data (wsub af va) 4 nf).bind fun l => .ok (l.map (rd .little))
          else .ok []) with
        | err => rw [hx] at h; simp at h
        | panic => rw [hx] at h; simp at h
        | ok xs =>
          rw [hx] at h
          simp only [Res.ok_bind] at h
          cases hy : (if an ≠ 0 then
            if ao = 0 then (.err : Res (List Nat × List Nat))
            else
              (bytesSliceAt data (wsub an va) 4 nn).bind fun n =>
              (bytesSliceAt data (wsub ao va) 2 nn).bind fun o =>
              .ok (n.map (rd .little), o.map (rd .little))
            else .ok ([], [])) with
          | err => rw [hy] at h; simp at h
          | panic => rw [hy] at h; simp at h
          | ok p =>
            obtain ⟨ns, os⟩ := p
            rw [hy] at h
            simp only [Res.ok_bind, Res.ok.injEq] at h
            subst h
            obtain ⟨a1, a2⟩ := (hA _).1 hx
            obtain ⟨b1, b2, b3⟩ := (hN _ _).1 hy
            exact ⟨by omega, rfl, rfl, rfl, by show base < 2 ^ 16; omega, a1, a2, b1, b2, b3⟩
      · rintro ⟨-, h1, h2, h3, h4, h5, h6, h7, h8, h9⟩
        rw [h3] at h5
        have hx := (hA _).2 ⟨h5, h6⟩
        have hy := (hN _ _).2 ⟨h7, h8, h9⟩
        rw [hx]
        simp only [Res.ok_bind]
        rw [hy]
        simp only [Res.ok_bind, Res.ok.injEq]
        rw [← h1, ← h2, ← h3]
  · rw [if_neg hl]
    simp only [Res.err_bind, reduceCtorEq, false_iff]
    rintro ⟨h1, -⟩
    omega

theorem parse_no_panic (data : List UInt8) (va : Nat) : ExportTable.parse data va ≠ .panic := by
  unfold ExportTable.parse parseExportDir
  refine Res.bind_no_panic (Res.bind_no_panic (readRef_readBytesAt_no_panic _ _ _) fun _ _ => by simp) fun dir _ => ?_
  split
  · simp
  · refine Res.bind_no_panic ?_ fun _ _ => ?_
    · split
      · simp only
        split
        · simp
        · exact Res.bind_no_panic (bytesSliceAt_no_panic _ _ _ _) fun _ _ => by simp
      · simp
    · refine Res.bind_no_panic ?_ fun _ _ => by simp
      split
      · split
        · simp
        · exact Res.bind_no_panic (bytesSliceAt_no_panic _ _ _ _) fun _ _ => Res.bind_no_panic (bytesSliceAt_no_panic _ _ _ _) fun _ _ => by simp
      · simp

/-- What a parsed table guarantees. -/
structure WF (t : ExportTable) : Prop where
  va : t.virtualAddress < 2 ^ 32
  ords : t.ordinalBase + t.addresses.length ≤ 2 ^ 16
  base : t.ordinalBase < 2 ^ 16
  addr : ∀ a ∈ t.addresses, a < 2 ^ 32
  names : ∀ p ∈ t.names, p < 2 ^ 32
  len : t.names.length = t.nameOrdinals.length

theorem table_lt {data : List UInt8} {va w rva n : Nat} {xs : List Nat} (h : TableAt data va w rva n xs) (x : Nat) (hx : x ∈ xs) :
    x < 256 ^ w := by
  rcases h with ⟨-, rfl⟩ | ⟨-, off, -, -, rfl⟩
  · simp at hx
  · simp only [List.mem_map] at hx
    obtain ⟨i, -, rfl⟩ := hx
    exact Nat.lt_of_lt_of_le (rd_lt _ _) (Nat.pow_le_pow_right (by decide) (length_slice_le _ _ _))

theorem table_length {data : List UInt8} {va w rva n : Nat} {xs : List Nat} (h : TableAt data va w rva n xs) :
    xs.length = if rva = 0 then 0 else n := by
  rcases h with ⟨h0, rfl⟩ | ⟨h0, off, -, -, rfl⟩
  · simp [h0]
  · simp [h0]

theorem parse_wf {data : List UInt8} {va : Nat} (hva : va < 2 ^ 32) {t : ExportTable} (h : ExportTable.parse data va = .ok t) :
    WF t := by
  obtain ⟨h0, h1, h2, h3, h4, h5, h6, h7, h8, h9⟩ := (parse_iff data va hva t).1 h
  refine ⟨by rw [h2]; exact hva, ?_, h4, fun a ha => table_lt h6 a ha, fun a ha => table_lt h8 a ha, ?_⟩
  · rw [table_length h6]
    split
    · omega
    · exact h5 (by assumption)
  · rw [table_length h8, table_length h9]
    by_cases ha : field .little data 32 4 = 0
    · simp [ha]
    · rw [if_neg ha, if_neg ha, if_neg (h7 ha)]

/-! ### `exports` -/

theorem exportsLoop_iff (t : ExportTable) (hva : t.virtualAddress < 2 ^ 32) (i : Nat) (as : List Nat)
    (ha : ∀ a ∈ as, a < 2 ^ 32) (hi : t.ordinalBase + i + as.length ≤ 2 ^ 16) (es : List Export) :
    t.exportsLoop i as = .ok es ↔ es.length = as.length ∧ ∀ j : Nat, ∀ a, as[j]? = some a →
      ∃ x, TargetOf t.data t.virtualAddress a x ∧ es[j]? = some ⟨t.ordinalBase + (i + j), none, x⟩ := by
  induction as generalizing i es with
  | nil => simp [ExportTable.exportsLoop, eq_comm]
  | cons a as ih =>
    simp only [List.length_cons] at hi
    unfold ExportTable.exportsLoop
    rw [Nat.mod_eq_of_lt (by omega : i < U16), if_neg (by omega)]
    have hih := fun es => ih (i + 1) (fun b hb => ha b (by simp [hb])) (by omega) es
    constructor
    · intro h
      cases hx : t.targetFromAddress a with
      | err => rw [hx] at h; simp at h
      | panic => rw [hx] at h; simp at h
      | ok x =>
        rw [hx] at h
        simp only [Res.ok_bind] at h
        cases hr : t.exportsLoop (i + 1) as with
        | err => rw [hr] at h; simp at h
        | panic => rw [hr] at h; simp at h
        | ok es' =>
          rw [hr] at h
          simp only [Res.ok_bind, Res.ok.injEq] at h
          subst h
          obtain ⟨h1, h2⟩ := (hih _).1 hr
          refine ⟨by simp [h1], fun j b hb => ?_⟩
          cases j with
          | zero =>
            simp only [List.getElem?_cons_zero, Option.some.injEq] at hb
            subst hb
            exact ⟨x, (target_iff t a (ha a (by simp)) hva x).1 hx, by simp⟩
          | succ j =>
            rw [List.getElem?_cons_succ] at hb
            obtain ⟨y, h3, h4⟩ := h2 j b hb
            refine ⟨y, h3, ?_⟩
            rw [List.getElem?_cons_succ, h4]
            congr 2; omega
    · rintro ⟨h1, h2⟩
      cases es with
      | nil => simp at h1
      | cons e es =>
        obtain ⟨x, hx, he⟩ := h2 0 a (by simp)
        simp only [List.getElem?_cons_zero, Option.some.injEq, Nat.add_zero] at he
        subst he
        rw [(target_iff t a (ha a (by simp)) hva x).2 hx]
        simp only [Res.ok_bind]
        rw [(hih es).2 ⟨by simpa using h1, fun j b hb => by
          obtain ⟨y, h3, h4⟩ := h2 (j + 1) b (by simpa using hb)
          refine ⟨y, h3, ?_⟩
          rw [List.getElem?_cons_succ] at h4
          rw [h4]; congr 2; omega⟩]
        rfl

theorem exportsLoop_no_panic (t : ExportTable) (i : Nat) (as : List Nat) (hi : t.ordinalBase + i + as.length ≤ 2 ^ 16) :
    t.exportsLoop i as ≠ .panic := by
  induction as generalizing i with
  | nil => simp [ExportTable.exportsLoop]
  | cons a as ih =>
    simp only [List.length_cons] at hi
    unfold ExportTable.exportsLoop
    rw [Nat.mod_eq_of_lt (by omega : i < U16), if_neg (by omega)]
    exact Res.bind_no_panic (target_no_panic t a) fun _ _ => Res.bind_no_panic (ih _ (by omega)) fun _ _ => by simp

/-- Set the names. -/
def setNames : List (Nat × List UInt8) → List Export → List Export
  | [], es => es
  | (i, n) :: rest, es => setNames rest (es.modify i fun e => { e with name := some n })

theorem modify_set {α : Type} {es : List α} {i : Nat} {e : α} (h : es[i]? = some e) (f : α → α) : es.modify i f = es.set i (f e) := by
  apply List.ext_getElem?
  intro j
  rw [List.getElem?_modify, List.getElem?_set]
  by_cases hj : i = j
  · subst hj
    have hl : i < es.length := by
      rcases Nat.lt_or_ge i es.length with hl | hl
      · exact hl
      · rw [List.getElem?_eq_none hl] at h; simp at h
    rw [h]; simp [hl]
  · simp [hj]

theorem namesLoop_iff (t : ExportTable) (hva : t.virtualAddress < 2 ^ 32) (ps : List (Nat × Nat)) (hp : ∀ p ∈ ps, p.1 < 2 ^ 32)
    (es xs : List Export) :
    t.namesLoop ps es = .ok xs ↔ ∃ ns : List (List UInt8), ns.length = ps.length ∧
      (∀ j : Nat, ∀ p n, ps[j]? = some p → ns[j]? = some n → NameAt t.data t.virtualAddress p.1 n ∧ p.2 < es.length) ∧
      xs = setNames ((ps.map (·.2)).zip ns) es := by
  induction ps generalizing es xs with
  | nil =>
    simp only [ExportTable.namesLoop, Res.ok.injEq, List.length_nil, List.length_eq_zero_iff]
    constructor
    · rintro rfl; exact ⟨[], rfl, by simp, rfl⟩
    · rintro ⟨ns, rfl, -, rfl⟩; rfl
  | cons q ps ih =>
    obtain ⟨p, i⟩ := q
    unfold ExportTable.namesLoop
    have hp0 : p < 2 ^ 32 := hp (p, i) (by simp)
    have hih := fun es => ih (fun q hq => hp q (by simp [hq])) es
    constructor
    · intro h
      cases hn : t.nameFromPointer p with
      | err => rw [hn] at h; simp at h
      | panic => rw [hn] at h; simp at h
      | ok n =>
        rw [hn] at h
        simp only [Res.ok_bind] at h
        cases he : es[i]? with
        | none => rw [he] at h; simp at h
        | some e =>
          rw [he] at h
          simp only at h
          obtain ⟨ns, h1, h2, h3⟩ := (hih _ _).1 h
          have hlt : i < es.length := by
            rcases Nat.lt_or_ge i es.length with hl | hl
            · exact hl
            · rw [List.getElem?_eq_none hl] at he; simp at he
          refine ⟨n :: ns, by simp [h1], fun j q m hq hm => ?_, ?_⟩
          · cases j with
            | zero =>
              simp only [List.getElem?_cons_zero, Option.some.injEq] at hq hm
              subst hq hm
              exact ⟨(nameFromPointer_iff t p hp0 hva _).1 hn, hlt⟩
            | succ j =>
              rw [List.getElem?_cons_succ] at hq hm
              have := h2 j q m hq hm
              rwa [List.length_set] at this
          · rw [h3]
            simp only [List.map_cons, List.zip_cons_cons, setNames]
            congr 1
            exact (modify_set he fun e : Export => { e with name := some n }).symm
    · rintro ⟨ns, h1, h2, h3⟩
      cases ns with
      | nil => simp at h1
      | cons n ns =>
        obtain ⟨h4, h5⟩ := h2 0 (p, i) n (by simp) (by simp)
        rw [(nameFromPointer_iff t p hp0 hva _).2 h4]
        simp only [Res.ok_bind]
        rw [List.getElem?_eq_getElem h5]
        simp only
        refine (hih _ _).2 ⟨ns, by simpa using h1, fun j q m hq hm => ?_, ?_⟩
        · rw [List.length_set]
          exact h2 (j + 1) q m (by simpa using hq) (by simpa using hm)
        · rw [h3]
          simp only [List.map_cons, List.zip_cons_cons, setNames]
          congr 1
          exact modify_set (List.getElem?_eq_getElem h5) _

theorem namesLoop_no_panic (t : ExportTable) (ps : List (Nat × Nat)) (es : List Export) : t.namesLoop ps es ≠ .panic := by
  induction ps generalizing es with
  | nil => simp [ExportTable.namesLoop]
  | cons q ps ih =>
    obtain ⟨p, i⟩ := q
    unfold ExportTable.namesLoop
    refine Res.bind_no_panic (readStringAt_no_panic _ _) fun _ _ => ?_
    split
    · simp
    · exact ih _

theorem setNames_get (l : List (Nat × List UInt8)) (es : List Export) (i : Nat) :
    (setNames l es)[i]? = es[i]?.map fun e =>
      { e with name := match (l.filter fun p => p.1 = i).getLast? with | some p => some p.2 | none => e.name } := by
  induction l generalizing es with
  | nil => simp [setNames]
  | cons q l ih =>
    obtain ⟨k, n⟩ := q
    unfold setNames
    rw [ih, List.getElem?_modify]
    cases he : es[i]? with
    | none => simp
    | some e =>
      simp only [Option.map_some]
      by_cases hk : k = i
      · subst hk
        simp only [if_true, List.filter_cons, decide_true]
        rw [List.getLast?_cons]
        cases (List.filter (fun p => decide (p.fst = k)) l).getLast? <;> simp
      · simp [hk]

theorem setNames_length (l : List (Nat × List UInt8)) (es : List Export) : (setNames l es).length = es.length := by
  induction l generalizing es with
  | nil => rfl
  | cons q l ih => obtain ⟨k, n⟩ := q; rw [setNames, ih]; simp

/-- Slices of structures at a fixed offset. -/
theorem readSliceAt_iff (data : List UInt8) (o w n : Nat) (hn : n * w < U64) (l : List (List UInt8)) :
    Elf.readSliceAt data o w n = .ok l ↔
      (n * w = 0 ∨ o + w * n ≤ data.length) ∧ l = (List.range n).map fun i => slice data (o + w * i) w := by
  have hch : Bytes.chunks w n (slice data o (n * w)) = (List.range n).map fun i => slice data (o + w * i) w := by
    apply List.ext_getElem?
    intro i
    rcases Nat.lt_or_ge i n with h | h
    · rw [chunks_get _ _ _ _ h, List.getElem?_map, List.getElem?_range h]
      simp only [Option.map_some]
      have h1 : w * (i + 1) ≤ w * n := Nat.mul_le_mul_left _ h
      rw [Nat.mul_succ] at h1
      rw [slice_slice _ _ _ _ _ (by rw [Nat.mul_comm n w]; exact h1)]
    · rw [chunks_none _ _ _ _ h, List.getElem?_eq_none (by simpa using h)]
  unfold Elf.readSliceAt ReadRef.readSlice ReadRef.readBytes
  rw [readRef_readBytesAt_eq, if_neg (by omega), Nat.mul_comm w n]
  by_cases h2 : n * w = 0 ∨ o + n * w ≤ data.length
  · rw [if_pos h2]
    simp only [Res.ok.injEq]
    rw [hch]
    exact ⟨fun h => ⟨h2, h.symm⟩, fun h => h.2.symm⟩
  · rw [if_neg h2]
    simp [h2]

/-! ### The export iterator -/

/-- `exportItem` without the `Option`. -/
def item (ib : Nat) (t : ExportTable) (a o : Nat) (n : NameOrOrdinal) : Res GExport :=
  (t.targetFromAddress a).bind fun x => .ok ⟨n, absolute ib x, o⟩

theorem exportItem_eq (ib : Nat) (t : ExportTable) (a o : Nat) (n : NameOrOrdinal) :
    exportItem ib t a o n = (item ib t a o n).bind fun x => .ok (some x) := by
  unfold exportItem item
  cases t.targetFromAddress a with
  | err => rfl
  | panic => rfl
  | ok x => cases x <;> rfl

theorem item_no_panic (ib : Nat) (t : ExportTable) (a o : Nat) (n : NameOrOrdinal) : item ib t a o n ≠ .panic :=
  Res.bind_no_panic (target_no_panic t a) fun _ _ => by simp

theorem item_iff (ib : Nat) (t : ExportTable) (hva : t.virtualAddress < 2 ^ 32) (a o : Nat) (ha : a < 2 ^ 32) (n : NameOrOrdinal)
    (e : GExport) : item ib t a o n = .ok e ↔ ∃ x, TargetOf t.data t.virtualAddress a x ∧ e = ⟨n, absolute ib x, o⟩ := by
  unfold item
  constructor
  · intro h
    cases hx : t.targetFromAddress a with
    | err => rw [hx] at h; simp at h
    | panic => rw [hx] at h; simp at h
    | ok x =>
      rw [hx] at h
      simp only [Res.ok_bind, Res.ok.injEq] at h
      exact ⟨x, (target_iff t a ha hva x).1 hx, h.symm⟩
  · rintro ⟨x, hx, rfl⟩
    rw [(target_iff t a ha hva x).2 hx]; rfl

theorem ordinalFromIndex_eq {t : ExportTable} (wf : WF t) (i : Nat) :
    t.ordinalFromIndex i = if i < t.addresses.length then .ok (t.ordinalBase + i) else .err := by
  unfold ExportTable.ordinalFromIndex
  have := wf.ords
  by_cases h : i < t.addresses.length
  · rw [if_neg (by omega), if_neg (by omega), if_pos h]
  · rw [if_pos (by omega), if_neg h]

/-- The result for a name. -/
def named (ib : Nat) (t : ExportTable) (q : Nat × Nat) : Res GExport :=
  (t.addressByIndex q.2).bind fun a =>
    (t.ordinalFromIndex q.2).bind fun o => (t.nameFromPointer q.1).bind fun n => item ib t a o (.name n)

theorem named_spec {t : ExportTable} (wf : WF t) (ib p i : Nat) (hp : p < 2 ^ 32) : NamedItem t ib p i (named ib t (p, i)) := by
  unfold NamedItem named ExportTable.addressByIndex
  rw [ordinalFromIndex_eq wf]
  cases ha : t.addresses[i]? with
  | none => simp
  | some a =>
    have hi : i < t.addresses.length := by
      rcases Nat.lt_or_ge i t.addresses.length with hl | hl
      · exact hl
      · rw [List.getElem?_eq_none hl] at ha; simp at ha
    have ha32 := wf.addr a (List.mem_of_getElem? ha)
    rw [if_pos hi, Res.ofOption_some, Res.ok_bind, Res.ok_bind]
    refine ⟨Res.bind_no_panic (readStringAt_no_panic _ _) fun _ _ => item_no_panic _ _ _ _ _, fun e => ?_⟩
    constructor
    · intro h
      cases hn : t.nameFromPointer p with
      | err => rw [hn] at h; simp at h
      | panic => rw [hn] at h; simp at h
      | ok n =>
        rw [hn] at h
        rw [Res.ok_bind] at h
        obtain ⟨x, hx, he⟩ := (item_iff ib t wf.va a _ ha32 _ e).1 h
        exact ⟨a, n, x, rfl, (nameFromPointer_iff t p hp wf.va n).1 hn, hx, he⟩
    · rintro ⟨a', n, x, h1, h2, h3, h4⟩
      obtain rfl := Option.some.inj h1
      rw [(nameFromPointer_iff t p hp wf.va n).2 h2]
      rw [Res.ok_bind]
      exact (item_iff ib t wf.va a _ ha32 _ e).2 ⟨x, h3, h4⟩

theorem Drains.step {σ α : Type} {next : σ → Res (Option α) × σ} {s s' : σ} {r : Res α} {xs : List (Res α)} (hp : r ≠ .panic)
    (h : next s = (r.bind fun x => .ok (some x), s')) (hr : Drains next s' xs) : Drains next s (r :: xs) := by
  cases r with
  | panic => exact absurd rfl hp
  | err => exact .err h hr
  | ok x => exact .item h hr

theorem addressLoop_index (it : ExportIter) (t : ExportTable) (k i : Nat) (l : List Nat) :
    ExportIter.addressLoop { it with index := k } t i l = it.addressLoop t i l := by
  induction l generalizing i with
  | nil => rfl
  | cons a l ih =>
    unfold ExportIter.addressLoop
    cases it.seen[i]? with
    | none => rfl
    | some b =>
      simp only
      split
      · exact ih _
      · rfl

/-- The unnamed addresses. -/
def unnamed (sn : List Bool) : Nat → List Nat → List Nat
  | _, [] => []
  | i, a :: l => if sn[i]? = some true ∨ a = 0 then unnamed sn (i + 1) l else i :: unnamed sn (i + 1) l

theorem unnamed_mem (sn : List Bool) (i : Nat) (l : List Nat) (k : Nat) :
    k ∈ unnamed sn i l ↔ i ≤ k ∧ ∃ a, l[k - i]? = some a ∧ a ≠ 0 ∧ sn[k]? ≠ some true := by
  induction l generalizing i with
  | nil => simp [unnamed]
  | cons a l ih =>
    unfold unnamed
    have key : (i ≤ k ∧ ∃ b, (a :: l)[k - i]? = some b ∧ b ≠ 0 ∧ sn[k]? ≠ some true) ↔
        (k = i ∧ a ≠ 0 ∧ sn[i]? ≠ some true) ∨ k ∈ unnamed sn (i + 1) l := by
      rw [ih]
      constructor
      · rintro ⟨h1, b, h2, h3, h4⟩
        rcases Nat.eq_or_lt_of_le h1 with rfl | h
        · rw [Nat.sub_self] at h2
          simp only [List.getElem?_cons_zero, Option.some.injEq] at h2
          subst h2
          exact .inl ⟨rfl, h3, h4⟩
        · rw [show k - i = k - (i + 1) + 1 by omega, List.getElem?_cons_succ] at h2
          exact .inr ⟨h, b, h2, h3, h4⟩
      · rintro (⟨rfl, h2, h3⟩ | ⟨h1, b, h2, h3, h4⟩)
        · exact ⟨Nat.le_refl _, a, by simp, h2, h3⟩
        · exact ⟨by omega, b, by rw [show k - i = k - (i + 1) + 1 by omega, List.getElem?_cons_succ]; exact h2, h3, h4⟩
    rw [key]
    split
    · rename_i h
      constructor
      · exact .inr
      · rintro (⟨-, h1, h2⟩ | h1)
        · rcases h with h | h
          · exact absurd h h2
          · exact absurd h h1
        · exact h1
    · rename_i h
      rw [List.mem_cons]
      constructor
      · rintro (rfl | h1)
        · exact .inl ⟨rfl, fun h2 => h (.inr h2), fun h2 => h (.inl h2)⟩
        · exact .inr h1
      · rintro (⟨rfl, -⟩ | h1)
        · exact .inl rfl
        · exact .inr h1

theorem unnamed_sorted (sn : List Bool) (i : Nat) (l : List Nat) : (unnamed sn i l).Pairwise (· < ·) := by
  induction l generalizing i with
  | nil => simp [unnamed]
  | cons a l ih =>
    unfold unnamed
    split
    · exact ih _
    · refine List.pairwise_cons.2 ⟨fun k hk => ?_, ih _⟩
      have := ((unnamed_mem ..).1 hk).1
      omega

/-- The result for an unnamed address. -/
def unnamedRes (ib : Nat) (t : ExportTable) (i : Nat) : Res GExport :=
  (t.addressByIndex i).bind fun a => item ib t a (t.ordinalBase + i) (.ordinal (t.ordinalBase + i))

theorem unnamed_spec {t : ExportTable} (wf : WF t) (ib i a : Nat) (ha : t.addresses[i]? = some a) :
    UnnamedItem t ib i a (unnamedRes ib t i) := by
  unfold UnnamedItem unnamedRes ExportTable.addressByIndex
  rw [ha, Res.ofOption_some, Res.ok_bind]
  exact ⟨item_no_panic _ _ _ _ _, fun e => item_iff ib t wf.va a _ (wf.addr a (List.mem_of_getElem? ha)) _ e⟩

theorem drains_addresses {t : ExportTable} (wf : WF t) (ib : Nat) (sn : List Bool) (hs : sn.length = t.addresses.length) (i : Nat)
    (l : List Nat) (hl : t.addresses.drop i = l) :
    Drains ExportIter.next ⟨ib, some t, i, true, sn⟩ ((unnamed sn i l).map (unnamedRes ib t)) := by
  induction l generalizing i with
  | nil =>
    refine .done (s' := ⟨ib, some t, i, true, sn⟩) ?_
    show ExportIter.addressLoop ⟨ib, some t, i, true, sn⟩ t i (t.addresses.drop i) = _
    rw [hl]; rfl
  | cons a l ih =>
    have hd : t.addresses.drop (i + 1) = l := by
      rw [Nat.add_comm, Nat.add_comm 1 i, ← List.drop_drop, hl]; rfl
    have ha : t.addresses[i]? = some a := by
      rw [show i = i + 0 by rfl, ← List.getElem?_drop, hl]; rfl
    have hi : i < t.addresses.length := by
      rcases Nat.lt_or_ge i t.addresses.length with h | h
      · exact h
      · rw [List.getElem?_eq_none h] at ha; simp at ha
    have hn : ExportIter.next ⟨ib, some t, i, true, sn⟩ = ExportIter.addressLoop ⟨ib, some t, i, true, sn⟩ t i (a :: l) := by
      show ExportIter.addressLoop ⟨ib, some t, i, true, sn⟩ t i (t.addresses.drop i) = _
      rw [hl]
    unfold unnamed
    obtain ⟨b, hb⟩ : ∃ b, sn[i]? = some b := ⟨sn[i], List.getElem?_eq_getElem (by omega)⟩
    by_cases hc : sn[i]? = some true ∨ a = 0
    · rw [if_pos hc]
      refine Drains.congr ?_ (ih (i + 1) hd)
      rw [hn]
      unfold ExportIter.addressLoop
      have hc' : b = true ∨ a = 0 := by
        rcases hc with h | h
        · rw [hb] at h; exact .inl (Option.some.inj h)
        · exact .inr h
      show (match sn[i]? with | none => _ | some seen => _) = _
      rw [hb]
      simp only
      rw [if_pos hc', ← addressLoop_index _ t (i + 1)]
      show _ = ExportIter.addressLoop ⟨ib, some t, i + 1, true, sn⟩ t (i + 1) (t.addresses.drop (i + 1))
      rw [hd]
    · rw [if_neg hc, List.map_cons]
      refine Drains.step (s' := ⟨ib, some t, i + 1, true, sn⟩) (unnamed_spec wf ib i a ha).1 ?_ (ih (i + 1) hd)
      rw [hn]
      unfold ExportIter.addressLoop
      have hc' : ¬ (b = true ∨ a = 0) := by
        rintro (h | h)
        · exact hc (.inl (by rw [hb, h]))
        · exact hc (.inr h)
      show (match sn[i]? with | none => _ | some seen => _) = _
      rw [hb]
      simp only
      have hw := wf.ords
      rw [if_neg hc', Nat.mod_eq_of_lt (by omega : i < U16), ordinalFromIndex_eq wf, if_pos hi]
      rw [Res.ok_bind]
      rw [exportItem_eq]
      unfold unnamedRes ExportTable.addressByIndex
      rw [ha]
      rw [Res.ofOption_some, Res.ok_bind]

/-- The set of seen indices. -/
def mark (sn : List Bool) : List Nat → List Bool
  | [] => sn
  | i :: l => mark (if i < sn.length then sn.set i true else sn) l

theorem mark_length (sn : List Bool) (l : List Nat) : (mark sn l).length = sn.length := by
  induction l generalizing sn with
  | nil => rfl
  | cons i l ih => unfold mark; rw [ih]; split <;> simp

theorem mark_get (sn : List Bool) (l : List Nat) (k : Nat) :
    (mark sn l)[k]? = some true ↔ sn[k]? = some true ∨ (k < sn.length ∧ k ∈ l) := by
  induction l generalizing sn with
  | nil => simp [mark]
  | cons i l ih =>
    unfold mark
    rw [ih]
    by_cases hi : i < sn.length
    · rw [if_pos hi, List.length_set, List.getElem?_set, List.mem_cons]
      by_cases hk : i = k
      · subst hk; simp [hi]
      · rw [if_neg hk]
        constructor
        · rintro (h | ⟨h1, h2⟩)
          · exact .inl h
          · exact .inr ⟨h1, .inr h2⟩
        · rintro (h | ⟨h1, rfl | h2⟩)
          · exact .inl h
          · exact absurd rfl hk
          · exact .inr ⟨h1, h2⟩
    · rw [if_neg hi, List.mem_cons]
      constructor
      · rintro (h | ⟨h1, h2⟩)
        · exact .inl h
        · exact .inr ⟨h1, .inr h2⟩
      · rintro (h | ⟨h1, rfl | h2⟩)
        · exact .inl h
        · omega
        · exact .inr ⟨h1, h2⟩

theorem bind_assoc' {α β γ : Type} (r : Res α) (f : α → Res β) (g : β → Res γ) : (r.bind f).bind g = r.bind fun x => (f x).bind g := by
  cases r <;> rfl

theorem named_bind (ib : Nat) (t : ExportTable) (p o : Nat) :
    ((named ib t (p, o)).bind fun x => .ok (some x)) = (t.addressByIndex o).bind fun address =>
          (t.ordinalFromIndex o).bind fun ordinal =>
          (t.nameFromPointer p).bind fun name => exportItem ib t address ordinal (.name name) := by
  unfold named
  rw [bind_assoc']
  apply congrArg (Res.bind _)
  funext a
  rw [bind_assoc']
  apply congrArg (Res.bind _)
  funext o'
  rw [bind_assoc']
  apply congrArg (Res.bind _)
  funext n
  exact (exportItem_eq _ _ _ _ _).symm

theorem drains_names {t : ExportTable} (wf : WF t) (ib : Nat) (sn : List Bool) (hs : sn.length = t.addresses.length) (j : Nat)
    (ps os : List Nat) (hp : t.names.drop j = ps) (ho : t.nameOrdinals.drop j = os) :
    Drains ExportIter.next ⟨ib, some t, j, false, sn⟩
      ((ps.zip os).map (named ib t) ++ (unnamed (mark sn os) 0 t.addresses).map (unnamedRes ib t)) := by
  have hlen : ps.length = os.length := by rw [← hp, ← ho, List.length_drop, List.length_drop, wf.len]
  induction ps generalizing j os sn with
  | nil =>
    have : os = [] := by cases os with
      | nil => rfl
      | cons => simp at hlen
    subst this
    have hn : t.names[j]? = none := by
      rw [show j = j + 0 by rfl, ← List.getElem?_drop, hp]; rfl
    refine Drains.congr ?_ (drains_addresses wf ib sn hs 0 t.addresses (by simp))
    unfold ExportIter.next
    simp only
    rw [hn]
    rfl
  | cons p ps ih =>
    cases os with
    | nil => simp at hlen
    | cons o os =>
      have hn : t.names[j]? = some p := by
        rw [show j = j + 0 by rfl, ← List.getElem?_drop, hp]; rfl
      have hno : t.nameOrdinals[j]? = some o := by
        rw [show j = j + 0 by rfl, ← List.getElem?_drop, ho]; rfl
      have hp' : t.names.drop (j + 1) = ps := by
        rw [← List.drop_drop, hp]; rfl
      have ho' : t.nameOrdinals.drop (j + 1) = os := by
        rw [← List.drop_drop, ho]; rfl
      have hih := ih (if o < sn.length then sn.set o true else sn) (by split <;> simp [hs]) (j + 1) os hp' ho' (by simpa using hlen)
      refine Drains.step (s' := ⟨ib, some t, j + 1, false, if o < sn.length then sn.set o true else sn⟩)
        (named_spec wf ib p o (wf.names p (List.mem_of_getElem? hn))).1 ?_ hih
      unfold ExportIter.next
      simp only
      rw [hn, hno]
      simp only [if_true]
      rw [named_bind]

end Obj.Pe

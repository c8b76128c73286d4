import Verif.Proof.StrTab

/-! # C09, C10, C44: the writer's string table -/

namespace Obj.Props
open Obj Obj.Spec Obj.StrTab

/-- C09: add any strings to a new table, in any order and with any duplicates, and write the table after
`pre` (the bytes the caller already put at the start of the table, e.g. the NUL of an ELF table).  If
the write succeeds, the returned size is the length of the whole table, and for every added string the
table reports an offset at which the reader finds exactly that string.

The side condition is needed: a table holding only the empty string emits nothing, and relies on `pre`
ending with a NUL. -/
theorem C09_string_table_round_trip (pre : List UInt8) (ss : List (List UInt8)) (size : Nat)
    (t' : StrTab) (out : List UInt8) (hcount : ss.length ≤ 2 ^ 32)
    (hE : (∃ s ∈ ss, s ≠ []) ∨ pre.getLast? = some 0)
    (hw : StrTab.write (addAll StrTab.new ss) pre.length = (.ok size, t', out)) :
    size = (pre ++ out).length ∧ size < 2 ^ 32 ∧
    ∀ s ∈ ss, ∃ id off, StrTab.getId t' s = .ok id ∧ StrTab.getOffset t' id = .ok off ∧
      stringTableGet (some (pre ++ out)) 0 size off = .ok s := by
  obtain ⟨a1, a2, a3, a4, a5, a6⟩ := addAll_strings ss StrTab.new (by simp [StrTab.new])
  have hmem : ∀ s, s ∈ (addAll StrTab.new ss).strings ↔ s ∈ ss := by intro s; rw [a3]; simp [StrTab.new]
  have hnul : ∀ s ∈ ss, (0 : UInt8) ∉ s := by
    apply Classical.byContradiction
    intro h
    rw [write_nul _ _ h] at hw
    simp at hw
  obtain ⟨offsets, out', h1, h2, h3, h4⟩ := write_merge_aux pre ss hnul
    (by rcases hE with h | h; exact Or.inl h; exact Or.inr (Or.inl h))
  rw [hw] at h1
  simp only [Prod.mk.injEq] at h1
  obtain ⟨hr, rfl, rfl⟩ := h1
  split at hr
  · rename_i hlt
    simp only [Res.ok.injEq] at hr
    subst hr
    refine ⟨by simp, by omega, ?_⟩
    intro s hs
    obtain ⟨i, hi⟩ := indexOf_isSome ((hmem s).2 hs)
    have hget := indexOf_some hi
    obtain ⟨p, hp, ho⟩ := h3 i s hget
    have hil : i < (addAll StrTab.new ss).strings.length := by
      apply Nat.lt_of_not_le; intro h'; rw [List.getElem?_eq_none h'] at hget; simp at hget
    have hi32 : i % U32 = i := by
      have h0 : StrTab.new.strings.length = 0 := rfl
      rw [h0] at a6; apply Nat.mod_eq_of_lt; omega
    have hp32 : p % U32 = p := by
      have := stringAt_lt hp; simp at this; apply Nat.mod_eq_of_lt; omega
    refine ⟨i, p, ?_, ?_, ?_⟩
    · simp only [StrTab.getId, hi, hi32]
    · simp only [StrTab.getOffset, ho, hp32]
    · have := get_of_stringAt hp (hnul s hs) (by simp; omega)
      simpa using this
  · simp at hr

/-- C09: the write succeeds whenever no string contains a NUL and the resulting table is below 4 GiB; it
reports an error (and does not panic) if a string contains a NUL or the table is too big. -/
theorem C09_write_result (pre : List UInt8) (ss : List (List UInt8))
    (hE : (∃ s ∈ ss, s ≠ []) ∨ pre.getLast? = some 0 ∨ ss = []) :
    let r := StrTab.write (addAll StrTab.new ss) pre.length
    (r.1 = .ok (pre.length + r.2.2.length) ↔
      (∀ s ∈ ss, (0 : UInt8) ∉ s) ∧ pre.length + r.2.2.length < 2 ^ 32) ∧ r.1 ≠ .panic := by
  obtain ⟨a1, a2, a3, a4, a5, a6⟩ := addAll_strings ss StrTab.new (by simp [StrTab.new])
  have hmem : ∀ s, s ∈ (addAll StrTab.new ss).strings ↔ s ∈ ss := by intro s; rw [a3]; simp [StrTab.new]
  by_cases hnul : ∀ s ∈ ss, (0 : UInt8) ∉ s
  · obtain ⟨offsets, out, h1, h2, h3, h4⟩ := write_merge_aux pre ss hnul hE
    simp only [h1]
    constructor
    · constructor
      · intro h
        split at h
        · exact ⟨hnul, by omega⟩
        · simp at h
      · rintro ⟨_, h⟩
        rw [if_pos (by omega)]
    · split <;> simp
  · have hr := write_nul pre.length ss hnul
    simp only [hr]
    refine ⟨⟨by simp, ?_⟩, by simp⟩
    rintro ⟨h, _⟩; exact absurd h hnul

/-- C09: a table may be written once only: a second write of a non-empty table is an error. -/
theorem C09_second_write_rejected (t t' : StrTab) (base base' size : Nat) (out : List UInt8)
    (hm : t.inOrder = false) (hne : t.strings ≠ [])
    (h : StrTab.write t base = (.ok size, t', out)) : (StrTab.write t' base').1 = .err := by
  have key : t'.inOrder = false ∧ t'.offsets ≠ [] := by
    unfold StrTab.write at h
    rw [hm] at h
    split at h
    · simp at h
    · split at h
      · simp at h
      · rename_i hnul
        simp only [Bool.false_eq_true, if_false] at h
        have hnul' : ∀ s ∈ t.strings, (0 : UInt8) ∉ s := by
          intro s hs h0
          apply hnul; rw [List.any_eq_true]; exact ⟨s, hs, by simpa using h0⟩
        obtain ⟨ids, hsort, hperm, hpw⟩ := sort_all t.strings hnul'
        rw [hsort] at h
        simp only at h
        have hlen : ids.length = t.strings.length := by simpa using hperm.length_eq
        have hpos : 0 < t.strings.length := List.length_pos_iff.2 hne
        -- the loop keeps the length of the offsets
        have hkeep : ∀ (todo : List Nat) (st r : List Nat × Nat × List UInt8 × List UInt8),
            writeLoop t.strings todo st = .ok r → r.1.length = st.1.length := by
          intro todo
          induction todo with
          | nil => intro st r h; simp [writeLoop] at h; subst h; rfl
          | cons id todo ih =>
            rintro ⟨o1, o2, o3, o4⟩ r h
            simp only [writeLoop, writeStep] at h
            match hs : t.strings[id]? with
            | none => simp [hs] at h
            | some s =>
              simp only [hs] at h
              by_cases hsuf : s.isSuffixOf o3
              · simp only [if_pos hsuf] at h
                split at h
                · simp at h
                · split at h
                  · simp at h
                  · simp only [Res.ok_bind] at h
                    have := ih _ _ h; simpa using this
              · simp only [if_neg hsuf] at h
                split at h
                · simp at h
                · simp only [Res.ok_bind] at h
                  have := ih _ _ h; simpa using this
        match hl : writeLoop t.strings ids (List.replicate ids.length 0, base, [], []) with
        | .ok (o1, o2, o3, o4) =>
          have := hkeep _ _ _ hl
          simp at this
          rw [hl] at h
          simp only at h
          split at h <;>
          · simp only [Prod.mk.injEq] at h
            obtain ⟨_, rfl, _⟩ := h
            refine ⟨rfl, ?_⟩
            intro h0; simp at h0; subst h0; simp at this; omega
        | .err => rw [hl] at h; simp at h
        | .panic => rw [hl] at h; simp at h
  unfold StrTab.write
  have : t'.offsets.isEmpty = false := by cases h : t'.offsets with
    | nil => exact absurd h key.2
    | cons _ _ => rfl
  rw [key.1, this]
  simp

/-- C09: the in-order table (used for COFF): every string can be read back at its offset, in the bytes
written after `pre`, provided the write succeeds. -/
theorem C09_in_order_round_trip (pre : List UInt8) (ss : List (List UInt8)) (size : Nat)
    (t' : StrTab) (out : List UInt8) (hcount : ss.length ≤ 2 ^ 32)
    (hw : StrTab.write (addAll (StrTab.newInOrder pre.length) ss) pre.length = (.ok size, t', out)) :
    size = (pre ++ out).length ∧ size < 2 ^ 32 ∧
    ∀ s ∈ ss, ∃ id off, StrTab.getId t' s = .ok id ∧ StrTab.getOffset t' id = .ok off ∧
      StrTab.getOffset (addAll (StrTab.newInOrder pre.length) ss) id = .ok off ∧
      stringTableGet (some (pre ++ out)) 0 size off = .ok s := by
  obtain ⟨a1, a2, a3, a4, a5, a6⟩ := addAll_strings ss (StrTab.newInOrder pre.length) (by simp [StrTab.newInOrder])
  have hinv := (InOrderInv.new pre.length).addAll (ss := ss)
  have hmem : ∀ s, s ∈ (addAll (StrTab.newInOrder pre.length) ss).strings ↔ s ∈ ss := by
    intro s; rw [a3]; simp [StrTab.newInOrder]
  have hbase : (addAll (StrTab.newInOrder pre.length) ss).base = pre.length := a5
  unfold StrTab.write at hw
  rw [hinv.inOrder] at hw
  simp only [Bool.not_true, Bool.false_and, Bool.false_eq_true, if_false, if_true, hbase, ne_eq,
    not_true_eq_false] at hw
  split at hw
  · simp at hw
  · rename_i hnul
    have hnul' : ∀ s ∈ ss, (0 : UInt8) ∉ s := by
      intro s hs h0
      apply hnul; rw [List.any_eq_true]; exact ⟨s, (hmem s).2 hs, by simpa using h0⟩
    split at hw
    · rename_i hlt
      simp only [Prod.mk.injEq, Res.ok.injEq] at hw
      obtain ⟨rfl, rfl, rfl⟩ := hw
      have hsz := hinv.size
      rw [hbase] at hsz
      have hlen : (addAll (StrTab.newInOrder pre.length) ss).size
          = (pre ++ ((addAll (StrTab.newInOrder pre.length) ss).strings.map fun s => s ++ [0]).flatten).length := by
        rw [List.length_append, flatten_stored_length, hsz]
      refine ⟨hlen, by omega, ?_⟩
      intro s hs
      obtain ⟨i, hi⟩ := indexOf_isSome ((hmem s).2 hs)
      have hget := indexOf_some hi
      have hil : i < (addAll (StrTab.newInOrder pre.length) ss).strings.length := by
        apply Nat.lt_of_not_le; intro h'; rw [List.getElem?_eq_none h'] at hget; simp at hget
      have hat := inOrder_at _ pre i s hget
      have ho := hinv.off i hil
      rw [hbase] at ho
      have hi32 : i % U32 = i := by
        have h0 : (StrTab.newInOrder pre.length).strings.length = 0 := rfl
        rw [h0] at a6; apply Nat.mod_eq_of_lt; omega
      have hplt := stringAt_lt hat
      rw [← hlen] at hplt
      rw [Nat.mod_eq_of_lt (by omega)] at ho
      refine ⟨i, pre.length + storedSize ((addAll (StrTab.newInOrder pre.length) ss).strings.take i), ?_, ?_, ?_, ?_⟩
      · simp only [StrTab.getId, hi, hi32]
      · simp only [StrTab.getOffset, ho]
      · simp only [StrTab.getOffset, ho]
      · rw [hlen]
        exact get_of_stringAt hat (hnul' s hs) (by rw [← hlen]; omega)
    · simp at hw

-- the example of the crate's unit test: "", "foo", "bar", "foobar" after an initial NUL
example : (StrTab.write (addAll StrTab.new [[], [102,111,111], [98,97,114], [102,111,111,98,97,114]])
    [(0 : UInt8)].length).1 = .ok 12 := by
  obtain ⟨offsets, out, h1, h2, h3, h4⟩ := write_merge_aux [0]
    [[], [102,111,111], [98,97,114], [102,111,111,98,97,114]] (by decide) (Or.inr (Or.inl rfl))
  have h5 : out.length = 11 := by rw [h4]; decide
  rw [h1]; simp [h5]

/-- C10: the size computed in advance is the size returned by the write, i.e. the caller's base plus the
bytes emitted. -/
theorem C10_size_eq_written (pre : List UInt8) (ss : List (List UInt8)) (size : Nat)
    (t' : StrTab) (out : List UInt8)
    (hE : (∃ s ∈ ss, s ≠ []) ∨ pre.getLast? = some 0 ∨ ss = [])
    (hw : StrTab.write (addAll StrTab.new ss) pre.length = (.ok size, t', out)) :
    StrTab.sizeOf (addAll StrTab.new ss) pre.length = .ok size ∧ size = pre.length + out.length := by
  have hres := C09_write_result pre ss hE
  rw [hw] at hres
  by_cases hnul : ∀ s ∈ ss, (0 : UInt8) ∉ s
  · obtain ⟨offsets, out', h1, h2, h3, h4⟩ := write_merge_aux pre ss hnul hE
    rw [hw] at h1
    simp only [Prod.mk.injEq] at h1
    obtain ⟨hr, rfl, rfl⟩ := h1
    split at hr
    · simp only [Res.ok.injEq] at hr
      exact ⟨by rw [h2, hr], hr⟩
    · simp at hr
  · rw [write_nul _ _ hnul] at hw
    simp at hw

/-- C10: after any additions, the id handed out for a string keeps identifying exactly that string
whatever is added later; equal strings get equal ids and different strings different ids. -/
theorem C10_ids (before after : List (List UInt8)) (s : List UInt8) (t0 : StrTab)
    (h0 : t0 = StrTab.new ∨ ∃ b, t0 = StrTab.newInOrder b)
    (hcount : before.length + 1 + after.length ≤ 2 ^ 32) :
    let t := addAll t0 before
    let final := addAll (t.add s).2 after
    StrTab.getId final s = .ok (t.add s).1 ∧ StrTab.getString final (t.add s).1 = .ok s ∧
    ∀ u ∈ before ++ s :: after, StrTab.getId final u = .ok (t.add s).1 ↔ u = s := by
  intro t final
  have hs0 : t0.strings = [] := by rcases h0 with rfl | ⟨b, rfl⟩ <;> rfl
  obtain ⟨a1, a2, a3, a4, a5, a6⟩ := addAll_strings before t0 (by simp [hs0])
  obtain ⟨b1, b2, b3, b4, b5, b6⟩ := addAll_strings [s] t a1
  obtain ⟨c1, c2, c3, c4, c5, c6⟩ := addAll_strings after (t.add s).2 b1
  obtain ⟨i, hi, hid⟩ := add_id t s
  have hi' : indexOf s final.strings = some i := indexOf_prefix c2 hi
  have hget := indexOf_some hi'
  have hcnt : final.strings.length ≤ 2 ^ 32 := by
    have h1 : (addAll t [s]).strings.length = (t.add s).2.strings.length := rfl
    simp [hs0] at a6 b6
    rw [h1] at b6
    have h2 : t.strings.length ≤ before.length := a6
    have : final.strings.length ≤ _ := c6
    omega
  have hlt : ∀ {u : List UInt8} {j : Nat}, final.strings[j]? = some u → j % U32 = j := by
    intro u j h
    have : j < final.strings.length := by
      apply Nat.lt_of_not_le; intro h'; rw [List.getElem?_eq_none h'] at h; simp at h
    apply Nat.mod_eq_of_lt; omega
  have hi32 := hlt hget
  refine ⟨?_, ?_, ?_⟩
  · simp only [StrTab.getId, hi', hid]
  · simp only [StrTab.getString, hid, hi32, hget]
  · intro u hu
    constructor
    · intro h
      have hum : u ∈ final.strings := by
        rw [c3]
        simp only [List.mem_append, List.mem_cons] at hu
        rcases hu with hu | rfl | hu
        · exact Or.inl ((b3 u).2 (Or.inl ((a3 u).2 (Or.inr hu))))
        · exact Or.inl ((b3 u).2 (Or.inr (by simp)))
        · exact Or.inr hu
      obtain ⟨j, hj⟩ := indexOf_isSome hum
      simp only [StrTab.getId, hj, Res.ok.injEq, hid] at h
      have hjg := indexOf_some hj
      rw [hlt hjg, hi32] at h
      subst h
      rw [hjg] at hget
      simpa using hget
    · rintro rfl
      simp only [StrTab.getId, hi', hid]

example : (addAll StrTab.new [[1], [2], [1]]).strings = [[1], [2]] ∧
    (StrTab.add (addAll StrTab.new [[1], [2]]) [1]).1 = 0 := by decide

/-- C44: suffix sharing is optimal for shared suffixes: the bytes emitted are exactly those of the
strings that are not a proper suffix of another added string (each once, with its terminator). -/
theorem C44_suffix_sharing (pre : List UInt8) (ss : List (List UInt8))
    (hnul : ∀ s ∈ ss, (0 : UInt8) ∉ s)
    (hE : (∃ s ∈ ss, s ≠ []) ∨ pre.getLast? = some 0 ∨ ss = []) :
    ∃ distinct : List (List UInt8), distinct.Nodup ∧ (∀ s, s ∈ distinct ↔ s ∈ ss) ∧
      (StrTab.write (addAll StrTab.new ss) pre.length).2.2.length
        = storedSize (distinct.filter fun s => decide (Maximal ss s)) := by
  obtain ⟨a1, a2, a3, a4, a5, a6⟩ := addAll_strings ss StrTab.new (by simp [StrTab.new])
  have hmem : ∀ s, s ∈ (addAll StrTab.new ss).strings ↔ s ∈ ss := by intro s; rw [a3]; simp [StrTab.new]
  obtain ⟨offsets, out, h1, h2, h3, h4⟩ := write_merge_aux pre ss hnul hE
  refine ⟨(addAll StrTab.new ss).strings, a1, hmem, ?_⟩
  rw [h1]
  simp only
  rw [h4]
  congr 1
  apply List.filter_congr
  intro s _
  simp only [Maximal, hmem]

example : Maximal [[102,111,111], [98,97,114], [102,111,111,98,97,114]] [102,111,111,98,97,114] ∧
    ¬ Maximal [[102,111,111], [98,97,114], [102,111,111,98,97,114]] [98,97,114] := by decide

/-- The side condition of C09 is necessary: with base 0 and only the empty string, the debug build
panics (the release build stores a wrapped offset). -/
theorem C09_only_empty_string_base0 :
    (StrTab.write (addAll StrTab.new [[]]) 0).1 = .panic := by
  simp [StrTab.write, addAll, StrTab.new, StrTab.add, StrTab.indexOf, StrTab.sort, StrTab.sortFuel,
    StrTab.writeLoop, StrTab.writeStep]

end Obj.Props

import Verif.Spec.PeResource
import Verif.Proof.PeImport2

namespace Obj.Pe
open Obj Obj.Spec.Pe

theorem refRead_ok {data : List UInt8} {o n : Nat} (hn : 0 < n) (h : o + n ≤ data.length) :
    ReadRef.read data o n = (.ok (slice data o n), (o + n) % U64) := by
  unfold ReadRef.read ReadRef.readBytes
  rw [readRef_readBytesAt_pos hn, if_pos h]

theorem refRead_err {data : List UInt8} {o n : Nat} (hn : 0 < n) (h : ¬ o + n ≤ data.length) :
    ReadRef.read data o n = (.err, o) := by
  unfold ReadRef.read ReadRef.readBytes
  rw [readRef_readBytesAt_pos hn, if_neg h]

theorem readSlice_iff (data : List UInt8) (o w n : Nat) (hn : n * w < U64) (ho : o ≤ data.length) :
    (ReadRef.readSlice data o w n).1 = if o + w * n ≤ data.length then .ok ((List.range n).map fun i => slice data (o + w * i) w)
      else .err := by
  have h := readSliceAt_iff data o w n hn
  have hnp := readSliceAt_no_panic data o w n
  have e : Elf.readSliceAt data o w n = (ReadRef.readSlice data o w n).1 := rfl
  rw [← e]
  by_cases hl : o + w * n ≤ data.length
  · rw [if_pos hl]
    exact (h _).2 ⟨.inr hl, rfl⟩
  · rw [if_neg hl]
    cases hc : Elf.readSliceAt data o w n with
    | err => rfl
    | panic => exact absurd hc hnp
    | ok l =>
      rcases ((h l).1 hc).1 with h0 | h0
      · rw [Nat.mul_comm] at h0; omega
      · exact absurd h0 hl

theorem fieldAt {data : List UInt8} (o n b w : Nat) (h : b + w ≤ n) : field .little (slice data o n) b w = rd .little (slice data (o + b) w) := by
  have := slice_slice data o n b w h
  exact congrArg (rd .little) this

theorem u16_lt (d : List UInt8) (o : Nat) : u16At d o < 2 ^ 16 := field_lt .little d o 2

theorem resTable_iff (data : List UInt8) (o : Nat) (ho : o < 2 ^ 32) (t : ResTable) :
    ResTable.parse data o = .ok t ↔ ResTableAt data o t := by
  unfold ResTable.parse ResTableAt
  by_cases h : o + 16 ≤ data.length
  · rw [refRead_ok (by decide) h]
    simp only
    have hm : (o + 16) % U64 = o + 16 := Nat.mod_eq_of_lt (by show _ < 2 ^ 64; omega)
    rw [hm]
    have hh : ResHeader.parse (slice data o 16) = ⟨u32At data o, u32At data (o + 4), u16At data (o + 8), u16At data (o + 10),
        u16At data (o + 12), u16At data (o + 14)⟩ := by
      unfold ResHeader.parse u32At u16At
      rw [fieldAt _ _ _ _ (by decide), fieldAt _ _ _ _ (by decide), fieldAt _ _ _ _ (by decide), fieldAt _ _ _ _ (by decide),
        fieldAt _ _ _ _ (by decide), fieldAt _ _ _ _ (by decide)]
      rfl
    rw [hh]
    simp only
    have hn : u16At data (o + 14) + u16At data (o + 12) = u16At data (o + 12) + u16At data (o + 14) := Nat.add_comm _ _
    rw [hn]
    have l1 := u16_lt data (o + 12)
    have l2 := u16_lt data (o + 14)
    generalize hcnt : u16At data (o + 12) + u16At data (o + 14) = n
    have hs := readSlice_iff data (o + 16) 8 n (by show _ < 2 ^ 64; omega) h
    cases hr : ReadRef.readSlice data (o + 16) 8 n with
    | mk r o' =>
      rw [hr] at hs
      simp only at hs
      rw [hs]
      by_cases hl : o + 16 + 8 * n ≤ data.length
      · rw [if_pos hl]
        simp only [Res.ok.injEq]
        have he : ((List.range n).map fun i => slice data (o + 16 + 8 * i) 8).map ResEntry.parse =
            (List.range n).map fun i => ⟨u32At data (o + 16 + 8 * i), u32At data (o + 20 + 8 * i)⟩ := by
          rw [List.map_map]
          apply List.map_congr_left
          intro i _
          show ResEntry.parse (slice data (o + 16 + 8 * i) 8) = _
          unfold ResEntry.parse u32At
          have e20 : o + 16 + 8 * i + 4 = o + 20 + 8 * i := by omega
          rw [fieldAt _ _ _ _ (by decide), fieldAt _ _ _ _ (by decide), e20, Nat.add_zero]
        rw [he]
        constructor
        · rintro rfl; exact ⟨hl, rfl, rfl⟩
        · rintro ⟨-, h2, h3⟩
          obtain ⟨a, b⟩ := t
          simp only at h2 h3
          rw [h2, h3]
      · rw [if_neg hl]
        simp only [reduceCtorEq, false_iff]
        rintro ⟨h2, -⟩
        exact hl h2
  · rw [refRead_err (by decide) h]
    simp only [reduceCtorEq, false_iff]
    rintro ⟨h2, -⟩
    omega

theorem resTable_no_panic (data : List UInt8) (o : Nat) : ResTable.parse data o ≠ .panic := by
  unfold ResTable.parse
  by_cases h : o + 16 ≤ data.length
  · rw [refRead_ok (by decide) h]
    simp only
    generalize (o + 16) % U64 = o'
    generalize (ResHeader.parse (slice data o 16)).numberOfIdEntries + _ = n
    have hnp : (ReadRef.readSlice data o' 8 n).1 ≠ .panic := readSliceAt_no_panic data o' 8 n
    cases hr : ReadRef.readSlice data o' 8 n with
    | mk r o'' =>
      rw [hr] at hnp
      cases r with
      | panic => exact absurd rfl hnp
      | ok => simp
      | err => simp
  · rw [refRead_err (by decide) h]
    simp

theorem high_bit (v : Nat) (hv : v < 2 ^ 32) : (v &&& 0x80000000 ≠ 0 ↔ 2 ^ 31 ≤ v) ∧ v &&& 0x7fffffff = v % 2 ^ 31 :=
  ⟨and_bit_ne v 31 hv, Nat.and_two_pow_sub_one_eq_mod v 31⟩

theorem resEntry_iff (e : ResEntry) (he : e.offsetToDataOrDirectory < 2 ^ 32) (data : List UInt8) (x : ResNode) :
    e.data data = .ok x ↔ ResNodeOf data e.offsetToDataOrDirectory x := by
  obtain ⟨h1, h2⟩ := high_bit _ he
  unfold ResEntry.data ResEntry.isTable ResEntry.dataOffset
  rw [h2]
  generalize e.offsetToDataOrDirectory = v at *
  by_cases hb : 2 ^ 31 ≤ v
  · rw [if_pos (by rw [decide_eq_true_eq]; exact h1.2 hb)]
    have hm : v % 2 ^ 31 = v - 2 ^ 31 := by omega
    rw [hm]
    constructor
    · intro h
      cases hp : ResTable.parse data (v - 2 ^ 31) with
      | err => rw [hp] at h; simp at h
      | panic => rw [hp] at h; simp at h
      | ok t =>
        rw [hp, Res.ok_bind, Res.ok.injEq] at h
        rw [← h]
        exact .table hb ((resTable_iff _ _ (by omega) _).1 hp)
    · intro h
      cases h with
      | table _ ht => rw [(resTable_iff _ _ (by omega) _).2 ht, Res.ok_bind]
      | data hlt => omega
  · rw [if_neg (by rw [decide_eq_true_eq]; exact fun h => hb (h1.1 h))]
    have hm : v % 2 ^ 31 = v := by omega
    rw [hm, readRef_readBytesAt_pos (by decide)]
    by_cases hl : v + 16 ≤ data.length
    · rw [if_pos hl, Res.ok_bind, Res.ok.injEq]
      have hd : ResData.parse (slice data v 16) = ⟨u32At data v, u32At data (v + 4), u32At data (v + 8), u32At data (v + 12)⟩ := by
        unfold ResData.parse u32At
        rw [fieldAt _ _ _ _ (by decide), fieldAt _ _ _ _ (by decide), fieldAt _ _ _ _ (by decide), fieldAt _ _ _ _ (by decide)]
        rfl
      rw [hd]
      constructor
      · rintro rfl; exact .data (by omega) hl
      · intro h
        cases h with
        | table hge => exact absurd hge hb
        | data => rfl
    · rw [if_neg hl]
      simp only [Res.err_bind, reduceCtorEq, false_iff]
      intro h
      cases h with
      | table hge => exact absurd hge hb
      | data _ h => exact hl h

theorem resEntry_no_panic (e : ResEntry) (data : List UInt8) : e.data data ≠ .panic := by
  unfold ResEntry.data
  split
  · exact Res.bind_no_panic (resTable_no_panic _ _) fun _ _ => by simp
  · exact Res.bind_no_panic (readRef_readBytesAt_no_panic _ _ _) fun _ _ => by simp

/-- The units of a name, before decoding. -/
def nameUnits (offset : Nat) (dir : List UInt8) : Res (List (List UInt8)) :=
  match ReadRef.read dir offset 2 with
  | (.ok l, offset) => (ReadRef.readSlice dir offset 2 (rd .little l)).1
  | (.err, _) => .err
  | (.panic, _) => .panic

theorem resNameData_eq (o : Nat) (dir : List UInt8) : resNameData o dir = (nameUnits o dir).bind fun us => .ok (us.map (rd .little)) := by
  unfold resNameData nameUnits
  cases ReadRef.read dir o 2 with
  | mk r o' =>
    cases r with
    | err => rfl
    | panic => rfl
    | ok l =>
      simp only
      cases ReadRef.readSlice dir o' 2 (rd .little l) with
      | mk r o'' => cases r <;> rfl

theorem resNameRaw_eq (o : Nat) (dir : List UInt8) : resNameRaw o dir = (nameUnits o dir).bind fun us => .ok us.flatten := by
  unfold resNameRaw nameUnits
  cases ReadRef.read dir o 2 with
  | mk r o' =>
    cases r with
    | err => rfl
    | panic => rfl
    | ok l =>
      simp only
      cases ReadRef.readSlice dir o' 2 (rd .little l) with
      | mk r o'' => cases r <;> rfl

theorem nameUnits_eq (o : Nat) (ho : o < 2 ^ 32) (dir : List UInt8) :
    nameUnits o dir = if o + 2 + 2 * u16At dir o ≤ dir.length then
      .ok ((List.range (u16At dir o)).map fun i => slice dir (o + 2 + 2 * i) 2) else .err := by
  unfold nameUnits
  by_cases h : o + 2 ≤ dir.length
  · rw [refRead_ok (by decide) h]
    simp only
    have hm : (o + 2) % U64 = o + 2 := Nat.mod_eq_of_lt (by show _ < 2 ^ 64; omega)
    rw [hm]
    have hu := u16_lt dir o
    exact readSlice_iff dir (o + 2) 2 _ (by show u16At dir o * 2 < 2 ^ 64; omega) h
  · rw [refRead_err (by decide) h, if_neg (by omega)]

theorem slice_two (d : List UInt8) (o : Nat) (n : Nat) (h : o + 2 * n ≤ d.length) :
    ((List.range n).map fun i => slice d (o + 2 * i) 2).flatten = slice d o (2 * n) := by
  induction n with
  | zero => simp [slice]
  | succ n ih =>
    rw [List.range_succ, List.map_append, List.flatten_append, ih (by omega)]
    simp only [List.map_cons, List.map_nil, List.flatten_cons, List.flatten_nil, List.append_nil]
    unfold slice
    have : 2 * (n + 1) = 2 * n + 2 := by omega
    rw [this, List.take_add, List.drop_drop]

/-! ### UTF-16 -/

theorem surrogate_iff (u : Nat) (h : u < 2 ^ 16) : u &&& 0xf800 = 0xd800 ↔ 0xd800 ≤ u ∧ u < 0xe000 := by
  have e : u &&& 0xf800 = u - u % 2 ^ 11 := by
    have h1 : u &&& 0xf800 = 2 ^ 11 * (u / 2 ^ 11 % 2 ^ 5) := by
      apply Nat.eq_of_testBit_eq
      intro i
      rw [Nat.testBit_and, Nat.testBit_two_pow_mul]
      have : (0xf800 : Nat) = 2 ^ 11 * (2 ^ 5 - 1) := by decide
      rw [this, Nat.testBit_two_pow_mul, Nat.testBit_two_pow_sub_one, Nat.testBit_mod_two_pow, Nat.testBit_div_two_pow]
      by_cases hi : 11 ≤ i
      · have : i - 11 + 11 = i := by omega
        rw [this]
        simp [hi, Bool.and_comm]
      · simp [hi]
    rw [h1]
    omega
  rw [e]
  omega

theorem pair_eq (u v : Nat) : (((u &&& 0x3ff) <<< 10) ||| (v &&& 0x3ff)) + 0x10000 = u % 1024 * 1024 + v % 1024 + 0x10000 := by
  have h1 : u &&& 0x3ff = u % 2 ^ 10 := Nat.and_two_pow_sub_one_eq_mod u 10
  have h2 : v &&& 0x3ff = v % 2 ^ 10 := Nat.and_two_pow_sub_one_eq_mod v 10
  rw [h1, h2, ← Nat.shiftLeft_add_eq_or_of_lt (Nat.mod_lt _ (by decide)), Nat.shiftLeft_eq]

theorem decode_char (c : Nat) (us : List Nat) (hc : Scalar c) : decodeUtf16 (utf16 c ++ us) = c :: decodeUtf16 us := by
  unfold Scalar at hc
  unfold utf16
  by_cases h : c < 0x10000
  · rw [if_pos h]
    show decodeUtf16 (c :: us) = _
    rw [decodeUtf16.eq_def]
    simp only
    rw [if_pos (by rw [Ne, surrogate_iff c h]; omega)]
  · rw [if_neg h]
    show decodeUtf16 ((0xd800 + (c - 0x10000) / 0x400) :: (0xdc00 + (c - 0x10000) % 0x400) :: us) = _
    generalize hu : 0xd800 + (c - 0x10000) / 0x400 = u
    generalize hv : 0xdc00 + (c - 0x10000) % 0x400 = v
    rw [decodeUtf16, if_neg (by rw [Ne, surrogate_iff u (by omega)]; omega), if_neg (by omega), if_neg (by omega), pair_eq]
    have e1 : u % 1024 * 1024 + v % 1024 + 0x10000 = c := by omega
    rw [e1]

theorem lossy_decode {us cs : List Nat} (h : Lossy us cs) (hu : ∀ u ∈ us, u < 2 ^ 16) : decodeUtf16 us = cs := by
  induction h with
  | nil => rw [decodeUtf16]
  | @char c us cs hc _ ih =>
    rw [decode_char c us hc, ih fun u h => hu u (List.mem_append_right _ h)]
  | @lone u us cs hn _ ih =>
    have ih := ih fun u h => hu u (List.mem_cons_of_mem _ h)
    have h16 := hu u (List.mem_cons_self ..)
    have hs : u &&& 0xf800 = 0xd800 := by
      rw [surrogate_iff u h16]
      refine Classical.byContradiction fun hc => ?_
      refine hn u us (by unfold Scalar; omega) ?_
      unfold utf16
      rw [if_pos (by omega)]
      rfl
    have hs' := (surrogate_iff u h16).1 hs
    rw [decodeUtf16.eq_def]
    simp only
    rw [if_neg (by rw [Ne, hs]; simp)]
    by_cases hd : 0xdc00 ≤ u
    · rw [if_pos hd, ih]
    · rw [if_neg hd]
      cases us with
      | nil =>
        rw [decodeUtf16] at ih
        rw [← ih]
      | cons v rest =>
        simp only
        by_cases hv : v < 0xdc00 ∨ 0xdfff < v
        · rw [if_pos hv, ih]
        · exfalso
          refine hn ((u - 0xd800) * 0x400 + (v - 0xdc00) + 0x10000) rest (by unfold Scalar; omega) ?_
          unfold utf16
          rw [if_neg (by omega)]
          have e1 : 0xd800 + ((u - 0xd800) * 0x400 + (v - 0xdc00) + 0x10000 - 0x10000) / 0x400 = u := by omega
          have e2 : 0xdc00 + ((u - 0xd800) * 0x400 + (v - 0xdc00) + 0x10000 - 0x10000) % 0x400 = v := by omega
          rw [e1, e2]
          rfl

theorem decode_lossy (us : List Nat) (hu : ∀ u ∈ us, u < 2 ^ 16) : Lossy us (decodeUtf16 us) := by
  generalize hn : us.length = n
  induction n using Nat.strongRecOn generalizing us with
  | ind n ih =>
    cases us with
    | nil => rw [decodeUtf16]; exact .nil
    | cons u us =>
      have h16 := hu u (List.mem_cons_self ..)
      have htl : ∀ u ∈ us, u < 2 ^ 16 := fun u h => hu u (List.mem_cons_of_mem _ h)
      have iht := ih us.length (by rw [← hn]; simp) us htl rfl
      rw [decodeUtf16.eq_def]
      simp only
      by_cases hs : u &&& 0xf800 = 0xd800
      · rw [if_neg (by rw [Ne, hs]; simp)]
        have hs' := (surrogate_iff u h16).1 hs
        have lone : (∀ v rest, us = v :: rest → ¬ (u < 0xdc00 ∧ 0xdc00 ≤ v ∧ v ≤ 0xdfff)) → ∀ c r, Scalar c → u :: us ≠ utf16 c ++ r := by
          intro hn c r hc he
          unfold Scalar at hc
          unfold utf16 at he
          split at he
          · simp only [List.cons_append, List.nil_append, List.cons.injEq] at he
            omega
          · simp only [List.cons_append, List.nil_append, List.cons.injEq] at he
            refine hn _ _ he.2 ?_
            omega
        by_cases hd : 0xdc00 ≤ u
        · rw [if_pos hd]
          exact .lone (lone fun _ _ _ h => by omega) iht
        · rw [if_neg hd]
          cases us with
          | nil =>
            rw [decodeUtf16] at iht
            exact .lone (lone fun _ _ h => by simp at h) iht
          | cons v rest =>
            simp only
            by_cases hv : v < 0xdc00 ∨ 0xdfff < v
            · rw [if_pos hv]
              refine .lone (lone fun v' rest' h => ?_) iht
              simp only [List.cons.injEq] at h
              omega
            · rw [if_neg hv, pair_eq]
              have hr := ih rest.length (by rw [← hn]; simp; omega) rest (fun u h => htl u (List.mem_cons_of_mem _ h)) rfl
              have hc : Scalar (u % 1024 * 1024 + v % 1024 + 0x10000) := by unfold Scalar; omega
              have := Lossy.char hc hr
              have he : utf16 (u % 1024 * 1024 + v % 1024 + 0x10000) ++ rest = u :: v :: rest := by
                unfold utf16
                rw [if_neg (by omega)]
                have e1 : 0xd800 + (u % 1024 * 1024 + v % 1024 + 0x10000 - 0x10000) / 0x400 = u := by omega
                have e2 : 0xdc00 + (u % 1024 * 1024 + v % 1024 + 0x10000 - 0x10000) % 0x400 = v := by omega
                rw [e1, e2]
                rfl
              rw [he] at this
              exact this
      · rw [if_pos hs]
        have hns : ¬ (0xd800 ≤ u ∧ u < 0xe000) := fun h => hs ((surrogate_iff u h16).2 h)
        have hc : Scalar u := by unfold Scalar; omega
        have := Lossy.char hc iht
        have he : utf16 u ++ us = u :: us := by
          unfold utf16
          rw [if_pos (by omega)]
          rfl
        rw [he] at this
        exact this

end Obj.Pe

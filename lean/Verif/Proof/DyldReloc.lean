import Verif.Proof.DyldCache
import Verif.Proof.MachoFixup

/-! # Helper lemmas about the dyld cache: slide info and pointers -/

namespace Obj.Dyld
open Obj Obj.Spec.Dyld
open Obj.Spec.Fixup (and1 and3 and8 and16 bit bit_bne bne_bit bit_lt authBits AuthOk authBits_authOf authOf_ok authBits_lt authOf_eq bne_decide)
open Obj.Elf (readSliceAt)
open Obj.Fixup (authOf Auth)

/-! ## Slide info -/

theorem u16s_iff (en : Endianness) (data : List UInt8) (base off count : Nat) (hc : count < 2 ^ 32) (l : List Nat) :
    readU16s en data base off count = .ok l ↔ U16sIn en data (base + off) count l := by
  have hn : count * 2 < U64 := by simp only [Nat.reducePow] at *; omega
  unfold readU16s U16sIn TableIn
  by_cases h : base + off < U64
  rotate_left
  · rw [if_neg h]
    exact ⟨fun h => (by cases h), fun h' => absurd h'.1 h⟩
  rw [if_pos h, Res.bind_eq_ok]
  have hz : count * 2 = 0 ↔ count = 0 := by omega
  constructor
  · rintro ⟨imgs, h1, h2⟩
    rw [Pe.readSliceAt_iff data _ 2 count hn, hz] at h1
    obtain ⟨h3, rfl⟩ := h1
    injection h2 with h2
    subst h2
    exact ⟨h, h3, by simp [List.map_map, Function.comp_def, field, slice]⟩
  · rintro ⟨-, h1, rfl⟩
    refine ⟨(List.range count).map fun i => slice data (base + off + 2 * i) 2, ?_, ?_⟩
    · rw [Pe.readSliceAt_iff data _ 2 count hn, hz]
      exact ⟨h1, rfl⟩
    · simp [List.map_map, Function.comp_def, field, slice]

theorem u16s_no_panic (en : Endianness) (data : List UInt8) (base off count : Nat) : readU16s en data base off count ≠ .panic := by
  unfold readU16s
  split
  · exact Res.bind_no_panic (readSliceAt_no_panic _ _ _ _) (fun _ _ => by simp)
  · simp

theorem readAt_eq (data : List UInt8) (o n : Nat) (hn : 0 < n) :
    ReadRef.readBytesAt data o n = if o + n ≤ data.length then .ok (slice data o n) else .err := readRef_readBytesAt_pos hn

theorem slide_no_panic (m : Mapping) (en : Endianness) (data : List UInt8) : m.slideInfo en data ≠ .panic := by
  unfold Mapping.slideInfo
  split
  · simp
  split
  · simp
  refine Res.bind_no_panic (readRef_readBytesAt_no_panic _ _ _) fun v _ => ?_
  split
  · exact Res.bind_no_panic (readRef_readBytesAt_no_panic _ _ _) fun _ _ => Res.bind_no_panic (u16s_no_panic _ _ _ _ _) fun _ _ =>
      Res.bind_no_panic (u16s_no_panic _ _ _ _ _) fun _ _ => by simp
  split
  · exact Res.bind_no_panic (readRef_readBytesAt_no_panic _ _ _) fun _ _ => Res.bind_no_panic (u16s_no_panic _ _ _ _ _) fun _ _ => by simp
  split
  · exact Res.bind_no_panic (readRef_readBytesAt_no_panic _ _ _) fun _ _ => Res.bind_no_panic (u16s_no_panic _ _ _ _ _) fun _ _ => by simp
  · simp

theorem slide_iff (m : Mapping) (en : Endianness) (data : List UInt8) (s : Slide) : m.slideInfo en data = .ok s ↔ SlideIn en data m.slide s := by
  unfold Mapping.slideInfo
  generalize m.slide = ms
  cases ms with
  | none =>
    simp only []
    constructor
    · intro h; injection h with h; subst h; exact .old
    · intro h; cases h; rfl
  | some x =>
    obtain ⟨o, size⟩ := x
    simp only []
    by_cases hz : size = 0
    · subst hz
      rw [if_pos rfl]
      constructor
      · intro h; injection h with h; subst h; exact .empty
      · intro h
        cases h with
        | empty => rfl
        | v2 h => exact absurd rfl h
        | v3 h => exact absurd rfl h
        | v5 h => exact absurd rfl h
    rw [if_neg hz, readAt_eq _ _ _ (by omega), readAt_eq _ _ _ (by omega), readAt_eq _ _ _ (by omega)]
    by_cases h4 : o + 4 ≤ data.length
    rotate_left
    · rw [if_neg h4]
      refine ⟨fun h => (by cases h), fun h => ?_⟩
      cases h with
      | empty => exact absurd rfl hz
      | v2 _ h => omega
      | v3 _ h => omega
      | v5 _ h => omega
    rw [if_pos h4, Res.ok_bind]
    have ev : rd en (slice data o 4) = field en data o 4 := rfl
    rw [ev]
    by_cases e2 : field en data o 4 = 2
    · rw [if_pos e2]
      by_cases h40 : o + 40 ≤ data.length
      rotate_left
      · rw [if_neg h40]
        refine ⟨fun h => (by cases h), fun h => ?_⟩
        cases h with
        | empty => exact absurd rfl hz
        | v2 _ h => exact absurd h h40
        | v3 _ _ h => omega
        | v5 _ _ h => omega
      rw [if_pos h40, Res.ok_bind]
      simp only [fieldS en data o 40 8 4 (by omega), fieldS en data o 40 12 4 (by omega), fieldS en data o 40 16 4 (by omega),
        fieldS en data o 40 20 4 (by omega), fieldS en data o 40 4 4 (by omega), fieldS en data o 40 24 8 (by omega),
        fieldS en data o 40 32 8 (by omega), Res.bind_eq_ok, u16s_iff en data _ _ _ (field4_lt en data _)]
      constructor
      · rintro ⟨starts, h1, extras, h2, h3⟩
        injection h3 with h3
        subst h3
        exact .v2 hz h40 e2 h1 h2
      · intro h
        cases h with
        | empty => exact absurd rfl hz
        | v2 _ _ _ h1 h2 => exact ⟨_, h1, _, h2, rfl⟩
        | v3 _ _ h => omega
        | v5 _ _ h => omega
    rw [if_neg e2]
    by_cases e3 : field en data o 4 = 3
    · rw [if_pos e3]
      by_cases h24 : o + 24 ≤ data.length
      rotate_left
      · rw [if_neg h24]
        refine ⟨fun h => (by cases h), fun h => ?_⟩
        cases h with
        | empty => exact absurd rfl hz
        | v2 _ h => omega
        | v3 _ h => exact absurd h h24
        | v5 _ h => exact absurd h h24
      rw [if_pos h24, Res.ok_bind]
      simp only [fieldS en data o 24 8 4 (by omega), fieldS en data o 24 4 4 (by omega), fieldS en data o 24 16 8 (by omega),
        Res.bind_eq_ok, u16s_iff en data _ _ _ (field4_lt en data _)]
      constructor
      · rintro ⟨starts, h1, h3⟩
        injection h3 with h3
        subst h3
        exact .v3 hz h24 e3 h1
      · intro h
        cases h with
        | empty => exact absurd rfl hz
        | v2 _ _ h => omega
        | v3 _ _ _ h1 => exact ⟨_, h1, rfl⟩
        | v5 _ _ h => omega
    rw [if_neg e3]
    by_cases e5 : field en data o 4 = 5
    · rw [if_pos e5]
      by_cases h24 : o + 24 ≤ data.length
      rotate_left
      · rw [if_neg h24]
        refine ⟨fun h => (by cases h), fun h => ?_⟩
        cases h with
        | empty => exact absurd rfl hz
        | v2 _ h => omega
        | v3 _ h => exact absurd h h24
        | v5 _ h => exact absurd h h24
      rw [if_pos h24, Res.ok_bind]
      simp only [fieldS en data o 24 8 4 (by omega), fieldS en data o 24 4 4 (by omega), fieldS en data o 24 16 8 (by omega),
        Res.bind_eq_ok, u16s_iff en data _ _ _ (field4_lt en data _)]
      constructor
      · rintro ⟨starts, h1, h3⟩
        injection h3 with h3
        subst h3
        exact .v5 hz h24 e5 h1
      · intro h
        cases h with
        | empty => exact absurd rfl hz
        | v2 _ _ h => omega
        | v3 _ _ h => omega
        | v5 _ _ _ h1 => exact ⟨_, h1, rfl⟩
    rw [if_neg e5]
    refine ⟨fun h => (by cases h), fun h => ?_⟩
    cases h with
    | empty => exact absurd rfl hz
    | v2 _ _ h => exact absurd h e2
    | v3 _ _ h => exact absurd h e3
    | v5 _ _ h => exact absurd h e5

/-- The numbers in a table have 16 bits, and there are fewer than 2^32 of them. -/
theorem u16s_small {en : Endianness} {data : List UInt8} {off count : Nat} {l : List Nat} (h : U16sIn en data off count l) :
    l.length = count ∧ ∀ (i x : Nat), l[i]? = some x → x < 2 ^ 16 := by
  obtain ⟨-, -, rfl⟩ := h
  refine ⟨by simp, fun i x h => ?_⟩
  simp only [List.getElem?_map, Option.map_eq_some_iff] at h
  obtain ⟨j, -, rfl⟩ := h
  exact field_lt en data _ 2

/-! ## Pointers -/

theorem low_or_top' (t h : Nat) (ht : t < 2 ^ 56) : t ||| h * 2 ^ 56 = t + h * 2 ^ 56 := by
  have h1 := Nat.two_pow_add_eq_or_of_lt (i := 56) (b := t) ht h
  rw [Nat.mul_comm, Nat.or_comm, ← h1, Nat.add_comm]

theorem ptr3_eq (v add : Nat) : ptr3 v add = (v / 2 ^ 51 % 2 ^ 11,
    if v / 2 ^ 63 % 2 = 0 then (v % 2 ^ 43 + v / 2 ^ 43 % 2 ^ 8 * 2 ^ 56, none) else ((v % 2 ^ 32 + add) % 2 ^ 64, some (authOf v))) := by
  have h8 : v / 2 ^ 43 % 2 ^ 8 < 2 ^ 8 := Nat.mod_lt _ (by decide)
  have h43 : v % 2 ^ 43 < 2 ^ 43 := Nat.mod_lt _ (by decide)
  have e : ((v >>> 43 &&& 255) <<< 56) % U64 = v / 2 ^ 43 % 2 ^ 8 * 2 ^ 56 := by
    rw [and8, Nat.shiftLeft_eq, Nat.shiftRight_eq_div_pow]
    apply Nat.mod_eq_of_lt
    simp only [Nat.reducePow] at *
    omega
  unfold ptr3
  rw [e]
  simp only [Nat.and_two_pow_sub_one_eq_mod]
  rw [low_or_top' _ _ (by simp only [Nat.reducePow] at *; omega)]
  simp only [Nat.shiftRight_eq_div_pow, and1]
  by_cases h : v / 2 ^ 63 % 2 = 0
  · rw [if_neg (by simp [h]), if_pos h]
  · rw [if_pos ((bne_decide _).2 h), if_neg h]
    simp only [authOf, Nat.shiftRight_eq_div_pow, and1]

theorem ptr3_iff (add v n val : Nat) (a : Option Auth) (hv : v < 2 ^ 64) : Ptr3 add v n val a ↔ ptr3 v add = (n, val, a) := by
  rw [ptr3_eq]
  constructor
  · intro h
    cases h with
    | @plain target high8 next unused h1 h2 h3 h4 =>
      simp only [Nat.reducePow] at *
      rw [if_pos (by omega)]
      refine Prod.ext (by simp only []; omega) (Prod.ext (by simp only []; omega) rfl)
    | @auth off next unused a h1 h2 h3 h4 =>
      have h5 := authBits_lt a h2
      simp only [Nat.reducePow] at *
      rw [if_neg (by omega), authOf_eq _ a h2 (by omega)]
      refine Prod.ext (by simp only []; omega) (Prod.ext ?_ rfl)
      have : (off + authBits a + n * 2251799813685248 + unused * 4611686018427387904 + 9223372036854775808) % 4294967296 = off := by omega
      simp only [this]
  · intro h
    injection h with h1 h2
    have hn : v / 2 ^ 51 % 2 ^ 11 < 2 ^ 11 := Nat.mod_lt _ (by decide)
    by_cases ha : v / 2 ^ 63 % 2 = 0
    · rw [if_pos ha] at h2
      injection h2 with h2 h3
      subst h1 h2 h3
      have h := @Ptr3.plain add (v % 2 ^ 43) (v / 2 ^ 43 % 2 ^ 8) _ (v / 2 ^ 62 % 2) (Nat.mod_lt _ (by decide)) (Nat.mod_lt _ (by decide)) hn
        (Nat.mod_lt _ (by decide))
      have e : v % 2 ^ 43 + v / 2 ^ 43 % 2 ^ 8 * 2 ^ 43 + v / 2 ^ 51 % 2 ^ 11 * 2 ^ 51 + v / 2 ^ 62 % 2 * 2 ^ 62 = v := by
        simp only [Nat.reducePow] at *; omega
      rw [e] at h; exact h
    · rw [if_neg ha] at h2
      injection h2 with h2 h3
      subst h1 h2 h3
      have h := @Ptr3.auth add (v % 2 ^ 32) _ (v / 2 ^ 62 % 2) (authOf v) (Nat.mod_lt _ (by decide)) (authOf_ok v) hn (Nat.mod_lt _ (by decide))
      have e : v % 2 ^ 32 + authBits (authOf v) + v / 2 ^ 51 % 2 ^ 11 * 2 ^ 51 + v / 2 ^ 62 % 2 * 2 ^ 62 + 2 ^ 63 = v := by
        rw [authBits_authOf]; simp only [Nat.reducePow] at *; omega
      rw [e] at h; exact h

theorem and34 (x : Nat) : x &&& 0x3ffffffff = x % 2 ^ 34 := Nat.and_two_pow_sub_one_eq_mod x 34
theorem and11 (x : Nat) : x &&& 0x7ff = x % 2 ^ 11 := Nat.and_two_pow_sub_one_eq_mod x 11

theorem ptr5_eq (v add : Nat) : ptr5 v add = (v / 2 ^ 52 % 2 ^ 11,
    if v / 2 ^ 63 % 2 = 0 then ((v % 2 ^ 34 + add) % 2 ^ 64 ||| v / 2 ^ 34 % 2 ^ 8 * 2 ^ 56, none)
    else ((v % 2 ^ 34 + add) % 2 ^ 64, some ⟨if v / 2 ^ 51 % 2 != 0 then .da else .ia, v / 2 ^ 34 % 2 ^ 16, v / 2 ^ 50 % 2 != 0⟩)) := by
  have h8 : v / 2 ^ 34 % 2 ^ 8 < 2 ^ 8 := Nat.mod_lt _ (by decide)
  have e : ((v >>> 34 &&& 255) <<< 56) % U64 = v / 2 ^ 34 % 2 ^ 8 * 2 ^ 56 := by
    rw [and8, Nat.shiftLeft_eq, Nat.shiftRight_eq_div_pow]
    apply Nat.mod_eq_of_lt
    simp only [Nat.reducePow] at *
    omega
  unfold ptr5
  rw [e]
  simp only [Nat.shiftRight_eq_div_pow, and1, and16, and34, and11]
  by_cases h : v / 2 ^ 63 % 2 = 0
  · rw [if_neg (by simp [h]), if_pos h]
  · rw [if_pos ((bne_decide _).2 h), if_neg h]

theorem ptr5_iff (add v n val : Nat) (a : Option Auth) (hv : v < 2 ^ 64) : Ptr5 add v n val a ↔ ptr5 v add = (n, val, a) := by
  rw [ptr5_eq]
  constructor
  · intro h
    cases h with
    | @plain off high8 unused next h1 h2 h3 h4 =>
      simp only [Nat.reducePow] at *
      rw [if_pos (by omega)]
      have e1 : (off + high8 * 17179869184 + unused * 4398046511104 + n * 4503599627370496) % 17179869184 = off := by omega
      have e2 : (off + high8 * 17179869184 + unused * 4398046511104 + n * 4503599627370496) / 17179869184 % 256 = high8 := by omega
      rw [e1, e2]
      refine Prod.ext (by simp only []; omega) rfl
    | @auth off diversity next ad isd h1 h2 h3 =>
      have h4 := bit_lt ad
      have h5 := bit_lt isd
      have e5 := bne_bit isd
      have e4 := bne_bit ad
      generalize bit ad = x at *
      generalize bit isd = y at *
      simp only [Nat.reducePow] at *
      rw [if_neg (by omega)]
      have e1 : (off + diversity * 17179869184 + x * 1125899906842624 + y * 2251799813685248 + n * 4503599627370496 + 9223372036854775808) %
        17179869184 = off := by omega
      have e2 : (off + diversity * 17179869184 + x * 1125899906842624 + y * 2251799813685248 + n * 4503599627370496 + 9223372036854775808) /
        17179869184 % 65536 = diversity := by omega
      have e3 : (off + diversity * 17179869184 + x * 1125899906842624 + y * 2251799813685248 + n * 4503599627370496 + 9223372036854775808) /
        1125899906842624 % 2 = x := by omega
      have e6 : (off + diversity * 17179869184 + x * 1125899906842624 + y * 2251799813685248 + n * 4503599627370496 + 9223372036854775808) /
        2251799813685248 % 2 = y := by omega
      rw [e1, e2, e3, e6, e5, e4]
      refine Prod.ext (by simp only []; omega) rfl
  · intro h
    injection h with h1 h2
    have hn : v / 2 ^ 52 % 2 ^ 11 < 2 ^ 11 := Nat.mod_lt _ (by decide)
    by_cases ha : v / 2 ^ 63 % 2 = 0
    · rw [if_pos ha] at h2
      injection h2 with h2 h3
      subst h1 h2 h3
      have h := @Ptr5.plain add (v % 2 ^ 34) (v / 2 ^ 34 % 2 ^ 8) (v / 2 ^ 42 % 2 ^ 10) _ (Nat.mod_lt _ (by decide)) (Nat.mod_lt _ (by decide))
        (Nat.mod_lt _ (by decide)) hn
      have e : v % 2 ^ 34 + v / 2 ^ 34 % 2 ^ 8 * 2 ^ 34 + v / 2 ^ 42 % 2 ^ 10 * 2 ^ 42 + v / 2 ^ 52 % 2 ^ 11 * 2 ^ 52 = v := by
        simp only [Nat.reducePow] at *; omega
      rw [e] at h; exact h
    · rw [if_neg ha] at h2
      injection h2 with h2 h3
      subst h1 h2 h3
      have h := @Ptr5.auth add (v % 2 ^ 34) (v / 2 ^ 34 % 2 ^ 16) _ (v / 2 ^ 50 % 2 != 0) (v / 2 ^ 51 % 2 != 0) (Nat.mod_lt _ (by decide))
        (Nat.mod_lt _ (by decide)) hn
      have e : v % 2 ^ 34 + v / 2 ^ 34 % 2 ^ 16 * 2 ^ 34 + bit (v / 2 ^ 50 % 2 != 0) * 2 ^ 50 + bit (v / 2 ^ 51 % 2 != 0) * 2 ^ 51 +
          v / 2 ^ 52 % 2 ^ 11 * 2 ^ 52 + 2 ^ 63 = v := by
        rw [bit_bne _ (Nat.mod_lt _ (by decide)), bit_bne _ (Nat.mod_lt _ (by decide))]
        simp only [Nat.reducePow] at *; omega
      rw [e] at h; exact h

/-! ### Version 2 -/

theorem and_split (w : Nat) : ∀ (v m : Nat), v < 2 ^ w → m < 2 ^ w → (v &&& (2 ^ w - 1 - m)) + (v &&& m) = v := by
  induction w with
  | zero => intro v m hv hm; have e1 : v = 0 := by omega
            subst e1; simp
  | succ w ih =>
    intro v m hv hm
    have hp : 2 ^ (w + 1) = 2 * 2 ^ w := by rw [Nat.pow_succ]; omega
    have h := ih (v / 2) (m / 2) (by omega) (by omega)
    generalize hq : 2 ^ w = q at *
    rw [hp] at *
    have e : (2 * q - 1 - m) / 2 = q - 1 - m / 2 := by omega
    have e' : (2 * q - 1 - m) % 2 = 1 - m % 2 := by omega
    have k1 : ∀ a b : Nat, (a &&& b) = 2 * (a / 2 &&& b / 2) + (a % 2 &&& b % 2) := by
      intro a b
      have h1 : (a &&& b) / 2 = a / 2 &&& b / 2 := Nat.and_div_two
      have h2 := @Nat.and_mod_two_pow a b 1
      simp only [Nat.pow_one] at h2
      rw [← h1, ← h2]
      omega
    rw [k1 v (2 * q - 1 - m), k1 v m, e, e']
    have k2 : (v % 2 &&& (1 - m % 2)) + (v % 2 &&& m % 2) = v % 2 := by
      rcases (by omega : v % 2 = 0 ∨ v % 2 = 1) with h1 | h1 <;> rcases (by omega : m % 2 = 0 ∨ m % 2 = 1) with h2 | h2 <;> rw [h1, h2] <;> rfl
    omega

theorem testBit_low {m k : Nat} : m % 2 ^ (k + 1) = 2 ^ k ↔ m.testBit k = true ∧ ∀ j, j < k → m.testBit j = false := by
  constructor
  · intro h
    constructor
    · have : (m % 2 ^ (k + 1)).testBit k = true := by rw [h]; simp
      rw [Nat.testBit_mod_two_pow] at this
      simp only [Bool.and_eq_true] at this
      exact this.2
    · intro j hj
      have : (m % 2 ^ (k + 1)).testBit j = false := by
        rw [h, Nat.testBit_two_pow]
        simp; omega
      rw [Nat.testBit_mod_two_pow] at this
      simpa [show j < k + 1 by omega] using this
  · rintro ⟨h1, h2⟩
    apply Nat.eq_of_testBit_eq
    intro j
    rw [Nat.testBit_mod_two_pow, Nat.testBit_two_pow]
    by_cases hj : j < k
    · rw [h2 j hj]; simp; omega
    · by_cases hk : k = j
      · subst hk; simp [h1]
      · have : ¬ j < k + 1 := by omega
        simp [this, hk]

theorem tz_spec {m : Nat} (h0 : m ≠ 0) (hm : m < 2 ^ 64) : trailingZeros m < 64 ∧ m % 2 ^ (trailingZeros m + 1) = 2 ^ trailingZeros m := by
  rw [testBit_low]
  unfold trailingZeros
  cases hf : (List.range 64).find? (m.testBit ·) with
  | none =>
    rw [List.find?_eq_none] at hf
    refine absurd ?_ h0
    apply Nat.eq_of_testBit_eq
    intro j
    rw [Nat.zero_testBit]
    by_cases hj : j < 64
    · simpa using hf j (List.mem_range.2 hj)
    · exact Nat.testBit_lt_two_pow (Nat.lt_of_lt_of_le hm (Nat.pow_le_pow_right (by omega) (by omega)))
  | some k =>
    obtain ⟨h1, i, hi, h2, h3⟩ := List.find?_eq_some_iff_getElem.1 hf
    rw [List.length_range] at hi
    rw [List.getElem_range] at h2
    subst h2
    refine ⟨hi, h1, fun j hj => ?_⟩
    have := h3 j hj
    rw [List.getElem_range] at this
    simpa using this

theorem low_unique {m k k' : Nat} (h : m % 2 ^ (k + 1) = 2 ^ k) (h' : m % 2 ^ (k' + 1) = 2 ^ k') : k = k' := by
  obtain ⟨h1, h2⟩ := testBit_low.1 h
  obtain ⟨h3, h4⟩ := testBit_low.1 h'
  rcases Nat.lt_trichotomy k k' with hk | hk | hk
  · rw [h4 k hk] at h1; cases h1
  · exact hk
  · rw [h2 k' hk] at h3; cases h3

theorem ptr2_iff (mask v n raw : Nat) (h0 : mask ≠ 0) (hm : mask < 2 ^ 64) (hv : v < 2 ^ 64) :
    Ptr2 mask v n raw ↔ n = (v &&& mask) >>> trailingZeros mask ∧ raw = v &&& (U64 - 1 - mask) := by
  obtain ⟨-, ht⟩ := tz_spec h0 hm
  have hs := and_split 64 v mask hv hm
  have hd : (v &&& mask) % 2 ^ trailingZeros mask = 0 := by
    rw [Nat.and_mod_two_pow]
    have : mask % 2 ^ trailingZeros mask = 0 := by
      have h1 : mask % 2 ^ (trailingZeros mask + 1) % 2 ^ trailingZeros mask = mask % 2 ^ trailingZeros mask :=
        Nat.mod_mod_of_dvd _ ⟨2, by rw [Nat.pow_succ]⟩
      rw [← h1, ht, Nat.mod_self]
    rw [this, Nat.and_zero]
  unfold Ptr2
  rw [Nat.shiftRight_eq_div_pow]
  constructor
  · rintro ⟨k, h1, h2, h3⟩
    have := low_unique h1 ht
    subst this
    refine ⟨?_, ?_⟩
    · rw [← h2, Nat.mul_div_cancel _ (Nat.two_pow_pos _)]
    · exact Nat.add_right_cancel (h3.trans hs.symm)
  · rintro ⟨rfl, rfl⟩
    exact ⟨trailingZeros mask, ht, Nat.div_mul_cancel (Nat.dvd_of_mod_eq_zero hd), hs⟩

end Obj.Dyld

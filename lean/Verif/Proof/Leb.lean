import Verif.Model.Bytes
import Verif.Model.WriteUtil
import Verif.Spec.Leb

namespace Obj
open Spec

theorem UInt8.forall_of_lt {P : UInt8 → Prop} (h : ∀ n, n < 256 → P (UInt8.ofNat n)) (b : UInt8) : P b := by
  have := h b.toNat b.toNat_lt
  rwa [UInt8.ofNat_toNat] at this

theorem u8_and_7f (b : UInt8) : (b &&& 0x7f).toNat = b.toNat % 128 := by
  revert b; exact UInt8.forall_of_lt (by decide +kernel)
theorem u8_and_80 (b : UInt8) : (b &&& 0x80 = 0) ↔ b.toNat < 128 := by
  revert b; exact UInt8.forall_of_lt (by decide +kernel)
theorem u8_and_40 (b : UInt8) : (b &&& 0x40 ≠ 0) ↔ 64 ≤ b.toNat % 128 := by
  revert b; exact UInt8.forall_of_lt (by decide +kernel)
theorem u8_or_80 (b : UInt8) : (b ||| 0x80).toNat = b.toNat % 128 + 128 := by
  revert b; exact UInt8.forall_of_lt (by decide +kernel)
theorem u8_and_not80 (b : UInt8) : (b &&& ~~~0x80).toNat = b.toNat % 128 := by
  revert b; exact UInt8.forall_of_lt (by decide +kernel)

theorem or_shift_eq_add {r s d : Nat} (h : r < 2 ^ s) : r ||| d <<< s = r + 2 ^ s * d := by
  rw [Nat.or_comm, Nat.shiftLeft_eq, Nat.mul_comm, ← Nat.two_pow_add_eq_or_of_lt h, Nat.add_comm]

theorem LebGroup.cons_iff {b : UInt8} {bs : List UInt8} :
    LebGroup (b :: bs) ↔ (bs = [] ∧ b.toNat < 128) ∨ (128 ≤ b.toNat ∧ LebGroup bs) := by
  cases bs with
  | nil => simp [LebGroup]
  | cons c cs => simp [LebGroup]

theorem slebValue_cons {b : UInt8} {bs : List UInt8} (h : bs ≠ []) :
    slebValue (b :: bs) = ((b.toNat % 128 : Nat) : Int) + 128 * slebValue bs := by
  cases bs with
  | nil => exact absurd rfl h
  | cons c cs => rfl

theorem LebGroup.ne_nil {bs : List UInt8} (h : LebGroup bs) : bs ≠ [] := by
  rintro rfl; exact h

theorem u8_eq_iff (b c : UInt8) : b = c ↔ b.toNat = c.toNat := UInt8.toNat_inj.symm

theorem readUlebLoop_ok_iff (bs : List UInt8) : ∀ (result k v : Nat) (rest : List UInt8),
    k ≤ 9 → result < 2 ^ (7 * k) →
    (Bytes.readUlebLoop bs result (7 * k) = (.ok v, rest) ↔
      ∃ g, bs = g ++ rest ∧ LebGroup g ∧ g.length + k ≤ 10 ∧
        v = result + 2 ^ (7 * k) * ulebValue g ∧ v < U64) := by
  induction bs with
  | nil =>
    intro result k v rest _ _
    constructor
    · intro h; simp [Bytes.readUlebLoop] at h
    · rintro ⟨g, hg, hG, _⟩
      have : g = [] := by simp at hg; exact hg.1
      subst this; exact hG.elim
  | cons b tl ih =>
    intro result k v rest hk hr
    have hbl := b.toNat_lt
    simp only [Bytes.readUlebLoop]
    by_cases h63 : 7 * k = 63 ∧ b ≠ 0x00 ∧ b ≠ 0x01
    · rw [if_pos h63]
      constructor
      · intro h; simp at h
      · rintro ⟨g, hg, hG, hlen, hv, hv64⟩
        exfalso
        have hk9 : k = 9 := by omega
        subst hk9
        match g, hG with
        | [], hG => exact hG
        | [c], hG =>
          simp at hg
          obtain ⟨rfl, rfl⟩ := hg
          have h0 := h63.2.1
          have h1 := h63.2.2
          rw [ne_eq, u8_eq_iff] at h0 h1
          simp [LebGroup] at hG
          simp [ulebValue] at hv
          simp at h0 h1
          rw [Nat.mod_eq_of_lt hG] at hv
          have : 2 ≤ b.toNat := by omega
          omega
        | c :: d :: g', hG => simp at hlen
    · rw [if_neg h63]
      have hs64 : ¬ 64 ≤ 7 * k := by omega
      rw [if_neg hs64]
      -- the accumulator update is an addition
      have hd : (b &&& 0x7f).toNat = b.toNat % 128 := u8_and_7f b
      rw [hd]
      have hlt64 : (b.toNat % 128) <<< (7 * k) < U64 := by
        rw [Nat.shiftLeft_eq]
        by_cases hk9 : k = 9
        · subst hk9
          have : b = 0 ∨ b = 1 := by
            by_cases h0 : b = 0
            · exact Or.inl h0
            · by_cases h1 : b = 1
              · exact Or.inr h1
              · exact absurd ⟨rfl, h0, h1⟩ h63
          rcases this with rfl | rfl <;> decide
        · have : 2 ^ (7 * k) ≤ 2 ^ 56 := Nat.pow_le_pow_right (by decide) (by omega)
          have : b.toNat % 128 < 128 := Nat.mod_lt _ (by decide)
          calc b.toNat % 128 * 2 ^ (7 * k) ≤ 127 * 2 ^ 56 := Nat.mul_le_mul (by omega) (by assumption)
            _ < U64 := by decide
      rw [Nat.mod_eq_of_lt hlt64, or_shift_eq_add hr]
      by_cases hend : b &&& 0x80 = 0
      · rw [if_pos hend]
        rw [u8_and_80] at hend
        have hm : b.toNat % 128 = b.toNat := Nat.mod_eq_of_lt hend
        rw [hm] at hlt64 hd ⊢
        constructor
        · intro h
          simp only [Prod.mk.injEq, Res.ok.injEq] at h
          obtain ⟨rfl, rfl⟩ := h
          refine ⟨[b], rfl, by simpa [LebGroup] using hend, by simp; omega, by simp [ulebValue, hm], ?_⟩
          rw [Nat.shiftLeft_eq, Nat.mul_comm] at hlt64
          by_cases hk9 : k = 9
          · subst hk9
            simp at hr hlt64 ⊢
            omega
          · have h1 : 2 ^ (7 * k) ≤ 2 ^ 56 := Nat.pow_le_pow_right (by decide) (by omega)
            have : 2 ^ (7*k) * b.toNat ≤ 2 ^ 56 * 127 := Nat.mul_le_mul h1 (by omega)
            simp at h1 this ⊢
            omega
        · rintro ⟨g, hg, hG, hlen, hv, _⟩
          match g, hG with
          | [], hG => exact hG.elim
          | c :: g', hG =>
            simp only [List.cons_append, List.cons.injEq] at hg
            obtain ⟨rfl, hg⟩ := hg
            rw [LebGroup.cons_iff] at hG
            rcases hG with ⟨rfl, _⟩ | ⟨hge, _⟩
            · simp at hg; subst hg
              simp [ulebValue, hm] at hv
              simp [hv]
            · omega
      · rw [if_neg hend]
        rw [u8_and_80] at hend
        by_cases hk9 : k = 9
        · subst hk9
          exfalso
          apply h63
          refine ⟨rfl, ?_, ?_⟩
          · rintro rfl; simp at hend
          · rintro rfl; simp at hend
        · have hsh : 7 * k + 7 = 7 * (k + 1) := by omega
          rw [hsh]
          have hr' : result + 2 ^ (7 * k) * (b.toNat % 128) < 2 ^ (7 * (k + 1)) := by
            have : 2 ^ (7 * (k+1)) = 2 ^ (7 * k) * 128 := by
              rw [show 7 * (k+1) = 7 * k + 7 by omega, Nat.pow_add]
            rw [this]
            have h1 : b.toNat % 128 < 128 := Nat.mod_lt _ (by decide)
            have : 2 ^ (7*k) * (b.toNat % 128) + 2 ^ (7*k) ≤ 2 ^ (7*k) * 128 := by
              have h2 := Nat.mul_le_mul_left (2 ^ (7*k)) (show b.toNat % 128 + 1 ≤ 128 by omega)
              rwa [Nat.mul_add, Nat.mul_one] at h2
            omega
          rw [ih _ (k+1) v rest (by omega) hr']
          have hpow : 2 ^ (7 * (k+1)) = 2 ^ (7 * k) * 128 := by
            rw [show 7 * (k+1) = 7 * k + 7 by omega, Nat.pow_add]
          constructor
          · rintro ⟨g, rfl, hG, hlen, hv, hv64⟩
            refine ⟨b :: g, rfl, LebGroup.cons_iff.2 (Or.inr ⟨by omega, hG⟩), by simp; omega, ?_, hv64⟩
            rw [hv, hpow, ulebValue, Nat.mul_add, Nat.mul_assoc, Nat.add_assoc]
          · rintro ⟨g, hg, hG, hlen, hv, hv64⟩
            match g, hG with
            | [], hG => exact hG.elim
            | c :: g', hG =>
              simp only [List.cons_append, List.cons.injEq] at hg
              obtain ⟨rfl, hg⟩ := hg
              rw [LebGroup.cons_iff] at hG
              rcases hG with ⟨_, hlt⟩ | ⟨_, hG⟩
              · omega
              · refine ⟨g', hg, hG, by simp at hlen; omega, ?_, hv64⟩
                rw [hv, hpow, ulebValue, Nat.mul_add, Nat.mul_assoc, Nat.add_assoc]

theorem readUlebLoop_no_panic (bs : List UInt8) : ∀ (result k : Nat), k ≤ 9 →
    (Bytes.readUlebLoop bs result (7 * k)).1 ≠ .panic := by
  induction bs with
  | nil => intros; simp [Bytes.readUlebLoop]
  | cons b tl ih =>
    intro result k hk
    simp only [Bytes.readUlebLoop]
    split
    · simp
    · rename_i h63
      rw [if_neg (by omega)]
      split
      · simp
      · rename_i hend
        rw [u8_and_80] at hend
        by_cases hk9 : k = 9
        · subst hk9
          exfalso; apply h63
          refine ⟨rfl, ?_, ?_⟩ <;> (rintro rfl; simp at hend)
        · rw [show 7 * k + 7 = 7 * (k+1) by omega]
          exact ih _ _ (by omega)


theorem readSlebLoop_no_panic (bs : List UInt8) : ∀ (result k : Nat), k ≤ 9 →
    (Bytes.readSlebLoop bs result (7 * k)).1 ≠ .panic := by
  induction bs with
  | nil => intros; simp [Bytes.readSlebLoop]
  | cons b tl ih =>
    intro result k hk
    simp only [Bytes.readSlebLoop]
    split
    · simp
    · rename_i h63
      rw [if_neg (by omega)]
      split
      · split <;> simp
      · rename_i hend
        rw [u8_and_80] at hend
        by_cases hk9 : k = 9
        · subst hk9
          exfalso; apply h63
          refine ⟨rfl, ?_, ?_⟩ <;> (rintro rfl; simp at hend)
        · rw [show 7 * k + 7 = 7 * (k+1) by omega]
          exact ih _ _ (by omega)

theorem sign_fill {r k : Nat} (hk : k ≤ 8) (hr : r < 2 ^ (7 * k + 7)) :
    toI64 (r ||| (((U64 - 1) <<< (7 * k + 7)) % U64)) = (r : Int) - 2 ^ (7 * k + 7) := by
  have hfill : ((U64 - 1) <<< (7 * k + 7)) % U64 = (2 ^ (64 - (7 * k + 7)) - 1) <<< (7 * k + 7) := by
    have : k = 0 ∨ k = 1 ∨ k = 2 ∨ k = 3 ∨ k = 4 ∨ k = 5 ∨ k = 6 ∨ k = 7 ∨ k = 8 := by omega
    rcases this with rfl | rfl | rfl | rfl | rfl | rfl | rfl | rfl | rfl <;> decide
  rw [hfill, or_shift_eq_add hr]
  have : k = 0 ∨ k = 1 ∨ k = 2 ∨ k = 3 ∨ k = 4 ∨ k = 5 ∨ k = 6 ∨ k = 7 ∨ k = 8 := by omega
  rcases this with rfl | rfl | rfl | rfl | rfl | rfl | rfl | rfl | rfl <;>
    (simp [toI64] at hr ⊢; omega)

/-- value contributed by the final byte of a signed group -/
theorem slebValue_single (b : UInt8) : slebValue [b] =
    if b.toNat % 128 < 64 then ((b.toNat % 128 : Nat) : Int) else ((b.toNat % 128 : Nat) : Int) - 128 := rfl

theorem readSlebLoop_ok_iff (bs : List UInt8) : ∀ (result k : Nat) (v : Int) (rest : List UInt8),
    k ≤ 9 → result < 2 ^ (7 * k) →
    (Bytes.readSlebLoop bs result (7 * k) = (.ok v, rest) ↔
      ∃ g, bs = g ++ rest ∧ LebGroup g ∧ g.length + k ≤ 10 ∧
        v = (result : Int) + 2 ^ (7 * k) * slebValue g ∧ -2 ^ 63 ≤ v ∧ v < 2 ^ 63) := by
  induction bs with
  | nil =>
    intro result k v rest _ _
    constructor
    · intro h; simp [Bytes.readSlebLoop] at h
    · rintro ⟨g, hg, hG, _⟩
      have : g = [] := by simp at hg; exact hg.1
      subst this; exact hG.elim
  | cons b tl ih =>
    intro result k v rest hk hr
    have hbl := b.toNat_lt
    simp only [Bytes.readSlebLoop]
    by_cases h63 : 7 * k = 63 ∧ b ≠ 0x00 ∧ b ≠ 0x7f
    · rw [if_pos h63]
      constructor
      · intro h; simp at h
      · rintro ⟨g, hg, hG, hlen, hv, hv1, hv2⟩
        exfalso
        have hk9 : k = 9 := by omega
        subst hk9
        match g, hG with
        | [], hG => exact hG
        | [c], hG =>
          simp at hg
          obtain ⟨rfl, rfl⟩ := hg
          have h0 := h63.2.1
          have h1 := h63.2.2
          rw [ne_eq, u8_eq_iff] at h0 h1
          simp [LebGroup] at hG
          rw [slebValue_single] at hv
          simp at h0 h1 hr
          rw [Nat.mod_eq_of_lt hG] at hv
          simp at hv
          split at hv <;> omega
        | c :: d :: g', hG => simp at hlen
    · rw [if_neg h63]
      have hs64 : ¬ 64 ≤ 7 * k := by omega
      rw [if_neg hs64]
      have hd : (b &&& 0x7f).toNat = b.toNat % 128 := u8_and_7f b
      rw [hd]
      by_cases hk9 : k = 9
      · -- the tenth byte
        subst hk9
        have hb : b = 0 ∨ b = 0x7f := by
          by_cases h0 : b = 0
          · exact Or.inl h0
          · by_cases h1 : b = 0x7f
            · exact Or.inr h1
            · exact absurd ⟨rfl, h0, h1⟩ h63
        have hend : b &&& 0x80 = 0 := by rcases hb with rfl | rfl <;> decide
        have hlt : b.toNat < 128 := by rcases hb with rfl | rfl <;> decide
        rw [if_pos hend, if_neg (by omega)]
        have hval : toI64 (result ||| (b.toNat % 128) <<< (7 * 9) % U64)
            = (result : Int) + 2 ^ (7 * 9) * slebValue [b] := by
          simp at hr
          rcases hb with rfl | rfl
          · simp [toI64, slebValue]; omega
          · have h1 : (127 : Nat) <<< 63 % U64 = 1 <<< 63 := by decide
            simp only [Nat.reduceMul, UInt8.reduceToNat, Nat.reduceMod, h1]
            rw [or_shift_eq_add (by simpa using hr)]
            simp [toI64, slebValue]; omega
        rw [hval]
        constructor
        · intro h
          simp only [Prod.mk.injEq, Res.ok.injEq] at h
          obtain ⟨rfl, rfl⟩ := h
          refine ⟨[b], rfl, by simpa [LebGroup] using hlt, by simp, rfl, ?_, ?_⟩
          · simp at hr; rcases hb with rfl | rfl <;> simp [slebValue] <;> omega
          · simp at hr; rcases hb with rfl | rfl <;> simp [slebValue] <;> omega
        · rintro ⟨g, hg, hG, hlen, hv, _, _⟩
          match g, hG with
          | [], hG => exact hG.elim
          | c :: g', hG =>
            simp only [List.cons_append, List.cons.injEq] at hg
            obtain ⟨rfl, hg⟩ := hg
            rw [LebGroup.cons_iff] at hG
            rcases hG with ⟨rfl, _⟩ | ⟨hge, _⟩
            · simp at hg; subst hg; rw [hv]
            · omega
      · have hk8 : k ≤ 8 := by omega
        have hlt64 : (b.toNat % 128) <<< (7 * k) < U64 := by
          rw [Nat.shiftLeft_eq]
          have : 2 ^ (7 * k) ≤ 2 ^ 56 := Nat.pow_le_pow_right (by decide) (by omega)
          have : b.toNat % 128 < 128 := Nat.mod_lt _ (by decide)
          calc b.toNat % 128 * 2 ^ (7 * k) ≤ 127 * 2 ^ 56 := Nat.mul_le_mul (by omega) (by assumption)
            _ < U64 := by decide
        rw [Nat.mod_eq_of_lt hlt64, or_shift_eq_add hr]
        have hpow : 2 ^ (7 * k + 7) = 2 ^ (7 * k) * 128 := by rw [Nat.pow_add]
        have hpowI : (2 : Int) ^ (7 * (k + 1)) = 2 ^ (7 * k) * 128 := by
          rw [show 7 * (k+1) = 7 * k + 7 by omega, Int.pow_add]; rfl
        have hr' : result + 2 ^ (7 * k) * (b.toNat % 128) < 2 ^ (7 * k + 7) := by
          rw [hpow]
          have h1 : b.toNat % 128 < 128 := Nat.mod_lt _ (by decide)
          have : 2 ^ (7*k) * (b.toNat % 128) + 2 ^ (7*k) ≤ 2 ^ (7*k) * 128 := by
            have h2 := Nat.mul_le_mul_left (2 ^ (7*k)) (show b.toNat % 128 + 1 ≤ 128 by omega)
            rwa [Nat.mul_add, Nat.mul_one] at h2
          omega
        by_cases hend : b &&& 0x80 = 0
        · rw [if_pos hend]
          rw [u8_and_80] at hend
          have hle63 : (2 : Nat) ^ (7 * k + 7) ≤ 2 ^ 63 := Nat.pow_le_pow_right (by decide) (by omega)
          have hle63I : (2 : Int) ^ (7 * k + 7) ≤ 2 ^ 63 := by exact_mod_cast hle63
          have hval : (if 7 * k + 7 < 64 ∧ b &&& 0x40 ≠ 0 then
              ((.ok (toI64 ((result + 2 ^ (7 * k) * (b.toNat % 128)) |||
                (U64 - 1) <<< (7 * k + 7) % U64)), tl) : Res Int × List UInt8)
              else (.ok (toI64 (result + 2 ^ (7 * k) * (b.toNat % 128))), tl))
              = (.ok ((result : Int) + 2 ^ (7 * k) * slebValue [b]), tl) := by
            by_cases hs : b &&& 0x40 ≠ 0
            · rw [if_pos ⟨by omega, hs⟩, sign_fill hk8 hr']
              rw [u8_and_40] at hs
              rw [slebValue_single, if_neg (by omega), Int.mul_sub,
                show (2 : Int) ^ (7 * k + 7) = 2 ^ (7*k) * 128 by rw [Int.pow_add]; rfl]
              simp; omega
            · rw [if_neg (by simp at hs; simp [hs])]
              have hs' := hs
              rw [u8_and_40] at hs'
              rw [slebValue_single, if_pos (by omega)]
              have : result + 2 ^ (7 * k) * (b.toNat % 128) < 2 ^ 63 := by omega
              simp at this
              simp [toI64, this]
          rw [hval]
          have hrI : (result : Int) < 2 ^ (7 * k) := by exact_mod_cast hr
          constructor
          · intro h
            simp only [Prod.mk.injEq, Res.ok.injEq] at h
            obtain ⟨rfl, rfl⟩ := h
            have hp : (0 : Int) < 2 ^ (7 * k) := by exact_mod_cast Nat.two_pow_pos (7 * k)
            have hsv : -64 ≤ slebValue [b] ∧ slebValue [b] ≤ 63 := by
              rw [slebValue_single]; split <;> omega
            have h1 : (2 : Int) ^ (7 * k) * (-64) ≤ 2 ^ (7 * k) * slebValue [b] :=
              Int.mul_le_mul_of_nonneg_left hsv.1 (Int.le_of_lt hp)
            have h2 : (2 : Int) ^ (7 * k) * slebValue [b] ≤ 2 ^ (7 * k) * 63 :=
              Int.mul_le_mul_of_nonneg_left hsv.2 (Int.le_of_lt hp)
            rw [show (2 : Int) ^ (7 * k + 7) = 2 ^ (7*k) * 128 by rw [Int.pow_add]; rfl] at hle63I
            refine ⟨[b], rfl, by simpa [LebGroup] using hend, by simp; omega, rfl, ?_, ?_⟩ <;> omega
          · rintro ⟨g, hg, hG, hlen, hv, _, _⟩
            match g, hG with
            | [], hG => exact hG.elim
            | c :: g', hG =>
              simp only [List.cons_append, List.cons.injEq] at hg
              obtain ⟨rfl, hg⟩ := hg
              rw [LebGroup.cons_iff] at hG
              rcases hG with ⟨rfl, _⟩ | ⟨hge, _⟩
              · simp at hg; subst hg; rw [hv]
              · omega
        · rw [if_neg hend]
          rw [u8_and_80] at hend
          rw [show 7 * k + 7 = 7 * (k + 1) by omega] at hr' ⊢
          rw [ih _ (k+1) v rest (by omega) hr']
          constructor
          · rintro ⟨g, rfl, hG, hlen, hv, hv64⟩
            refine ⟨b :: g, rfl, LebGroup.cons_iff.2 (Or.inr ⟨by omega, hG⟩), by simp; omega, ?_, hv64⟩
            rw [hv, hpowI, slebValue_cons (LebGroup.ne_nil hG), Int.mul_add, Int.mul_assoc]
            simp [Int.add_assoc]
          · rintro ⟨g, hg, hG, hlen, hv, hv64⟩
            match g, hG with
            | [], hG => exact hG.elim
            | c :: g', hG =>
              simp only [List.cons_append, List.cons.injEq] at hg
              obtain ⟨rfl, hg⟩ := hg
              rw [LebGroup.cons_iff] at hG
              rcases hG with ⟨_, hlt⟩ | ⟨_, hG⟩
              · omega
              · refine ⟨g', hg, hG, by simp at hlen; omega, ?_, hv64⟩
                rw [hv, hpowI, slebValue_cons (LebGroup.ne_nil hG), Int.mul_add, Int.mul_assoc]
                simp [Int.add_assoc]

theorem writeUlebLoop_spec (n : Nat) : ∀ (buf : List UInt8) (len val : Nat), val < 128 ^ (n + 1) →
    ∃ g, writeUlebLoop buf len val = (buf ++ g, len + g.length) ∧ LebGroup g ∧
      ulebValue g = val ∧ g.length ≤ n + 1 := by
  induction n with
  | zero =>
    intro buf len val h
    rw [writeUlebLoop]
    have h1 : val >>> 7 = 0 := by simp [Nat.shiftRight_eq_div_pow]; omega
    have h2 : val &&& 0x7f = val := by
      rw [show 0x7f = 2 ^ 7 - 1 from rfl, Nat.and_two_pow_sub_one_eq_mod]; omega
    simp only [h1, h2, dite_true]
    refine ⟨[UInt8.ofNat val], rfl, ?_, ?_, by simp⟩
    · simp [LebGroup]; omega
    · simp [ulebValue]; omega
  | succ n ih =>
    intro buf len val h
    rw [writeUlebLoop]
    have h1 : val >>> 7 = val / 128 := by simp [Nat.shiftRight_eq_div_pow]
    have h2 : val &&& 0x7f = val % 128 := by
      rw [show 0x7f = 2 ^ 7 - 1 from rfl, Nat.and_two_pow_sub_one_eq_mod]
    simp only [h1, h2]
    by_cases h0 : val / 128 = 0
    · rw [dif_pos h0]
      refine ⟨[UInt8.ofNat (val % 128)], rfl, ?_, ?_, by simp⟩
      · simp [LebGroup]; omega
      · simp [ulebValue]; omega
    · rw [dif_neg h0]
      obtain ⟨g, hw, hG, hv, hl⟩ := ih (buf ++ [UInt8.ofNat (val % 128) ||| 0x80]) (len + 1) (val / 128)
        (by rw [Nat.pow_succ] at h; exact Nat.div_lt_of_lt_mul (by omega))
      refine ⟨(UInt8.ofNat (val % 128) ||| 0x80) :: g, ?_, ?_, ?_, by simp; omega⟩
      · rw [hw]; simp; omega
      · rw [LebGroup.cons_iff]; right; refine ⟨?_, hG⟩; rw [u8_or_80]; omega
      · rw [ulebValue, hv, u8_or_80]; simp; omega

theorem writeSlebLoop_spec (n : Nat) : ∀ (buf : List UInt8) (len : Nat) (val : Int),
    -(64 * 128 ^ n) ≤ val → val < 64 * 128 ^ n →
    ∃ g, writeSlebLoop buf len val = (buf ++ g, len + g.length) ∧ LebGroup g ∧
      slebValue g = val ∧ g.length ≤ n + 1 := by
  have hs6 : ∀ x : Int, x >>> 6 = x / 64 := by intro x; simp [Int.shiftRight_eq_div_pow]
  have hs1 : ∀ x : Int, x >>> 1 = x / 2 := by intro x; simp [Int.shiftRight_eq_div_pow]
  have hlast : ∀ (buf : List UInt8) (len : Nat) (val : Int), (val / 64 = 0 ∨ val / 64 = -1) →
      slebValue [UInt8.ofNat (val % 256).toNat &&& ~~~0x80] = val := by
    intro buf len val h
    rw [slebValue_single, u8_and_not80, UInt8.toNat_ofNat']
    split <;> omega
  induction n with
  | zero =>
    intro buf len val h h'
    rw [writeSlebLoop]
    simp only [hs6, hs1]
    have h0 : val / 64 = 0 ∨ val / 64 = -1 := by omega
    rw [dif_pos h0]
    refine ⟨[UInt8.ofNat (val % 256).toNat &&& ~~~0x80], rfl, ?_, hlast buf len val h0, by simp⟩
    show (UInt8.ofNat (val % 256).toNat &&& ~~~0x80).toNat < 128
    rw [u8_and_not80]; omega
  | succ n ih =>
    intro buf len val h h'
    rw [writeSlebLoop]
    simp only [hs6, hs1]
    by_cases h0 : val / 64 = 0 ∨ val / 64 = -1
    · rw [dif_pos h0]
      refine ⟨[UInt8.ofNat (val % 256).toNat &&& ~~~0x80], rfl, ?_, hlast buf len val h0, by simp⟩
      show (UInt8.ofNat (val % 256).toNat &&& ~~~0x80).toNat < 128
      rw [u8_and_not80]; omega
    · rw [dif_neg h0]
      rw [Int.pow_succ] at h h'
      obtain ⟨g, hw, hG, hv, hl⟩ := ih (buf ++ [UInt8.ofNat (val % 256).toNat ||| 0x80]) (len + 1)
        (val / 64 / 2) (by omega) (by omega)
      refine ⟨(UInt8.ofNat (val % 256).toNat ||| 0x80) :: g, ?_, ?_, ?_, by simp; omega⟩
      · rw [hw]; simp; omega
      · rw [LebGroup.cons_iff]; right; refine ⟨?_, hG⟩; rw [u8_or_80]; omega
      · rw [slebValue_cons (LebGroup.ne_nil hG), hv, u8_or_80, UInt8.toNat_ofNat']; omega

end Obj

import Verif.Spec.ElfReloc
import Verif.Proof.Leb

/-! # Lemmas about relocations -/

namespace Obj.Elf
open Obj Obj.Spec Obj.Spec.ElfRelocS

/-! ## RELR -/

/-- Offsets still to be yielded for a bitmap. -/
def relrPend (w count offset bits : Nat) : List Nat :=
  ((List.range' 1 count).filter fun i => bits.testBit i).map fun i => (offset + i * w) % 256 ^ w

theorem range'_succ_map (c : Nat) : List.range' 1 (c + 1) = 1 :: (List.range' 1 c).map (· + 1) := by
  rw [List.range'_succ]
  congr 1
  apply List.ext_getElem <;> simp; omega

theorem relrPend_succ (w c o b : Nat) :
    relrPend w (c + 1) o b = (if b.testBit 1 then [(o + w) % 256 ^ w] else []) ++ relrPend w c ((o + w) % 256 ^ w) (b >>> 1) := by
  have h : ∀ i, (o + (i + 1) * w) % 256 ^ w = ((o + w) % 256 ^ w + i * w) % 256 ^ w := by
    intro i
    rw [Nat.mod_add_mod, Nat.add_mul]; congr 1; omega
  unfold relrPend
  rw [range'_succ_map, List.filter_cons]
  have hrest : (((List.range' 1 c).map (· + 1)).filter fun i => b.testBit i).map (fun i => (o + i * w) % 256 ^ w) =
      ((List.range' 1 c).filter fun i => (b >>> 1).testBit i).map fun i => ((o + w) % 256 ^ w + i * w) % 256 ^ w := by
    rw [List.filter_map, List.map_map]
    have : ((fun i => b.testBit i) ∘ (· + 1)) = fun i => (b >>> 1).testBit i := by
      funext i; simp [Nat.testBit_shiftRight, Nat.add_comm]
    rw [this]
    apply List.map_congr_left
    intro i _
    exact h i
  by_cases hb : b.testBit 1
  · simp only [hb, if_true, List.map_cons, hrest, List.cons_append, List.nil_append, Nat.one_mul]
  · rw [if_neg hb, if_neg hb, List.nil_append, hrest]

theorem relrBits_spec (w c o b : Nat) (ho : o < 256 ^ w) :
    (∀ r o' b' c', relrBits w c o b = (some r, o', b', c') →
      relrPend w c o b = r :: relrPend w c' o' b' ∧ (o + c * w) % 256 ^ w = (o' + c' * w) % 256 ^ w ∧ o' < 256 ^ w) ∧
    (∀ o' b' c', relrBits w c o b = (none, o', b', c') → relrPend w c o b = [] ∧ o' = (o + c * w) % 256 ^ w ∧ c' = 0) := by
  induction c generalizing o b with
  | zero =>
    constructor
    · intro r o' b' c' h; simp [relrBits] at h
    · intro o' b' c' h
      simp only [relrBits, Prod.mk.injEq] at h
      obtain ⟨-, rfl, rfl, rfl⟩ := h
      refine ⟨rfl, ?_, rfl⟩
      simp; rw [Nat.mod_eq_of_lt ho]
  | succ c ih =>
    have hM : 0 < 256 ^ w := by omega
    have ho' : (o + w) % 256 ^ w < 256 ^ w := Nat.mod_lt _ hM
    have hb1 : ((b >>> 1) &&& 1 ≠ 0) ↔ b.testBit 1 = true := by
      rw [Nat.and_one_is_mod, Nat.testBit_eq_decide_div_mod_eq, Nat.shiftRight_eq_div_pow]; simp
    have hsum : (o + (c + 1) * w) % 256 ^ w = ((o + w) % 256 ^ w + c * w) % 256 ^ w := by
      rw [Nat.mod_add_mod, Nat.add_mul]; congr 1; omega
    rw [relrPend_succ, hsum]
    unfold relrBits
    simp only
    by_cases hb : b.testBit 1 = true
    · rw [if_pos (hb1.2 hb), if_pos hb]
      constructor
      · intro r o' b' c' h
        simp only [Prod.mk.injEq, Option.some.injEq] at h
        obtain ⟨rfl, rfl, rfl, rfl⟩ := h
        exact ⟨rfl, rfl, ho'⟩
      · intro o' b' c' h; simp at h
    · rw [if_neg (fun h => hb (hb1.1 h)), if_neg hb]
      exact ih _ _ ho'

/-- All offsets still to be yielded. -/
def relrOut (w : Nat) (s : RelrIter) : List Nat :=
  relrPend w s.count s.offset s.bits ++ relrOffsets w ((s.offset + s.count * w) % 256 ^ w) s.words

theorem relrLoop_spec (w : Nat) (words : List Nat) (hw : ∀ x ∈ words, x < 256 ^ w) (o b c : Nat) (ho : o < 256 ^ w) :
    (relrOut w ⟨o, b, c, words⟩ = [] ∧ (relrLoop w words o b c).1 = none) ∨
    (∃ r s', relrLoop w words o b c = (some r, s') ∧ relrOut w ⟨o, b, c, words⟩ = r :: relrOut w s' ∧ s'.offset < 256 ^ w ∧
      ∀ x ∈ s'.words, x < 256 ^ w) := by
  induction words generalizing o b c with
  | nil =>
    obtain ⟨h1, h2⟩ := relrBits_spec w c o b ho
    unfold relrLoop
    match hr : relrBits w c o b with
    | (some r, o', b', c') =>
      obtain ⟨a1, a2, a3⟩ := h1 _ _ _ _ hr
      right
      exact ⟨r, _, rfl, by simp [relrOut, a1, relrOffsets], a3, by simp⟩
    | (none, o', b', c') =>
      obtain ⟨a1, a2, a3⟩ := h2 _ _ _ hr
      left
      exact ⟨by simp [relrOut, a1, relrOffsets], rfl⟩
  | cons x words ih =>
    obtain ⟨h1, h2⟩ := relrBits_spec w c o b ho
    unfold relrLoop
    match hr : relrBits w c o b with
    | (some r, o', b', c') =>
      obtain ⟨a1, a2, a3⟩ := h1 _ _ _ _ hr
      right
      exact ⟨r, _, rfl, by simp [relrOut, a1, a2], a3, hw⟩
    | (none, o', b', c') =>
      obtain ⟨a1, a2, a3⟩ := h2 _ _ _ hr
      subst a3
      simp only
      have hx := hw x (by simp)
      have hw' : ∀ y ∈ words, y < 256 ^ w := fun y hy => hw y (by simp [hy])
      rw [Nat.and_one_is_mod]
      by_cases he : x % 2 = 0
      · rw [if_pos he]
        right
        refine ⟨x, _, rfl, ?_, hx, hw'⟩
        unfold relrOut
        rw [a1]
        simp [relrOffsets, he, relrPend]
        rw [Nat.mod_eq_of_lt hx]
      · rw [if_neg he]
        have hM : 0 < 256 ^ w := by omega
        have ho' : o' < 256 ^ w := by rw [a2]; exact Nat.mod_lt _ hM
        have hout : relrOut w ⟨o, b, c, x :: words⟩ = relrOut w ⟨o', x, 8 * w - 1, words⟩ := by
          unfold relrOut
          rw [a1, ← a2]
          simp only [relrOffsets, he, if_false, List.nil_append, relrPend]
        rw [hout]
        exact ih hw' o' x (8 * w - 1) ho'

theorem relr_runs (w : Nat) (s : RelrIter) (ho : s.offset < 256 ^ w) (hw : ∀ x ∈ s.words, x < 256 ^ w) :
    Runs (relrNext w) s (relrOut w s) .done := by
  generalize hn : (relrOut w s).length = n
  induction n generalizing s with
  | zero =>
    rcases relrLoop_spec w s.words hw s.offset s.bits s.count ho with ⟨h1, h2⟩ | ⟨r, s', h1, h2, -⟩
    · have h1' : relrOut w s = [] := h1
      rw [h1']
      refine .done (s' := (relrLoop w s.words s.offset s.bits s.count).2) ?_
      simp [relrNext, h2]
    · have h2' : relrOut w s = r :: relrOut w s' := h2
      rw [h2'] at hn; simp at hn
  | succ n ih =>
    rcases relrLoop_spec w s.words hw s.offset s.bits s.count ho with ⟨h1, h2⟩ | ⟨r, s', h1, h2, h3, h4⟩
    · have h1' : relrOut w s = [] := h1
      rw [h1'] at hn; simp at hn
    · have h2' : relrOut w s = r :: relrOut w s' := h2
      rw [h2']
      refine .item (s' := s') (x := r) ?_ (ih s' h3 h4 ?_)
      · simp [relrNext, h1]
      · rw [h2'] at hn; simpa using hn

/-! ## CREL -/

theorem and_80 (b : UInt8) : (b.toNat &&& 0x80 ≠ 0) ↔ 128 ≤ b.toNat := by
  have h := b.toNat_lt
  have h2 : b.toNat &&& 0x80 = 0 ↔ b.toNat.testBit 7 = false := by
    constructor
    · intro h
      have := congrArg (fun n => Nat.testBit n 7) h
      simpa [Nat.testBit_and, show (0x80 : Nat).testBit 7 = true from rfl] using this
    · intro h
      apply Nat.eq_of_testBit_eq
      intro i
      rw [Nat.testBit_and, show (0x80 : Nat) = 2 ^ 7 from rfl, Nat.testBit_two_pow]
      by_cases hi : 7 = i
      · subst hi; simp [h]
      · simp [hi]
  rw [Ne, h2, Nat.testBit_eq_decide_div_mod_eq]
  simp
  omega

theorem and_7f (n : Nat) : n &&& 0x7f = n % 128 := Nat.and_two_pow_sub_one_eq_mod n 7

/-- Reading the offset and the flags. -/
theorem crelOffset_spec (fb : Nat) (hfb : fb = 2 ∨ fb = 3) (byte : UInt8) (g tl : List UInt8) (hg : LebGroup (byte :: g)) (hl : (byte :: g).length ≤ 11)
    (hv : ulebValue (byte :: g) / 128 < 2 ^ 64) :
    crelOffset fb byte (g ++ tl) = .ok ((ulebValue (byte :: g) / 2 ^ fb) % 2 ^ 64, tl) ∧
      byte.toNat &&& ((1 <<< fb) - 1) = ulebValue (byte :: g) % 2 ^ fb := by
  have hval : ulebValue (byte :: g) = byte.toNat % 128 + 128 * ulebValue g := rfl
  have hlow : ulebValue (byte :: g) / 128 = ulebValue g := by rw [hval]; omega
  rw [hlow] at hv
  have hb := byte.toNat_lt
  constructor
  · unfold crelOffset
    simp only [and_7f, Nat.shiftRight_eq_div_pow]
    cases g with
    | nil =>
      have hb' : byte.toNat < 128 := hg
      rw [if_neg (by rw [and_80]; omega), hval]
      simp only [ulebValue, Nat.mul_zero, Nat.add_zero, List.nil_append]
      congr 2
      rcases hfb with rfl | rfl <;> omega
    | cons c cs =>
      obtain ⟨hb', hg'⟩ : 128 ≤ byte.toNat ∧ LebGroup (c :: cs) := hg
      rw [if_pos (by rw [and_80]; omega)]
      have hr := (readUleb_ok_iff ((c :: cs) ++ tl) (ulebValue (c :: cs)) tl).2
        ⟨c :: cs, rfl, hg', by simp at hl ⊢; omega, rfl, hv⟩
      rw [hr]
      simp only
      congr 2
      rw [hval]
      generalize ulebValue (c :: cs) = v
      have hor : ∀ k x, x < 2 ^ k → k ≤ 64 → x ||| ((v <<< k) % U64) = x + (v * 2 ^ k) % 2 ^ 64 := by
        intro k x hx hk
        have e : (v <<< k) % U64 = (v % 2 ^ (64 - k)) <<< k := by
          rw [Nat.shiftLeft_eq, Nat.shiftLeft_eq]
          have h64 : U64 = 2 ^ (64 - k) * 2 ^ k := by
            rw [← Nat.pow_add, Nat.sub_add_cancel hk]
          rw [h64, Nat.mul_mod_mul_right]
        rw [e, Nat.or_comm, ← Nat.shiftLeft_add_eq_or_of_lt hx, ← e, Nat.shiftLeft_eq]; omega
      rcases hfb with rfl | rfl
      · rw [hor 5 _ (by omega) (by omega)]
        omega
      · rw [hor 4 _ (by omega) (by omega)]
        omega
  · rw [Nat.one_shiftLeft, Nat.and_two_pow_sub_one_eq_mod, hval]
    rcases hfb with rfl | rfl <;> omega

theorem crelDelta_spec (o : Option Int) (b tl : List UInt8) (h : EncodesS o b) : crelDelta o.isSome (b ++ tl) = .ok (o, tl) := by
  unfold crelDelta
  cases o with
  | none =>
    have hb : b = [] := h
    subst hb; simp
  | some v =>
    obtain ⟨h1, h2, h3, h4, h5⟩ : LebGroup b ∧ slebValue b = v ∧ b.length ≤ 10 ∧ -2 ^ 63 ≤ v ∧ v < 2 ^ 63 := h
    rw [(readSleb_ok_iff (b ++ tl) v tl).2 ⟨b, rfl, h1, h3, h2, by omega, by omega⟩]
    simp

/-- The members fit their types. -/
def CrelFits (r : Crel) : Prop := r.sym < 2 ^ 32 ∧ r.type < 2 ^ 32 ∧ -2 ^ 63 ≤ r.addend ∧ r.addend < 2 ^ 63

theorem apply_fits (shift : Nat) (prev : Crel) (d : Delta) : CrelFits (d.apply shift prev) := by
  unfold CrelFits Delta.apply
  refine ⟨?_, ?_, ?_, ?_⟩ <;> simp only <;> omega

theorem wrapAddI64_eq (a d : Int) : wrapAddI64 a d = (a + d + 2 ^ 63) % 2 ^ 64 - 2 ^ 63 := by
  unfold wrapAddI64 toI64
  split <;> omega

theorem crelParse_spec (s : CrelIter) (d : Delta) (b tl : List UInt8) (hb : EncodesDelta s.isRela d b) (hf : CrelFits s.state)
    (hfb : s.flagBits = if s.isRela then 3 else 2) (hs : s.shift ≤ 3) (hd : s.data = b ++ tl) :
    s.parse = .ok (d.apply s.shift s.state, tl) := by
  obtain ⟨g, bs, bt, ba, rfl, hg, hgl, hgv, hgd, hs', ht', ha', hna⟩ := hb
  have hfb' : s.flagBits = 2 ∨ s.flagBits = 3 := by rw [hfb]; split <;> simp
  cases g with
  | nil => exact absurd hg id
  | cons byte g =>
    have hflag : d.flags < 2 ^ s.flagBits := by
      rw [hfb]
      cases hr : s.isRela with
      | true => unfold Delta.flags; simp only [if_true]; repeat' split
                all_goals omega
      | false => unfold Delta.flags; rw [hna hr]; simp; repeat' split
                 all_goals omega
    have hdata : s.data = byte :: (g ++ (bs ++ (bt ++ (ba ++ tl)))) := by rw [hd]; simp
    rw [← hfb] at hgv
    obtain ⟨ho, hfl⟩ := crelOffset_spec s.flagBits hfb' byte g (bs ++ (bt ++ (ba ++ tl))) hg hgl hgd
    rw [hgv] at ho hfl
    have hp := Nat.two_pow_pos s.flagBits
    have hdiv : (d.offset * 2 ^ s.flagBits + d.flags) / 2 ^ s.flagBits = d.offset := by
      rw [Nat.mul_comm, Nat.mul_add_div hp, Nat.div_eq_of_lt hflag, Nat.add_zero]
    have hmod : (d.offset * 2 ^ s.flagBits + d.flags) % 2 ^ s.flagBits = d.flags := by
      rw [Nat.mul_comm, Nat.mul_add_mod, Nat.mod_eq_of_lt hflag]
    rw [hdiv] at ho
    rw [hmod] at hfl
    have f1 : (d.flags &&& 1 != 0) = d.sym.isSome := by
      unfold Delta.flags
      cases d.sym <;> cases d.type <;> cases d.addend <;> simp
    have f2 : (d.flags &&& 2 != 0) = d.type.isSome := by
      unfold Delta.flags
      cases d.sym <;> cases d.type <;> cases d.addend <;> simp
    have f4 : (s.isRela && d.flags &&& 4 != 0) = d.addend.isSome := by
      cases hr : s.isRela with
      | true =>
        unfold Delta.flags
        cases d.sym <;> cases d.type <;> cases d.addend <;> simp
      | false => rw [hna hr]; rfl
    unfold CrelIter.parse
    rw [hdata]
    simp only [ho, hfl, f1, f2, f4, Res.bind_eq, Res.ok_bind, crelDelta_spec _ _ _ hs', crelDelta_spec _ _ _ ht', crelDelta_spec _ _ _ ha']
    congr 2
    unfold Delta.apply
    obtain ⟨w1, w2, w3, w4⟩ := hf
    congr 1
    · rw [Nat.shiftLeft_eq]
      have h64 : (U64 : Nat) = 2 ^ 64 := by decide
      rw [h64, Nat.mod_mul_mod, Nat.add_mod_mod]
    · cases d.sym with
      | none => simp only [Option.getD_none]; omega
      | some v => simp only [Option.getD_some]; rfl
    · cases d.type with
      | none => simp only [Option.getD_none]; omega
      | some v => simp only [Option.getD_some]; rfl
    · cases d.addend with
      | none => simp only [Option.getD_none]; omega
      | some v => simp only [Option.getD_some]; exact wrapAddI64_eq _ _

theorem crel_runs (ds : List Delta) (bytes tl : List UInt8) (s : CrelIter) (hb : EncodesDeltas s.isRela ds bytes) (hf : CrelFits s.state)
    (hfb : s.flagBits = if s.isRela then 3 else 2) (hs : s.shift ≤ 3) (hd : s.data = bytes ++ tl) (hc : s.count = ds.length) :
    Runs crelNext s (relocsOf s.shift s.state ds) .done := by
  induction ds generalizing s bytes with
  | nil =>
    refine .done (s' := s) ?_
    unfold crelNext; rw [if_pos (by simpa using hc)]
  | cons d ds ih =>
    cases hb with
    | @cons d ds b bs h1 h2 =>
    have hp := crelParse_spec s d b (bs ++ tl) h1 hf hfb hs (by rw [hd]; simp)
    refine .item (s' := { s with data := bs ++ tl, count := s.count - 1, state := d.apply s.shift s.state }) (x := d.apply s.shift s.state) ?_ ?_
    · unfold crelNext
      rw [if_neg (by rw [hc]; simp), hp]
    · exact ih bs _ h2 (apply_fits _ _ _) hfb hs rfl (by simp [hc])

end Obj.Elf

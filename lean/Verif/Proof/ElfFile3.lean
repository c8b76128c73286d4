import Verif.Proof.ElfFile2
import Verif.Proof.MachoImport
import Verif.Proof.ElfRel

/-! Relocation records and iterators. -/

namespace Obj.ElfF
open Obj Obj.Elf Obj.Spec Obj.Spec.ElfF Obj.Props Obj.MachoF
open Obj.Spec.MachoF (num Each)
open Obj.Spec.ElfRelocS (IsReloc Applies Chain)

/-! ## Records -/

theorem field_num (en : Endianness) (img : List UInt8) (o w : Nat) : field en img o w = num en img o w := rfl

theorem rdI_num (en : Endianness) (data : List UInt8) (o n off w : Nat) (h : off + w ≤ n) (hl : o + n ≤ data.length) :
    rdI en (((slice data o n).drop off).take w) = toSigned w (num en data (o + off) w) := by
  have e : ((slice data o n).drop off).take w = slice data (o + off) w := slice_slice data o n off w h
  rw [e]
  unfold rdI num
  rw [length_slice_of (Or.inr (by omega))]

theorem and_255 (x : Nat) : x &&& 0xff = x % 256 := by
  have := Nat.and_two_pow_sub_one_eq_mod x 8
  simpa using this

theorem rSym32_eq (x : Nat) : rSym32 x = x / 256 := by unfold rSym32; rw [Nat.shiftRight_eq_div_pow]
theorem rType32_eq (x : Nat) : rType32 x = x % 256 := by unfold rType32; exact and_255 x

theorem rSym64_eq (x : Nat) (h : x < 2 ^ 64) : rSym64 false x = x / 2 ^ 32 := by
  unfold rSym64 getRInfo64
  simp only [Bool.false_eq_true, if_false]
  rw [Nat.shiftRight_eq_div_pow]
  simp only [Nat.reducePow] at *
  omega

theorem rType64_eq (x : Nat) : rType64 false x = x % 2 ^ 32 := by
  unfold rType64 getRInfo64
  simp only [Bool.false_eq_true, if_false]
  have := Nat.and_two_pow_sub_one_eq_mod x 32
  simp only [Nat.reducePow, Nat.reduceSub] at this
  rw [this]
  simp

theorem or_add (k a b : Nat) (h : b < 2 ^ k) : (a * 2 ^ k) ||| b = a * 2 ^ k + b := by
  rw [Nat.mul_comm]
  exact (Nat.two_pow_add_eq_or_of_lt h a).symm

theorem mips_info (x : Nat) (hx : x < 2 ^ 64) :
    getRInfo64 true x = x % 2 ^ 32 * 2 ^ 32 + (x / 2 ^ 32 % 256 * 2 ^ 24 + (x / 2 ^ 40 % 256 * 2 ^ 16 + (x / 2 ^ 48 % 256 * 2 ^ 8 + x / 2 ^ 56 % 256))) := by
  have m24 := MachoI.and_mask (x >>> 8) 24 8
  have m16 := MachoI.and_mask (x >>> 24) 16 8
  have m8 := MachoI.and_mask (x >>> 40) 8 8
  have m0 := and_255 (x >>> 56)
  rw [show (2 ^ 8 - 1) <<< 24 = 0xff000000 from rfl] at m24
  rw [show (2 ^ 8 - 1) <<< 16 = 0x00ff0000 from rfl] at m16
  rw [show (2 ^ 8 - 1) <<< 8 = 0x0000ff00 from rfl] at m8
  unfold getRInfo64
  rw [if_pos rfl, m24, m16, m8, m0, show (x <<< 32) % U64 = x % 2 ^ 32 * 2 ^ 32 from by rw [Nat.shiftLeft_eq]; simp only [Nat.reducePow]; omega]
  simp only [Nat.shiftRight_eq_div_pow, Nat.div_div_eq_div_mul, ← Nat.pow_add, Nat.reduceAdd]
  have b0 : x / 2 ^ 56 % 256 < 2 ^ 8 := by simp only [Nat.reducePow]; omega
  rw [show (2 : Nat) ^ 8 = 256 from rfl] at *
  generalize x / 2 ^ 56 % 256 = e0 at *
  have b1 : x / 2 ^ 48 % 256 < 256 := by omega
  generalize x / 2 ^ 48 % 256 = e1 at *
  have b2 : x / 2 ^ 40 % 256 < 256 := by omega
  generalize x / 2 ^ 40 % 256 = e2 at *
  have b3 : x / 2 ^ 32 % 256 < 256 := by omega
  generalize x / 2 ^ 32 % 256 = e3 at *
  rw [Nat.or_assoc, Nat.or_assoc, Nat.or_assoc]
  rw [show e1 * 256 ||| e0 = e1 * 256 + e0 from or_add 8 e1 e0 b0]
  rw [or_add 16 e2 _ (by simp only [Nat.reducePow]; omega), or_add 24 e3 _ (by simp only [Nat.reducePow]; omega), or_add 32 _ _ (by simp only [Nat.reducePow]; omega)]

theorem byte_split (y a b c d : Nat) (ha : a < 256) (hb : b < 256) (hc : c < 256) (hd : d < 256) (hy : y = a + 256 * (b + 256 * (c + 256 * d))) :
    y % 256 = a ∧ y / 256 % 256 = b ∧ y / 65536 % 256 = c ∧ y / 16777216 % 256 = d := by
  have e1 : y / 256 = b + 256 * (c + 256 * d) := by omega
  have e2 : y / 65536 = c + 256 * d := by
    rw [show (65536 : Nat) = 256 * 256 from rfl, ← Nat.div_div_eq_div_mul, e1]; omega
  have e3 : y / 16777216 = d := by
    rw [show (16777216 : Nat) = 65536 * 256 from rfl, ← Nat.div_div_eq_div_mul, e2]; omega
  rw [e1, e2, e3]
  refine ⟨?_, ?_, ?_, ?_⟩ <;> omega

theorem word_split (z w : Nat) (hz : z < 4294967296) (hw : w < 4294967296) :
    (z * 4294967296 + w) / 4294967296 % 4294967296 = z ∧ (z * 4294967296 + w) % 4294967296 % 4294967296 = w := by
  constructor <;> omega

theorem byte_join (z c0 c1 c2 c3 c4 c5 c6 c7 : Nat) (h4 : c4 < 256) (h5 : c5 < 256) (h6 : c6 < 256) (h7 : c7 < 256)
    (hz : z = c0 + 256 * (c1 + 256 * (c2 + 256 * c3))) (hl : z < 4294967296) :
    (z * 4294967296 + (c4 * 16777216 + (c5 * 65536 + (c6 * 256 + c7)))) / 4294967296 % 4294967296 =
      c0 + 256 * (c1 + 256 * (c2 + 256 * (c3 + 256 * 0))) ∧
    (z * 4294967296 + (c4 * 16777216 + (c5 * 65536 + (c6 * 256 + c7)))) % 4294967296 % 4294967296 =
      (((0 * 256 + c4) * 256 + c5) * 256 + c6) * 256 + c7 := by
  obtain ⟨h1, h2⟩ := word_split z (c4 * 16777216 + (c5 * 65536 + (c6 * 256 + c7))) hl (by omega)
  refine ⟨h1.trans (by omega), h2.trans (by omega)⟩

theorem mips_fields (data : List UInt8) (o : Nat) (h : o + 8 ≤ data.length) :
    rSym64 true (num .little data o 8) = num .little data o 4 ∧ rType64 true (num .little data o 8) = num .big data (o + 4) 4 := by
  have hl : (slice data o 8).length = 8 := length_slice_of (Or.inr h)
  have e1 : slice data o 4 = slice (slice data o 8) 0 4 := (slice_slice data o 8 0 4 (by decide)).symm
  have e2 : slice data (o + 4) 4 = slice (slice data o 8) 4 4 := (slice_slice data o 8 4 4 (by decide)).symm
  have hx := num_lt .little data o 8
  unfold rSym64 rType64
  rw [mips_info _ (by simpa using hx)]
  unfold num at *
  rw [e1, e2]
  generalize slice data o 8 = l at *
  match l, hl with
  | [b0, b1, b2, b3, b4, b5, b6, b7], _ =>
    have h0 := b0.toNat_lt
    have h1 := b1.toNat_lt
    have h2 := b2.toNat_lt
    have h3 := b3.toNat_lt
    have h4 := b4.toNat_lt
    have h5 := b5.toNat_lt
    have h6 := b6.toNat_lt
    have h7 := b7.toNat_lt
    have hm := fun z => Nat.and_two_pow_sub_one_eq_mod z 32
    simp only [Nat.reducePow, Nat.reduceSub] at hm
    rw [hm, Nat.shiftRight_eq_div_pow]
    simp only [rd, fromLe, fromBe, slice, List.drop_succ_cons, List.drop_zero, List.take_succ_cons, List.take_zero, List.foldl_cons, List.foldl_nil, Nat.reducePow] at *
    clear hm hx e1 e2
    generalize b0.toNat = c0 at *
    generalize b1.toNat = c1 at *
    generalize b2.toNat = c2 at *
    generalize b3.toNat = c3 at *
    generalize b4.toNat = c4 at *
    generalize b5.toNat = c5 at *
    generalize b6.toNat = c6 at *
    generalize b7.toNat = c7 at *
    have hy : ∃ y, y = c4 + 256 * (c5 + 256 * (c6 + 256 * c7)) := ⟨_, rfl⟩
    obtain ⟨y, hy⟩ := hy
    have hz : ∃ z, z = c0 + 256 * (c1 + 256 * (c2 + 256 * c3)) := ⟨_, rfl⟩
    obtain ⟨z, hz⟩ := hz
    have hx : c0 + 256 * (c1 + 256 * (c2 + 256 * (c3 + 256 * (c4 + 256 * (c5 + 256 * (c6 + 256 * (c7 + 256 * 0))))))) = z + 4294967296 * y := by omega
    rw [hx]
    have hzl : z < 4294967296 := by omega
    have d1 : (z + 4294967296 * y) % 4294967296 = z := by omega
    have d2 : (z + 4294967296 * y) / 4294967296 = y := by omega
    have d3 : (z + 4294967296 * y) / 1099511627776 = y / 256 := by rw [← d2, Nat.div_div_eq_div_mul, d2]
    have d4 : (z + 4294967296 * y) / 281474976710656 = y / 65536 := by rw [← d2, Nat.div_div_eq_div_mul, d2]
    have d5 : (z + 4294967296 * y) / 72057594037927936 = y / 16777216 := by rw [← d2, Nat.div_div_eq_div_mul, d2]
    obtain ⟨f1, f2, f3, f4⟩ := byte_split y c4 c5 c6 c7 h4 h5 h6 h7 hy
    rw [d1, d2, d3, d4, d5, f1, f2, f3, f4]
    clear d1 d2 d3 d4 d5 f1 f2 f3 f4 hx
    exact byte_join z c0 c1 c2 c3 c4 c5 c6 c7 h4 h5 h6 h7 (by rw [hz]) hzl

theorem rel_decode (c : Elf.Cfg) (data : List UInt8) (o : Nat) :
    toCrel (readRel c false false (slice data o (2 * word c.is64))) = relAt c data o := by
  unfold readRel relAt toCrel
  simp only [field_num, Bool.false_and, Bool.false_eq_true, if_false]
  have hn := num_lt c.en data (o + 8) 8
  cases hc : c.is64
  · simp only [Elf.Cfg.w, hc, word, Bool.false_eq_true, if_false]
    rw [num_slice _ _ _ _ _ _ (by decide), num_slice _ _ _ _ _ _ (by decide), rSym32_eq, rType32_eq]
    rfl
  · simp only [Elf.Cfg.w, hc, word, if_true]
    rw [num_slice _ _ _ _ _ _ (by decide), num_slice _ _ _ _ _ _ (by decide), rSym64_eq _ (by simpa using hn), rType64_eq]
    rfl

theorem rela_decode (c : Elf.Cfg) (machine : Nat) (data : List UInt8) (o : Nat) (h : o + 3 * word c.is64 ≤ data.length) :
    toCrel (readRel c (isMips64el c machine) true (slice data o (3 * word c.is64))) = relaAt c machine data o := by
  unfold readRel relaAt toCrel isMips64el
  simp only [field_num, Bool.and_true, if_true]
  have hn := num_lt c.en data (o + 8) 8
  cases hc : c.is64
  · simp only [Elf.Cfg.w, hc, word, Bool.false_eq_true, if_false] at *
    rw [rdI_num _ _ _ _ _ _ (by decide) (by omega), num_slice _ _ _ _ _ _ (by decide), num_slice _ _ _ _ _ _ (by decide), rSym32_eq, rType32_eq]
    rfl
  · simp only [Elf.Cfg.w, hc, word, if_true, Bool.true_and] at *
    rw [rdI_num _ _ _ _ _ _ (by decide) (by omega), num_slice _ _ _ _ _ _ (by decide), num_slice _ _ _ _ _ _ (by decide)]
    by_cases hm : machine = 8 ∧ c.en = .little
    · rw [if_pos hm, hm.1, hm.2]
      have := mips_fields data (o + 8) (by omega)
      simp only [Nat.add_assoc, Nat.reduceAdd] at this
      simp only [beq_self_eq_true, Bool.and_self]
      rw [this.1, this.2]
      rfl
    · rw [if_neg hm]
      have : (c.en == Endianness.little && machine == 8) = false := by
        rw [Bool.eq_false_iff]
        intro h'
        simp only [Bool.and_eq_true, beq_iff_eq] at h'
        exact hm ⟨h'.2, h'.1⟩
      rw [this, rSym64_eq _ (by simpa using hn), rType64_eq]
      rfl

/-! ## Sections with relocations -/

/-- What an opened section yields. -/
inductive Yields (c : Elf.Cfg) (machine : Nat) : Option RelocIter → List (Nat × Relocation) → Prop where
  | none : Yields c machine none []
  | done {it it' : RelocIter} : it.next c machine = (.ok none, it') → Yields c machine (some it) []
  | item {it it' : RelocIter} {r : Crel} {xs : List (Nat × Relocation)} : it.next c machine = (.ok (some r), it') →
      Yields c machine (some it') xs → Yields c machine (some it) ((r.offset, parseRelocation c machine r it'.isRel) :: xs)

theorem reported_eq (c : Elf.Cfg) (machine : Nat) (r : Crel) (b : Bool) :
    (r.offset, parseRelocation c machine r b) = reported c machine b r := rfl

theorem yields_rel (c : Elf.Cfg) (machine : Nat) (rs : List (List UInt8)) :
    Yields c machine (some (.rel rs)) ((rs.map fun i => toCrel (readRel c false false i)).map (reported c machine true)) := by
  induction rs with
  | nil => exact .done rfl
  | cons r rs ih => exact .item (it' := .rel rs) rfl ih

theorem yields_rela (c : Elf.Cfg) (machine : Nat) (rs : List (List UInt8)) :
    Yields c machine (some (.rela rs)) ((rs.map fun i => toCrel (readRel c (isMips64el c machine) true i)).map (reported c machine false)) := by
  induction rs with
  | nil => exact .done rfl
  | cons r rs ih => exact .item (it' := .rela rs) rfl ih

theorem crelNext_isRela {i i' : CrelIter} {x : Res (Option Crel)} (h : crelNext i = (x, i')) : i'.isRela = i.isRela := by
  unfold crelNext at h
  split at h
  · cases h; rfl
  · split at h <;> · cases h; rfl

theorem yields_crel (c : Elf.Cfg) (machine : Nat) {i : CrelIter} {rs : List Crel} {e : End} (h : Runs crelNext i rs e) (he : e ≠ .panic) :
    Yields c machine (some (.crel i)) (rs.map (reported c machine (!i.isRela))) := by
  induction h with
  | done h => exact .done (by simp only [RelocIter.next, h]; rfl)
  | err h => exact .done (by simp only [RelocIter.next, h]; rfl)
  | panic h => exact absurd rfl he
  | @item s s' x xs e h _ ih =>
    have ih := ih he
    have hr := crelNext_isRela h
    rw [hr] at ih
    have : (RelocIter.crel s').isRel = !s.isRela := by simp only [RelocIter.isRel, hr]
    rw [List.map_cons, ← reported_eq, ← this]
    refine .item (by simp only [RelocIter.next, h]) ?_
    rw [this]; exact ih

theorem crel_no_panic {i : CrelIter} {rs : List Crel} {e : End} (h : Runs crelNext i rs e) : e ≠ .panic := by
  obtain ⟨⟨xs, e', h1, -, h2, -⟩, -⟩ := C21_terminates i
  obtain ⟨-, rfl⟩ := h.unique h1
  exact h2

theorem data_iff (data : List UInt8) (s : Shdr) (d : List UInt8) : s.data data = .ok d ↔ DataOf data s d := by
  rw [C42_section_data]
  unfold DataOf
  split
  · simp [eq_comm]
  · split
    · rename_i h; simp [h, eq_comm]
    · rename_i h; simp [h]

theorem crelNew_no_panic (d : List UInt8) : CrelIter.new d ≠ .panic :=
  (Obj.Props.C21_header 0 false 0 (by decide) (by decide) [0] [] d (by simp [LebGroup]) (by decide) (by decide)).2

theorem open_iff (c : Elf.Cfg) (machine : Nat) (data : List UInt8) (hlen : data.length < 2 ^ 64) (s : Shdr)
    (xs : List (Nat × Relocation)) (hx : RelocsIn c machine data s xs) :
    ∃ it, openSection c data s = .ok it ∧ Yields c machine it xs := by
  have hw : 0 < word c.is64 := by unfold word; split <;> omega
  have r1 := records_iff s data hlen (2 * word c.is64) (by omega) (fun i => toCrel (readRel c false false i)) (relAt c data) (fun o _ => rel_decode c data o)
  have r2 := records_iff s data hlen (3 * word c.is64) (by omega) (fun i => toCrel (readRel c (isMips64el c machine) true i)) (relaAt c machine data)
    (fun o h => rela_decode c machine data o h)
  unfold openSection
  have e1 : c.relSize false = 2 * word c.is64 := by unfold Elf.Cfg.relSize Elf.Cfg.w word; simp
  have e2 : c.relSize true = 3 * word c.is64 := by unfold Elf.Cfg.relSize Elf.Cfg.w word; simp
  rw [e1, e2]
  cases hx with
  | rel ht h =>
    rw [if_pos ht]
    obtain ⟨imgs, h1, rfl⟩ := (r1 _).2 h
    rw [h1]
    exact ⟨_, rfl, yields_rel c machine imgs⟩
  | noRel ht h =>
    rw [if_pos ht]
    have np := dataAsArray_no_panic s data (2 * word c.is64)
    cases hd : s.dataAsArray data (2 * word c.is64) with
    | ok imgs => exact absurd ⟨_, (r1 _).1 ⟨imgs, hd, rfl⟩⟩ h
    | err => exact ⟨_, rfl, .none⟩
    | panic => exact absurd hd np
  | rela ht h =>
    rw [if_neg (by omega), if_pos ht]
    obtain ⟨imgs, h1, rfl⟩ := (r2 _).2 h
    rw [h1]
    exact ⟨_, rfl, yields_rela c machine imgs⟩
  | noRela ht h =>
    rw [if_neg (by omega), if_pos ht]
    have np := dataAsArray_no_panic s data (3 * word c.is64)
    cases hd : s.dataAsArray data (3 * word c.is64) with
    | ok imgs => exact absurd ⟨_, (r2 _).1 ⟨imgs, hd, rfl⟩⟩ h
    | err => exact ⟨_, rfl, .none⟩
    | panic => exact absurd hd np
  | crel ht h =>
    rw [if_neg (by omega), if_neg (by omega), if_pos ht]
    obtain ⟨d, i, e, h1, h2, rfl, h4⟩ := h
    rw [(data_iff data s d).2 h1]
    simp only [h2]
    exact ⟨_, rfl, yields_crel c machine h4 (crel_no_panic h4)⟩
  | noCrel ht h =>
    rw [if_neg (by omega), if_neg (by omega), if_pos ht]
    have np := data_no_panic s data
    cases hd : s.data data with
    | ok d =>
      have np := crelNew_no_panic d
      simp only []
      cases hi : CrelIter.new d with
      | ok i =>
        obtain ⟨⟨rs, e, h1, -⟩, -⟩ := C21_terminates i
        exact absurd ⟨_, rs, d, i, e, (data_iff data s d).1 hd, hi, rfl, h1⟩ h
      | err => exact ⟨_, rfl, .none⟩
      | panic => exact absurd hi np
    | err => exact ⟨_, rfl, .none⟩
    | panic => exact absurd hd np

theorem relocs_exist (c : Elf.Cfg) (machine : Nat) (data : List UInt8) (s : Shdr) (hs : IsReloc s) : ∃ xs, RelocsIn c machine data s xs := by
  rcases hs with h | h | h
  · by_cases hr : ∃ rs, RecordsOf (3 * word c.is64) (relaAt c machine data) data s rs
    · obtain ⟨rs, hr⟩ := hr; exact ⟨_, .rela h hr⟩
    · exact ⟨_, .noRela h hr⟩
  · by_cases hr : ∃ rs, RecordsOf (2 * word c.is64) (relAt c data) data s rs
    · obtain ⟨rs, hr⟩ := hr; exact ⟨_, .rel h hr⟩
    · exact ⟨_, .noRel h hr⟩
  · by_cases hr : ∃ rela rs, CrelsOf data s rela rs
    · obtain ⟨rela, rs, hr⟩ := hr; exact ⟨_, .crel h hr⟩
    · exact ⟨_, .noCrel h hr⟩

theorem open_none (c : Elf.Cfg) (data : List UInt8) (s : Shdr) (hs : ¬ IsReloc s) : openSection c data s = .ok none := by
  unfold IsReloc at hs
  unfold openSection
  rw [if_neg (by omega), if_neg (by omega), if_neg (by omega)]

/-! ## The relocations of a section -/

/-- The relocations in section `j`. -/
def In (f : File) (data : List UInt8) (j : Nat) (xs : List (Nat × Relocation)) : Prop :=
  ∃ s, f.sections.sections[j]? = some s ∧ RelocsIn f.cfg f.header.machine data s xs

theorem in_isReloc {c : Elf.Cfg} {machine : Nat} {data : List UInt8} {s : Shdr} {xs : List (Nat × Relocation)} (h : RelocsIn c machine data s xs) : IsReloc s := by
  unfold IsReloc
  cases h <;> omega

theorem relocGet_ne {R : List Nat} {i j : Nat} (h : relocGet R i = some j) : j ≠ 0 := by
  unfold relocGet at h
  split at h
  · split at h
    · cases h; assumption
    · cases h
  · cases h

theorem section_loop (f : File) (data : List UInt8) (hlen : data.length < 2 ^ 64) (js : List Nat) :
    ∀ (fuel i : Nat) (it : Option RelocIter) (xs : List (Nat × Relocation)) (ys : List (List (Nat × Relocation))), js.length < fuel →
      Chain (relocGet f.relocations) i js → Each (In f data) js ys → Yields f.cfg f.header.machine it xs →
      (xs ++ ys.flatten = [] → ∃ s', sectionRelocLoop f data fuel ⟨i, it⟩ = (.ok none, s')) ∧
      (∀ x rest, xs ++ ys.flatten = x :: rest → ∃ i' it' js' xs' ys', sectionRelocLoop f data fuel ⟨i, it⟩ = (.ok (some x), ⟨i', it'⟩) ∧
        js'.length ≤ js.length ∧ Chain (relocGet f.relocations) i' js' ∧ Each (In f data) js' ys' ∧ Yields f.cfg f.header.machine it' xs' ∧
        rest = xs' ++ ys'.flatten) := by
  induction js with
  | nil =>
    intro fuel i it xs ys hf hc he hy
    obtain ⟨n, rfl⟩ : ∃ n, fuel = n + 1 := ⟨fuel - 1, by omega⟩
    cases he
    cases hc
    rename_i hg
    simp only [List.flatten_nil, List.append_nil]
    unfold sectionRelocLoop
    rw [hg]
    cases hy with
    | none => exact ⟨fun _ => ⟨_, rfl⟩, fun x rest h => by cases h⟩
    | done h => simp only [h]; exact ⟨fun _ => ⟨_, rfl⟩, fun x rest h => by cases h⟩
    | @item _ it' r xs' h hy' =>
      simp only [h]
      refine ⟨fun h => (by cases h), fun x rest h' => ?_⟩
      cases h'
      exact ⟨_, _, [], _, [], rfl, Nat.le_refl _, .nil hg, .nil, hy', by simp⟩
  | cons j js ih =>
    intro fuel i it xs ys hf hc he hy
    obtain ⟨n, rfl⟩ : ∃ n, fuel = n + 1 := ⟨fuel - 1, by omega⟩
    have he0 := he
    have hc0 := hc
    cases he
    rename_i y ys hj he
    cases hc
    rename_i hg hc
    obtain ⟨s, hs, hr⟩ := hj
    obtain ⟨jt, ho, hyj⟩ := open_iff f.cfg f.header.machine data hlen s y hr
    have hsec : f.sections.section j = .ok s := by
      unfold SectionTable.section; rw [if_neg (relocGet_ne hg), hs]
    have hih := ih n j jt y ys (by simp at hf; omega) hc he hyj
    have adv : ∀ (P : Res (Option (Nat × Relocation)) × RelocState), P = sectionRelocLoop f data n ⟨j, jt⟩ →
        ([] ++ (y :: ys).flatten = [] → ∃ s', P = (.ok none, s')) ∧
        (∀ x rest, [] ++ (y :: ys).flatten = x :: rest → ∃ i' it' js' xs' ys', P = (.ok (some x), ⟨i', it'⟩) ∧
          js'.length ≤ (j :: js).length ∧ Chain (relocGet f.relocations) i' js' ∧ Each (In f data) js' ys' ∧ Yields f.cfg f.header.machine it' xs' ∧
          rest = xs' ++ ys'.flatten) := by
      rintro P rfl
      refine ⟨fun h => hih.1 (by simpa using h), fun x rest h => ?_⟩
      obtain ⟨i', it', js', xs', ys', h1, h2, h3⟩ := hih.2 x rest (by simpa using h)
      exact ⟨i', it', js', xs', ys', h1, by simp; omega, h3⟩
    unfold sectionRelocLoop
    rw [hg]
    simp only [hsec, ho]
    cases hy with
    | none => exact adv _ rfl
    | done h => simp only [h]; exact adv _ rfl
    | @item _ it' r xs' h hy' =>
      simp only [h]
      refine ⟨fun h => (by cases h), fun x rest h' => ?_⟩
      cases h'
      exact ⟨_, _, _, _, _, rfl, Nat.le_refl _, hc0, he0, hy', rfl⟩

theorem section_runs (f : File) (data : List UInt8) (hlen : data.length < 2 ^ 64) (all : List (Nat × Relocation)) :
    ∀ (js : List Nat) (i : Nat) (it : Option RelocIter) (xs : List (Nat × Relocation)) (ys : List (List (Nat × Relocation))),
      js.length < f.sections.sections.length + 2 → Chain (relocGet f.relocations) i js → Each (In f data) js ys → Yields f.cfg f.header.machine it xs →
      all = xs ++ ys.flatten → Runs (sectionRelocNext f data) ⟨i, it⟩ all .done := by
  induction all with
  | nil =>
    intro js i it xs ys hl hc he hy ha
    obtain ⟨s', h⟩ := (section_loop f data hlen js _ i it xs ys hl hc he hy).1 ha.symm
    exact .done h
  | cons x rest ih =>
    intro js i it xs ys hl hc he hy ha
    obtain ⟨i', it', js', xs', ys', h1, h2, h3, h4, h5, h6⟩ := (section_loop f data hlen js _ i it xs ys hl hc he hy).2 x rest ha.symm
    exact .item h1 (ih js' i' it' xs' ys' (by omega) h3 h4 h5 h6)

/-! ## Dynamic relocations -/

/-- The sections with dynamic relocations from index `i` on. -/
def dynFrom (f : File) (i : Nat) : List Nat :=
  (List.range' i (f.sections.sections.length - i)).filter fun j =>
    match f.sections.sections[j]? with
    | some s => decide (IsReloc s ∧ s.link = f.dynamicSymbols.sec)
    | none => false

theorem dynFrom_end (f : File) (i : Nat) (h : f.sections.sections.length ≤ i) : dynFrom f i = [] := by
  unfold dynFrom
  rw [show f.sections.sections.length - i = 0 by omega]; rfl

theorem dynFrom_step (f : File) (i : Nat) (s : Shdr) (h : f.sections.sections[i]? = some s) :
    dynFrom f i = if IsReloc s ∧ s.link = f.dynamicSymbols.sec then i :: dynFrom f (i + 1) else dynFrom f (i + 1) := by
  have hi := (List.getElem?_eq_some_iff.1 h).1
  unfold dynFrom
  rw [show f.sections.sections.length - i = (f.sections.sections.length - (i + 1)) + 1 by omega, List.range'_succ, List.filter_cons, h]
  simp only [decide_eq_true_eq]

theorem dynamic_loop (f : File) (data : List UInt8) (hlen : data.length < 2 ^ 64) (n : Nat) :
    ∀ (i : Nat) (it : Option RelocIter) (xs : List (Nat × Relocation)) (ys : List (List (Nat × Relocation))), 0 < i → f.sections.sections.length ≤ i + n →
      Each (In f data) (dynFrom f i) ys → Yields f.cfg f.header.machine it xs →
      (xs ++ ys.flatten = [] → ∃ s', dynamicRelocLoop f data (n + 1) ⟨i, it⟩ = (.ok none, s')) ∧
      (∀ x rest, xs ++ ys.flatten = x :: rest → ∃ i' it' xs' ys', dynamicRelocLoop f data (n + 1) ⟨i, it⟩ = (.ok (some x), ⟨i', it'⟩) ∧
        i ≤ i' ∧ Each (In f data) (dynFrom f i') ys' ∧ Yields f.cfg f.header.machine it' xs' ∧ rest = xs' ++ ys'.flatten) := by
  induction n with
  | zero =>
    intro i it xs ys h0 hn he hy
    have he0 := he
    rw [dynFrom_end f i (by omega)] at he
    cases he
    simp only [List.flatten_nil, List.append_nil]
    unfold dynamicRelocLoop
    have hsec : f.sections.section i = .err := by
      unfold SectionTable.section; rw [if_neg (by omega), List.getElem?_eq_none (by omega)]
    rw [hsec]
    cases hy with
    | none => exact ⟨fun _ => ⟨_, rfl⟩, fun x rest h => by cases h⟩
    | done h => simp only [h]; exact ⟨fun _ => ⟨_, rfl⟩, fun x rest h => by cases h⟩
    | @item _ it' r xs' h hy' =>
      simp only [h]
      refine ⟨fun h => (by cases h), fun x rest h' => ?_⟩
      cases h'
      exact ⟨_, _, _, [], rfl, Nat.le_refl _, he0, hy', by simp⟩
  | succ n ih =>
    intro i it xs ys h0 hn he hy
    have he0 := he
    by_cases hi : i < f.sections.sections.length
    · have hs := List.getElem?_eq_getElem hi
      generalize f.sections.sections[i] = s at hs
      rw [dynFrom_step f i s hs] at he
      have hsec : f.sections.section i = .ok s := by
        unfold SectionTable.section; rw [if_neg (by omega), hs]
      have adv : ∀ (P : Res (Option (Nat × Relocation)) × RelocState),
          P = (if s.link ≠ f.dynamicSymbols.sec then dynamicRelocLoop f data (n + 1) ⟨i + 1, none⟩
            else match openSection f.cfg data s with
              | .ok it => dynamicRelocLoop f data (n + 1) ⟨i + 1, it⟩
              | _ => (.panic, ⟨i + 1, none⟩)) →
          ([] ++ ys.flatten = [] → ∃ s', P = (.ok none, s')) ∧
          (∀ x rest, [] ++ ys.flatten = x :: rest → ∃ i' it' xs' ys', P = (.ok (some x), ⟨i', it'⟩) ∧
            i ≤ i' ∧ Each (In f data) (dynFrom f i') ys' ∧ Yields f.cfg f.header.machine it' xs' ∧ rest = xs' ++ ys'.flatten) := by
        rintro P rfl
        have wk : ∀ (jt : Option RelocIter) (y : List (Nat × Relocation)) (zs : List (List (Nat × Relocation))), ys.flatten = y ++ zs.flatten →
            Each (In f data) (dynFrom f (i + 1)) zs → Yields f.cfg f.header.machine jt y →
            ([] ++ ys.flatten = [] → ∃ s', dynamicRelocLoop f data (n + 1) ⟨i + 1, jt⟩ = (.ok none, s')) ∧
            (∀ x rest, [] ++ ys.flatten = x :: rest → ∃ i' it' xs' ys', dynamicRelocLoop f data (n + 1) ⟨i + 1, jt⟩ = (.ok (some x), ⟨i', it'⟩) ∧
              i ≤ i' ∧ Each (In f data) (dynFrom f i') ys' ∧ Yields f.cfg f.header.machine it' xs' ∧ rest = xs' ++ ys'.flatten) := by
          intro jt y zs hz hE hY
          have hih := ih (i + 1) jt y zs (by omega) (by omega) hE hY
          rw [hz, List.nil_append]
          refine ⟨hih.1, fun x rest h => ?_⟩
          obtain ⟨i', it', xs', ys', h1, h2, h3⟩ := hih.2 x rest h
          exact ⟨i', it', xs', ys', h1, by omega, h3⟩
        by_cases hl : s.link = f.dynamicSymbols.sec
        · rw [if_neg (by omega)]
          by_cases hr : IsReloc s
          · rw [if_pos ⟨hr, hl⟩] at he
            cases he
            rename_i y ys hj he
            obtain ⟨s', hs', hin⟩ := hj
            rw [hs] at hs'; cases hs'
            obtain ⟨jt, ho, hyj⟩ := open_iff f.cfg f.header.machine data hlen s y hin
            rw [ho]
            exact wk jt y ys (by simp) he hyj
          · rw [if_neg (by simp [hr])] at he
            rw [open_none _ _ _ hr]
            exact wk none [] ys (by simp) he .none
        · rw [if_pos hl]
          rw [if_neg (by simp [hl])] at he
          exact wk none [] ys (by simp) he .none
      unfold dynamicRelocLoop
      rw [hsec]
      simp only []
      cases hy with
      | none => exact adv _ rfl
      | done h => simp only [h]; exact adv _ rfl
      | @item _ it' r xs' h hy' =>
        simp only [h]
        refine ⟨fun h => (by cases h), fun x rest h' => ?_⟩
        cases h'
        exact ⟨_, _, _, _, rfl, Nat.le_refl _, he0, hy', rfl⟩
    · rw [dynFrom_end f i (by omega)] at he
      cases he
      simp only [List.flatten_nil, List.append_nil]
      unfold dynamicRelocLoop
      have hsec : f.sections.section i = .err := by
        unfold SectionTable.section; rw [if_neg (by omega), List.getElem?_eq_none (by omega)]
      rw [hsec]
      cases hy with
      | none => exact ⟨fun _ => ⟨_, rfl⟩, fun x rest h => by cases h⟩
      | done h => simp only [h]; exact ⟨fun _ => ⟨_, rfl⟩, fun x rest h => by cases h⟩
      | @item _ it' r xs' h hy' =>
        simp only [h]
        refine ⟨fun h => (by cases h), fun x rest h' => ?_⟩
        cases h'
        exact ⟨_, _, _, [], rfl, Nat.le_refl _, he0, hy', by simp⟩

theorem dynamic_runs (f : File) (data : List UInt8) (hlen : data.length < 2 ^ 64) (all : List (Nat × Relocation)) :
    ∀ (i : Nat) (it : Option RelocIter) (xs : List (Nat × Relocation)) (ys : List (List (Nat × Relocation))), 0 < i →
      Each (In f data) (dynFrom f i) ys → Yields f.cfg f.header.machine it xs →
      all = xs ++ ys.flatten → Runs (dynamicRelocNext f data) ⟨i, it⟩ all .done := by
  induction all with
  | nil =>
    intro i it xs ys h0 he hy ha
    obtain ⟨s', h⟩ := (dynamic_loop f data hlen _ i it xs ys h0 (by omega : f.sections.sections.length ≤ i + (f.sections.sections.length + 1)) he hy).1 ha.symm
    exact .done h
  | cons x rest ih =>
    intro i it xs ys h0 he hy ha
    obtain ⟨i', it', xs', ys', h1, h2, h3, h4, h5⟩ :=
      (dynamic_loop f data hlen _ i it xs ys h0 (by omega : f.sections.sections.length ≤ i + (f.sections.sections.length + 1)) he hy).2 x rest ha.symm
    exact .item h1 (ih i' it' xs' ys' (by omega) h3 h4 h5)

theorem each_exists {f : File} {data : List UInt8} (js : List Nat) (h : ∀ j ∈ js, ∃ s, f.sections.sections[j]? = some s ∧ IsReloc s) :
    ∃ ys, Each (In f data) js ys := by
  induction js with
  | nil => exact ⟨[], .nil⟩
  | cons j js ih =>
    obtain ⟨ys, hys⟩ := ih (fun j' hj' => h j' (List.mem_cons_of_mem _ hj'))
    obtain ⟨s, hs, hr⟩ := h j (List.mem_cons_self ..)
    obtain ⟨y, hy⟩ := relocs_exist f.cfg f.header.machine data s hr
    exact ⟨y :: ys, .cons ⟨s, hs, hy⟩ hys⟩

end Obj.ElfF

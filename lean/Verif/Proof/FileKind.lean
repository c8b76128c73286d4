import Verif.Spec.FileKind
import Verif.Proof.ReadRef
import Verif.Proof.Endian

/-! # Lemmas about file kind detection -/

namespace Obj
open Obj.Spec

theorem list8 {l : List UInt8} (h : l.length = 8) :
    ∃ b0 b1 b2 b3 b4 b5 b6 b7, l = [b0, b1, b2, b3, b4, b5, b6, b7] := by
  match l, h with
  | [b0, b1, b2, b3, b4, b5, b6, b7], _ => exact ⟨b0, b1, b2, b3, b4, b5, b6, b7, rfl⟩

theorem ite_ok {α : Type} {c : Prop} [Decidable c] {a k : α} {r : Res α} (h : (if c then .ok a else r) = .ok k) :
    (c ∧ a = k) ∨ (¬ c ∧ r = .ok k) := by
  by_cases hc : c
  · rw [if_pos hc] at h; injection h with h; exact .inl ⟨hc, h⟩
  · rw [if_neg hc] at h; exact .inr ⟨hc, h⟩

theorem ite_no_panic {α : Type} {c : Prop} [Decidable c] {a : α} {r : Res α} (h : r ≠ .panic) :
    (if c then .ok a else r) ≠ .panic := by
  split
  · simp
  · exact h

/-- Two prefixes of a list are comparable. -/
theorem prefix_excl {p m : List UInt8} (h : p.isPrefixOf m = true) {q : List UInt8} (h1 : ¬ q <+: p)
    (h2 : ¬ p <+: q) : ¬ q <+: m := by
  rw [List.isPrefixOf_iff_prefix] at h
  intro hq
  rcases Nat.le_total p.length q.length with hl | hl
  · exact h2 (List.prefix_of_prefix_length_le h hq hl)
  · exact h1 (List.prefix_of_prefix_length_le hq h hl)

theorem at_iff_prefix {data : List UInt8} {off n : Nat} {p : List UInt8} (hn : p.length ≤ n) :
    At data off p ↔ p.isPrefixOf (slice data off n) = true := by
  rw [List.isPrefixOf_iff_prefix]
  unfold At slice
  constructor
  · intro h
    rw [← h]
    exact List.take_prefix_take_left hn
  · intro h
    have := List.prefix_iff_eq_take.1 h
    rw [List.take_take, Nat.min_eq_left hn] at this
    exact this.symm

theorem at_slice {data : List UInt8} {a n b : Nat} {p : List UInt8} (h : b + p.length ≤ n) :
    At (slice data a n) b p ↔ At data (a + b) p := by
  unfold At; rw [slice_slice _ _ _ _ _ h]

/-- Reading an integer field and comparing is the same as comparing the bytes. -/
theorem rd_slice_eq_iff (e : Endianness) (data : List UInt8) (off w v : Nat) (hin : off + w ≤ data.length) (hv : v < 256 ^ w) :
    rd e (slice data off w) = v ↔ At data off (wr e w v) := by
  unfold At
  rw [length_wr]
  have hl : (slice data off w).length = w := by simp [slice]; omega
  constructor
  · intro h
    have := wr_rd e (slice data off w)
    rw [hl, h] at this
    exact this.symm
  · intro h; rw [h, rd_wr _ _ _ hv]

theorem optionalHeaderMagic_iff (data : List UInt8) (v : Nat) (hv : v < 256 ^ 2) :
    optionalHeaderMagic data = .ok v ↔ ∃ nt, nt = rd .little (slice data 60 4) ∧ 64 ≤ data.length ∧
      nt + 120 ≤ data.length ∧ At data 0 [0x4d, 0x5a] ∧ At data nt [0x50, 0x45, 0, 0] ∧ At data (nt + 24) (wr .little 2 v) := by
  unfold optionalHeaderMagic
  rw [readRef_readBytesAt_pos (by omega)]
  by_cases h64 : 0 + 64 ≤ data.length
  · rw [if_pos h64]
    dsimp only
    rw [show field .little (slice data 0 64) 0 2 = rd .little (slice (slice data 0 64) 0 2) from rfl,
      show field .little (slice data 0 64) 60 4 = rd .little (slice (slice data 0 64) 60 4) from rfl,
      slice_slice _ _ _ _ _ (by omega), slice_slice _ _ _ _ _ (by omega), Nat.zero_add, Nat.zero_add]
    generalize hnt : rd .little (slice data 60 4) = nt
    have hmz : rd .little (slice data 0 2) = 0x5a4d ↔ At data 0 [0x4d, 0x5a] :=
      rd_slice_eq_iff .little data 0 2 0x5a4d (by omega) (by omega)
    by_cases hm : rd .little (slice data 0 2) = 0x5a4d
    · rw [if_neg (by simp [hm]), readRef_readBytesAt_pos (by omega)]
      by_cases h120 : nt + 120 ≤ data.length
      · rw [if_pos h120]
        dsimp only
        rw [show field .little (slice data nt 120) 0 4 = rd .little (slice (slice data nt 120) 0 4) from rfl,
          show field .little (slice data nt 120) 24 2 = rd .little (slice (slice data nt 120) 24 2) from rfl,
          slice_slice _ _ _ _ _ (by omega), slice_slice _ _ _ _ _ (by omega), Nat.add_zero]
        have hpe : rd .little (slice data nt 4) = 0x4550 ↔ At data nt [0x50, 0x45, 0, 0] :=
          rd_slice_eq_iff .little data nt 4 0x4550 (by omega) (by omega)
        have hv' := rd_slice_eq_iff .little data (nt + 24) 2 v (by omega) hv
        by_cases hp : rd .little (slice data nt 4) = 0x4550
        · rw [if_neg (by simp [hp])]
          simp only [Res.ok.injEq]
          rw [hv']
          constructor
          · intro h
            exact ⟨nt, rfl, by omega, h120, hmz.1 hm, hpe.1 hp, h⟩
          · rintro ⟨nt', rfl, _, _, _, _, h⟩
            exact h
        · rw [if_pos (by simp [hp])]
          constructor
          · intro h; cases h
          · rintro ⟨nt', rfl, _, _, _, h, _⟩
            exact absurd (hpe.2 h) hp
      · rw [if_neg h120]
        constructor
        · intro h; cases h
        · rintro ⟨nt', rfl, _, h, _⟩
          exact absurd h h120
    · rw [if_pos (by simp [hm])]
      constructor
      · intro h; cases h
      · rintro ⟨nt', rfl, _, _, h, _⟩
        exact absurd (hmz.2 h) hm
  · rw [if_neg h64]
    constructor
    · intro h; cases h
    · rintro ⟨nt', rfl, h, _⟩
      omega

theorem optionalHeaderMagic_no_panic (data : List UInt8) : optionalHeaderMagic data ≠ .panic := by
  unfold optionalHeaderMagic
  split
  · split
    · simp
    · split
      · split <;> simp
      · simp
      · rename_i h; exact absurd h (readRef_readBytesAt_no_panic _ _ _)
  · simp
  · rename_i h; exact absurd h (readRef_readBytesAt_no_panic _ _ _)

theorem anonObjectClassId_iff (data : List UInt8) (id : List UInt8) (hid : id.length = 16) :
    anonObjectClassId data = .ok id ↔ 32 ≤ data.length ∧ At data 12 id := by
  unfold anonObjectClassId
  rw [readRef_readBytesAt_pos (by omega)]
  by_cases h : 0 + 32 ≤ data.length
  · rw [if_pos h]
    dsimp only
    rw [show ((slice data 0 32).drop 12).take 16 = slice (slice data 0 32) 12 16 from rfl, slice_slice _ _ _ _ _ (by omega)]
    simp only [Res.ok.injEq, At, hid]
    constructor
    · intro h'; exact ⟨by omega, h'⟩
    · intro h'; exact h'.2
  · rw [if_neg h]
    constructor
    · intro h; cases h
    · intro h'; omega

theorem anonObjectClassId_no_panic (data : List UInt8) : anonObjectClassId data ≠ .panic := by
  unfold anonObjectClassId
  rw [readRef_readBytesAt_pos (by omega)]
  split
  · simp
  · simp
  · rename_i h; split at h <;> cases h

/-- The magic of a kind in terms of the first eight bytes. -/
def magic8 (data : List UInt8) (off : Nat) (m : List UInt8) : FileKind → Prop
  | .archive => [0x21, 0x3c, 0x61, 0x72, 0x63, 0x68, 0x3e, 0x0a].isPrefixOf m ∨ [0x21, 0x3c, 0x74, 0x68, 0x69, 0x6e, 0x3e, 0x0a].isPrefixOf m
  | .dyldCache => [0x64, 0x79, 0x6c, 0x64, 0x5f, 0x76, 0x31, 0x20].isPrefixOf m
  | .elf32 => [0x7f, 0x45, 0x4c, 0x46, 1].isPrefixOf m
  | .elf64 => [0x7f, 0x45, 0x4c, 0x46, 2].isPrefixOf m
  | .machO32 => [0xfe, 0xed, 0xfa, 0xce].isPrefixOf m ∨ [0xce, 0xfa, 0xed, 0xfe].isPrefixOf m
  | .machO64 => [0xfe, 0xed, 0xfa, 0xcf].isPrefixOf m ∨ [0xcf, 0xfa, 0xed, 0xfe].isPrefixOf m
  | .machOFat32 => [0xca, 0xfe, 0xba, 0xbe].isPrefixOf m
  | .machOFat64 => [0xca, 0xfe, 0xba, 0xbf].isPrefixOf m
  | .wasm => [0x00, 0x61, 0x73, 0x6d].isPrefixOf m ∧ m.drop 6 = [0, 0]
  | .pe32 => off = 0 ∧ [0x4d, 0x5a].isPrefixOf m ∧ optionalHeaderMagic data = .ok 0x10b
  | .pe64 => off = 0 ∧ [0x4d, 0x5a].isPrefixOf m ∧ optionalHeaderMagic data = .ok 0x20b
  | .coff => [0xc4, 0x01].isPrefixOf m ∨ [0x64, 0xaa].isPrefixOf m ∨ [0x41, 0xa6].isPrefixOf m ∨ [0xf0, 0x01].isPrefixOf m ∨
        [0xf1, 0x01].isPrefixOf m ∨ [0xf2, 0x01].isPrefixOf m ∨ [0x4c, 0x01].isPrefixOf m ∨ [0x64, 0x86].isPrefixOf m
  | .coffImport => [0x00, 0x00, 0xff, 0xff, 0x00, 0x00].isPrefixOf m
  | .coffBig => off = 0 ∧ [0x00, 0x00, 0xff, 0xff, 0x02, 0x00].isPrefixOf m ∧ anonObjectClassId data = .ok bigobjClassId
  | .xcoff32 => [0x01, 0xdf].isPrefixOf m
  | .xcoff64 => [0x01, 0xf7].isPrefixOf m

theorem magic_iff_magic8 (data : List UInt8) (off : Nat) (hin : off + 16 ≤ data.length) (k : FileKind) :
    Magic data off k ↔ magic8 data off (slice data off 8) k := by
  have e1 : "!<arch>\n".toUTF8.toList = [0x21, 0x3c, 0x61, 0x72, 0x63, 0x68, 0x3e, 0x0a] := by decide +kernel
  have e2 : "!<thin>\n".toUTF8.toList = [0x21, 0x3c, 0x74, 0x68, 0x69, 0x6e, 0x3e, 0x0a] := by decide +kernel
  have e3 : "dyld_v1 ".toUTF8.toList = [0x64, 0x79, 0x6c, 0x64, 0x5f, 0x76, 0x31, 0x20] := by decide +kernel
  have e4 : "ELF".toUTF8.toList = [0x45, 0x4c, 0x46] := by decide +kernel
  have e5 : "asm".toUTF8.toList = [0x61, 0x73, 0x6d] := by decide +kernel
  have e6 : "MZ".toUTF8.toList = [0x4d, 0x5a] := by decide +kernel
  have e7 : "PE".toUTF8.toList = [0x50, 0x45] := by decide +kernel
  have hd6 : (slice data off 8).drop 6 = slice data (off + 6) 2 := by
    unfold slice; rw [List.drop_take, List.drop_drop]
  cases k <;> simp only [Magic, magic8, e1, e2, e3, e4, e5, e6, e7, List.cons_append, List.nil_append]
  case archive => rw [at_iff_prefix (n := 8) (by decide), at_iff_prefix (n := 8) (by decide)]
  case dyldCache => rw [at_iff_prefix (n := 8) (by decide)]
  case elf32 => rw [at_iff_prefix (n := 8) (by decide)]
  case elf64 => rw [at_iff_prefix (n := 8) (by decide)]
  case machO32 => rw [at_iff_prefix (n := 8) (by decide), at_iff_prefix (n := 8) (by decide)]; rfl
  case machO64 => rw [at_iff_prefix (n := 8) (by decide), at_iff_prefix (n := 8) (by decide)]; rfl
  case machOFat32 => rw [at_iff_prefix (n := 8) (by decide)]; rfl
  case machOFat64 => rw [at_iff_prefix (n := 8) (by decide)]; rfl
  case wasm => rw [at_iff_prefix (n := 8) (by decide), hd6]; rfl
  case pe32 =>
    rw [optionalHeaderMagic_iff _ _ (by omega)]
    constructor
    · rintro ⟨rfl, nt, h1, h2, h3, h4, h5, h6⟩
      exact ⟨rfl, (at_iff_prefix (n := 8) (by decide)).1 h4, nt, h1, h2, h3, h4, h5, h6⟩
    · rintro ⟨rfl, h0, h⟩
      exact ⟨rfl, h⟩
  case pe64 =>
    rw [optionalHeaderMagic_iff _ _ (by omega)]
    constructor
    · rintro ⟨rfl, nt, h1, h2, h3, h4, h5, h6⟩
      exact ⟨rfl, (at_iff_prefix (n := 8) (by decide)).1 h4, nt, h1, h2, h3, h4, h5, h6⟩
    · rintro ⟨rfl, h0, h⟩
      exact ⟨rfl, h⟩
  case coff =>
    simp only [List.mem_cons, List.not_mem_nil, or_false, exists_eq_or_imp, exists_eq_left]
    rw [at_iff_prefix (n := 8) (by decide), at_iff_prefix (n := 8) (by decide), at_iff_prefix (n := 8) (by decide),
      at_iff_prefix (n := 8) (by decide), at_iff_prefix (n := 8) (by decide), at_iff_prefix (n := 8) (by decide),
      at_iff_prefix (n := 8) (by decide), at_iff_prefix (n := 8) (by decide)]
    rfl
  case coffImport => rw [at_iff_prefix (n := 8) (by decide)]
  case coffBig =>
    rw [anonObjectClassId_iff _ _ (by decide)]
    constructor
    · rintro ⟨rfl, h1, h2, h3⟩
      exact ⟨rfl, (at_iff_prefix (n := 8) (by decide)).1 h2, h1, h3⟩
    · rintro ⟨rfl, h1, h2, h3⟩
      exact ⟨rfl, h2, (at_iff_prefix (n := 8) (by decide)).2 h1, h3⟩
  case xcoff32 => rw [at_iff_prefix (n := 8) (by decide)]; rfl
  case xcoff64 => rw [at_iff_prefix (n := 8) (by decide)]; rfl

end Obj

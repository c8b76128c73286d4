import Verif.Proof.Endian

/-! # C40: endian integers. -/

namespace Obj.Props
open Obj

/-- Storing then loading gives the value back, for every width and byte order; `w` is 2, 4 or 8 in the
crate. -/
theorem C40_round_trip (e : Endianness) (w n : Nat) (h : n < 256 ^ w) : rd e (wr e w n) = n :=
  rd_wr e w n h

example : (0x12345678 : Nat) < 256 ^ 4 ∧ wr .big 4 0x12345678 = [0x12, 0x34, 0x56, 0x78] := by decide

/-- Loading then storing gives the bytes back: no two byte patterns have the same value. -/
theorem C40_bytes_round_trip (e : Endianness) (l : List UInt8) :
    wr e l.length (rd e l) = l ∧ rd e l < 256 ^ l.length := ⟨wr_rd e l, rd_lt e l⟩

/-- The stored bytes are the base-256 digits: digit `i` is at index `i` in little endian and at index
`w-1-i` in big endian; there are exactly `w` of them. -/
theorem C40_digits (w n : Nat) :
    (wr .little w n).length = w ∧ (wr .big w n).length = w ∧
    ∀ i, i < w → (∃ b, (wr .little w n)[i]? = some b ∧ b.toNat = n / 256 ^ i % 256) ∧
      (∃ b, (wr .big w n)[w - 1 - i]? = some b ∧ b.toNat = n / 256 ^ i % 256) := by
  refine ⟨by simp, by simp, fun i hi => ⟨⟨_, getElem?_toLe w n i hi, toNat_ofNat_mod _⟩, ?_⟩⟩
  refine ⟨_, getElem?_toBe w n (w - 1 - i) (by omega), ?_⟩
  rw [toNat_ofNat_mod]
  have : w - 1 - (w - 1 - i) = i := by omega
  rw [this]

/-- The two byte orders are reverses of each other, for stores and loads. -/
theorem C40_reverse (w n : Nat) (l : List UInt8) :
    wr .big w n = (wr .little w n).reverse ∧ rd .big l = rd .little l.reverse :=
  ⟨toBe_eq_reverse w n, fromBe_eq_fromLe_reverse l⟩

/-- Signed integers round trip over their whole range. -/
theorem C40_signed (e : Endianness) (w : Nat) (hw : 0 < w) (i : Int)
    (h1 : -((256 ^ w / 2 : Nat) : Int) ≤ i) (h2 : i < ((256 ^ w / 2 : Nat) : Int)) :
    rdI e (wrI e w i) = i := by
  unfold rdI wrI
  rw [length_wr, rd_wr, toSigned_ofSigned w hw i h1 h2]
  unfold ofSigned
  have hpos : 0 < 256 ^ w := Nat.pow_pos (by decide)
  have he : (256 : Int) ^ w = ((256 ^ w : Nat) : Int) := by simp
  rw [he]
  have := Int.emod_lt_of_pos i (b := ((256 ^ w : Nat) : Int)) (by omega)
  have := Int.emod_nonneg i (b := ((256 ^ w : Nat) : Int)) (by omega)
  omega

example : rdI .little (wrI .little 2 (-2)) = -2 ∧ wrI .little 2 (-2) = [0xfe, 0xff] := by decide

/-- Narrowing stores: `new_u64` succeeds exactly when the value fits and then round trips (it never
silently truncates); the explicitly truncating version stores the value modulo 2^32. -/
theorem C40_narrow (e : Endianness) (n : Nat) :
    (∀ b, newU64 e n = .ok b ↔ n < U32 ∧ b.length = 4 ∧ rd e b = n) ∧
    newU64 e n ≠ .panic ∧ rd e (newU64Truncate e n) = n % U32 := by
  refine ⟨?_, ?_, ?_⟩
  · intro b
    unfold newU64
    by_cases h : n < U32
    · rw [if_pos h]
      simp only [Res.ok.injEq]
      constructor
      · rintro rfl; exact ⟨h, by simp, rd_wr e 4 n (by omega)⟩
      · rintro ⟨_, hl, hr⟩
        rw [← hr, ← hl, wr_rd]
    · rw [if_neg h]; simp [h]
  · unfold newU64; split <;> simp
  · unfold newU64Truncate
    rw [rd_wr e 4 _ (by have := Nat.mod_lt n (y := U32) (by decide); omega)]

/-- The same for `I32::new_i64`. -/
theorem C40_narrow_signed (e : Endianness) (i : Int) :
    (∃ b, newI64 e i = .ok b ∧ rdI e b = i) ↔ -2147483648 ≤ i ∧ i < 2147483648 := by
  unfold newI64
  by_cases h : -2147483648 ≤ i ∧ i ≤ 2147483647
  · rw [if_pos h]
    exact ⟨fun _ => by omega, fun _ => ⟨_, rfl, C40_signed e 4 (by omega) i (by simp; omega) (by simp; omega)⟩⟩
  · rw [if_neg h]
    exact ⟨fun ⟨b, hb, _⟩ => by { cases hb }, fun h' => absurd ⟨h'.1, by omega⟩ h⟩

/-- Structures of endian integers: the fields written are the fields read, whatever follows. -/
theorem C40_struct (e : Endianness) (fs : List (Nat × Nat)) (tl : List UInt8)
    (h : ∀ f ∈ fs, f.2 < 256 ^ f.1) :
    decode e (fs.map (·.1)) (encode e fs ++ tl) = fs.map (·.2) := decode_encode e fs tl h

example : decode .little [2, 4] (encode .little [(2, 513), (4, 7)] ++ [9]) = [513, 7] := by decide

end Obj.Props

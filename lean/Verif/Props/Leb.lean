import Verif.Proof.Leb

/-! # C01–C04: LEB128 -/

namespace Obj.Props
open Obj Obj.Spec

/-- C01: writing any `u64` appends between 1 and 10 bytes to the buffer, returns that number, and
reading those bytes followed by anything gives the value back and leaves exactly the rest. -/
theorem C01_uleb_round_trip (v : Nat) (hv : v < 2 ^ 64) (buf suffix : List UInt8) :
    ∃ g, writeUleb buf v = (buf ++ g, g.length) ∧ 1 ≤ g.length ∧ g.length ≤ 10 ∧
      Bytes.readUleb (g ++ suffix) = (.ok v, suffix) := by
  obtain ⟨g, hw, hG, hval, hl⟩ := writeUlebLoop_spec 9 buf 0 v (by simp; omega)
  refine ⟨g, by simpa [writeUleb] using hw, ?_, by omega, ?_⟩
  · cases g with
    | nil => exact hG.elim
    | cons _ _ => simp
  · exact (readUlebLoop_ok_iff (g ++ suffix) 0 0 v suffix (by omega) (by simp)).2
      ⟨g, rfl, hG, by omega, by simp [hval], by omega⟩

example : writeUleb [] 300 = ([0xac, 0x02], 2) ∧
    Bytes.readUleb ([0xac, 0x02] ++ [7]) = (.ok 300, [7]) := by
  constructor
  · simp [writeUleb, writeUlebLoop]; decide
  · decide

/-- C02: the unsigned reader succeeds with `v` and rest `rest` exactly when the input is a complete
LEB128 group of at most 10 bytes with value `v` below `2^64`, followed by `rest`. -/
theorem C02_uleb_reader_exact (bs : List UInt8) (v : Nat) (rest : List UInt8) :
    Bytes.readUleb bs = (.ok v, rest) ↔
      ∃ g, bs = g ++ rest ∧ LebGroup g ∧ g.length ≤ 10 ∧ ulebValue g = v ∧ v < 2 ^ 64 := by
  rw [Bytes.readUleb, show (0 : Nat) = 7 * 0 from rfl,
    readUlebLoop_ok_iff bs (7 * 0) 0 v rest (by omega) (by simp)]
  constructor
  · rintro ⟨g, h1, h2, h3, h4, h5⟩
    exact ⟨g, h1, h2, by omega, by simp at h4; omega, by omega⟩
  · rintro ⟨g, h1, h2, h3, h4, h5⟩
    exact ⟨g, h1, h2, by omega, by simp [h4], by omega⟩

/-- C02: the unsigned reader never panics. -/
theorem C02_uleb_reader_no_panic (bs : List UInt8) : (Bytes.readUleb bs).1 ≠ .panic :=
  readUlebLoop_no_panic bs 0 0 (by omega)

-- an overlong but valid encoding is accepted, a value of 2^64 is rejected
example : LebGroup [0x80, 0x00] ∧ Bytes.readUleb [0x80, 0x00, 5] = (.ok 0, [5]) := by
  refine ⟨by simp [LebGroup], by decide⟩
example : (Bytes.readUleb [0x80, 0x80, 0x80, 0x80, 0x80, 0x80, 0x80, 0x80, 0x80, 0x02]).1 = .err := by
  decide

/-- C03: writing any `i64` appends between 1 and 10 bytes, returns that number, and reading them
followed by anything gives the value back and leaves exactly the rest. -/
theorem C03_sleb_round_trip (v : Int) (hlo : -2 ^ 63 ≤ v) (hhi : v < 2 ^ 63) (buf suffix : List UInt8) :
    ∃ g, writeSleb buf v = (buf ++ g, g.length) ∧ 1 ≤ g.length ∧ g.length ≤ 10 ∧
      Bytes.readSleb (g ++ suffix) = (.ok v, suffix) := by
  obtain ⟨g, hw, hG, hval, hl⟩ := writeSlebLoop_spec 9 buf 0 v (by simp; omega) (by simp; omega)
  refine ⟨g, by simpa [writeSleb] using hw, ?_, by omega, ?_⟩
  · cases g with
    | nil => exact hG.elim
    | cons _ _ => simp
  · exact (readSlebLoop_ok_iff (g ++ suffix) 0 0 v suffix (by omega) (by simp)).2
      ⟨g, rfl, hG, by omega, by simp [hval], hlo, hhi⟩

example : Bytes.readSleb ([0xff, 0x7e] ++ [7]) = (.ok (-129), [7]) := by decide

/-- C04: the signed reader succeeds with `v` and rest `rest` exactly when the input is a complete
LEB128 group of at most 10 bytes whose two's complement value is `v`, fitting an `i64`, followed by
`rest`. -/
theorem C04_sleb_reader_exact (bs : List UInt8) (v : Int) (rest : List UInt8) :
    Bytes.readSleb bs = (.ok v, rest) ↔
      ∃ g, bs = g ++ rest ∧ LebGroup g ∧ g.length ≤ 10 ∧ slebValue g = v ∧
        -2 ^ 63 ≤ v ∧ v < 2 ^ 63 := by
  rw [Bytes.readSleb, show (0 : Nat) = 7 * 0 from rfl,
    readSlebLoop_ok_iff bs (7 * 0) 0 v rest (by omega) (by simp)]
  constructor
  · rintro ⟨g, h1, h2, h3, h4, h5⟩
    exact ⟨g, h1, h2, by omega, by simp at h4; omega, h5⟩
  · rintro ⟨g, h1, h2, h3, h4, h5⟩
    exact ⟨g, h1, h2, by omega, by simp [h4], h5⟩

/-- C04: the signed reader never panics. -/
theorem C04_sleb_reader_no_panic (bs : List UInt8) : (Bytes.readSleb bs).1 ≠ .panic :=
  readSlebLoop_no_panic bs 0 0 (by omega)

example : LebGroup [0x80, 0x7f] ∧ slebValue [0x80, 0x7f] = -128 ∧
    Bytes.readSleb [0x80, 0x7f] = (.ok (-128), []) := by
  refine ⟨by simp [LebGroup], by decide, by decide⟩

end Obj.Props

import Verif.Model.Endian

namespace Obj

theorem fromBe_foldl (l : List UInt8) (acc : Nat) :
    l.foldl (fun acc b => acc * 256 + b.toNat) acc = acc * 256 ^ l.length + fromBe l := by
  unfold fromBe
  induction l generalizing acc with
  | nil => simp
  | cons b l ih =>
    simp only [List.foldl_cons, List.length_cons]
    rw [ih, ih (0 * 256 + b.toNat)]
    rw [Nat.pow_succ, Nat.add_mul, Nat.zero_mul, Nat.zero_add, Nat.mul_assoc, Nat.mul_comm 256, Nat.add_assoc]

theorem fromBe_cons (b : UInt8) (l : List UInt8) :
    fromBe (b :: l) = b.toNat * 256 ^ l.length + fromBe l := by
  have := fromBe_foldl l (0 * 256 + b.toNat)
  rw [Nat.zero_mul, Nat.zero_add] at this
  rw [← this]; simp [fromBe]

theorem fromLe_append (a b : List UInt8) : fromLe (a ++ b) = fromLe a + 256 ^ a.length * fromLe b := by
  induction a with
  | nil => simp [fromLe]
  | cons x a ih =>
    simp only [List.cons_append, fromLe, ih, List.length_cons, Nat.pow_succ]
    rw [Nat.mul_add, Nat.mul_comm (256 ^ a.length) 256, Nat.mul_assoc, Nat.add_assoc]

theorem fromBe_eq_fromLe_reverse (l : List UInt8) : fromBe l = fromLe l.reverse := by
  induction l with
  | nil => rfl
  | cons b l ih =>
    rw [fromBe_cons, List.reverse_cons, fromLe_append, ih, List.length_reverse, fromLe, fromLe]
    rw [Nat.mul_zero, Nat.add_zero, Nat.mul_comm, Nat.add_comm]

@[simp] theorem length_toLe (w n : Nat) : (toLe w n).length = w := by
  induction w generalizing n with
  | zero => rfl
  | succ w ih => simp [toLe, ih]

@[simp] theorem length_toBe (w n : Nat) : (toBe w n).length = w := by
  induction w generalizing n with
  | zero => rfl
  | succ w ih => simp [toBe, ih]

@[simp] theorem length_wr (e : Endianness) (w n : Nat) : (wr e w n).length = w := by
  cases e <;> simp [wr]

theorem toNat_ofNat_mod (n : Nat) : (UInt8.ofNat (n % 256)).toNat = n % 256 := by
  rw [UInt8.toNat_ofNat']; omega

theorem getElem?_toLe (w n i : Nat) (h : i < w) :
    (toLe w n)[i]? = some (UInt8.ofNat (n / 256 ^ i % 256)) := by
  induction w generalizing n i with
  | zero => omega
  | succ w ih =>
    cases i with
    | zero => simp [toLe]
    | succ i =>
      simp only [toLe, List.getElem?_cons_succ]
      rw [ih _ _ (by omega), Nat.div_div_eq_div_mul, Nat.pow_succ, Nat.mul_comm 256]

theorem getElem?_toBe (w n i : Nat) (h : i < w) :
    (toBe w n)[i]? = some (UInt8.ofNat (n / 256 ^ (w - 1 - i) % 256)) := by
  induction w generalizing i with
  | zero => omega
  | succ w ih =>
    cases i with
    | zero => simp [toBe]
    | succ i =>
      simp only [toBe, List.getElem?_cons_succ]
      rw [ih _ (by omega)]
      have : w - 1 - i = w + 1 - 1 - (i + 1) := by omega
      rw [this]

theorem toBe_eq_reverse (w n : Nat) : toBe w n = (toLe w n).reverse := by
  apply List.ext_getElem?
  intro i
  by_cases h : i < w
  · rw [getElem?_toBe _ _ _ h, List.getElem?_reverse (by simpa using h), length_toLe,
      getElem?_toLe _ _ _ (by omega)]
  · rw [List.getElem?_eq_none (by simp; omega), List.getElem?_eq_none (by simp; omega)]

theorem fromLe_lt (l : List UInt8) : fromLe l < 256 ^ l.length := by
  induction l with
  | nil => simp [fromLe]
  | cons b l ih =>
    have := UInt8.toNat_lt b
    simp only [fromLe, List.length_cons, Nat.pow_succ]
    omega

theorem fromLe_toLe (w n : Nat) : fromLe (toLe w n) = n % 256 ^ w := by
  induction w generalizing n with
  | zero => simp [toLe, fromLe, Nat.mod_one]
  | succ w ih =>
    simp only [toLe, fromLe, toNat_ofNat_mod, ih]
    rw [Nat.pow_succ, Nat.mul_comm (256 ^ w) 256, Nat.mod_mul]

theorem toLe_fromLe (l : List UInt8) : toLe l.length (fromLe l) = l := by
  induction l with
  | nil => rfl
  | cons b l ih =>
    have := UInt8.toNat_lt b
    have h1 : (b.toNat + 256 * fromLe l) % 256 = b.toNat := by omega
    have h2 : (b.toNat + 256 * fromLe l) / 256 = fromLe l := by omega
    simp only [fromLe, List.length_cons, toLe, h1, h2, ih]
    congr 1
    simp

theorem fromBe_toBe (w n : Nat) : fromBe (toBe w n) = n % 256 ^ w := by
  rw [fromBe_eq_fromLe_reverse, toBe_eq_reverse, List.reverse_reverse, fromLe_toLe]

theorem rd_wr_mod (e : Endianness) (w n : Nat) : rd e (wr e w n) = n % 256 ^ w := by
  cases e
  · exact fromLe_toLe w n
  · exact fromBe_toBe w n

theorem rd_wr (e : Endianness) (w n : Nat) (h : n < 256 ^ w) : rd e (wr e w n) = n := by
  rw [rd_wr_mod, Nat.mod_eq_of_lt h]

theorem wr_rd (e : Endianness) (l : List UInt8) : wr e l.length (rd e l) = l := by
  cases e
  · exact toLe_fromLe l
  · change toBe l.length (fromBe l) = l
    rw [toBe_eq_reverse, fromBe_eq_fromLe_reverse]
    have := toLe_fromLe l.reverse
    rw [List.length_reverse] at this
    rw [this, List.reverse_reverse]

theorem rd_lt (e : Endianness) (l : List UInt8) : rd e l < 256 ^ l.length := by
  cases e
  · exact fromLe_lt l
  · change fromBe l < _
    rw [fromBe_eq_fromLe_reverse]
    have := fromLe_lt l.reverse
    rwa [List.length_reverse] at this

@[simp] theorem length_encode (e : Endianness) (fs : List (Nat × Nat)) :
    (encode e fs).length = (fs.map (·.1)).sum := by
  induction fs with
  | nil => rfl
  | cons f fs ih => obtain ⟨w, v⟩ := f; simp [encode, ih]

/-- All values fit their widths. -/
def Fits (fs : List (Nat × Nat)) : Prop := ∀ f ∈ fs, f.2 < 256 ^ f.1

theorem decode_encode (e : Endianness) (fs : List (Nat × Nat)) (tl : List UInt8) (h : Fits fs) :
    decode e (fs.map (·.1)) (encode e fs ++ tl) = fs.map (·.2) := by
  induction fs with
  | nil => rfl
  | cons f fs ih =>
    obtain ⟨w, v⟩ := f
    have hw : (encode e ((w, v) :: fs) ++ tl).take w = wr e w v := by
      simp [encode, List.append_assoc]
    have hd : (encode e ((w, v) :: fs) ++ tl).drop w = encode e fs ++ tl := by
      simp [encode, List.append_assoc]
    simp only [List.map_cons, decode, hw, hd]
    rw [rd_wr _ _ _ (h (w, v) (by simp)), ih (fun f hf => h f (by simp [hf]))]

@[simp] theorem length_decode (e : Endianness) (ws : List Nat) (l : List UInt8) :
    (decode e ws l).length = ws.length := by
  induction ws generalizing l with
  | nil => rfl
  | cons w ws ih => simp [decode, ih]

theorem toSigned_ofSigned (w : Nat) (hw : 0 < w) (i : Int) (h1 : -((256 ^ w / 2 : Nat) : Int) ≤ i)
    (h2 : i < ((256 ^ w / 2 : Nat) : Int)) : toSigned w (ofSigned w i) = i := by
  have he : (256 : Int) ^ w = ((256 ^ w : Nat) : Int) := by simp
  have hpos : 0 < 256 ^ w := Nat.pow_pos (by decide)
  have heven : 256 ^ w = 2 * (256 ^ w / 2) := by
    obtain ⟨k, rfl⟩ : ∃ k, w = k + 1 := ⟨w - 1, by omega⟩
    rw [Nat.pow_succ]; omega
  unfold toSigned ofSigned
  rw [he]
  generalize 256 ^ w = m at *
  have hnn := Int.emod_nonneg i (b := (m : Int)) (by omega)
  by_cases hi : 0 ≤ i
  · have : i % (m : Int) = i := Int.emod_eq_of_lt hi (by omega)
    rw [this, if_pos (by omega)]; omega
  · have : i % (m : Int) = i + m := by
      rw [← Int.add_emod_right, Int.emod_eq_of_lt (by omega) (by omega)]
    rw [this, if_neg (by omega)]; omega

end Obj

namespace Obj

theorem field_encode_zero (e : Endianness) (w v : Nat) (fs : List (Nat × Nat)) (tl : List UInt8)
    (h : v < 256 ^ w) : field e (encode e ((w, v) :: fs) ++ tl) 0 w = v := by
  simp [field, encode, List.append_assoc, rd_wr e w v h]

theorem field_encode_succ (e : Endianness) (w v : Nat) (fs : List (Nat × Nat)) (tl : List UInt8)
    (off w' : Nat) (h : w ≤ off) :
    field e (encode e ((w, v) :: fs) ++ tl) off w' = field e (encode e fs ++ tl) (off - w) w' := by
  have : (wr e w v ++ (encode e fs ++ tl)).drop off = (encode e fs ++ tl).drop (off - w) := by
    rw [List.drop_append, List.drop_of_length_le (by simpa using h), length_wr, List.nil_append]
  simp only [field, encode, List.append_assoc, this]

theorem field_lt (e : Endianness) (img : List UInt8) (off w : Nat) : field e img off w < 256 ^ w := by
  unfold field
  have h1 := rd_lt e ((img.drop off).take w)
  have h2 : ((img.drop off).take w).length ≤ w := List.length_take_le ..
  exact Nat.lt_of_lt_of_le h1 (Nat.pow_le_pow_right (by decide) h2)

theorem field_append (e : Endianness) (a b : List UInt8) (off w : Nat) (h : off + w ≤ a.length) :
    field e (a ++ b) off w = field e a off w := by
  unfold field
  rw [List.drop_append_of_le_length (by omega), List.take_append_of_le_length (by simp; omega)]

end Obj

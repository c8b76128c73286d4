import Verif.Spec.Note
import Verif.Proof.Iter
import Verif.Proof.Endian

/-! # Lemmas about ELF notes -/

namespace Obj
open Obj.Elf Obj.Spec

theorem noteAlign_cases {a align : Nat} (h : noteAlign a = .ok align) : align = 4 ∨ align = 8 := by
  unfold noteAlign at h
  split at h
  · simp at h; omega
  · split at h
    · simp at h; omega
    · simp at h

/-- Closed form of the note parser. -/
theorem parseNote_eq (en : Endianness) (align : Nat) (ha : align = 4 ∨ align = 8) (data : List UInt8) :
    ∃ d', parseNote en align data =
      let namesz := field en data 0 4
      let descsz := field en data 4 4
      let doff := roundUp (12 + namesz) align
      if 12 ≤ data.length ∧ 12 + namesz ≤ data.length ∧ doff + descsz ≤ data.length then
        (.ok ⟨field en data 8 4, slice data 12 namesz, slice data doff descsz⟩,
          data.drop (roundUp (doff + descsz) align))
      else (.err, d') := by
  unfold parseNote
  rw [bytes_readAt_eq]
  by_cases h12 : 0 + 12 ≤ data.length
  · rw [if_pos h12]
    have hf : ∀ off, off + 4 ≤ 12 → field en ((data.drop 0).take 12) off 4 = field en data off 4 := by
      intro off ho
      have := field_append en (data.take 12) (data.drop 12) off 4 (by simp; omega)
      rw [List.take_append_drop] at this
      rw [List.drop_zero, this]
    dsimp only
    rw [hf 0 (by omega), hf 4 (by omega), hf 8 (by omega)]
    have hn := field_lt en data 0 4
    have hd := field_lt en data 4 4
    generalize field en data 0 4 = namesz at *
    generalize field en data 4 4 = descsz at *
    rw [bytes_readBytesAt_eq]
    by_cases h1 : 12 + namesz ≤ data.length
    · rw [if_pos h1]
      dsimp only
      rw [alignUsize_4_8 ha (by omega)]
      dsimp only
      have hru : roundUp (12 + namesz) align ≤ 12 + namesz + 7 := by
        have := roundUp_spec (12 + namesz) align (by omega)
        simp only at this
        unfold roundUp
        omega
      rw [show (12 + namesz + (align - 1)) / align * align = roundUp (12 + namesz) align from rfl]
      generalize roundUp (12 + namesz) align = doff at *
      rw [bytes_readBytesAt_eq]
      by_cases h2 : doff + descsz ≤ data.length
      · rw [if_pos h2]
        dsimp only
        rw [alignUsize_4_8 ha (by omega)]
        dsimp only
        refine ⟨[], ?_⟩
        rw [if_pos ⟨by omega, h1, h2⟩]
        unfold Bytes.skip slice roundUp
        congr 1
        by_cases h3 : (doff + descsz + (align - 1)) / align * align ≤ data.length
        · rw [if_pos h3]
        · rw [if_neg h3]
          exact (List.drop_of_length_le (by omega)).symm
      · refine ⟨data, ?_⟩
        rw [if_neg h2, if_neg (by omega)]
    · refine ⟨data, ?_⟩
      rw [if_neg h1, if_neg (by omega)]
  · refine ⟨data, ?_⟩
    rw [if_neg h12]
    dsimp only
    rw [if_neg (by omega)]

theorem field_drop (en : Endianness) (data : List UInt8) (pos off w : Nat) :
    field en (data.drop pos) off w = rd en (slice data (pos + off) w) := by
  simp [field, slice, List.drop_drop]

theorem slice_drop (data : List UInt8) (pos off w : Nat) : slice (data.drop pos) off w = slice data (pos + off) w := by
  simp [slice, List.drop_drop]

theorem length_slice {data : List UInt8} {pos w : Nat} (h : pos + w ≤ data.length) : (slice data pos w).length = w := by
  simp [slice]; omega

/-- The parser succeeds at `pos` exactly when a note is there. -/
theorem parseNote_drop_iff (en : Endianness) (align : Nat) (ha : align = 4 ∨ align = 8) (data : List UInt8) (pos : Nat)
    (hpos : pos ≤ data.length) (n : Note) (d' : List UInt8) :
    parseNote en align (data.drop pos) = (.ok n, d') ↔
      ∃ next, NoteAt en align data pos n next ∧ d' = data.drop next := by
  obtain ⟨e, he⟩ := parseNote_eq en align ha (data.drop pos)
  rw [he]
  simp only [field_drop, slice_drop, List.length_drop, Nat.add_zero, List.drop_drop]
  constructor
  · intro h
    split at h
    · rename_i hc
      simp only [Prod.mk.injEq, Res.ok.injEq] at h
      obtain ⟨rfl, rfl⟩ := h
      have l1 : (slice data (pos + 12) (rd en (slice data pos 4))).length = rd en (slice data pos 4) := length_slice (by omega)
      have l2 : (slice data (pos + roundUp (12 + rd en (slice data pos 4)) align) (rd en (slice data (pos + 4) 4))).length =
        rd en (slice data (pos + 4) 4) := length_slice (by omega)
      refine ⟨_, ⟨by omega, l1.symm, l2.symm, rfl, ?_, ?_, ?_, ?_, rfl⟩, ?_⟩ <;> dsimp only <;> rw [l1]
      · omega
      · rw [l2]; omega
      · rw [l2]
      · rw [l2]
    · simp at h
  · rintro ⟨next, ⟨h1, h2, h3, h4, h5, h6, h7, h8, h9⟩, rfl⟩
    rw [h2, h3, h4, if_pos (by omega), ← h6, ← h8, h9]

theorem length_padTo (align : Nat) (h : 0 < align) (l : List UInt8) : (padTo align l).length = roundUp l.length align := by
  have := roundUp_spec l.length align h
  simp only at this
  simp [padTo]; unfold roundUp; omega

theorem le_roundUp (n p : Nat) (h : 0 < p) : n ≤ roundUp n p := (roundUp_spec n p h).2.1

/-- The first note of `img ++ tl`, whether or not its trailing padding is present. -/
theorem parseNote_bytes (en : Endianness) (align : Nat) (ha : align = 4 ∨ align = 8) (n : Note)
    (hn : n.name.length < U32) (hd : n.desc.length < U32) (ht : n.typ < U32) (rest : List UInt8) :
    parseNote en align (padTo align (encode en [(4, n.name.length), (4, n.desc.length), (4, n.typ)] ++ n.name) ++ n.desc ++ rest) =
      (.ok n, rest.drop (roundUp (roundUp (12 + n.name.length) align + n.desc.length) align -
        (roundUp (12 + n.name.length) align + n.desc.length))) := by
  have hal : 0 < align := by omega
  generalize hH : encode en [(4, n.name.length), (4, n.desc.length), (4, n.typ)] = H
  have h12 : H.length = 12 := by rw [← hH]; simp
  have hlp : (padTo align (H ++ n.name)).length = roundUp (12 + n.name.length) align := by
    rw [length_padTo _ hal]; simp [h12]
  obtain ⟨d, he⟩ := parseNote_eq en align ha (padTo align (H ++ n.name) ++ n.desc ++ rest)
  have hassoc : padTo align (H ++ n.name) ++ n.desc ++ rest = H ++ (n.name ++
      (List.replicate (roundUp (H ++ n.name).length align - (H ++ n.name).length) 0 ++ n.desc ++ rest)) := by
    simp [padTo]
  have f0 : field en (padTo align (H ++ n.name) ++ n.desc ++ rest) 0 4 = n.name.length := by
    rw [hassoc, ← hH]; exact field_encode_zero en 4 _ _ _ (by omega)
  have f4 : field en (padTo align (H ++ n.name) ++ n.desc ++ rest) 4 4 = n.desc.length := by
    rw [hassoc, ← hH, field_encode_succ _ _ _ _ _ _ _ (by omega)]; exact field_encode_zero en 4 _ _ _ (by omega)
  have f8 : field en (padTo align (H ++ n.name) ++ n.desc ++ rest) 8 4 = n.typ := by
    rw [hassoc, ← hH, field_encode_succ _ _ _ _ _ _ _ (by omega), field_encode_succ _ _ _ _ _ _ _ (by omega)]
    exact field_encode_zero en 4 _ _ _ (by omega)
  have s1 : slice (padTo align (H ++ n.name) ++ n.desc ++ rest) 12 n.name.length = n.name := by
    rw [hassoc]; unfold slice
    rw [← h12, List.drop_left, List.take_left]
  have s2 : slice (padTo align (H ++ n.name) ++ n.desc ++ rest) (roundUp (12 + n.name.length) align) n.desc.length = n.desc := by
    rw [List.append_assoc]; unfold slice
    rw [← hlp, List.drop_left, List.take_left]
  have hle := le_roundUp (12 + n.name.length) align hal
  have hlen : (padTo align (H ++ n.name) ++ n.desc ++ rest).length =
      roundUp (12 + n.name.length) align + n.desc.length + rest.length := by
    rw [List.length_append, List.length_append, hlp]
  rw [he]
  simp only [f0, f4, f8, s1, s2, hlen]
  rw [if_pos (by omega)]
  congr 1
  have hpl : (padTo align (H ++ n.name) ++ n.desc).length = roundUp (12 + n.name.length) align + n.desc.length := by
    rw [List.length_append, hlp]
  rw [List.drop_append, List.drop_of_length_le (by rw [hpl]; exact le_roundUp _ _ hal), hpl, List.nil_append]

theorem parseProperty_eq (en : Endianness) (align : Nat) (ha : align = 4 ∨ align = 8) (data : List UInt8) :
    ∃ d', parseProperty en align data =
      if roundUp (8 + field en data 4 4) align ≤ data.length then
        (.ok ⟨field en data 0 4, slice data 8 (field en data 4 4)⟩,
          data.drop (roundUp (8 + field en data 4 4) align))
      else (.err, d') := by
  have hle := le_roundUp (8 + field en data 4 4) align (by omega)
  have hlt := field_lt en data 4 4
  unfold parseProperty
  rw [bytes_readAt_eq, bytes_readAt_eq]
  by_cases h8 : 4 + 4 ≤ data.length
  · rw [if_pos (by omega), if_pos h8]
    dsimp only
    rw [show rd en ((data.drop 4).take 4) = field en data 4 4 from rfl]
    rw [bytes_readBytesAt_eq]
    by_cases h1 : 8 + field en data 4 4 ≤ data.length
    · rw [if_pos h1]
      dsimp only
      rw [alignUsize_4_8 ha (by omega)]
      dsimp only
      unfold Bytes.skip
      rw [show (8 + field en data 4 4 + (align - 1)) / align * align = roundUp (8 + field en data 4 4) align from rfl]
      by_cases h2 : roundUp (8 + field en data 4 4) align ≤ data.length
      · refine ⟨[], ?_⟩
        rw [if_pos h2, if_pos h2]; rfl
      · refine ⟨[], ?_⟩
        rw [if_neg h2, if_neg h2]
    · refine ⟨data, ?_⟩
      rw [if_neg h1, if_neg (by omega)]
  · refine ⟨data, ?_⟩
    by_cases h4 : 0 + 4 ≤ data.length
    · rw [if_pos h4, if_neg h8, if_neg (by omega)]
    · rw [if_neg h4, if_neg h8, if_neg (by omega)]

theorem parseProperty_drop_iff (en : Endianness) (align : Nat) (ha : align = 4 ∨ align = 8) (data : List UInt8) (pos : Nat)
    (hpos : pos ≤ data.length) (p : GnuProperty) (d' : List UInt8) :
    parseProperty en align (data.drop pos) = (.ok p, d') ↔
      ∃ next, PropertyAt en align data pos p next ∧ d' = data.drop next := by
  obtain ⟨e, he⟩ := parseProperty_eq en align ha (data.drop pos)
  have hle := fun m => le_roundUp (8 + m) align (by omega)
  rw [he]
  simp only [field_drop, slice_drop, List.length_drop, Nat.add_zero, List.drop_drop]
  constructor
  · intro h
    split at h
    · rename_i hc
      simp only [Prod.mk.injEq, Res.ok.injEq] at h
      obtain ⟨rfl, rfl⟩ := h
      have := hle (rd en (slice data (pos + 4) 4))
      have l1 : (slice data (pos + 8) (rd en (slice data (pos + 4) 4))).length = rd en (slice data (pos + 4) 4) := length_slice (by omega)
      refine ⟨_, ⟨rfl, l1.symm, ?_, rfl, ?_⟩, ?_⟩ <;> dsimp only <;> rw [l1]
      omega
    · simp at h
  · rintro ⟨next, ⟨h1, h2, h3, h4, h5⟩, rfl⟩
    have := hle p.data.length
    rw [h1, h2, ← h3, if_pos (by omega), h4]

end Obj

import Verif.Spec.CodeSign
import Verif.Drain
import Verif.Proof.Xcoff
import Verif.Proof.Pe
import Verif.Proof.Util

/-! # C77: Mach-O code signatures -/

namespace Obj.Props
open Obj Obj.Spec Obj.CodeSign Obj.Spec.CodeSignS
open Obj.Xcoff (field_of_slice)
open Obj.Spec.Pe (CStrAt)

private theorem bytesAt (d : List UInt8) (o n : Nat) : Bytes.readBytesAt d o n = if o + n ≤ d.length then .ok (slice d o n) else .err := by
  unfold Bytes.readBytesAt Bytes.skip Bytes.readBytes slice
  by_cases h : o ≤ d.length
  · rw [if_pos h]
    simp only [List.length_drop]
    by_cases h2 : n ≤ d.length - o
    · rw [if_pos h2, if_pos (by omega)]
    · rw [if_neg h2, if_neg (by omega)]
  · rw [if_neg h, if_neg (by omega)]

private theorem bytesAt_iff (d : List UInt8) (o n : Nat) (b : List UInt8) :
    Bytes.readBytesAt d o n = .ok b ↔ o + n ≤ d.length ∧ b = slice d o n := by
  rw [bytesAt]
  by_cases h : o + n ≤ d.length
  · rw [if_pos h]; simp [h, eq_comm]
  · rw [if_neg h]; simp [h]

private theorem readSlice_iff (d : List UInt8) (n : Nat) (hn : n < 2 ^ 32) :
    Bytes.readSlice d 8 n = if 8 * n ≤ d.length then (.ok ((List.range n).map fun i => slice d (8 * i) 8), d.drop (8 * n)) else (.err, []) := by
  unfold Bytes.readSlice
  by_cases h : 8 * n ≤ d.length
  · rw [if_pos h, if_pos ⟨by show _ < 2 ^ 64; omega, by omega⟩, Nat.mul_comm n 8]
    congr 2
    apply List.ext_getElem?
    intro i
    rcases Nat.lt_or_ge i n with hi | hi
    · rw [Coff.chunks_get _ _ _ _ hi, List.getElem?_map, List.getElem?_range hi]; rfl
    · rw [Coff.chunks_none _ _ _ _ hi, List.getElem?_eq_none (by simpa using hi)]
  · rw [if_neg h, if_neg (by omega)]

/-- **C77.** Parsing a code signature never panics, and succeeds with exactly the entries of its index, if that is in the data. -/
theorem C77_parse (data : List UInt8) :
    Signature.parse data ≠ .panic ∧ ∀ s, Signature.parse data = .ok s ↔ SignatureIn data s := by
  unfold Signature.parse Bytes.read Bytes.readBytes
  by_cases h12 : 12 ≤ data.length
  rotate_left
  · rw [if_neg h12]
    refine ⟨by simp, fun s => ?_⟩
    simp only [reduceCtorEq, false_iff]
    intro h
    have := h.inside
    omega
  rw [if_pos h12]
  have hs : data.take 12 = slice data 0 12 := rfl
  have hf : ∀ off w, off + w ≤ 12 → field .big (data.take 12) off w = field .big data off w := by
    intro off w h
    rw [hs, field_of_slice data 0 12 off w h, Nat.zero_add]
  simp only
  rw [hf 0 4 (by decide), hf 4 4 (by decide), hf 8 4 (by decide)]
  by_cases hm : field .big data 0 4 = superMagic
  rotate_left
  · rw [if_pos hm]
    refine ⟨by simp, fun s => ?_⟩
    simp only [reduceCtorEq, false_iff]
    intro h
    exact hm h.magic
  rw [if_neg (fun h => h hm), readSlice_iff _ _ (by exact field_lt ..)]
  have hl : (data.drop 12).length = data.length - 12 := List.length_drop ..
  have hi : ∀ i, Index.decode (slice (data.drop 12) (8 * i) 8) = ⟨field .big data (12 + 8 * i) 4, field .big data (12 + 8 * i + 4) 4⟩ := by
    intro i
    have e : slice (data.drop 12) (8 * i) 8 = slice data (12 + 8 * i) 8 := by
      unfold slice; rw [List.drop_drop]
    unfold Index.decode
    rw [e, field_of_slice _ _ _ _ _ (by decide), field_of_slice _ _ _ _ _ (by decide)]
    rfl
  by_cases h : 8 * field .big data 8 4 ≤ (data.drop 12).length
  · rw [if_pos h]
    refine ⟨by simp, fun s => ?_⟩
    simp only [Res.ok.injEq, List.map_map]
    constructor
    · rintro rfl
      refine ⟨rfl, by simp; omega, hm, rfl, by simp, ?_⟩
      intro i e he
      have hin : i < field .big data 8 4 := by
        have := (List.getElem?_eq_some_iff.1 he).1
        simpa using this
      rw [List.getElem?_map, List.getElem?_range hin] at he
      simp only [Option.map_some, Option.some.injEq, Function.comp] at he
      rw [hi] at he
      subst he
      exact ⟨rfl, rfl⟩
    · rintro ⟨h1, h2, h3, h4, h5, h6⟩
      cases s with
      | mk sd sl si =>
        simp only at h1 h2 h4 h5 h6
        subst h1; subst h4
        congr 1
        apply List.ext_getElem?
        intro i
        rcases Nat.lt_or_ge i (field .big sd 8 4) with hlt | hge
        · rw [List.getElem?_map, List.getElem?_range hlt]
          have hil : i < si.length := by omega
          rw [List.getElem?_eq_getElem hil]
          obtain ⟨a, b⟩ := h6 i _ (List.getElem?_eq_getElem hil)
          simp only [Option.map_some, Function.comp, Option.some.injEq]
          rw [hi]
          cases hx : si[i] with
          | mk x y => rw [hx] at a b; simp only at a b; rw [a, b]
        · rw [List.getElem?_eq_none (by simpa using hge), List.getElem?_eq_none (by omega)]
  · rw [if_neg h]
    refine ⟨by simp, fun s => ?_⟩
    simp only [reduceCtorEq, false_iff]
    intro hx
    have := hx.inside
    have := hx.count
    omega

private theorem readBlob_iff (data : List UInt8) (e : Index) :
    readBlob data e ≠ .panic ∧ ∀ b, readBlob data e = .ok b ↔ BlobIn data e b := by
  unfold readBlob Bytes.readAt
  rw [bytesAt]
  by_cases h : e.offset + 8 ≤ data.length
  · rw [if_pos h]
    simp only [Res.ok_bind]
    rw [field_of_slice _ _ _ _ _ (by decide), field_of_slice _ _ _ _ _ (by decide), bytesAt, Nat.add_zero]
    by_cases h2 : e.offset + field .big data (e.offset + 4) 4 ≤ data.length
    · rw [if_pos h2]
      refine ⟨by simp, fun b => ?_⟩
      simp only [Res.ok_bind, Res.ok.injEq]
      constructor
      · rintro rfl
        exact ⟨h, h2, rfl, rfl, rfl, rfl⟩
      · rintro ⟨_, _, h3, h4, h5, h6⟩
        cases b
        simp only at h3 h4 h5 h6
        rw [h3, h4, h5, h6, Nat.add_zero]
    · rw [if_neg h2]
      refine ⟨by simp, fun b => ?_⟩
      simp only [Res.err_bind, reduceCtorEq, false_iff]
      intro hx; exact h2 hx.inside
  · rw [if_neg h]
    refine ⟨by simp, fun b => ?_⟩
    simp only [Res.err_bind, reduceCtorEq, false_iff]
    intro hx; exact h hx.header

/-- **C77.** Iterating the blobs of a code signature gives exactly one result per entry of the index, in order: the blob at its
offset, or an error if that is not in the data (which does not stop the iteration).  After that it gives `None`. -/
theorem C77_blobs (s : Signature) : ∃ rs : List (Res Blob), Drains BlobIter.next s.blobs rs ∧ rs.length = s.index.length ∧
    ∀ (i : Nat) (e : Index), s.index[i]? = some e → ∃ r, rs[i]? = some r ∧ r ≠ .panic ∧ ∀ b, r = .ok b ↔ BlobIn s.data e b := by
  obtain ⟨data, len, index⟩ := s
  show ∃ rs, Drains BlobIter.next (data, index) rs ∧ rs.length = index.length ∧ ∀ (i : Nat) (e : Index), index[i]? = some e → _
  induction index with
  | nil => exact ⟨[], .done rfl, rfl, by simp⟩
  | cons x xs ih =>
    obtain ⟨rs, h1, h2, h3⟩ := ih
    refine ⟨readBlob data x :: rs, ?_, by simp [h2], ?_⟩
    · have hn : BlobIter.next (data, x :: xs) = ((readBlob data x).bind fun b => .ok (some b), (data, xs)) := rfl
      cases hr : readBlob data x with
      | ok b => rw [hr] at hn; exact .item hn h1
      | err => rw [hr] at hn; exact .err hn h1
      | panic => exact absurd hr (readBlob_iff data x).1
    · intro i e he
      cases i with
      | zero =>
        simp only [List.getElem?_cons_zero, Option.some.injEq] at he
        subst he
        exact ⟨_, rfl, readBlob_iff data x⟩
      | succ i => exact h3 i e he

private theorem read_opt (data : List UInt8) (version min size o : Nat) (ho : o ≤ data.length) :
    optPart version min size (data.drop o) =
      if min ≤ version then
        if o + size ≤ data.length then (.ok (some (slice data o size)), data.drop (o + size)) else (.err, [])
      else (.ok none, data.drop o) := by
  unfold optPart Bytes.read Bytes.readBytes
  by_cases h : min ≤ version
  · rw [if_pos h, if_pos h]
    by_cases h2 : o + size ≤ data.length
    · rw [if_pos h2, if_pos (by simp; omega)]
      simp only [List.drop_drop]; rfl
    · rw [if_neg h2, if_neg (by simp; omega)]
  · rw [if_neg h, if_neg h]

private theorem decodeV0 (data : List UInt8) : V0.decode (data.take v0Size) = (field .big data 0 4,
    ⟨field .big data 4 4, field .big data 8 4, field .big data 12 4, field .big data 16 4, field .big data 20 4, field .big data 24 4,
      field .big data 28 4, field .big data 32 4, field .big data 36 1, field .big data 37 1, field .big data 38 1, field .big data 39 1⟩) := by
  have hf : ∀ off w, off + w ≤ 44 → field .big (data.take 44) off w = field .big data off w := by
    intro off w h
    have hs : data.take 44 = slice data 0 44 := rfl
    rw [hs, field_of_slice data 0 44 off w h, Nat.zero_add]
  have e : V0.decode (data.take 44) = (field .big (data.take 44) 0 4,
    ⟨field .big (data.take 44) 4 4, field .big (data.take 44) 8 4, field .big (data.take 44) 12 4, field .big (data.take 44) 16 4, field .big (data.take 44) 20 4, field .big (data.take 44) 24 4,
      field .big (data.take 44) 28 4, field .big (data.take 44) 32 4, field .big (data.take 44) 36 1, field .big (data.take 44) 37 1, field .big (data.take 44) 38 1, field .big (data.take 44) 39 1⟩) := by
    generalize data.take 44 = img
    simp [V0.decode, Obj.decode, field, List.drop_drop]
  show V0.decode (data.take 44) = _
  rw [e, hf 0 4 (by decide), hf 4 4 (by decide), hf 8 4 (by decide), hf 12 4 (by decide), hf 16 4 (by decide), hf 20 4 (by decide), hf 24 4 (by decide),
    hf 28 4 (by decide), hf 32 4 (by decide), hf 36 1 (by decide), hf 37 1 (by decide), hf 38 1 (by decide), hf 39 1 (by decide)]

/-- The directory that `data` holds, if it holds one. -/
private def theDirectory (data : List UInt8) : Directory where
  data := data
  header := ⟨field .big data 4 4, field .big data 8 4, field .big data 12 4, field .big data 16 4, field .big data 20 4, field .big data 24 4,
      field .big data 28 4, field .big data 32 4, field .big data 36 1, field .big data 37 1, field .big data 38 1, field .big data 39 1⟩
  v1 := since (field .big data 8 4) 0x20100 (field .big data 44 4)
  v2 := since (field .big data 8 4) 0x20200 (field .big data 48 4)
  v3 := since (field .big data 8 4) 0x20300 (field .big data 56 8)
  v4 := if 0x20400 ≤ field .big data 8 4 then some ⟨field .big data 64 8, field .big data 72 8, field .big data 80 8⟩ else none

private theorem directoryIn_iff (data : List UInt8) (d : Directory) :
    DirectoryIn data d ↔ d = theDirectory data ∧ field .big data 0 4 = 0xfade0c02 ∧ headerSize (field .big data 8 4) ≤ data.length := by
  constructor
  · rintro ⟨h1, h2, a1, a2, a3, a4, a5, a6, a7, a8, a9, a10, a11, a12, h3, b1, b2, b3, c1, c2, c3⟩
    refine ⟨?_, h2, h3⟩
    obtain ⟨d, ⟨⟩, v1, v2, v3, v4⟩ := d
    simp only at h1 a1 a2 a3 a4 a5 a6 a7 a8 a9 a10 a11 a12 b1 b2 b3 c1 c2 c3
    subst h1
    unfold theDirectory
    congr 1
    · congr 1
    · unfold since at c1 c2 c3
      by_cases h : 0x20400 ≤ field .big d 8 4
      · rw [if_pos h] at c1 c2 c3 ⊢
        cases v4 with
        | none => simp at c1
        | some v => cases v; simp at c1 c2 c3; rw [c1, c2, c3]
      · rw [if_neg h] at c1 c2 c3 ⊢
        simpa using c1
  · rintro ⟨rfl, h2, h3⟩
    refine ⟨rfl, h2, rfl, rfl, rfl, rfl, rfl, rfl, rfl, rfl, rfl, rfl, rfl, rfl, h3, rfl, rfl, rfl, ?_, ?_, ?_⟩ <;>
    · simp only [theDirectory, since]
      split <;> rfl

/-- **C77.** Parsing a code directory never panics, and succeeds with exactly the fields that its version has, if the header of that
version is in the data. -/
theorem C77_directory (data : List UInt8) :
    Directory.parse data ≠ .panic ∧ ∀ d, Directory.parse data = .ok d ↔ DirectoryIn data d := by
  suffices h : Directory.parse data = if field .big data 0 4 = 0xfade0c02 ∧ headerSize (field .big data 8 4) ≤ data.length then
      .ok (theDirectory data) else .err by
    rw [h]
    split
    · rename_i hc
      refine ⟨by simp, fun d => ?_⟩
      rw [directoryIn_iff, Res.ok.injEq]
      exact ⟨fun e => ⟨e.symm, hc⟩, fun e => e.1.symm⟩
    · rename_i hc
      refine ⟨by simp, fun d => ?_⟩
      rw [directoryIn_iff]
      simp only [reduceCtorEq, false_iff]
      exact fun e => hc e.2
  have hge : ∀ v, 44 ≤ headerSize v := by
    intro v; unfold headerSize; repeat' split
    all_goals omega
  unfold Directory.parse Bytes.read Bytes.readBytes
  by_cases h44 : v0Size ≤ data.length
  rotate_left
  · rw [if_neg h44, if_neg]
    rintro ⟨-, h⟩
    have := hge (field .big data 8 4)
    exact h44 (show 44 ≤ _ by omega)
  rw [if_pos h44]
  simp only [decodeV0]
  by_cases hm : field .big data 0 4 = directoryMagic
  rotate_left
  · rw [if_pos hm, if_neg (fun h => hm h.1)]
  rw [if_neg (fun h => h hm)]
  have h44' : 44 ≤ data.length := h44
  unfold optionals
  rw [show data.drop v0Size = data.drop 44 from rfl, read_opt data _ vScatter 4 44 h44']
  have hmm : field .big data 0 4 = 0xfade0c02 := hm
  unfold theDirectory since headerSize
  generalize hv : field .big data 8 4 = v
  simp only [hmm, true_and]
  by_cases c1 : vScatter ≤ v
  rotate_left
  · have c2 : ¬ vTeam ≤ v := fun h => c1 (Nat.le_trans (by decide) h)
    have c3 : ¬ vLimit64 ≤ v := fun h => c1 (Nat.le_trans (by decide) h)
    have c4 : ¬ vExecSeg ≤ v := fun h => c1 (Nat.le_trans (by decide) h)
    have d1 : ¬ 0x20100 ≤ v := c1
    have d2 : ¬ 0x20200 ≤ v := c2
    have d3 : ¬ 0x20300 ≤ v := c3
    have d4 : ¬ 0x20400 ≤ v := c4
    rw [if_neg c1]
    simp only [optPart, if_neg c2, if_neg c3, if_neg c4, Res.ok_bind]
    rw [if_pos (by omega : v < 0x20100), if_pos h44']
    simp [d1, d2, d3, d4]
  rw [if_pos c1]
  have e1 : 0x20100 ≤ v := c1
  by_cases b1 : 44 + 4 ≤ data.length
  rotate_left
  · rw [if_neg b1, if_neg]
    · rfl
    · rw [if_neg (by omega : ¬ v < 0x20100)]; repeat' split
      all_goals omega
  rw [if_pos b1]
  simp only [Res.ok_bind]
  rw [read_opt data _ vTeam 4 48 b1]
  by_cases c2 : vTeam ≤ v
  rotate_left
  · have c3 : ¬ vLimit64 ≤ v := fun h => c2 (Nat.le_trans (by decide) h)
    have c4 : ¬ vExecSeg ≤ v := fun h => c2 (Nat.le_trans (by decide) h)
    have d2 : ¬ 0x20200 ≤ v := c2
    have d3 : ¬ 0x20300 ≤ v := c3
    have d4 : ¬ 0x20400 ≤ v := c4
    rw [if_neg c2]
    simp only [optPart, if_neg c3, if_neg c4, Res.ok_bind]
    rw [if_neg (by omega : ¬ v < 0x20100), if_pos (by omega : v < 0x20200), if_pos b1]
    simp [d2, d3, d4, e1, field_of_slice]
  rw [if_pos c2]
  have e2 : 0x20200 ≤ v := c2
  by_cases b2 : 48 + 4 ≤ data.length
  rotate_left
  · rw [if_neg b2, if_neg]
    · rfl
    · rw [if_neg (by omega : ¬ v < 0x20100), if_neg (by omega : ¬ v < 0x20200)]; repeat' split
      all_goals omega
  rw [if_pos b2]
  simp only [Res.ok_bind]
  rw [read_opt data _ vLimit64 12 52 b2]
  by_cases c3 : vLimit64 ≤ v
  rotate_left
  · have c4 : ¬ vExecSeg ≤ v := fun h => c3 (Nat.le_trans (by decide) h)
    have d3 : ¬ 0x20300 ≤ v := c3
    have d4 : ¬ 0x20400 ≤ v := c4
    rw [if_neg c3]
    simp only [optPart, if_neg c4, Res.ok_bind]
    rw [if_neg (by omega : ¬ v < 0x20100), if_neg (by omega : ¬ v < 0x20200), if_pos (by omega : v < 0x20300), if_pos b2]
    simp [d3, d4, e1, e2, field_of_slice]
  rw [if_pos c3]
  have e3 : 0x20300 ≤ v := c3
  by_cases b3 : 52 + 12 ≤ data.length
  rotate_left
  · rw [if_neg b3, if_neg]
    · rfl
    · rw [if_neg (by omega : ¬ v < 0x20100), if_neg (by omega : ¬ v < 0x20200), if_neg (by omega : ¬ v < 0x20300)]; repeat' split
      all_goals omega
  rw [if_pos b3]
  simp only [Res.ok_bind]
  rw [read_opt data _ vExecSeg 24 64 b3]
  by_cases c4 : vExecSeg ≤ v
  rotate_left
  · have d4 : ¬ 0x20400 ≤ v := c4
    rw [if_neg c4]
    simp only [Res.ok_bind]
    rw [if_neg (by omega : ¬ v < 0x20100), if_neg (by omega : ¬ v < 0x20200), if_neg (by omega : ¬ v < 0x20300), if_pos (by omega : v < 0x20400), if_pos b3]
    simp [d4, e1, e2, e3, field_of_slice]
  rw [if_pos c4]
  have e4 : 0x20400 ≤ v := c4
  rw [if_neg (by omega : ¬ v < 0x20100), if_neg (by omega : ¬ v < 0x20200), if_neg (by omega : ¬ v < 0x20300), if_neg (by omega : ¬ v < 0x20400)]
  by_cases b4 : 64 + 24 ≤ data.length
  · rw [if_pos b4, if_pos b4]
    simp [e1, e2, e3, e4, field_of_slice]
  · rw [if_neg b4, if_neg b4]
    rfl

/-- **C77.** The hash of special slot `slot` is found exactly if there is such a slot and the hash is in the data: it is the `slot`-th before
the hash offset.  No panic. -/
theorem C77_special_hash (data : List UInt8) (d : Directory) (hd : DirectoryIn data d) (slot : Nat) :
    d.specialHash slot ≠ .panic ∧ ∀ h, d.specialHash slot = .ok h ↔
      1 ≤ slot ∧ slot ≤ d.header.nSpecialSlots ∧ slot * d.header.hashSize ≤ d.header.hashOffset ∧
      d.header.hashOffset - slot * d.header.hashSize + d.header.hashSize ≤ data.length ∧
      h = slice data (d.header.hashOffset - slot * d.header.hashSize) d.header.hashSize := by
  have hlt : d.header.hashOffset < U32 := by rw [hd.hashOffset]; exact field_lt ..
  unfold Directory.specialHash
  rw [hd.whole, bytesAt]
  generalize slot * d.header.hashSize = m at *
  by_cases c1 : slot < 1 ∨ slot > d.header.nSpecialSlots
  · rw [if_pos c1]; refine ⟨by simp, fun h => ?_⟩; simp; omega
  rw [if_neg c1]
  by_cases c2 : U32 ≤ m
  · rw [if_pos c2]; refine ⟨by simp, fun h => ?_⟩; simp only [reduceCtorEq, false_iff]; omega
  rw [if_neg c2]
  by_cases c3 : d.header.hashOffset < m
  · rw [if_pos c3]; refine ⟨by simp, fun h => ?_⟩; simp only [reduceCtorEq, false_iff]; omega
  rw [if_neg c3]
  by_cases c4 : d.header.hashOffset - m + d.header.hashSize ≤ data.length
  · rw [if_pos c4]
    refine ⟨by simp, fun h => ?_⟩
    rw [Res.ok.injEq]
    exact ⟨fun e => ⟨by omega, by omega, by omega, c4, e.symm⟩, fun e => e.2.2.2.2.symm⟩
  · rw [if_neg c4]; refine ⟨by simp, fun h => ?_⟩; simp only [reduceCtorEq, false_iff]; omega

/-- **C77.** The hash of page `index` is found exactly if there is no scatter vector, there is such a page, and the hash is in the data:
it is the `index`-th at the hash offset.  No panic. -/
theorem C77_code_hash (data : List UInt8) (d : Directory) (hd : DirectoryIn data d) (index : Nat) :
    d.codeHash index ≠ .panic ∧ ∀ h, d.codeHash index = .ok h ↔
      d.v1.getD 0 = 0 ∧ index < d.header.nCodeSlots ∧ d.header.hashOffset + index * d.header.hashSize < 2 ^ 32 ∧
      d.header.hashOffset + index * d.header.hashSize + d.header.hashSize ≤ data.length ∧
      h = slice data (d.header.hashOffset + index * d.header.hashSize) d.header.hashSize := by
  unfold Directory.codeHash
  rw [hd.whole, bytesAt, Nat.add_comm (index * _)]
  generalize index * d.header.hashSize = m at *
  have hu : U32 = 2 ^ 32 := rfl
  by_cases c0 : d.v1.getD 0 ≠ 0
  · rw [if_pos c0]; refine ⟨by simp, fun h => ?_⟩; simp only [reduceCtorEq, false_iff]; exact fun e => c0 e.1
  rw [if_neg c0]
  have c0' : d.v1.getD 0 = 0 := by omega
  by_cases c1 : index ≥ d.header.nCodeSlots
  · rw [if_pos c1]; refine ⟨by simp, fun h => ?_⟩; simp only [reduceCtorEq, false_iff]; omega
  rw [if_neg c1]
  by_cases c2 : U32 ≤ m
  · rw [if_pos c2]; refine ⟨by simp, fun h => ?_⟩; simp only [reduceCtorEq, false_iff]; omega
  rw [if_neg c2]
  by_cases c3 : U32 ≤ d.header.hashOffset + m
  · rw [if_pos c3]; refine ⟨by simp, fun h => ?_⟩; simp only [reduceCtorEq, false_iff]; omega
  rw [if_neg c3]
  by_cases c4 : d.header.hashOffset + m + d.header.hashSize ≤ data.length
  · rw [if_pos c4]
    refine ⟨by simp, fun h => ?_⟩
    rw [Res.ok.injEq]
    exact ⟨fun e => ⟨c0', by omega, by omega, c4, e.symm⟩, fun e => e.2.2.2.2.symm⟩
  · rw [if_neg c4]; refine ⟨by simp, fun h => ?_⟩; simp only [reduceCtorEq, false_iff]; omega

/-- **C77.** The identifier and the team identifier are the strings at their offsets; there is no team identifier if its offset is 0 or
the version has none.  The code limit is the 64-bit one if there is one other than 0.  No panic. -/
theorem C77_strings (data : List UInt8) (d : Directory) (hd : DirectoryIn data d) :
    d.ident ≠ .panic ∧ d.teamId ≠ .panic ∧ (∀ s, d.ident = .ok s ↔ CStrAt data d.header.identOffset s) ∧
    (d.teamId = .ok none ↔ d.v2 = none ∨ d.v2 = some 0) ∧
    (∀ s, d.teamId = .ok (some s) ↔ ∃ o, d.v2 = some o ∧ o ≠ 0 ∧ CStrAt data o s) ∧
    (∀ l, d.v3 = some l → l ≠ 0 → d.codeLimit = l) ∧ (d.v3 = none ∨ d.v3 = some 0 → d.codeLimit = d.header.codeLimit) := by
  unfold Directory.ident Directory.teamId Directory.codeLimit
  rw [hd.whole]
  refine ⟨Pe.readStringAt_no_panic _ _, ?_, fun s => Pe.readStringAt_iff _ _ _, ?_, ?_, ?_, ?_⟩
  · split
    · simp
    · exact Res.bind_no_panic (Pe.readStringAt_no_panic _ _) (by simp)
  · cases h : d.v2 with
    | none => simp
    | some o =>
      by_cases h0 : o = 0
      · simp [h0]
      · simp only [Option.getD_some, if_neg h0, Option.some.injEq, reduceCtorEq, h0, or_self, iff_false]
        cases Bytes.readStringAt data o <;> simp
  · intro s
    cases h : d.v2 with
    | none => simp
    | some o =>
      by_cases h0 : o = 0
      · simp [h0]
      · simp only [Option.getD_some, if_neg h0, Option.some.injEq, exists_eq_left', ne_eq, h0, not_false_eq_true, true_and]
        rw [← Pe.readStringAt_iff]
        cases Bytes.readStringAt data o <;> simp
  · intro l hl h0
    rw [hl]; simp [h0]
  · rintro (h | h) <;> rw [h] <;> simp

private theorem encode_append (e : Endianness) (a b : List (Nat × Nat)) : Obj.encode e (a ++ b) = Obj.encode e a ++ Obj.encode e b := by
  induction a with
  | nil => rfl
  | cons x xs ih => obtain ⟨w, v⟩ := x; simp [Obj.encode, ih]

/-- All fields that are written. -/
private def fields (c : Cd) (l : Nat × Nat) : List (Nat × Nat) :=
  [(4, directoryMagic), (4, c.length), (4, c.version), (4, c.flags), (4, c.hashOffset), (4, c.identOffset),
    (4, c.nSpecialSlots), (4, c.nCodeSlots), (4, l.1), (1, c.hashSize), (1, c.hashType), (1, c.platform), (1, c.pageSize), (4, 0)] ++
  (if vScatter ≤ c.version then [(4, c.scatterOffset)] else []) ++
  (if vTeam ≤ c.version then [(4, c.teamOffset)] else []) ++
  (if vLimit64 ≤ c.version then [(4, 0), (8, l.2)] else []) ++
  (if vExecSeg ≤ c.version then [(8, c.execSegBase), (8, c.execSegLimit), (8, c.execSegFlags)] else [])

private theorem directory_eq (c : Cd) : CodeSign.directory c =
    if vExecSeg < c.version then .panic else (limits c).bind fun l => .ok (Obj.encode .big (fields c l)) := by
  unfold CodeSign.directory fields
  simp only [encode_append]
  congr 1
  congr 1
  funext l
  congr 2
  · congr 1
    · congr 1
      · congr 1
        split <;> rfl
      · split <;> rfl
    · split <;> rfl
  · split <;> rfl

/-- **C77.** A code directory can be written exactly if its version is supported and has a field for the code limit. -/
theorem C77_directory_written (c : Cd) : CodeSign.directory c ≠ .err ∧
    (CodeSign.directory c = .panic ↔ 0x20400 < c.version ∨ (2 ^ 32 ≤ c.codeLimit ∧ c.version < 0x20300)) := by
  have hv : vExecSeg = 0x20400 := rfl
  have hl : vLimit64 = 0x20300 := rfl
  have hu : U32 = 2 ^ 32 := rfl
  rw [directory_eq]
  unfold limits
  rw [hv, hl, hu]
  by_cases h1 : 0x20400 < c.version
  · rw [if_pos h1]; simp [h1]
  rw [if_neg h1]
  by_cases h2 : c.codeLimit > 2 ^ 32 - 1
  · rw [if_pos h2]
    by_cases h3 : 0x20300 ≤ c.version
    · rw [if_pos h3]; simp; omega
    · rw [if_neg h3]; simp; omega
  · rw [if_neg h2]; simp; omega

/-- **C77.** A code directory that fits its fields is written in as many bytes as `code_directory_size` says, and read back, whatever
follows. -/
theorem C77_directory_round_trip (c : Cd) (hc : CodeSignS.Fits c) (rest : List UInt8) : ∃ b d, CodeSign.directory c = .ok b ∧
    directorySize c.version = .ok b.length ∧ Directory.parse (b ++ rest) = .ok d ∧ Cd.fromRaw d = c := by
  obtain ⟨a1, a2, a3, a4, a5, a6, a7, a8, a9, a10, a11, a12, a13, a14, a15, a16, a17⟩ := hc
  have ev : vExecSeg = 0x20400 := rfl
  have el : vLimit64 = 0x20300 := rfl
  have et : vTeam = 0x20200 := rfl
  have es : vScatter = 0x20100 := rfl
  have hl : ∃ l : Nat × Nat, limits c = .ok l ∧ l.1 < 256 ^ 4 ∧ l.2 < 256 ^ 8 ∧
      (if c.version < 0x20300 then l.1 = c.codeLimit else (l.2 ≠ 0 ∧ l.2 = c.codeLimit) ∨ (l.2 = 0 ∧ l.1 = c.codeLimit)) := by
    unfold limits
    have hu : U32 = 2 ^ 32 := rfl
    rw [el, hu]
    by_cases hv : c.version < 0x20300
    · rw [if_pos hv] at a8
      rw [if_neg (by omega)]
      exact ⟨_, rfl, by simpa using a8, by simp, by rw [if_pos hv]⟩
    · rw [if_neg hv] at a8
      by_cases h2 : c.codeLimit > 2 ^ 32 - 1
      · rw [if_pos h2, if_pos (by omega)]
        exact ⟨_, rfl, by simp, by simpa using a8, by rw [if_neg hv]; left; exact ⟨by simp; omega, rfl⟩⟩
      · rw [if_neg h2]
        refine ⟨_, rfl, ?_, by simp, by rw [if_neg hv]; right; exact ⟨rfl, rfl⟩⟩
        show c.codeLimit < 256 ^ 4
        omega
  obtain ⟨l, hl1, hl2, hl3, hl4⟩ := hl
  have hb : CodeSign.directory c = .ok (Obj.encode .big (fields c l)) := by
    rw [directory_eq, if_neg (by rw [ev]; omega), hl1]; rfl
  have b1 : c.length < 256 ^ 4 := a1
  have b2 : c.version < 256 ^ 4 := by omega
  have b3 : c.flags < 256 ^ 4 := a3
  have b4 : c.hashOffset < 256 ^ 4 := a4
  have b5 : c.identOffset < 256 ^ 4 := a5
  have b6 : c.nSpecialSlots < 256 ^ 4 := a6
  have b7 : c.nCodeSlots < 256 ^ 4 := a7
  have b9 : c.hashSize < 256 ^ 1 := a9
  have b10 : c.hashType < 256 ^ 1 := a10
  have b11 : c.platform < 256 ^ 1 := a11
  have b12 : c.pageSize < 256 ^ 1 := a12
  have bm : directoryMagic < 256 ^ 4 := by decide
  have bz : (0 : Nat) < 256 ^ 4 := by decide
  refine ⟨_, theDirectory (Obj.encode .big (fields c l) ++ rest), hb, ?_, ?_, ?_⟩
  · unfold directorySize fields
    rw [ev, el, et, es, if_neg (by omega)]
    congr 1
    rw [length_encode]
    by_cases v1 : 0x20100 ≤ c.version <;> by_cases v2 : 0x20200 ≤ c.version <;> by_cases v3 : 0x20300 ≤ c.version <;>
      by_cases v4 : 0x20400 ≤ c.version <;> simp [v1, v2, v3, v4, v0Size]
  · rw [(C77_directory _).2, directoryIn_iff]
    refine ⟨rfl, ?_, ?_⟩
    · unfold fields
      simp only [List.cons_append, List.nil_append, List.append_assoc]
      exact field_encode_zero .big 4 directoryMagic _ _ bm
    · have e8 : field .big (Obj.encode .big (fields c l) ++ rest) 8 4 = c.version := by
        unfold fields
        simp only [List.cons_append, List.nil_append, List.append_assoc]
        simp (discharger := first | assumption | decide) only [field_encode_succ, field_encode_zero, Nat.reduceSub]
      rw [e8]
      unfold headerSize fields
      rw [ev, el, et, es, List.length_append, length_encode]
      rcases Nat.lt_or_ge c.version 0x20100 with v1 | v1
      · have := Nat.not_le.2 v1
        simp [v1, this, show ¬ 0x20200 ≤ c.version by omega, show ¬ 0x20300 ≤ c.version by omega, show ¬ 0x20400 ≤ c.version by omega]
      have w1 := Nat.not_lt.2 v1
      rcases Nat.lt_or_ge c.version 0x20200 with v2 | v2
      · simp [v1, w1, v2, show ¬ 0x20200 ≤ c.version by omega, show ¬ 0x20300 ≤ c.version by omega, show ¬ 0x20400 ≤ c.version by omega]
      have w2 := Nat.not_lt.2 v2
      rcases Nat.lt_or_ge c.version 0x20300 with v3 | v3
      · simp [v1, w1, v2, w2, v3, show ¬ 0x20300 ≤ c.version by omega, show ¬ 0x20400 ≤ c.version by omega]
      have w3 := Nat.not_lt.2 v3
      rcases Nat.lt_or_ge c.version 0x20400 with v4 | v4
      · simp [v1, w1, v2, w2, v3, w3, v4, show ¬ 0x20400 ≤ c.version by omega]
      have w4 := Nat.not_lt.2 v4
      simp [v1, w1, v2, w2, v3, w3, v4, w4]
  · obtain ⟨tl, htl⟩ : ∃ tl, tl = (if vScatter ≤ c.version then [(4, c.scatterOffset)] else []) ++
        ((if vTeam ≤ c.version then [(4, c.teamOffset)] else []) ++
        ((if vLimit64 ≤ c.version then [(4, 0), (8, l.2)] else []) ++
        (if vExecSeg ≤ c.version then [(8, c.execSegBase), (8, c.execSegLimit), (8, c.execSegFlags)] else []))) := ⟨_, rfl⟩
    have hfl : fields c l = (4, directoryMagic) :: (4, c.length) :: (4, c.version) :: (4, c.flags) :: (4, c.hashOffset) :: (4, c.identOffset) :: (4, c.nSpecialSlots) :: (4, c.nCodeSlots) :: (4, l.1) :: (1, c.hashSize) :: (1, c.hashType) :: (1, c.platform) :: (1, c.pageSize) :: (4, 0) :: tl := by
      rw [htl]; simp only [fields, List.cons_append, List.nil_append, List.append_assoc]
    rw [hfl]
    have g0 : field .big (Obj.encode .big ((4, directoryMagic) :: (4, c.length) :: (4, c.version) :: (4, c.flags) :: (4, c.hashOffset) :: (4, c.identOffset) :: (4, c.nSpecialSlots) :: (4, c.nCodeSlots) :: (4, l.1) :: (1, c.hashSize) :: (1, c.hashType) :: (1, c.platform) :: (1, c.pageSize) :: (4, 0) :: tl) ++ rest) 4 4 = c.length := by
      simp (discharger := first | assumption | decide) only [field_encode_succ, field_encode_zero, Nat.reduceSub]
    have g1 : field .big (Obj.encode .big ((4, directoryMagic) :: (4, c.length) :: (4, c.version) :: (4, c.flags) :: (4, c.hashOffset) :: (4, c.identOffset) :: (4, c.nSpecialSlots) :: (4, c.nCodeSlots) :: (4, l.1) :: (1, c.hashSize) :: (1, c.hashType) :: (1, c.platform) :: (1, c.pageSize) :: (4, 0) :: tl) ++ rest) 8 4 = c.version := by
      simp (discharger := first | assumption | decide) only [field_encode_succ, field_encode_zero, Nat.reduceSub]
    have g2 : field .big (Obj.encode .big ((4, directoryMagic) :: (4, c.length) :: (4, c.version) :: (4, c.flags) :: (4, c.hashOffset) :: (4, c.identOffset) :: (4, c.nSpecialSlots) :: (4, c.nCodeSlots) :: (4, l.1) :: (1, c.hashSize) :: (1, c.hashType) :: (1, c.platform) :: (1, c.pageSize) :: (4, 0) :: tl) ++ rest) 12 4 = c.flags := by
      simp (discharger := first | assumption | decide) only [field_encode_succ, field_encode_zero, Nat.reduceSub]
    have g3 : field .big (Obj.encode .big ((4, directoryMagic) :: (4, c.length) :: (4, c.version) :: (4, c.flags) :: (4, c.hashOffset) :: (4, c.identOffset) :: (4, c.nSpecialSlots) :: (4, c.nCodeSlots) :: (4, l.1) :: (1, c.hashSize) :: (1, c.hashType) :: (1, c.platform) :: (1, c.pageSize) :: (4, 0) :: tl) ++ rest) 16 4 = c.hashOffset := by
      simp (discharger := first | assumption | decide) only [field_encode_succ, field_encode_zero, Nat.reduceSub]
    have g4 : field .big (Obj.encode .big ((4, directoryMagic) :: (4, c.length) :: (4, c.version) :: (4, c.flags) :: (4, c.hashOffset) :: (4, c.identOffset) :: (4, c.nSpecialSlots) :: (4, c.nCodeSlots) :: (4, l.1) :: (1, c.hashSize) :: (1, c.hashType) :: (1, c.platform) :: (1, c.pageSize) :: (4, 0) :: tl) ++ rest) 20 4 = c.identOffset := by
      simp (discharger := first | assumption | decide) only [field_encode_succ, field_encode_zero, Nat.reduceSub]
    have g5 : field .big (Obj.encode .big ((4, directoryMagic) :: (4, c.length) :: (4, c.version) :: (4, c.flags) :: (4, c.hashOffset) :: (4, c.identOffset) :: (4, c.nSpecialSlots) :: (4, c.nCodeSlots) :: (4, l.1) :: (1, c.hashSize) :: (1, c.hashType) :: (1, c.platform) :: (1, c.pageSize) :: (4, 0) :: tl) ++ rest) 24 4 = c.nSpecialSlots := by
      simp (discharger := first | assumption | decide) only [field_encode_succ, field_encode_zero, Nat.reduceSub]
    have g6 : field .big (Obj.encode .big ((4, directoryMagic) :: (4, c.length) :: (4, c.version) :: (4, c.flags) :: (4, c.hashOffset) :: (4, c.identOffset) :: (4, c.nSpecialSlots) :: (4, c.nCodeSlots) :: (4, l.1) :: (1, c.hashSize) :: (1, c.hashType) :: (1, c.platform) :: (1, c.pageSize) :: (4, 0) :: tl) ++ rest) 28 4 = c.nCodeSlots := by
      simp (discharger := first | assumption | decide) only [field_encode_succ, field_encode_zero, Nat.reduceSub]
    have g7 : field .big (Obj.encode .big ((4, directoryMagic) :: (4, c.length) :: (4, c.version) :: (4, c.flags) :: (4, c.hashOffset) :: (4, c.identOffset) :: (4, c.nSpecialSlots) :: (4, c.nCodeSlots) :: (4, l.1) :: (1, c.hashSize) :: (1, c.hashType) :: (1, c.platform) :: (1, c.pageSize) :: (4, 0) :: tl) ++ rest) 32 4 = l.1 := by
      simp (discharger := first | assumption | decide) only [field_encode_succ, field_encode_zero, Nat.reduceSub]
    have g8 : field .big (Obj.encode .big ((4, directoryMagic) :: (4, c.length) :: (4, c.version) :: (4, c.flags) :: (4, c.hashOffset) :: (4, c.identOffset) :: (4, c.nSpecialSlots) :: (4, c.nCodeSlots) :: (4, l.1) :: (1, c.hashSize) :: (1, c.hashType) :: (1, c.platform) :: (1, c.pageSize) :: (4, 0) :: tl) ++ rest) 36 1 = c.hashSize := by
      simp (discharger := first | assumption | decide) only [field_encode_succ, field_encode_zero, Nat.reduceSub]
    have g9 : field .big (Obj.encode .big ((4, directoryMagic) :: (4, c.length) :: (4, c.version) :: (4, c.flags) :: (4, c.hashOffset) :: (4, c.identOffset) :: (4, c.nSpecialSlots) :: (4, c.nCodeSlots) :: (4, l.1) :: (1, c.hashSize) :: (1, c.hashType) :: (1, c.platform) :: (1, c.pageSize) :: (4, 0) :: tl) ++ rest) 37 1 = c.hashType := by
      simp (discharger := first | assumption | decide) only [field_encode_succ, field_encode_zero, Nat.reduceSub]
    have g10 : field .big (Obj.encode .big ((4, directoryMagic) :: (4, c.length) :: (4, c.version) :: (4, c.flags) :: (4, c.hashOffset) :: (4, c.identOffset) :: (4, c.nSpecialSlots) :: (4, c.nCodeSlots) :: (4, l.1) :: (1, c.hashSize) :: (1, c.hashType) :: (1, c.platform) :: (1, c.pageSize) :: (4, 0) :: tl) ++ rest) 38 1 = c.platform := by
      simp (discharger := first | assumption | decide) only [field_encode_succ, field_encode_zero, Nat.reduceSub]
    have g11 : field .big (Obj.encode .big ((4, directoryMagic) :: (4, c.length) :: (4, c.version) :: (4, c.flags) :: (4, c.hashOffset) :: (4, c.identOffset) :: (4, c.nSpecialSlots) :: (4, c.nCodeSlots) :: (4, l.1) :: (1, c.hashSize) :: (1, c.hashType) :: (1, c.platform) :: (1, c.pageSize) :: (4, 0) :: tl) ++ rest) 39 1 = c.pageSize := by
      simp (discharger := first | assumption | decide) only [field_encode_succ, field_encode_zero, Nat.reduceSub]
    have t44 : field .big (Obj.encode .big ((4, directoryMagic) :: (4, c.length) :: (4, c.version) :: (4, c.flags) :: (4, c.hashOffset) :: (4, c.identOffset) :: (4, c.nSpecialSlots) :: (4, c.nCodeSlots) :: (4, l.1) :: (1, c.hashSize) :: (1, c.hashType) :: (1, c.platform) :: (1, c.pageSize) :: (4, 0) :: tl) ++ rest) 44 4 = field .big (Obj.encode .big tl ++ rest) 0 4 := by
      simp (discharger := first | assumption | decide) only [field_encode_succ, field_encode_zero, Nat.reduceSub]
    have t48 : field .big (Obj.encode .big ((4, directoryMagic) :: (4, c.length) :: (4, c.version) :: (4, c.flags) :: (4, c.hashOffset) :: (4, c.identOffset) :: (4, c.nSpecialSlots) :: (4, c.nCodeSlots) :: (4, l.1) :: (1, c.hashSize) :: (1, c.hashType) :: (1, c.platform) :: (1, c.pageSize) :: (4, 0) :: tl) ++ rest) 48 4 = field .big (Obj.encode .big tl ++ rest) 4 4 := by
      simp (discharger := first | assumption | decide) only [field_encode_succ, field_encode_zero, Nat.reduceSub]
    have t56 : field .big (Obj.encode .big ((4, directoryMagic) :: (4, c.length) :: (4, c.version) :: (4, c.flags) :: (4, c.hashOffset) :: (4, c.identOffset) :: (4, c.nSpecialSlots) :: (4, c.nCodeSlots) :: (4, l.1) :: (1, c.hashSize) :: (1, c.hashType) :: (1, c.platform) :: (1, c.pageSize) :: (4, 0) :: tl) ++ rest) 56 8 = field .big (Obj.encode .big tl ++ rest) 12 8 := by
      simp (discharger := first | assumption | decide) only [field_encode_succ, field_encode_zero, Nat.reduceSub]
    have t64 : field .big (Obj.encode .big ((4, directoryMagic) :: (4, c.length) :: (4, c.version) :: (4, c.flags) :: (4, c.hashOffset) :: (4, c.identOffset) :: (4, c.nSpecialSlots) :: (4, c.nCodeSlots) :: (4, l.1) :: (1, c.hashSize) :: (1, c.hashType) :: (1, c.platform) :: (1, c.pageSize) :: (4, 0) :: tl) ++ rest) 64 8 = field .big (Obj.encode .big tl ++ rest) 20 8 := by
      simp (discharger := first | assumption | decide) only [field_encode_succ, field_encode_zero, Nat.reduceSub]
    have t72 : field .big (Obj.encode .big ((4, directoryMagic) :: (4, c.length) :: (4, c.version) :: (4, c.flags) :: (4, c.hashOffset) :: (4, c.identOffset) :: (4, c.nSpecialSlots) :: (4, c.nCodeSlots) :: (4, l.1) :: (1, c.hashSize) :: (1, c.hashType) :: (1, c.platform) :: (1, c.pageSize) :: (4, 0) :: tl) ++ rest) 72 8 = field .big (Obj.encode .big tl ++ rest) 28 8 := by
      simp (discharger := first | assumption | decide) only [field_encode_succ, field_encode_zero, Nat.reduceSub]
    have t80 : field .big (Obj.encode .big ((4, directoryMagic) :: (4, c.length) :: (4, c.version) :: (4, c.flags) :: (4, c.hashOffset) :: (4, c.identOffset) :: (4, c.nSpecialSlots) :: (4, c.nCodeSlots) :: (4, l.1) :: (1, c.hashSize) :: (1, c.hashType) :: (1, c.platform) :: (1, c.pageSize) :: (4, 0) :: tl) ++ rest) 80 8 = field .big (Obj.encode .big tl ++ rest) 36 8 := by
      simp (discharger := first | assumption | decide) only [field_encode_succ, field_encode_zero, Nat.reduceSub]
    generalize Obj.encode .big ((4, directoryMagic) :: (4, c.length) :: (4, c.version) :: (4, c.flags) :: (4, c.hashOffset) :: (4, c.identOffset) :: (4, c.nSpecialSlots) :: (4, c.nCodeSlots) :: (4, l.1) :: (1, c.hashSize) :: (1, c.hashType) :: (1, c.platform) :: (1, c.pageSize) :: (4, 0) :: tl) ++ rest = data at *
    have hcd : ∀ (sc te eb elm ef : Nat), (since c.version 0x20100 (field .big data 44 4)).getD 0 = sc →
        (since c.version 0x20200 (field .big data 48 4)).getD 0 = te →
        (since c.version 0x20400 (field .big data 64 8)).getD 0 = eb →
        (since c.version 0x20400 (field .big data 72 8)).getD 0 = elm →
        (since c.version 0x20400 (field .big data 80 8)).getD 0 = ef →
        (theDirectory data).codeLimit = c.codeLimit →
        Cd.fromRaw (theDirectory data) = ⟨c.length, c.version, c.flags, c.hashOffset, c.identOffset, c.nSpecialSlots, c.nCodeSlots, c.codeLimit,
          c.hashSize, c.hashType, c.platform, c.pageSize, sc, te, eb, elm, ef⟩ := by
      intro sc te eb elm ef h1 h2 h3 h4 h5 h6
      unfold Cd.fromRaw
      rw [h6]
      unfold theDirectory
      simp only [g0, g1, g2, g3, g4, g5, g6, g8, g9, g10, g11, h1, h2]
      rw [← h3, ← h4, ← h5]
      unfold since
      split <;> rfl
    have lim : (theDirectory data).codeLimit = match since c.version 0x20300 (field .big data 56 8) with
        | some x => if x ≠ 0 then x else l.1
        | none => l.1 := by
      unfold Directory.codeLimit theDirectory
      simp only [g1, g7]
      rfl
    have T1 : 0x20100 ≤ c.version → field .big (Obj.encode .big tl ++ rest) 0 4 = c.scatterOffset := by
      intro v
      rw [if_neg (by omega)] at a13
      have a13' : c.scatterOffset < 256 ^ 4 := a13
      rw [htl, es, if_pos v]
      simp (discharger := first | assumption | decide) only [List.cons_append, List.nil_append, field_encode_succ, field_encode_zero, Nat.reduceSub]
    have T2 : 0x20200 ≤ c.version → field .big (Obj.encode .big tl ++ rest) 4 4 = c.teamOffset := by
      intro v
      rw [if_neg (by omega)] at a14
      have a14' : c.teamOffset < 256 ^ 4 := a14
      rw [htl, es, et, if_pos v, if_pos (by omega : 0x20100 ≤ c.version)]
      simp (discharger := first | assumption | decide) only [List.cons_append, List.nil_append, field_encode_succ, field_encode_zero, Nat.reduceSub]
    have T3 : 0x20300 ≤ c.version → field .big (Obj.encode .big tl ++ rest) 12 8 = l.2 := by
      intro v
      rw [htl, es, et, el, if_pos v, if_pos (by omega : 0x20100 ≤ c.version), if_pos (by omega : 0x20200 ≤ c.version)]
      simp (discharger := first | assumption | decide) only [List.cons_append, List.nil_append, field_encode_succ, field_encode_zero, Nat.reduceSub]
    have T4 : 0x20400 ≤ c.version → field .big (Obj.encode .big tl ++ rest) 20 8 = c.execSegBase ∧
        field .big (Obj.encode .big tl ++ rest) 28 8 = c.execSegLimit ∧ field .big (Obj.encode .big tl ++ rest) 36 8 = c.execSegFlags := by
      intro v
      rw [if_neg (by omega)] at a15 a16 a17
      have a15' : c.execSegBase < 256 ^ 8 := a15
      have a16' : c.execSegLimit < 256 ^ 8 := a16
      have a17' : c.execSegFlags < 256 ^ 8 := a17
      rw [htl, es, et, el, ev, if_pos v, if_pos (by omega : 0x20100 ≤ c.version), if_pos (by omega : 0x20200 ≤ c.version),
        if_pos (by omega : 0x20300 ≤ c.version)]
      refine ⟨?_, ?_, ?_⟩
      · simp (discharger := first | assumption | decide) only [List.cons_append, List.nil_append, field_encode_succ, field_encode_zero, Nat.reduceSub]
      · simp (discharger := first | assumption | decide) only [List.cons_append, List.nil_append, field_encode_succ, field_encode_zero, Nat.reduceSub]
      · simp (discharger := first | assumption | decide) only [List.cons_append, List.nil_append, field_encode_succ, field_encode_zero, Nat.reduceSub]
    rw [hcd c.scatterOffset c.teamOffset c.execSegBase c.execSegLimit c.execSegFlags]
    · rw [t44]; unfold since; split
      · rename_i v; rw [T1 v]; rfl
      · rename_i v; rw [if_pos (by omega)] at a13; simp; omega
    · rw [t48]; unfold since; split
      · rename_i v; rw [T2 v]; rfl
      · rename_i v; rw [if_pos (by omega)] at a14; simp; omega
    · rw [t64]; unfold since; split
      · rename_i v; rw [(T4 v).1]; rfl
      · rename_i v; rw [if_pos (by omega)] at a15; simp; omega
    · rw [t72]; unfold since; split
      · rename_i v; rw [(T4 v).2.1]; rfl
      · rename_i v; rw [if_pos (by omega)] at a16; simp; omega
    · rw [t80]; unfold since; split
      · rename_i v; rw [(T4 v).2.2]; rfl
      · rename_i v; rw [if_pos (by omega)] at a17; simp; omega
    · rw [lim, t56]; unfold since
      by_cases v : 0x20300 ≤ c.version
      · rw [if_pos v, T3 v]
        rw [if_neg (by omega)] at hl4
        rcases hl4 with ⟨h1, h2⟩ | ⟨h1, h2⟩
        · show (if l.2 ≠ 0 then l.2 else l.1) = _
          rw [if_pos h1, h2]
        · show (if l.2 ≠ 0 then l.2 else l.1) = _
          rw [if_neg (fun h => h h1), h2]
      · rw [if_neg v]
        rw [if_pos (by omega)] at hl4
        exact hl4

private theorem length_blobIndex (a b : Nat) : (blobIndex a b).length = 8 := by simp [blobIndex, Obj.encode]

private theorem decode_index (a b : Nat) (ha : a < 2 ^ 32) (hb : b < 2 ^ 32) : Index.decode (blobIndex a b) = ⟨a, b⟩ := by
  have h1 := field_encode_zero .big 4 a [(4, b)] [] (by simpa using ha)
  have h2 := field_encode_succ .big 4 a [(4, b)] [] 4 4 (by decide)
  rw [Nat.sub_self, field_encode_zero .big 4 b [] [] (by simpa using hb)] at h2
  rw [List.append_nil] at h1 h2
  unfold Index.decode blobIndex
  rw [h1, h2]

/-- The bytes of a blob. -/
private theorem place_data (x : Item) : genericBlob x.magic (8 + x.contents.length) ++ x.contents =
    wr .big 4 x.magic ++ wr .big 4 (8 + x.contents.length) ++ x.contents := by
  simp [genericBlob, Obj.encode]

private theorem place_ok (xs : List Item) : ∀ (pre rest : List UInt8), (pre ++ xs.flatMap (fun x => genericBlob x.magic (8 + x.contents.length) ++ x.contents) ++ rest).length < 2 ^ 32 →
    (∀ x ∈ xs, x.slot < 2 ^ 32 ∧ x.magic < 2 ^ 32) →
    ∀ b ∈ place pre.length xs, b.slot < 2 ^ 32 ∧ b.offset < 2 ^ 32 ∧
      readBlob (pre ++ xs.flatMap (fun x => genericBlob x.magic (8 + x.contents.length) ++ x.contents) ++ rest) ⟨b.slot, b.offset⟩ = .ok b := by
  induction xs with
  | nil => intro pre rest _ _ b hb; simp [place] at hb
  | cons x xs ih =>
    intro pre rest hlen hx b hb
    simp only [place, List.mem_cons] at hb
    simp only [List.flatMap_cons] at hlen ⊢
    rcases hb with rfl | hb
    · obtain ⟨h1, h2⟩ := hx x (by simp)
      simp only [List.length_append] at hlen
      refine ⟨h1, by simp only; omega, ?_⟩
      simp only
      generalize hg : genericBlob x.magic (8 + x.contents.length) = g at *
      have hgl : g.length = 8 := by rw [← hg]; simp [genericBlob, Obj.encode]
      have f1 := field_encode_zero .big 4 x.magic [(4, 8 + x.contents.length)] [] (by simpa using h2)
      have f2 := field_encode_succ .big 4 x.magic [(4, 8 + x.contents.length)] [] 4 4 (by decide)
      have hcl : 8 + x.contents.length < 256 ^ 4 := by rw [hgl] at hlen; omega
      rw [Nat.sub_self, field_encode_zero .big 4 _ [] [] hcl] at f2
      rw [List.append_nil] at f1 f2
      have ge : Obj.encode .big [(4, x.magic), (4, 8 + x.contents.length)] = g := hg
      rw [ge] at f1 f2
      have hd : (pre ++ (g ++ x.contents ++ xs.flatMap fun x => genericBlob x.magic (8 + x.contents.length) ++ x.contents) ++ rest).drop pre.length =
          g ++ (x.contents ++ ((xs.flatMap fun x => genericBlob x.magic (8 + x.contents.length) ++ x.contents) ++ rest)) := by
        simp [List.append_assoc]
      unfold readBlob Bytes.readAt
      rw [bytesAt, if_pos (by simp; omega)]
      simp only [Res.ok_bind]
      have hs : slice (pre ++ (g ++ x.contents ++ xs.flatMap fun x => genericBlob x.magic (8 + x.contents.length) ++ x.contents) ++ rest) pre.length 8 = g := by
        unfold slice
        rw [hd, List.take_left' hgl]
      rw [hs, f1, f2, bytesAt, if_pos (by simp; omega)]
      simp only [Res.ok_bind, Res.ok.injEq, Blob.mk.injEq, true_and]
      unfold slice
      rw [hd, ← List.append_assoc, List.take_left' (by simp; omega), ← hg, place_data]
    · have := ih (pre ++ (genericBlob x.magic (8 + x.contents.length) ++ x.contents)) rest (by simpa [List.append_assoc] using hlen)
        (fun y hy => hx y (by simp [hy])) b (by
          have e : (pre ++ (genericBlob x.magic (8 + x.contents.length) ++ x.contents)).length = pre.length + 8 + x.contents.length := by
            simp [genericBlob, Obj.encode]; omega
          rw [e]; exact hb)
      simpa [List.append_assoc] using this

/-- **C77.** A signature written with the encoder (header, one index entry per blob, and the blobs one after the other) is read back with exactly
these blobs, in order. -/
theorem C77_signature_round_trip (xs : List Item) (length : Nat) (rest : List UInt8) (hx : ∀ x ∈ xs, x.slot < 2 ^ 32 ∧ x.magic < 2 ^ 32)
    (hl : length < 2 ^ 32) (hn : xs.length < 2 ^ 29) (file : List UInt8)
    (hfile : file = superBlob length xs.length ++ (place (12 + 8 * xs.length) xs).flatMap (fun b => blobIndex b.slot b.offset) ++
      xs.flatMap (fun x => genericBlob x.magic (8 + x.contents.length) ++ x.contents) ++ rest)
    (hlen : file.length < 2 ^ 32) :
    ∃ s, Signature.parse file = .ok s ∧ s.length = length ∧ Drains BlobIter.next s.blobs ((place (12 + 8 * xs.length) xs).map Res.ok) := by
  have hpl : ∀ (o : Nat), (place o xs).length = xs.length := by
    clear hx hn hfile hlen
    induction xs with
    | nil => intro o; rfl
    | cons x xs ih => intro o; simp [place, ih]
  have hsl : (superBlob length xs.length).length = 12 := by simp [superBlob, Obj.encode]
  have hil : ((place (12 + 8 * xs.length) xs).flatMap (fun b => blobIndex b.slot b.offset)).length = 8 * xs.length := by
    rw [Elf.length_flatMap_const _ 8 _ (fun b _ => length_blobIndex _ _), hpl, Nat.mul_comm]
  have hpre : (superBlob length xs.length ++ (place (12 + 8 * xs.length) xs).flatMap (fun b => blobIndex b.slot b.offset)).length = 12 + 8 * xs.length := by
    rw [List.length_append, hsl, hil]
  have hok := place_ok xs (superBlob length xs.length ++ (place (12 + 8 * xs.length) xs).flatMap (fun b => blobIndex b.slot b.offset)) rest
    (by rw [← hfile]; exact hlen) hx
  rw [← hfile, hpre] at hok
  generalize hP : place (12 + 8 * xs.length) xs = P at *
  have hPl : P.length = xs.length := by rw [← hP]; exact hpl _
  refine ⟨⟨file, length, P.map fun b => ⟨b.slot, b.offset⟩⟩, ?_, rfl, ?_⟩
  · have hread : Bytes.read file 12 = (.ok (superBlob length xs.length),
        P.flatMap (fun b => blobIndex b.slot b.offset) ++ (xs.flatMap (fun x => genericBlob x.magic (8 + x.contents.length) ++ x.contents) ++ rest)) := by
      rw [hfile, List.append_assoc, List.append_assoc, ← hsl]
      exact readBytes_append _ _
    have f0 := field_encode_zero .big 4 superMagic [(4, length), (4, xs.length)] [] (by decide)
    have f1 : field .big (Obj.encode .big [(4, superMagic), (4, length), (4, xs.length)] ++ []) 4 4 = length := by
      have : length < 256 ^ 4 := hl
      simp (discharger := first | assumption | decide) only [field_encode_succ, field_encode_zero, Nat.reduceSub]
    have f2 : field .big (Obj.encode .big [(4, superMagic), (4, length), (4, xs.length)] ++ []) 8 4 = xs.length := by
      have : xs.length < 256 ^ 4 := by omega
      simp (discharger := first | assumption | decide) only [field_encode_succ, field_encode_zero, Nat.reduceSub]
    rw [List.append_nil] at f0 f1 f2
    unfold Signature.parse
    rw [hread]
    simp only
    unfold superBlob
    rw [f0, f1, f2, if_neg (fun h => h rfl)]
    have hch := Elf.chunks_flatMap (fun b : Blob => blobIndex b.slot b.offset) 8 P (fun b _ => length_blobIndex _ _)
      (xs.flatMap (fun x => genericBlob x.magic (8 + x.contents.length) ++ x.contents) ++ rest)
    unfold Bytes.readSlice
    rw [if_pos ⟨by show _ < 2 ^ 64; omega, by rw [List.length_append, hil]; omega⟩, ← hPl, hch]
    simp only [Res.ok.injEq, Signature.mk.injEq, true_and, List.map_map]
    apply List.map_congr_left
    intro b hb
    exact decode_index _ _ (hok b hb).1 (hok b hb).2.1
  · show Drains BlobIter.next (file, P.map fun b => ⟨b.slot, b.offset⟩) (P.map Res.ok)
    have : ∀ b ∈ P, readBlob file ⟨b.slot, b.offset⟩ = .ok b := fun b hb => (hok b hb).2.2
    clear hok hil hpre hP hPl hfile hpl
    induction P with
    | nil => exact .done rfl
    | cons b bs ih =>
      refine .item ?_ (ih fun b hb => this b (by simp [hb]))
      show ((readBlob file ⟨b.slot, b.offset⟩).bind fun b => .ok (some b), _) = _
      rw [this b (by simp)]; rfl

/-- **C77.** A requirements blob is a blob with its magic number, whose contents start with the number of requirements (and so is
read back by `C77_signature_round_trip`). -/
theorem C77_requirements (n : Nat) (body : List UInt8) :
    requirementsBlob (12 + body.length) n ++ body =
      genericBlob 0xfade0c01 (8 + (wr .big 4 n ++ body).length) ++ (wr .big 4 n ++ body) := by
  have e : 8 + (wr .big 4 n ++ body).length = 12 + body.length := by
    rw [List.length_append, length_wr]; omega
  rw [e]
  simp [requirementsBlob, genericBlob, Obj.encode, requirementsMagic]

/-- **C77.** The signature of a load command is the one in its range of the file; the contents of a blob are its bytes after the magic number
and length; a blob is a code directory exactly if its magic number says so. -/
theorem C77_command (file : List UInt8) (dataoff datasize : Nat) :
    codeSignature file dataoff datasize ≠ .panic ∧
    (∀ s, codeSignature file dataoff datasize = .ok s ↔ dataoff + datasize ≤ file.length ∧ SignatureIn (slice file dataoff datasize) s) ∧
    (∀ data e b, BlobIn data e b → b.contents = slice data (e.offset + 8) (field .big data (e.offset + 4) 4 - 8)) ∧
    (∀ b : Blob, b.codeDirectory ≠ .panic ∧ (b.codeDirectory = .ok none ↔ b.magic ≠ 0xfade0c02) ∧
      ∀ d, b.codeDirectory = .ok (some d) ↔ b.magic = 0xfade0c02 ∧ DirectoryIn b.data d) := by
  refine ⟨?_, fun s => ?_, ?_, ?_⟩
  · exact Res.bind_no_panic (readRef_readBytesAt_no_panic _ _ _) fun a _ => (C77_parse a).1
  · unfold codeSignature
    rw [readRef_readBytesAt_eq]
    by_cases h : datasize = 0 ∨ dataoff + datasize ≤ file.length
    · rw [if_pos h, Res.ok_bind, (C77_parse _).2]
      constructor
      · intro hs
        refine ⟨?_, hs⟩
        have := hs.inside
        have hl := length_slice_le file dataoff datasize
        omega
      · exact fun hs => hs.2
    · rw [if_neg h]
      simp only [Res.err_bind, reduceCtorEq, false_iff]
      omega
  · intro data e b h
    unfold Blob.contents
    have hl : b.data.length = field .big data (e.offset + 4) 4 := by rw [h.bytes]; exact length_slice_of (.inr h.inside)
    by_cases h8 : 8 ≤ b.data.length
    · rw [if_pos h8, h.bytes]
      unfold slice
      rw [List.drop_take, List.drop_drop]
    · rw [if_neg h8]
      have : field .big data (e.offset + 4) 4 - 8 = 0 := by omega
      rw [this]; simp [slice]
  · intro b
    unfold Blob.codeDirectory
    by_cases h : b.magic ≠ directoryMagic
    · rw [if_pos h]
      have h' : b.magic ≠ 0xfade0c02 := h
      refine ⟨by simp, by simpa using h', fun d => ?_⟩
      simp only [Res.ok.injEq, reduceCtorEq, false_iff]
      exact fun x => h' x.1
    · rw [if_neg h]
      have h' : b.magic = 0xfade0c02 := Classical.not_not.1 h
      refine ⟨Res.bind_no_panic (C77_directory _).1 (by simp), ?_, fun d => ?_⟩
      · simp only [ne_eq, h', not_true_eq_false, iff_false]
        cases Directory.parse b.data <;> simp
      · rw [← (C77_directory _).2]
        simp only [h', true_and]
        cases Directory.parse b.data <;> simp

/-- A code directory with a team identifier, two special slots and one page. -/
private def cd : Cd := ⟨0x70, 0x20400, 2, 0x50, 88, 2, 1, 0x123456789, 4, 1, 0, 12, 0, 92, 0x4000, 0x8000, 1⟩

example : CodeSignS.Fits cd ∧ directorySize cd.version = .ok 88 ∧ directorySize 0x20300 = .ok 64 :=
  ⟨by constructor <;> decide, by decide, by decide⟩

/-- A signature with two blobs. -/
private def items : List Item := [⟨0, 0xfade0c02, [1, 2, 3]⟩, ⟨0x10000, 0xfade0b01, []⟩]

example : place 28 items = [⟨0, 28, 0xfade0c02, [0xfa, 0xde, 0x0c, 2, 0, 0, 0, 11, 1, 2, 3]⟩, ⟨0x10000, 39, 0xfade0b01, [0xfa, 0xde, 0x0b, 1, 0, 0, 0, 8]⟩] := by
  decide +kernel

example : ∃ b d, CodeSign.directory cd = .ok b ∧ Directory.parse (b ++ [65, 66, 67, 0, 68, 0]) = .ok d ∧ d.ident = .ok [65, 66, 67] ∧
    d.teamId = .ok (some [68]) ∧ d.codeLimit = 0x123456789 := by
  refine ⟨_, _, by rfl, by rfl, ?_⟩
  decide +kernel

end Obj.Props

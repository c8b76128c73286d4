import Verif.Proof.Rich
import Verif.Model.Compression

/-! # C39: GNU-style compression headers; C46: PE rich headers -/

namespace Obj.Props
open Obj Obj.Spec Obj.Pe

/-- C39: the GNU compression header is recognised exactly when "ZLIB", four zero bytes and a 4-byte
big-endian size are at the start of the section and the section is at least that long; the result is the
rest of the section with that uncompressed size.  Nothing panics. -/
theorem C39_gnu_compressed_range (data : List UInt8) (off size : Nat) (hlen : data.length < 2 ^ 64) :
    gnuCompressedFileRange data off size ≠ .panic ∧
    ∀ r, gnuCompressedFileRange data off size = .ok r ↔
      off + 12 ≤ data.length ∧ 12 ≤ size ∧ At data off ("ZLIB".toUTF8.toList ++ [0, 0, 0, 0]) ∧
      r = ⟨.zlib, off + 12, size - 12, rd .big (slice data (off + 8) 4)⟩ := by
  have e : "ZLIB".toUTF8.toList ++ [0, 0, 0, 0] = [0x5a, 0x4c, 0x49, 0x42, 0, 0, 0, 0] := by decide +kernel
  unfold gnuCompressedFileRange ReadRef.read ReadRef.readBytes
  rw [readRef_readBytesAt_pos (by omega), e]
  by_cases h8 : off + 8 ≤ data.length
  · rw [if_pos h8]
    dsimp only
    have hmod : (off + 8) % U64 = off + 8 := Nat.mod_eq_of_lt (by omega)
    rw [hmod]
    have hA : slice data off 8 = [0x5a, 0x4c, 0x49, 0x42, 0, 0, 0, 0] ↔ At data off [0x5a, 0x4c, 0x49, 0x42, 0, 0, 0, 0] := Iff.rfl
    by_cases hh : slice data off 8 = [0x5a, 0x4c, 0x49, 0x42, 0, 0, 0, 0]
    · rw [if_neg (by simp [hh]), readRef_readBytesAt_pos (by omega)]
      by_cases h12 : off + 8 + 4 ≤ data.length
      · rw [if_pos h12]
        dsimp only
        have hmod : (off + 8 + 4) % U64 = off + 12 := Nat.mod_eq_of_lt (by omega)
        rw [hmod, if_neg (by omega), show off + 12 - off = 12 by omega]
        by_cases hs : size < 12
        · rw [if_pos hs]
          refine ⟨by simp, fun r => ?_⟩
          simp; omega
        · rw [if_neg hs]
          refine ⟨by simp, fun r => ?_⟩
          simp only [Res.ok.injEq]
          constructor
          · rintro rfl; exact ⟨by omega, by omega, hh, rfl⟩
          · rintro ⟨_, _, _, rfl⟩; rfl
      · rw [if_neg h12]
        refine ⟨by simp, fun r => ?_⟩
        simp; omega
    · rw [if_pos (by simp [hh])]
      refine ⟨by simp, fun r => ?_⟩
      simp only [reduceCtorEq, false_iff]
      rintro ⟨_, _, h, _⟩; exact hh h
  · rw [if_neg h8]
    refine ⟨by simp, fun r => ?_⟩
    simp; omega

/-- C39: when the section lies in the file, the compressed data read through the range is exactly the
section contents after the 12-byte header. -/
theorem C39_compressed_data (data : List UInt8) (off size : Nat) (hlen : data.length < 2 ^ 64) (r : CompressedFileRange)
    (h : gnuCompressedFileRange data off size = .ok r) (hin : off + size ≤ data.length) :
    r.data data = .ok ((slice data off size).drop 12) := by
  obtain ⟨h1, h2, h3, rfl⟩ := ((C39_gnu_compressed_range data off size hlen).2 r).1 h
  unfold CompressedFileRange.data
  rw [readRef_readBytesAt_eq, if_pos (by dsimp only; omega)]
  simp [slice, List.drop_take, List.drop_drop]

example : gnuCompressedFileRange [9, 0x5a, 0x4c, 0x49, 0x42, 0, 0, 0, 0, 0, 0, 1, 2, 7, 7] 1 14 =
    .ok ⟨.zlib, 13, 2, 258⟩ := by decide

/-- C46: a rich header is reported exactly when, in the bytes before the NT headers, the first 4-aligned
"Rich" is followed by a key and preceded by a start sequence masked with that key; the reported range runs
from the first aligned start sequence to the end of the key, and the entries are the 8-byte pairs in
between.  Nothing panics. -/
theorem C46_exact (data : List UInt8) (nt : Nat) (hlen : data.length < 2 ^ 64) :
    richParse data nt ≠ .panic ∧
    ∀ info, richParse data nt = .ok info ↔ nt ≤ data.length ∧
      ∃ e, FirstAligned (data.take nt) "Rich".toUTF8.toList e ∧ e + 8 ≤ nt ∧
        info.xorKey = rd .little (slice data (e + 4) 4) ∧
        FirstAligned (data.take e) (richStart info.xorKey) info.offset ∧
        info.offset + info.length = e + 8 ∧
        info.maskedEntries = (List.range ((e - (info.offset + 16)) / 8)).map
          fun i => slice data (info.offset + 16 + 8 * i) 8 := by
  have eR : "Rich".toUTF8.toList = [0x52, 0x69, 0x63, 0x68] := by decide +kernel
  unfold richParse
  rw [readRef_readBytesAt_eq, eR]
  by_cases hnt : nt = 0 ∨ 0 + nt ≤ data.length
  · rw [if_pos hnt, show slice data 0 nt = data.take nt from by simp [slice]]
    have hnt' : nt ≤ data.length := by omega
    have hlen' : (data.take nt).length = nt := by simp; omega
    dsimp only
    cases hm : memmem (data.take nt) [0x52, 0x69, 0x63, 0x68] 4 with
    | none =>
      refine ⟨by simp, fun info => ?_⟩
      simp only [reduceCtorEq, false_iff]
      rintro ⟨_, e, he, _⟩
      rw [← memmem_iff _ _ (by simp), hm] at he; cases he
    | some e =>
      have he := (memmem_iff _ _ (by simp) e).1 hm
      have uniq : ∀ e', FirstAligned (data.take nt) [0x52, 0x69, 0x63, 0x68] e' → e' = e := by
        intro e' h
        rw [← memmem_iff _ _ (by simp), hm] at h
        injection h with h; exact h.symm
      have hle := at_le he.2.1 (by simp)
      rw [hlen'] at hle
      simp only [List.length_cons, List.length_nil] at hle
      dsimp only
      rw [bytes_readAt_eq, hlen']
      by_cases h8 : e + 4 + 4 ≤ nt
      · rw [if_pos h8]
        dsimp only
        have hkey : ((data.take nt).drop (e + 4)).take 4 = slice data (e + 4) 4 := by
          unfold slice
          rw [List.drop_take, List.take_take, Nat.min_eq_left (by omega)]
        rw [hkey]
        have hkl : (slice data (e + 4) 4).length = 4 := by simp [slice]; omega
        have hstart : wr .little 4 (0x536e6144 ^^^ rd .little (slice data (e + 4) 4)) ++ slice data (e + 4) 4 ++
            slice data (e + 4) 4 ++ slice data (e + 4) 4 = richStart (rd .little (slice data (e + 4) 4)) := by
          have := wr_rd .little (slice data (e + 4) 4)
          rw [hkl] at this
          rw [richStart, rd_dans, Nat.zero_xor, this]
        rw [hstart]
        have hsl : ∀ k, (richStart k).length = 16 := by intro k; simp [richStart]
        have hsne : richStart (rd .little (slice data (e + 4) 4)) ≠ [] := by
          intro h; have := congrArg List.length h; rw [hsl] at this; simp at this
        have htt : (data.take nt).take e = data.take e := by rw [List.take_take, Nat.min_eq_left (by omega)]
        rw [htt]
        cases hs : memmem (data.take e) (richStart (rd .little (slice data (e + 4) 4))) 4 with
        | none =>
          refine ⟨by simp, fun info => ?_⟩
          simp only [reduceCtorEq, false_iff]
          rintro ⟨_, e', he', _, hk, hs', _⟩
          obtain rfl := uniq e' he'
          rw [hk, ← memmem_iff _ _ hsne, hs] at hs'; cases hs'
        | some s =>
          have hs' := (memmem_iff _ _ hsne s).1 hs
          have hsle := at_le hs'.2.1 hsne
          rw [hsl] at hsle
          simp only [List.length_take] at hsle
          dsimp only
          rw [hsl, if_neg (by omega)]
          unfold Bytes.skip
          rw [if_pos (by simp; omega)]
          dsimp only
          unfold Bytes.readSlice
          rw [if_pos (by simp; omega)]
          dsimp only
          refine ⟨by simp, fun info => ?_⟩
          have hch : Bytes.chunks 8 ((e - (s + 16)) / 8) ((data.take nt).drop (s + 16)) =
              (List.range ((e - (s + 16)) / 8)).map (fun i => slice data (s + 16 + 8 * i) 8) := by
            rw [chunks_eq_map]
            apply List.map_congr_left
            intro i hi
            have := List.mem_range.1 hi
            unfold slice
            rw [List.drop_drop, List.drop_take, List.take_take, Nat.min_eq_left (by omega), Nat.mul_comm i 8]
          simp only [Res.ok.injEq]
          constructor
          · rintro rfl
            exact ⟨hnt', e, he, by omega, rfl, hs', by dsimp only; omega, hch⟩
          · rintro ⟨_, e', he', k1, k2, k3, k4, k5⟩
            obtain rfl := uniq e' he'
            obtain ⟨o, l, x, m⟩ := info
            dsimp only at *
            subst k2
            rw [← memmem_iff _ _ hsne, hs] at k3
            injection k3 with k3
            subst k3
            rw [hch, ← k5]
            congr 1; omega
      · rw [if_neg h8]
        refine ⟨by simp, fun info => ?_⟩
        simp only [reduceCtorEq, false_iff]
        rintro ⟨_, e', he', h, _⟩
        obtain rfl := uniq e' he'
        omega
  · rw [if_neg hnt]
    refine ⟨by simp, fun info => ?_⟩
    simp; omega

/-- C46: a rich header placed at a 4-aligned offset is found and its entries are returned unmasked,
provided neither marker occurs earlier at an aligned position. -/
theorem C46_round_trip (stub tail : List UInt8) (key : Nat) (entries : List (Nat × Nat))
    (hk : key < 2 ^ 32) (he : ∀ e ∈ entries, e.1 < 2 ^ 32 ∧ e.2 < 2 ^ 32)
    (halign : stub.length % 4 = 0)
    (hno1 : ∀ o < stub.length + 16 + 8 * entries.length, o % 4 = 0 →
      ¬ At (stub ++ richBytes key entries) o "Rich".toUTF8.toList)
    (hno2 : ∀ o < stub.length, o % 4 = 0 → ¬ At (stub ++ richBytes key entries) o (richStart key))
    (hlen : (stub ++ richBytes key entries ++ tail).length < 2 ^ 64) (nt : Nat)
    (hnt1 : (stub ++ richBytes key entries).length ≤ nt) (hnt2 : nt ≤ (stub ++ richBytes key entries ++ tail).length) :
    ∃ info, richParse (stub ++ richBytes key entries ++ tail) nt = .ok info ∧
      info.offset = stub.length ∧ info.length = (richBytes key entries).length ∧ info.xorKey = key ∧
      info.unmasked = entries := by
  have eR : "Rich".toUTF8.toList = [0x52, 0x69, 0x63, 0x68] := by decide +kernel
  have hk' : key < 256 ^ 4 := by omega
  have hbl : ∀ es : List (Nat × Nat), (es.flatMap (fun e => wr .little 4 (e.1 ^^^ key) ++ wr .little 4 (e.2 ^^^ key))).length = 8 * es.length := by
    intro es
    induction es with
    | nil => rfl
    | cons x xs ih => simp [ih]; omega
  have hrl : (richBytes key entries).length = 16 + 8 * entries.length + 8 := by
    simp only [richBytes, List.length_append, hbl, eR, length_wr, List.length_cons, List.length_nil]
    simp [richStart]
  generalize hD : stub ++ richBytes key entries ++ tail = D at *
  have hRl : (stub ++ richBytes key entries).length = stub.length + 16 + 8 * entries.length + 8 := by
    rw [List.length_append, hrl]; omega
  have hDA : ∀ o p, p ≠ [] → o + p.length ≤ (stub ++ richBytes key entries).length →
      (At D o p ↔ At (stub ++ richBytes key entries) o p) := by
    intro o p _ h
    rw [← hD]; unfold At slice
    rw [List.drop_append_of_le_length (by omega), List.take_append_of_le_length (by simp at h ⊢; omega)]
  generalize hE : stub.length + 16 + 8 * entries.length = E at *
  have hslice : ∀ (a b c : List UInt8), D = a ++ (b ++ c) → slice D a.length b.length = b := by
    intro a b c h; rw [h]; exact slice_of_append rfl rfl
  have hDe : D = (stub ++ richStart key ++ entries.flatMap (fun e => wr .little 4 (e.1 ^^^ key) ++ wr .little 4 (e.2 ^^^ key))) ++
      ([0x52, 0x69, 0x63, 0x68] ++ (wr .little 4 key ++ tail)) := by
    rw [← hD, richBytes, eR]; simp only [List.append_assoc]
  have hpre : (stub ++ richStart key ++ entries.flatMap (fun e => wr .little 4 (e.1 ^^^ key) ++ wr .little 4 (e.2 ^^^ key))).length = E := by
    rw [List.length_append, List.length_append, hbl, ← hE]; simp [richStart]
  have hrich : At D E "Rich".toUTF8.toList := by
    rw [eR]; unfold At
    rw [← hpre]
    exact hslice _ _ _ hDe
  have hkey : slice D (E + 4) 4 = wr .little 4 key := by
    have := hslice ((stub ++ richStart key ++ entries.flatMap (fun e => wr .little 4 (e.1 ^^^ key) ++ wr .little 4 (e.2 ^^^ key))) ++
      [0x52, 0x69, 0x63, 0x68]) (wr .little 4 key) tail (by rw [hDe]; simp only [List.append_assoc])
    rw [List.length_append, hpre, length_wr] at this
    exact this
  have hstart : At D stub.length (richStart key) := by
    unfold At
    exact hslice _ _ (entries.flatMap (fun e => wr .little 4 (e.1 ^^^ key) ++ wr .little 4 (e.2 ^^^ key)) ++
      ([0x52, 0x69, 0x63, 0x68] ++ (wr .little 4 key ++ tail))) (by rw [hDe]; simp only [List.append_assoc])
  have hsl : (richStart key).length = 16 := by simp [richStart]
  have h1 : FirstAligned (D.take nt) "Rich".toUTF8.toList E := by
    refine ⟨by omega, ?_, ?_⟩
    · rw [at_take (by rw [eR]; simp; omega)]; exact hrich
    · intro o ho hoa hA
      rw [at_take (by rw [eR]; simp; omega), hDA _ _ (by rw [eR]; simp) (by rw [eR]; simp; omega)] at hA
      exact hno1 o ho hoa hA
  have h2 : FirstAligned (D.take E) (richStart key) stub.length := by
    refine ⟨halign, ?_, ?_⟩
    · rw [at_take (by rw [hsl]; omega)]; exact hstart
    · intro o ho hoa hA
      rw [at_take (by rw [hsl]; omega), hDA _ _ (by intro h; rw [h] at hsl; simp at hsl) (by rw [hsl]; omega)] at hA
      exact hno2 o ho hoa hA
  refine ⟨⟨stub.length, (richBytes key entries).length, key,
    (List.range ((E - (stub.length + 16)) / 8)).map fun i => slice D (stub.length + 16 + 8 * i) 8⟩,
    ((C46_exact D nt hlen).2 _).2 ⟨by omega, E, h1, by omega, ?_, h2, ?_, rfl⟩, rfl, rfl, rfl, ?_⟩
  · rw [hkey, rd_wr _ _ _ hk']
  · dsimp only; omega
  · rw [show (E - (stub.length + 16)) / 8 = entries.length by omega]
    simp only [RichHeaderInfo.unmasked, List.map_map]
    apply List.ext_getElem
    · simp
    · intro i hi hi'
      simp only [List.length_map, List.length_range] at hi
      have hx := he _ (List.getElem_mem hi')
      simp only [List.getElem_map, List.getElem_range, Function.comp]
      have hsp : entries = entries.take i ++ entries[i] :: entries.drop (i + 1) := by simp
      have : slice D (stub.length + 16 + 8 * i) 8 =
          wr .little 4 (entries[i].1 ^^^ key) ++ wr .little 4 (entries[i].2 ^^^ key) := by
        have := hslice (stub ++ richStart key ++ (entries.take i).flatMap (fun e => wr .little 4 (e.1 ^^^ key) ++ wr .little 4 (e.2 ^^^ key)))
          (wr .little 4 (entries[i].1 ^^^ key) ++ wr .little 4 (entries[i].2 ^^^ key))
          ((entries.drop (i + 1)).flatMap (fun e => wr .little 4 (e.1 ^^^ key) ++ wr .little 4 (e.2 ^^^ key)) ++
            ([0x52, 0x69, 0x63, 0x68] ++ (wr .little 4 key ++ tail)))
          (by rw [hDe]; conv => lhs; rw [hsp]
              simp only [List.flatMap_append, List.flatMap_cons, List.append_assoc])
        rw [List.length_append, List.length_append, hbl, hsl, List.length_take, Nat.min_eq_left (by omega), List.length_append,
          length_wr, length_wr] at this
        exact this
      rw [this]
      have f1 : field .little (wr .little 4 (entries[i].1 ^^^ key) ++ wr .little 4 (entries[i].2 ^^^ key)) 0 4 = entries[i].1 ^^^ key := by
        unfold field
        rw [List.drop_zero, List.take_left' (by simp), rd_wr _ _ _ (xor_lt_32 (by omega) hk')]
      have f2 : field .little (wr .little 4 (entries[i].1 ^^^ key) ++ wr .little 4 (entries[i].2 ^^^ key)) 4 4 = entries[i].2 ^^^ key := by
        unfold field
        rw [List.drop_left' (by simp), List.take_of_length_le (by simp), rd_wr _ _ _ (xor_lt_32 (by omega) hk')]
      rw [f1, f2, Nat.xor_assoc, Nat.xor_assoc, Nat.xor_self, Nat.xor_zero, Nat.xor_zero]

example : (richParse ([1, 2, 3, 4] ++ richBytes 0x01020304 [(7, 9)] ++ [5]) 36) =
    .ok ⟨4, 32, 0x01020304, [wr .little 4 (7 ^^^ 0x01020304) ++ wr .little 4 (9 ^^^ 0x01020304)]⟩ := by decide +kernel

end Obj.Props

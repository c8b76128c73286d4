import Verif.Props.ElfTables
import Verif.Props.Endian
import Verif.Props.Rich

/-! # C48, C49: ELF compression headers, dynamic entries, groups -/

namespace Obj.Props
open Obj Obj.Elf Obj.Spec Obj.Spec.ElfS

/-! ## C48 -/

private theorem chdrSize_pos (c : Cfg) : 0 < c.chdrSize := by unfold Cfg.chdrSize; split <;> decide

/-- C48: a section with the compressed flag is reported as compressed exactly when it occupies file space, its
compression header lies in the file and in the section, and the type is zlib or zstandard; the compressed data is
then the rest of the section. -/
theorem C48_compressed_iff (c : Cfg) (s : Shdr) (data : List UInt8) (hlen : data.length < 2 ^ 64)
    (r : CompressedFileRange) :
    (maybeCompressed c s data = .ok (some r) ↔
      s.flags &&& 0x800 ≠ 0 ∧ s.type ≠ 8 ∧ s.offset + c.chdrSize ≤ data.length ∧ c.chdrSize ≤ s.size ∧
      ∃ fmt, (((Chdr.decode c (slice data s.offset c.chdrSize)).type = 1 ∧ fmt = .zlib) ∨
          ((Chdr.decode c (slice data s.offset c.chdrSize)).type = 2 ∧ fmt = .zstandard)) ∧
        r = ⟨fmt, s.offset + c.chdrSize, s.size - c.chdrSize, (Chdr.decode c (slice data s.offset c.chdrSize)).size⟩) ∧
    (maybeCompressed c s data = .ok none ↔ s.flags &&& 0x800 = 0) ∧
    maybeCompressed c s data ≠ .panic := by
  unfold maybeCompressed Shdr.compression Shdr.fileRange
  by_cases hf : s.flags &&& 0x800 = 0
  · simp [hf]
  · by_cases ht : s.type = 8
    · simp [hf, ht]
    · simp only [hf, ht, if_false]
      unfold ReadRef.read ReadRef.readBytes
      rw [readRef_readBytesAt_pos (chdrSize_pos c)]
      by_cases hin : s.offset + c.chdrSize ≤ data.length
      · rw [if_pos hin]
        simp only
        rw [Nat.mod_eq_of_lt (by omega), if_neg (by omega), Nat.add_sub_cancel_left]
        by_cases hs : s.size < c.chdrSize
        · rw [if_pos hs]
          simp; omega
        · rw [if_neg hs]
          simp only
          generalize Chdr.decode c (slice data s.offset c.chdrSize) = h
          by_cases h1 : h.type = 1
          · simp [h1, hf, ht, hin]
            constructor
            · rintro rfl; exact ⟨by omega, rfl⟩
            · rintro ⟨_, rfl⟩; rfl
          · by_cases h2 : h.type = 2
            · simp [h2, hf, ht, hin]
              constructor
              · rintro rfl; exact ⟨by omega, rfl⟩
              · rintro ⟨_, rfl⟩; rfl
            · simp [h1, h2]
      · rw [if_neg hin]
        simp; omega

/-- C48: a compression header followed by a payload is reported with its format and uncompressed size, and the
compressed data is the payload. -/
theorem C48_round_trip (c : Cfg) (s : Shdr) (data : List UInt8) (hlen : data.length < 2 ^ 64) (h : Chdr)
    (payload : List UInt8) (fmt : CompressionFormat)
    (hfmt : (h.type = 1 ∧ fmt = .zlib) ∨ (h.type = 2 ∧ fmt = .zstandard))
    (hsz : h.size < wordMax c.is64) (hal : h.addralign < wordMax c.is64)
    (hflag : s.flags &&& 0x800 ≠ 0) (hd : Holds data s (h.encode c ++ payload)) :
    ∃ r, maybeCompressed c s data = .ok (some r) ∧ r.format = fmt ∧ r.uncompressedSize = h.size ∧
      r.data data = .ok payload := by
  obtain ⟨h1, h2, h3⟩ := hd
  have hle := at_le h3 (by
    intro he
    have := congrArg List.length he
    simp [Chdr.length_encode] at this
    have := chdrSize_pos c; omega)
  simp only [List.length_append, Chdr.length_encode] at h2 hle
  obtain ⟨h4, h5⟩ := at_append.1 h3
  have hsl : slice data s.offset c.chdrSize = h.encode c := by
    have := h4; unfold At at this; rwa [Chdr.length_encode] at this
  have hdec : Chdr.decode c (slice data s.offset c.chdrSize) = h := by
    rw [hsl]
    have := Chdr.decode_encode c h (by omega) hsz hal []
    simpa using this
  refine ⟨⟨fmt, s.offset + c.chdrSize, s.size - c.chdrSize, h.size⟩, ?_, rfl, rfl, ?_⟩
  · rw [(C48_compressed_iff c s data hlen _).1, hdec]
    exact ⟨hflag, h1, by omega, by omega, fmt, hfmt, rfl⟩
  · unfold CompressedFileRange.data
    simp only
    rw [Chdr.length_encode] at h5
    have := at_read h5
    rw [show s.size - c.chdrSize = payload.length by omega]
    exact this

/-- C48: a section that is neither flagged nor named like a GNU compressed section is reported uncompressed, with
its whole file range. -/
theorem C48_uncompressed (c : Cfg) (utf8 : List UInt8 → Bool) (t : SectionTable) (s : Shdr) (data : List UInt8)
    (hflag : s.flags &&& 0x800 = 0)
    (hname : ∀ n, t.sectionName data s = .ok n → ¬ ".zdebug_".toUTF8.toList <+: n) :
    compressedFileRange c utf8 t s data = .ok (if s.type = 8 then ⟨.none, 0, 0, 0⟩ else ⟨.none, s.offset, s.size, s.size⟩) := by
  have e : ".zdebug_".toUTF8.toList = [0x2e, 0x7a, 0x64, 0x65, 0x62, 0x75, 0x67, 0x5f] := by decide +kernel
  have h1 : maybeCompressed c s data = .ok none := by
    unfold maybeCompressed Shdr.compression
    rw [if_pos hflag]
  have h2 : maybeCompressedGnu utf8 t s data = .ok none := by
    unfold maybeCompressedGnu
    cases hn : t.sectionName data s with
    | ok n =>
      have := hname n hn
      rw [e] at this
      have hp : [0x2e, 0x7a, 0x64, 0x65, 0x62, 0x75, 0x67, 0x5f].isPrefixOf n = false := by
        rw [Bool.eq_false_iff]
        intro hp
        exact this (List.isPrefixOf_iff_prefix.1 hp)
      simp [hp]
    | err => simp
    | panic => simp
  unfold compressedFileRange
  rw [h1, h2]
  simp only
  unfold Shdr.fileRange CompressedFileRange.ofRange
  split <;> simp_all

/-- C48: a section named `.zdebug_*` (and not flagged) is handled as GNU-compressed (see C39). -/
theorem C48_gnu_named (c : Cfg) (utf8 : List UInt8 → Bool) (t : SectionTable) (s : Shdr) (data : List UInt8)
    (hflag : s.flags &&& 0x800 = 0) (hty : s.type ≠ 8) (n : List UInt8)
    (hname : t.sectionName data s = .ok n) (hpre : ".zdebug_".toUTF8.toList <+: n) (hutf8 : utf8 n = true) :
    compressedFileRange c utf8 t s data = gnuCompressedFileRange data s.offset s.size := by
  have e : ".zdebug_".toUTF8.toList = [0x2e, 0x7a, 0x64, 0x65, 0x62, 0x75, 0x67, 0x5f] := by decide +kernel
  rw [e] at hpre
  unfold compressedFileRange maybeCompressed Shdr.compression
  rw [if_pos hflag]
  simp only
  unfold maybeCompressedGnu Shdr.fileRange
  rw [hname]
  simp only [hutf8, List.isPrefixOf_iff_prefix.2 hpre, Bool.and_self, Bool.not_true, Bool.false_eq_true, if_false, if_neg hty]
  cases gnuCompressedFileRange data s.offset s.size <;> rfl

example : maybeCompressed ⟨false, .little⟩ ⟨0, 1, 0x802, 0, 1, 14, 0, 0, 1, 0⟩
    ([9] ++ (Chdr.mk 2 300 1).encode ⟨false, .little⟩ ++ [7, 8]) = .ok (some ⟨.zstandard, 13, 2, 300⟩) := by decide

/-! ## C49 -/

/-- C49: a dynamic entry is written exactly when it fits the class, and then is read back. -/
theorem C49_dynamic_entry (c : Cfg) (d : Dyn) (htag : -(2 ^ 63 : Int) ≤ d.tag ∧ d.tag < 2 ^ 63) (hval : d.val < 2 ^ 64) :
    ((∃ b, writeDyn c d = .ok b) ↔ c.is64 = true ∨ (-(2 ^ 31 : Int) ≤ d.tag ∧ d.tag < 2 ^ 31 ∧ d.val < 2 ^ 32)) ∧
    (∀ b tl, writeDyn c d = .ok b → b.length = 2 * c.w ∧ readDyn c (b ++ tl) = d) ∧ writeDyn c d ≠ .panic := by
  unfold writeDyn
  cases hc : c.is64
  · simp only [Bool.false_eq_true, if_false, false_or]
    unfold newI64
    by_cases ht : -2147483648 ≤ d.tag ∧ d.tag ≤ 2147483647
    · rw [if_pos ht]
      simp only
      by_cases hv : d.val < U32
      · rw [if_pos hv]
        refine ⟨⟨fun _ => ⟨by omega, by omega, by omega⟩, fun _ => ⟨_, rfl⟩⟩, ?_, by simp⟩
        intro b tl hb
        simp only [Res.ok.injEq] at hb
        subst hb
        have hw : c.w = 4 := by unfold Cfg.w; simp [hc]
        have hl : (wrI c.en 4 d.tag).length = 4 := by simp [wrI]
        refine ⟨by simp [hl, hw], ?_⟩
        unfold readDyn
        rw [hw, List.append_assoc, List.take_left' hl, List.drop_left' hl, List.take_left' (by simp),
          rd_wr _ _ _ (by omega), C40_signed c.en 4 (by omega) d.tag (by simp; omega) (by simp; omega)]
      · rw [if_neg hv]
        refine ⟨?_, by simp, by simp⟩
        constructor
        · rintro ⟨b, hb⟩; simp at hb
        · omega
    · rw [if_neg ht]
      refine ⟨?_, by simp, by simp⟩
      constructor
      · rintro ⟨b, hb⟩; simp at hb
      · omega
  · simp only [if_true, true_or, iff_true]
    refine ⟨⟨_, rfl⟩, ?_, by simp⟩
    intro b tl hb
    simp only [Res.ok.injEq] at hb
    subst hb
    have hw : c.w = 8 := by unfold Cfg.w; simp [hc]
    have hl : (wrI c.en 8 d.tag).length = 8 := by simp [wrI]
    refine ⟨by simp [hl, hw], ?_⟩
    unfold readDyn
    rw [hw, List.append_assoc, List.take_left' hl, List.drop_left' hl, List.take_left' (by simp),
      rd_wr _ _ _ (by omega), C40_signed c.en 8 (by omega) d.tag (by simp; omega) (by simp; omega)]

/-- C49: iterating a dynamic table yields exactly the entries before the first null tag, and ends. -/
theorem C49_dynamic_iteration (ds : List Dyn) :
    Runs dynNext ds (ds.takeWhile fun d => d.tag ≠ 0) .done := by
  induction ds with
  | nil => exact .done rfl
  | cons d ds ih =>
    by_cases h : d.tag = 0
    · simp only [List.takeWhile_cons, h, ne_eq, not_true, decide_false]
      exact .done (s' := []) (by simp [dynNext, h])
    · simp only [List.takeWhile_cons, ne_eq, h, not_false_iff, decide_true, if_true]
      exact .item (by simp [dynNext, h]) ih

/-- C49: the dynamic table of a file whose first dynamic section holds the written entries is those entries, with
the linked string table. -/
theorem C49_dynamic_table (c : Cfg) (t : SectionTable) (data : List UInt8) (hlen : data.length < 2 ^ 64)
    (pre post : List Shdr) (s : Shdr) (hsec : t.sections = pre ++ s :: post) (hpre : ∀ x ∈ pre, x.type ≠ 6) (hty : s.type = 6)
    (ds : List Dyn) (hds : ∀ d ∈ ds, -(2 ^ 63 : Int) ≤ d.tag ∧ d.tag < 2 ^ 63 ∧ d.val < 2 ^ 64)
    (enc : Dyn → List UInt8) (henc : ∀ d ∈ ds, writeDyn c d = .ok (enc d))
    (hd : Holds data s (ds.flatMap enc)) (st : StrTable) (hst : t.stringsAt s.link = .ok st) :
    t.dynamicTable c data = .ok ⟨ds, st⟩ := by
  have hfind : (t.sections.find? fun s => s.type == 6) = some s := by
    rw [hsec, List.find?_append, List.find?_eq_none.2 (by simpa using hpre)]
    simp [hty]
  have hent := fun d hd => C49_dynamic_entry c d ⟨(hds d hd).1, (hds d hd).2.1⟩ (hds d hd).2.2
  have hw : 0 < 2 * c.w := by unfold Cfg.w; split <;> decide
  have harr := dataAsArray_flatMap enc (2 * c.w) hw ds
    (fun d hd' => (((hent d hd').2.1) _ [] (henc d hd')).1) s data hlen hd
  unfold SectionTable.dynamicTable
  rw [hfind]
  simp only
  rw [if_neg (by omega), harr, Res.bind_eq, Res.ok_bind, hst, Res.bind_eq, Res.ok_bind, List.map_map]
  congr 2
  conv => rhs; rw [← List.map_id ds]
  apply List.map_congr_left
  intro d hd'
  have := (((hent d hd').2.1) _ [] (henc d hd')).2
  simpa using this

example : writeDyn ⟨false, .big⟩ ⟨-1, 7⟩ = .ok [255, 255, 255, 255, 0, 0, 0, 7] ∧ writeDyn ⟨false, .big⟩ ⟨1, 2 ^ 32⟩ = .err := by decide
example : Runs dynNext [⟨1, 5⟩, ⟨5, 6⟩, ⟨0, 0⟩, ⟨1, 9⟩] [⟨1, 5⟩, ⟨5, 6⟩] .done := C49_dynamic_iteration _

/-- C49: a group section read on any data: flag word, then section indices, no leftover; never a panic. -/
theorem C49_group_any (c : Cfg) (s : Shdr) (data : List UInt8) :
    s.group c data ≠ .panic ∧
    ∀ flag xs, s.group c data = .ok (some (flag, xs)) →
      s.type = 17 ∧ ∃ (imgs : List (List UInt8)) (f : List UInt8), s.data data = .ok (f ++ imgs.flatten) ∧ f.length = 4 ∧ flag = rd c.en f ∧
        (∀ i ∈ imgs, i.length = 4) ∧ xs = imgs.map (rd c.en) := by
  unfold Shdr.group
  by_cases hty : s.type = 17
  · rw [if_neg (by omega)]
    have hnp := data_no_panic s data
    cases hd : s.data data with
    | panic => exact absurd hd hnp
    | err => simp
    | ok d =>
      simp only
      unfold Bytes.read Bytes.readBytes
      by_cases h4 : 4 ≤ d.length
      · rw [if_pos h4]
        simp only
        have hnp' := sliceFromAll_no_panic 4 (d.drop 4)
        cases hs : sliceFromAllBytes 4 (d.drop 4) with
        | panic => exact absurd hs hnp'
        | err => simp
        | ok imgs =>
          refine ⟨by simp, ?_⟩
          intro flag xs h
          simp only [Res.ok.injEq, Option.some.injEq, Prod.mk.injEq] at h
          obtain ⟨h1, h2⟩ := sliceFromAll_ok hs
          refine ⟨hty, imgs, d.take 4, ?_, by simp; omega, h.1.symm, h2, h.2.symm⟩
          rw [h1, List.take_append_drop]
      · rw [if_neg h4]; simp
  · rw [if_pos (by omega)]; simp

/-- C49: a COMDAT group written by the writer is listed with exactly its sections. -/
theorem C49_comdat_round_trip (c : Cfg) (t : SectionTable) (data : List UInt8) (hlen : data.length < 2 ^ 64)
    (secs : List Nat) (hsecs : ∀ x ∈ secs, x < 2 ^ 32) (s : Shdr) (hmem : s ∈ t.sections.drop 1) (hty : s.type = 17)
    (hd : Holds data s (comdatBytes c secs)) :
    s.group c data = .ok (some (1, secs)) ∧ (s, secs) ∈ comdats c t data := by
  have hg : s.group c data = .ok (some (1, secs)) := by
    obtain ⟨h1, h2, h3⟩ := hd
    have hle := at_le h3 (by
      intro he; have := congrArg List.length he; simp [comdatBytes] at this)
    unfold Shdr.group Shdr.data Shdr.fileRange
    rw [if_neg (by omega), if_neg h1]
    simp only
    rw [h2, at_read h3]
    simp only
    unfold comdatBytes Bytes.read Bytes.readBytes
    rw [if_pos (by simp)]
    simp only
    have hl4 : (wr c.en 4 1).length = 4 := by simp
    rw [List.take_left' hl4, List.drop_left' hl4, rd_wr _ _ _ (by decide),
      sliceFromAllBytes_flatMap _ 4 (by decide) secs (fun x _ => by simp) (by
        simp only [comdatBytes, List.length_append] at hle; omega)]
    simp only [List.map_map]
    congr 3
    conv => rhs; rw [← List.map_id secs]
    apply List.map_congr_left
    intro x hx
    exact rd_wr _ _ _ (by have := hsecs x hx; omega)
  refine ⟨hg, ?_⟩
  unfold comdats
  rw [List.mem_filterMap]
  exact ⟨s, hmem, by simp [hg]⟩

/-- C49: nothing else is listed: every listed group is a group section with the COMDAT flag. -/
theorem C49_comdat_sound (c : Cfg) (t : SectionTable) (data : List UInt8) (s : Shdr) (secs : List Nat)
    (h : (s, secs) ∈ comdats c t data) :
    s ∈ t.sections.drop 1 ∧ s.type = 17 ∧ ∃ flag, s.group c data = .ok (some (flag, secs)) ∧ flag % 2 = 1 := by
  unfold comdats at h
  rw [List.mem_filterMap] at h
  obtain ⟨x, hx, h⟩ := h
  split at h
  · rename_i flag xs hg
    split at h
    · rename_i hf
      simp only [Option.some.injEq, Prod.mk.injEq] at h
      obtain ⟨rfl, rfl⟩ := h
      refine ⟨hx, ?_, flag, hg, by rw [Nat.and_one_is_mod] at hf; exact hf⟩
      unfold Shdr.group at hg
      split at hg
      · simp at hg
      · omega
    · simp at h
  · simp at h

example : (Shdr.mk 0 17 0 0 2 12 3 1 4 4).group ⟨true, .little⟩ ([0, 0] ++ comdatBytes ⟨true, .little⟩ [5, 6]) =
    .ok (some (1, [5, 6])) := by decide

end Obj.Props

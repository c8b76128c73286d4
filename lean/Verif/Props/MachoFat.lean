import Verif.Spec.MachoFat
import Verif.Model.MachoReloc
import Verif.Proof.Xcoff
import Verif.Proof.Pe
import Verif.Proof.MachoReloc
import Verif.Props.FileKind

/-! # C76: Mach-O universal binaries -/

namespace Obj.Props
open Obj Obj.Spec Obj.Fat Obj.Spec.FatS
open Obj.Xcoff (field_of_slice)
open Obj.Elf (at_read at_append readSliceAt_flatMap)

private theorem decode_at (is64 : Bool) (data : List UInt8) (o : Nat) (h : o + entry is64 ≤ data.length) (a : Fat.Arch) :
    ArchAt is64 data o a ↔ a = Arch.decode is64 (slice data o (archSize is64)) := by
  have hf : ∀ off w, off + w ≤ archSize is64 → field .big (slice data o (archSize is64)) off w = field .big data (o + off) w :=
    fun off w => field_of_slice data o _ off w
  generalize slice data o (archSize is64) = img at hf
  cases is64
  · have f0 := hf 0 4 (by decide)
    have f1 := hf 4 4 (by decide)
    have f2 := hf 8 4 (by decide)
    have f3 := hf 12 4 (by decide)
    have f4 := hf 16 4 (by decide)
    have e : Arch.decode false img = ⟨field .big img 0 4, field .big img 4 4, field .big img 8 4, field .big img 12 4, field .big img 16 4⟩ := by
      simp [Arch.decode, Obj.decode, field, List.drop_drop]
    rw [e, f0, f1, f2, f3, f4]
    constructor
    · rintro ⟨-, h1, h2, h3, h4, h5⟩
      cases a
      simp at h1 h2 h3 h4 h5
      simp [h1, h2, h3, h4, h5]
    · rintro rfl
      exact ⟨h, rfl, rfl, rfl, rfl, rfl⟩
  · have f0 := hf 0 4 (by decide)
    have f1 := hf 4 4 (by decide)
    have f2 := hf 8 8 (by decide)
    have f3 := hf 16 8 (by decide)
    have f4 := hf 24 4 (by decide)
    have e : Arch.decode true img = ⟨field .big img 0 4, field .big img 4 4, field .big img 8 8, field .big img 16 8, field .big img 24 4⟩ := by
      simp [Arch.decode, Obj.decode, field, List.drop_drop]
    rw [e, f0, f1, f2, f3, f4]
    constructor
    · rintro ⟨-, h1, h2, h3, h4, h5⟩
      cases a
      simp at h1 h2 h3 h4 h5
      simp [h1, h2, h3, h4, h5]
    · rintro rfl
      exact ⟨h, rfl, rfl, rfl, rfl, rfl⟩

private theorem size_entry (is64 : Bool) : archSize is64 = entry is64 := rfl

private theorem readTable (is64 : Bool) (data : List UInt8) (n : Nat) (hn : n < 2 ^ 32) (imgs : List (List UInt8)) :
    Elf.readSliceAt data 8 (archSize is64) n = .ok imgs ↔ (n = 0 ∨ 8 + entry is64 * n ≤ data.length) ∧
      imgs = (List.range n).map fun i => slice data (8 + entry is64 * i) (archSize is64) := by
  rw [Pe.readSliceAt_iff _ _ _ _ (by cases is64 <;> (show _ * _ < 2 ^ 64; simp only [archSize]; split <;> omega))]
  have : n * archSize is64 = 0 ↔ n = 0 := by cases is64 <;> simp only [archSize] <;> (try simp only [if_true, Bool.false_eq_true, if_false]) <;> omega
  rw [this]; rfl

/-- **C76.** Parsing a universal binary never panics, and succeeds with exactly the entries of its table, if the
table is in the file. -/
theorem C76_parse (is64 : Bool) (data : List UInt8) :
    Fat.parse is64 data ≠ .panic ∧ ∀ l, Fat.parse is64 data = .ok l ↔ TableAt is64 data l := by
  have hf : ∀ off w, off + w ≤ 8 → field .big (slice data 0 8) off w = field .big data off w := by
    intro off w h
    rw [field_of_slice data 0 8 off w h, Nat.zero_add]
  have hm : Fat.magic is64 = if is64 then 0xcafebabf else 0xcafebabe := rfl
  unfold Fat.parse
  rw [readRef_readBytesAt_pos (by decide)]
  by_cases h8 : 0 + 8 ≤ data.length
  rotate_left
  · rw [if_neg h8]
    refine ⟨by simp, fun l => ?_⟩
    simp only [Res.err_bind, reduceCtorEq, false_iff]
    intro h
    have := h.inside
    omega
  rw [if_pos h8]
  simp only [Res.ok_bind]
  rw [hf 0 4 (by decide), hf 4 4 (by decide)]
  by_cases hmg : field .big data 0 4 = Fat.magic is64
  rotate_left
  · rw [if_pos hmg]
    refine ⟨by simp, fun l => ?_⟩
    simp only [reduceCtorEq, false_iff]
    intro h
    exact hmg (h.magic.trans hm.symm)
  rw [if_neg (fun h => h hmg)]
  have hn : field .big data 4 4 < 2 ^ 32 := field_lt ..
  constructor
  · exact Res.bind_no_panic (readSliceAt_no_panic _ _ _ _) (by simp)
  · intro l
    rw [Res.bind_eq_ok]
    constructor
    · rintro ⟨imgs, h1, h2⟩
      rw [readTable is64 data _ hn] at h1
      obtain ⟨hin, rfl⟩ := h1
      simp only [Res.ok.injEq] at h2
      subst h2
      refine ⟨by omega, hmg.trans hm, by simp, ?_⟩
      intro i a ha
      have hi : i < field .big data 4 4 := by
        have := (List.getElem?_eq_some_iff.1 ha).1
        simpa using this
      rw [List.map_map, List.getElem?_map, List.getElem?_range hi] at ha
      simp only [Option.map_some, Option.some.injEq, Function.comp] at ha
      have hle : entry is64 * i + entry is64 ≤ entry is64 * field .big data 4 4 := by
        rw [← Nat.mul_succ]; exact Nat.mul_le_mul_left _ hi
      exact (decode_at is64 data _ (by omega) a).2 ha.symm
    · intro h
      have hin : field .big data 4 4 = 0 ∨ 8 + entry is64 * field .big data 4 4 ≤ data.length := by
        rcases Nat.eq_zero_or_pos (field .big data 4 4) with h0 | h0
        · exact .inl h0
        · right
          have hl : field .big data 4 4 - 1 < l.length := by rw [← h.count]; omega
          have := (h.entries _ _ (List.getElem?_eq_getElem hl)).inside
          have e : entry is64 * field .big data 4 4 = entry is64 * (field .big data 4 4 - 1) + entry is64 := by
            rw [← Nat.mul_succ]; congr 1; omega
          omega
      refine ⟨_, (readTable is64 data _ hn _).2 ⟨hin, rfl⟩, ?_⟩
      simp only [Res.ok.injEq, List.map_map]
      apply List.ext_getElem?
      intro i
      rcases Nat.lt_or_ge i (field .big data 4 4) with hi | hi
      · rw [List.getElem?_map, List.getElem?_range hi]
        have hl : i < l.length := by rw [← h.count]; exact hi
        have ha := h.entries _ _ (List.getElem?_eq_getElem hl)
        rw [List.getElem?_eq_getElem hl]
        exact congrArg some ((decode_at is64 data _ ha.inside _).1 ha).symm
      · rw [List.getElem?_eq_none (by simpa using hi), List.getElem?_eq_none (by rw [← h.count]; exact hi)]

/-- **C76.** The data of an entry is exactly its range of the file, or an error if that is not in the file. -/
theorem C76_data (a : Fat.Arch) (file : List UInt8) :
    a.data file ≠ .panic ∧ (∀ b, a.data file = .ok b ↔ (a.size = 0 ∨ a.offset + a.size ≤ file.length) ∧ b = slice file a.offset a.size) ∧
      a.fileRange = (a.offset, a.size) := by
  refine ⟨readRef_readBytesAt_no_panic _ _ _, fun b => ?_, rfl⟩
  unfold Arch.data
  rw [readRef_readBytesAt_eq]
  by_cases h : a.size = 0 ∨ a.offset + a.size ≤ file.length
  · rw [if_pos h]; simp [h, eq_comm]
  · rw [if_neg h]; simp [h]

private theorem image_encode (is64 : Bool) (a : Fat.Arch) : image is64 a =
    Obj.encode .big [(4, a.cputype), (4, a.cpusubtype), (if is64 then 8 else 4, a.offset), (if is64 then 8 else 4, a.size), (4, a.align)] ++
      if is64 then [0, 0, 0, 0] else [] := by
  simp [image, Obj.encode]

private theorem decode_image (is64 : Bool) (a : Fat.Arch) (h : FatS.Fits is64 a) : Arch.decode is64 (image is64 a) = a := by
  rw [image_encode]
  obtain ⟨h1, h2, h3, h4, h5⟩ := h
  cases is64
  · have := decode_encode .big [(4, a.cputype), (4, a.cpusubtype), (4, a.offset), (4, a.size), (4, a.align)] []
      (by simp [Obj.Fits] at *; omega)
    simp only [List.map_cons, List.map_nil] at this
    simp only [Arch.decode, Bool.false_eq_true, if_false, this]
    rfl
  · have := decode_encode .big [(4, a.cputype), (4, a.cpusubtype), (8, a.offset), (8, a.size), (4, a.align)] [0, 0, 0, 0]
      (by simp [Obj.Fits] at *; omega)
    simp only [List.map_cons, List.map_nil] at this
    simp only [Arch.decode, if_true, this]
    rfl

/-- **C76.** A table that fits its fields is read back, whatever follows it in the file. -/
theorem C76_round_trip (is64 : Bool) (l : List Fat.Arch) (rest : List UInt8) (hn : l.length < 2 ^ 32)
    (hl : ∀ a ∈ l, FatS.Fits is64 a) (hlen : (table is64 l ++ rest).length < 2 ^ 64) :
    Fat.parse is64 (table is64 l ++ rest) = .ok l := by
  have hm : Fat.magic is64 < 256 ^ 4 := by cases is64 <;> decide
  have e : table is64 l ++ rest = Obj.encode .big [(4, Fat.magic is64), (4, l.length)] ++ (l.flatMap (image is64) ++ rest) := by
    simp [table, Obj.encode]; rfl
  rw [e] at hlen ⊢
  have h8 : (Obj.encode .big [(4, Fat.magic is64), (4, l.length)]).length = 8 := by simp [Obj.encode]
  have r1 : ReadRef.readBytesAt (Obj.encode .big [(4, Fat.magic is64), (4, l.length)] ++ (l.flatMap (image is64) ++ rest)) 0 8 =
      .ok (Obj.encode .big [(4, Fat.magic is64), (4, l.length)]) := by
    rw [readRef_readBytesAt_pos (by decide), if_pos (by simp only [List.length_append, h8]; omega)]
    simp [slice, List.take_left' h8]
  have f0 := field_encode_zero .big 4 (Fat.magic is64) [(4, l.length)] [] hm
  have f1 := field_encode_succ .big 4 (Fat.magic is64) [(4, l.length)] [] 4 4 (by decide)
  rw [field_encode_zero .big 4 l.length [] [] (by simpa using hn)] at f1
  rw [List.append_nil] at f0 f1
  unfold Fat.parse
  rw [r1]
  simp only [Res.ok_bind]
  rw [f0, f1, if_neg (fun h => h rfl)]
  have ha : At (Obj.encode .big [(4, Fat.magic is64), (4, l.length)] ++ (l.flatMap (image is64) ++ rest)) 8 (l.flatMap (image is64)) := by
    unfold At slice
    rw [List.drop_append, h8, List.drop_of_length_le (by omega), List.nil_append, Nat.sub_self, List.drop_zero, List.take_left' rfl]
  have hsz : ∀ a ∈ l, (image is64 a).length = archSize is64 := by
    intro a _
    cases is64 <;> simp [image, archSize]
  rw [readSliceAt_flatMap (image is64) (archSize is64) l hsz hlen ha]
  simp only [Res.ok_bind, List.map_map, Res.ok.injEq]
  have : ∀ a ∈ l, (Arch.decode is64 ∘ image is64) a = id a := fun a h => decode_image is64 a (hl a h)
  rw [List.map_congr_left this, List.map_id]

/-- **C76.** The architecture of an entry is the one that `MachOFile` reports for the file in it, if that has the same CPU type
(the 32-bit ABI on ARM64 is reported as unknown). -/
theorem C76_architecture (a : Fat.Arch) :
    a.architecture = if machoArch a.cputype = .aarch64_Ilp32 then .unknown else machoArch a.cputype := by
  unfold Arch.architecture machoArch
  generalize a.cputype = c
  by_cases h1 : c = 12; · subst h1; rfl
  by_cases h2 : c = 0x0100000c; · subst h2; rfl
  by_cases h3 : c = 0x0200000c; · subst h3; rfl
  by_cases h4 : c = 7; · subst h4; rfl
  by_cases h5 : c = 0x01000007; · subst h5; rfl
  by_cases h6 : c = 8; · subst h6; rfl
  by_cases h7 : c = 18; · subst h7; rfl
  by_cases h8 : c = 0x01000012; · subst h8; rfl
  simp only [h1, h2, h3, h4, h5, h6, h7, h8, if_false, reduceCtorEq]

/-- **C76.** What parses as a universal binary has the corresponding file kind. -/
theorem C76_kind (is64 : Bool) (data : List UInt8) (l : List Fat.Arch) (h16 : 16 ≤ data.length) (h : Fat.parse is64 data = .ok l) :
    FileKind.parseAt data 0 = .ok (if is64 then .machOFat64 else .machOFat32) := by
  have hm := (((C76_parse is64 data).2 l).1 h).magic
  rw [C41_exact]
  refine ⟨by omega, ?_⟩
  have hb := wr_rd .big (slice data 0 4)
  have h4 : (slice data 0 4).length = 4 := length_slice_of (.inr (by omega))
  rw [h4] at hb
  have hf : rd .big (slice data 0 4) = field .big data 0 4 := rfl
  rw [hf, hm] at hb
  cases is64 <;> exact hb.symm

/-- An executable for two architectures. -/
private def sample : List Fat.Arch := [⟨0x01000007, 3, 0x1000, 0x2000, 12⟩, ⟨0x0100000c, 0, 0x4000, 0x1800, 14⟩]

example : (∀ a ∈ sample, FatS.Fits false a) ∧ Fat.parse false (table false sample ++ [1, 2, 3]) = .ok sample ∧
    Fat.parse true (table false sample ++ [1, 2, 3]) = .err ∧ sample.map Arch.architecture = [.x86_64, .aarch64] := by
  refine ⟨?_, ?_, by decide +kernel, by decide⟩
  · intro a h; simp [sample] at h; rcases h with rfl | rfl <;> constructor <;> decide
  · refine C76_round_trip false sample _ (by decide) ?_ (by decide +kernel)
    intro a h; simp [sample] at h; rcases h with rfl | rfl <;> constructor <;> decide

end Obj.Props

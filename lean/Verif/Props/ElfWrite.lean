import Verif.Proof.ElfW13

/-! # C67: an object written as ELF is read back -/

namespace Obj.Props
open Obj Obj.Elf Obj.W Obj.Spec Obj.Spec.ElfO Obj.Spec.ElfS Obj.ElfW

/-- Writing a well-formed object never panics, whatever its sections, symbols, relocations and groups. -/
theorem C67_no_panic (o : Object) (hv : Valid o) (hasSub : Bool) (flags : FileFlags) : elfWrite o hasSub flags ≠ .panic :=
  (elfWrite_sat o hv hasSub flags).no_panic

/-- An error has one of the reasons of the specification. -/
theorem C67_refused (o : Object) (hv : Valid o) (hasSub : Bool) (flags : FileFlags) (h : elfWrite o hasSub flags = .err) :
    Refused o hasSub := (elfWrite_sat o hv hasSub flags).err h

/-- Nothing that ELF cannot express is written: an object that is written has an architecture with an ELF
machine, no sub-architecture, only groups of kind `Any`, and an ELF type for every section, symbol and
relocation; a 32-bit file is smaller than 4 GiB. -/
theorem C67_accepted (o : Object) (hv : Valid o) (hasSub : Bool) (flags : FileFlags) (out : List UInt8)
    (h : elfWrite o hasSub flags = .ok out) :
    hasSub = false ∧ (∃ m, elfMachine o.arch = .ok m) ∧ (∃ r, elfHasAddend o.arch = .ok r) ∧
    (∀ d ∈ o.comdats, d.kind = 1) ∧ (∀ s ∈ o.sections, sectionFlags s ≠ none) ∧ (∀ s ∈ o.symbols, symbolFlags s ≠ none) ∧
    (∀ s ∈ o.sections, ∀ x ∈ s.relocs, ∃ t, x.flags = .elf t) ∧
    (elfIs64 o.arch = some false → out.length < 2 ^ 32) := by
  obtain ⟨r, is64, m, x, hdr, D⟩ := (elfWrite_sat o hv hasSub flags).ok h
  refine ⟨D.sub, ⟨m, D.mach⟩, ⟨r, D.rela⟩, D.kinds, D.secf, D.symf, D.relf, fun h => D.small ?_⟩
  have := D.cls
  rw [h] at this
  injection this with this
  exact this.symm

/-- The file that is written reads back as the object: see `ReadsBack`. -/
theorem C67_round_trip (o : Object) (hv : Valid o) (hasSub : Bool) (flags : FileFlags)
    (hfl : ∀ a b f, flags = .elf a b f → f < 2 ^ 32) (is64 isRela : Bool) (hi : elfIs64 o.arch = some is64)
    (hr : elfHasAddend o.arch = .ok isRela) (hf : ElfO.Fits o is64 isRela) (out : List UInt8)
    (h : elfWrite o hasSub flags = .ok out) :
    ∃ m e t, elfMachine o.arch = .ok m ∧ ReadsBack o m flags is64 isRela out e t := by
  obtain ⟨r, i, m, x, hdr, D⟩ := (elfWrite_sat o hv hasSub flags).ok h
  have h1 := D.cls
  rw [hi] at h1
  injection h1 with h1
  subst h1
  have h2 := D.rela
  rw [hr] at h2
  injection h2 with h2
  subst h2
  obtain ⟨e, t, h3⟩ := done_readsBack o hv hasSub flags hfl isRela is64 m x hdr out D hf
  exact ⟨m, e, t, D.mach, h3⟩

/-! A concrete object: a function in a COMDAT group, calling an undefined symbol, data and zero-filled data, a
file symbol. -/

def elfObj (arch : Arch) (rel : Reloc) : Object :=
  { Object.new .elf arch .little with
    sections := [⟨[], [46, 116], .text, 5, 16, [232, 0, 0, 0, 0], [rel], none, .none⟩,
      ⟨[], [46, 100], .data, 3, 8, [1, 2, 3], [], none, .none⟩,
      ⟨[], [46, 98], .uninitializedData, 100, 4, [], [], none, .none⟩]
    symbols := [⟨[102], 0, 5, .text, .dynamic, false, .inSec 0, .none⟩, ⟨[103], 0, 0, .unknown, .unknown, false, .undefined, .none⟩,
      ⟨[97, 46, 99], 0, 0, .file, .compilation, false, .none, .none⟩, ⟨[120], 8, 4, .data, .compilation, false, .inSec 2, .none⟩]
    comdats := [⟨1, 0, [0]⟩] }

def elfObj64 : Object := elfObj .x86_64 ⟨1, 1, none, -4, .elf 4⟩
def elfObj32 : Object := elfObj .i386 ⟨1, 1, none, 0, .elf 4⟩

theorem elfObj_valid (a : Arch) (x : Reloc) (h : x.symbol < 4) : Valid (elfObj a x) := by
  refine ⟨?_, ?_, ?_, ?_, ?_, ?_, ?_, ?_, ?_, ?_, ?_⟩
  · simp [elfObj]
  · simp [elfObj]
  · simp [elfObj]
  · simp [elfObj]
  · simpa [elfObj] using h
  · simp [elfObj]
  · simp [elfObj, storedName]
  · intro s hs
    simp only [elfObj, List.mem_cons, List.not_mem_nil, or_false] at hs
    rcases hs with rfl | rfl | rfl
    · exact .inr ⟨4, by decide, rfl⟩
    · exact .inr ⟨3, by decide, rfl⟩
    · exact .inr ⟨2, by decide, rfl⟩
  · simp [elfObj, room]
  · simp [elfObj]
  · simp [elfObj]

theorem elfObj_fits64 : ElfO.Fits elfObj64 true true := by
  refine ⟨?_, ?_, ?_, ?_, ?_⟩
  · simp [elfObj64, elfObj, wordMax]
  · simp [elfObj64, elfObj, sectionFlags, defaultSectionFlags, wordMax]
  · simp [elfObj64, elfObj, wordMax]
  · simp [elfObj64, elfObj, symbolFlags, defaultSymbolFlags, symbolType, symbolBind, isLocal]
  · simp [elfObj64, elfObj, symIndex, localSym]
    constructor <;> simp [wordMax]

theorem elfObj_fits32 : ElfO.Fits elfObj32 false false := by
  refine ⟨?_, ?_, ?_, ?_, ?_⟩
  · simp [elfObj32, elfObj, wordMax]
  · simp [elfObj32, elfObj, sectionFlags, defaultSectionFlags, wordMax]
  · simp [elfObj32, elfObj, wordMax]
  · simp [elfObj32, elfObj, symbolFlags, defaultSymbolFlags, symbolType, symbolBind, isLocal]
  · simp [elfObj32, elfObj, symIndex, localSym]
    constructor <;> simp [wordMax]

theorem elfObj_small (arch : Arch) (x : Reloc) (t : Nat) (h : x.flags = .elf t) (hsx : x.symbol < 4) (m : Nat) (hm : elfMachine arch = .ok m) (r : Bool)
    (hr : elfHasAddend arch = .ok r) : ∃ out, elfWrite (elfObj arch x) false .other = .ok out := by
  cases hq : elfWrite (elfObj arch x) false .other with
  | ok out => exact ⟨out, rfl⟩
  | panic => exact absurd hq (C67_no_panic _ (elfObj_valid _ _ hsx) _ _)
  | err =>
    exfalso
    cases C67_refused _ (elfObj_valid _ _ hsx) _ _ hq with
    | arch h =>
      rcases h with h | h | h
      · simp at h
      · exact h m hm
      · exact h r hr
    | comdat d h1 h2 => simp [elfObj] at h1; subst h1; simp at h2
    | section_ s h1 h2 =>
      simp only [elfObj, List.mem_cons, List.not_mem_nil, or_false] at h1
      rcases h1 with rfl | rfl | rfl <;> simp [sectionFlags, defaultSectionFlags] at h2
    | symbol s h1 h2 =>
      simp only [elfObj, List.mem_cons, List.not_mem_nil, or_false] at h1
      rcases h1 with rfl | rfl | rfl | rfl <;> simp [symbolFlags, defaultSymbolFlags, symbolType] at h2
    | reloc s y h1 h2 h3 =>
      simp only [elfObj, List.mem_cons, List.not_mem_nil, or_false] at h1
      rcases h1 with rfl | rfl | rfl
      · simp at h2; subst h2; exact h3 t h
      · simp at h2
      · simp at h2
    | strings h =>
      have e : storedSize (names (elfObj arch x)) ≤ 100 := by
        have : ".rela".toByteArray.toList.length = 5 := by decide +kernel
        simp [elfObj, names, storedSize, storedName, this]
      omega
    | size _ h =>
      have e : storedSize (names (elfObj arch x)) ≤ 100 := by
        have : ".rela".toByteArray.toList.length = 5 := by decide +kernel
        simp [elfObj, names, storedSize, storedName, this]
      have : room (elfObj arch x) ≤ 10000 := by simp [elfObj, room]
      omega

/-- The 64-bit object is written and read back: its text section is header 2, its relocations are in header 3,
and the relocation refers to the entry of `g`, which comes last. -/
example : ∃ out m e t, elfWrite elfObj64 false .other = .ok out ∧ ReadsBack elfObj64 m .other true true out e t ∧
    secIndex elfObj64 0 = 2 ∧ secIndex elfObj64 1 = 4 ∧ symIndex elfObj64 0 = 3 ∧ symIndex elfObj64 1 = 4 ∧ symIndex elfObj64 2 = 1 := by
  obtain ⟨out, h⟩ := elfObj_small .x86_64 ⟨1, 1, none, -4, .elf 4⟩ 4 rfl (by decide) 62 rfl true rfl
  obtain ⟨m, e, t, _, h2⟩ := C67_round_trip elfObj64 (elfObj_valid _ _ (by decide)) false .other (by simp) true true rfl rfl elfObj_fits64 out h
  exact ⟨out, m, e, t, h, h2, by decide, by decide, by decide, by decide, by decide⟩

example : ∃ out m e t, elfWrite elfObj32 false .other = .ok out ∧ ReadsBack elfObj32 m .other false false out e t := by
  obtain ⟨out, h⟩ := elfObj_small .i386 ⟨1, 1, none, 0, .elf 4⟩ 4 rfl (by decide) 3 rfl false rfl
  obtain ⟨m, e, t, _, h2⟩ := C67_round_trip elfObj32 (elfObj_valid _ _ (by decide)) false .other (by simp) false false rfl rfl elfObj_fits32 out h
  exact ⟨out, m, e, t, h, h2⟩

/-- A sub-architecture is refused. -/
example : elfWrite elfObj64 true .other = .err := by
  cases hq : elfWrite elfObj64 true .other with
  | err => rfl
  | panic => exact absurd hq (C67_no_panic _ (elfObj_valid _ _ (by decide)) _ _)
  | ok out => exact absurd (C67_accepted _ (elfObj_valid _ _ (by decide)) _ _ out hq).1 (by simp)

end Obj.Props

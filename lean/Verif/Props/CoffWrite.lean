import Verif.Proof.CoffW8

/-! # C69: an object written as COFF is read back -/

namespace Obj.Props
open Obj Obj.W Obj.Spec Obj.Spec.CoffO Obj.CoffW

/-- Writing a well-formed object never panics, whatever its sections, symbols, relocations and groups. -/
theorem C69_no_panic (crc : List UInt8 → Nat) (o : Object) (hv : Valid o) (sub : Option SubArch) (flags : Option Nat) :
    coffWrite crc o sub flags ≠ .panic := (coffWrite_sat crc o sub flags hv).no_panic

/-- An error has one of the reasons of the specification. -/
theorem C69_refused (crc : List UInt8 → Nat) (o : Object) (hv : Valid o) (sub : Option SubArch) (flags : Option Nat)
    (h : coffWrite crc o sub flags = .err) : Refused o sub := (coffWrite_sat crc o sub flags hv).err h

/-- Nothing that COFF cannot express is written: an object that is written has an architecture with a COFF machine,
every COMDAT has a known selection, a symbol that is in a section, and section symbols for its members, and there are
COFF flags and an alignment for every section, a type for every relocation, and a class for every symbol; weak symbols
are undefined or in a section. -/
theorem C69_accepted (crc : List UInt8 → Nat) (o : Object) (hv : Valid o) (sub : Option SubArch) (flags : Option Nat)
    (out : List UInt8) (h : coffWrite crc o sub flags = .ok out) :
    (∃ m, machineOf o.arch sub o.endian = .ok m) ∧
    (∀ d ∈ o.comdats, (∃ i, Leads o d i) ∧ (∃ k, selectionCode d.kind k) ∧
      ∀ i ∈ d.sections, ∃ s, o.sections[i]? = some s ∧ s.symbol ≠ none) ∧
    (∀ s ∈ o.sections, sectionFlags s ≠ none ∧ ∃ k ≤ 13, s.align = 2 ^ k) ∧
    (∀ s ∈ o.sections, ∀ r ∈ s.relocs, ∃ t, r.flags = .coff t) ∧
    (∀ s ∈ o.symbols, symbolFlags s ≠ none ∧ (s.weak = true → s.section_ = .undefined ∨ ∃ i, s.section_ = .inSec i)) := by
  obtain ⟨p, w, sels, size, t, strs, machine, D⟩ := (coffWrite_sat crc o sub flags hv).ok h
  refine ⟨⟨_, D.machineOk⟩, D.planned.selsOk.accepted, ?_, D.relocs, ?_⟩
  · intro s hs
    obtain ⟨i, hi⟩ := List.getElem?_of_mem hs
    obtain ⟨x, -, hx⟩ := D.planned.sec hi
    obtain ⟨hd, h1, -, -⟩ := D.headers (s, _) (List.mem_of_getElem? (by rw [List.getElem?_zip_eq_some]; exact ⟨hi, hx⟩))
    simp only at h1
    unfold sectionHeader at h1
    cases hc : sectionFlags s with
    | none => rw [hc] at h1; simp at h1
    | some c =>
      rw [hc] at h1
      simp only at h1
      cases hal : Coff.alignFlags s.align with
      | none => rw [hal] at h1; simp at h1
      | some a => exact ⟨by simp, (Props.C56_alignment s.align 0 a (by decide) hal).2.1⟩
  · intro s hs
    obtain ⟨⟨x, hx⟩, h2⟩ := D.symbols s hs
    exact ⟨by rw [hx]; simp, h2⟩

/-- The file that is written reads back as the object: see `ReadsBack`. -/
theorem C69_round_trip (crc : List UInt8 → Nat) (o : Object) (hv : Valid o) (sub : Option SubArch) (flags : Option Nat)
    (hf : CoffO.Fits o crc flags) (out : List UInt8) (h : coffWrite crc o sub flags = .ok out) :
    ∃ m hd ss t suffix, machineOf o.arch sub o.endian = .ok m ∧ ReadsBack crc o m flags out hd ss t suffix := by
  obtain ⟨p, w, sels, size, t, strs, machine, D⟩ := (coffWrite_sat crc o sub flags hv).ok h
  obtain ⟨hd, ss, T, suffix, hr⟩ := D.readsBack hv hf
  exact ⟨machine, hd, ss, T, suffix, D.machineOk, hr⟩

/-! A concrete object: a function in a COMDAT group with an associated section, a weak function, an undefined symbol
that is called, a file symbol, section symbols, and names longer than 8 bytes. -/

/-- (concrete object) -/
def coffExample : Object :=
  { Object.new .coff .x86_64 .little with
    sections := [⟨[], ".text$function".toUTF8.toList, .text, 5, 16, [232, 0, 0, 0, 0], [⟨1, 3, none, 0, .coff 4⟩], some 1, .none⟩,
      ⟨[], ".xdata".toUTF8.toList, .readOnlyData, 3, 8, [1, 2, 3], [], some 2, .none⟩,
      ⟨[], ".bss".toUTF8.toList, .uninitializedData, 100, 4, [], [], none, .none⟩]
    symbols := [⟨"a_long_file_name_here.c".toUTF8.toList, 0, 0, .file, .compilation, false, .none, .none⟩,
      ⟨".text".toUTF8.toList, 0, 0, .sectionSym, .compilation, false, .inSec 0, .none⟩,
      ⟨".xdata".toUTF8.toList, 0, 0, .sectionSym, .compilation, false, .inSec 1, .none⟩,
      ⟨"undef".toUTF8.toList, 0, 0, .unknown, .unknown, false, .undefined, .none⟩,
      ⟨"f".toUTF8.toList, 0, 5, .text, .dynamic, false, .inSec 0, .none⟩,
      ⟨"g".toUTF8.toList, 1, 0, .text, .linkage, true, .inSec 0, .none⟩,
      ⟨"c".toUTF8.toList, 0, 64, .data, .linkage, false, .common, .none⟩]
    comdats := [⟨1, 4, [0, 1]⟩] }

/-- (concrete object) -/
theorem coffExample_valid : Valid coffExample := by
  refine ⟨by decide, by decide, ?_, ?_, by decide +kernel, by decide +kernel, by decide +kernel, by decide +kernel, by decide, by decide +kernel⟩
  · intro s hs i hi
    simp only [coffExample, List.mem_cons, List.not_mem_nil, or_false] at hs
    rcases hs with rfl | rfl | rfl | rfl | rfl | rfl | rfl <;> simp at hi <;> subst hi <;> decide
  · intro s hs hn
    simp only [coffExample, List.mem_cons, List.not_mem_nil, or_false] at hs
    rcases hs with rfl | rfl | rfl | rfl | rfl | rfl | rfl <;> simp at hn ⊢

/-- (concrete object) -/
theorem coffExample_fits : CoffO.Fits coffExample (fun _ => 0) (some 0x104) := by
  refine ⟨by simp, by decide, by decide, ?_, by decide, ?_, ?_, by simp⟩
  · intro s hs c hc
    simp only [coffExample, List.mem_cons, List.not_mem_nil, or_false] at hs
    rcases hs with rfl | rfl | rfl <;> simp [sectionFlags, defaultSectionFlags] at hc <;> subst hc <;> decide
  · intro s hs a c hc
    simp only [coffExample, List.mem_cons, List.not_mem_nil, or_false] at hs
    rcases hs with rfl | rfl | rfl | rfl | rfl | rfl | rfl <;>
      simp [symbolFlags, defaultSymbolFlags, storageClass, definedClass, W.SymSection.id?] at hc <;> obtain ⟨rfl, rfl⟩ := hc <;> decide
  · intro s hs r hr
    simp only [coffExample, List.mem_cons, List.not_mem_nil, or_false] at hs
    rcases hs with rfl | rfl | rfl <;> simp at hr
    subst hr
    simp

/-- (concrete object) -/
theorem coffExample_written : ∃ out, coffWrite (fun _ => 0) coffExample none (some 0x104) = .ok out := by
  cases hq : coffWrite (fun _ => 0) coffExample none (some 0x104) with
  | ok out => exact ⟨out, rfl⟩
  | panic => exact absurd hq (C69_no_panic _ _ coffExample_valid _ _)
  | err =>
    exfalso
    cases C69_refused _ _ coffExample_valid _ _ hq with
    | arch h => exact h 0x8664 (by decide)
    | comdatSymbol d s h1 h2 h3 =>
      simp [coffExample] at h1; subst h1
      simp [coffExample] at h2; subst h2
      exact h3 0 rfl
    | comdatKind d h1 h2 => simp [coffExample] at h1; subst h1; simp at h2
    | comdatSection d i s h1 h2 h3 h4 =>
      simp [coffExample] at h1; subst h1
      simp at h2
      rcases h2 with rfl | rfl <;> simp [coffExample] at h3 <;> subst h3 <;> simp at h4
    | section_ s h1 h2 =>
      simp only [coffExample, List.mem_cons, List.not_mem_nil, or_false] at h1
      rcases h1 with rfl | rfl | rfl <;> simp [sectionFlags, defaultSectionFlags] at h2
    | align s h1 h2 =>
      simp only [coffExample, List.mem_cons, List.not_mem_nil, or_false] at h1
      rcases h1 with rfl | rfl | rfl
      · exact h2 4 (by decide) rfl
      · exact h2 3 (by decide) rfl
      · exact h2 2 (by decide) rfl
    | reloc s r h1 h2 h3 =>
      simp only [coffExample, List.mem_cons, List.not_mem_nil, or_false] at h1
      rcases h1 with rfl | rfl | rfl <;> simp at h2
      subst h2
      exact h3 4 rfl
    | symbol s h1 h2 =>
      simp only [coffExample, List.mem_cons, List.not_mem_nil, or_false] at h1
      rcases h1 with rfl | rfl | rfl | rfl | rfl | rfl | rfl <;> simp [symbolFlags, defaultSymbolFlags, storageClass, definedClass] at h2
    | weak s h1 h2 h3 h4 =>
      simp only [coffExample, List.mem_cons, List.not_mem_nil, or_false] at h1
      rcases h1 with rfl | rfl | rfl | rfl | rfl | rfl | rfl <;> simp at h2
      exact h4 0 rfl
    | strings h =>
      have : nameBytes coffExample ≤ 1000 := by decide +kernel
      omega

/-- The object is written and read back: the records of the file name and of the section symbols come before the
symbol `undef` (7), and the weak symbol is entry 10, after its default. -/
example : ∃ out m hd ss t suffix, coffWrite (fun _ => 0) coffExample none (some 0x104) = .ok out ∧
    ReadsBack (fun _ => 0) coffExample m (some 0x104) out hd ss t suffix ∧ indices 0 coffExample.symbols = [0, 3, 5, 7, 8, 9, 10, 12] := by
  obtain ⟨out, h⟩ := coffExample_written
  obtain ⟨m, hd, ss, t, suffix, -, h2⟩ := C69_round_trip _ coffExample coffExample_valid none (some 0x104) coffExample_fits out h
  exact ⟨out, m, hd, ss, t, suffix, h, h2, by decide +kernel⟩

/-- The groups of the object are disjoint. -/
example : Disjoint coffExample := by
  intro a b d e i h1 h2 _ _
  have hl : coffExample.comdats.length = 1 := rfl
  have := ElfW.length_of_getElem? h1
  have := ElfW.length_of_getElem? h2
  omega

/-- ARM64E has no machine. -/
example : coffWrite (fun _ => 0) coffExample (some .arm64E) none = .err := by
  cases hq : coffWrite (fun _ => 0) coffExample (some .arm64E) none with
  | err => rfl
  | panic => exact absurd hq (C69_no_panic _ _ coffExample_valid _ _)
  | ok out =>
    obtain ⟨m, hm⟩ := (C69_accepted _ _ coffExample_valid _ _ out hq).1
    cases hm

end Obj.Props

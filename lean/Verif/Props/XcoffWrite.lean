import Verif.Proof.XcoffW5

/-! # C74: an object written as XCOFF is read back -/

namespace Obj.Props
open Obj Obj.W Obj.Spec Obj.Spec.XcoffO Obj.XcoffW Obj.Xcoff

/-- Writing a well-formed object never panics, whatever its sections, symbols and relocations. -/
theorem C74_no_panic (o : Object) (hv : Valid o) (flags : Option Nat) : xcoffWrite o flags ≠ .panic := (xcoffWrite_sat o hv flags).no_panic

/-- An error has one of the reasons of the specification. -/
theorem C74_refused (o : Object) (hv : Valid o) (flags : Option Nat) (h : xcoffWrite o flags = .err) : Refused o :=
  (xcoffWrite_sat o hv flags).err h

/-- Nothing that XCOFF cannot express is written: section names have at most 8 bytes, sections and symbols have XCOFF
flags, and relocations have an XCOFF type. -/
theorem C74_accepted (o : Object) (hv : Valid o) (flags : Option Nat) (out : List UInt8) (h : xcoffWrite o flags = .ok out) :
    (∀ s ∈ o.sections, s.name.length ≤ 8 ∧ XcoffW.sectionFlags s ≠ none) ∧
    (∀ s ∈ o.symbols, ∃ f, XcoffW.symbolFlags o s = .ok (some f)) ∧
    (∀ s ∈ o.sections, ∀ r ∈ s.relocs, ∃ t n, r.flags = .xcoff t n) := by
  obtain ⟨is64, t, len, data, -, im⟩ := (xcoffWrite_sat o hv flags).ok h
  refine ⟨fun s hs => ⟨im.names s hs, ?_⟩, im.symbolFlags, im.relocs⟩
  obtain ⟨f, hf⟩ := im.sectionFlags s hs
  rw [hf]; simp

/-- The file that is written reads back as the object: see `ReadsBack`. -/
theorem C74_round_trip (o : Object) (hv : Valid o) (flags : Option Nat) (is64 : Bool) (h64 : elfIs64 o.arch = some is64)
    (hf : XcoffO.Fits is64 o flags) (out : List UInt8) (h : xcoffWrite o flags = .ok out) : ∃ f, ReadsBack o flags out f := by
  obtain ⟨is64', t, len, data, ha, im⟩ := (xcoffWrite_sat o hv flags).ok h
  rw [h64, Option.some.injEq] at ha
  subst ha
  exact im.readsBack h64 hv hf

/-- Explicit flags are kept as they are. -/
theorem C74_explicit (o : Object) (hv : Valid o) (flags : Option Nat) (is64 : Bool) (h64 : elfIs64 o.arch = some is64)
    (hf : XcoffO.Fits is64 o flags) (out : List UInt8) (h : xcoffWrite o flags = .ok out) : ∃ f, File.parse is64 out = .ok f ∧
    (∀ (i : Nat) (s : W.Section) (g : Nat), o.sections[i]? = some s → s.flags = .xcoff g → ∃ x, f.sections[i]? = some x ∧ x.flags = g) ∧
    (∀ (i : Nat) (s : W.Symbol) (a b c d : Nat) (e : Option Nat), o.symbols[i]? = some s → s.flags = .xcoff a b c d e →
      ∃ y, f.symbols.symbol (indexOf o i) = .ok y ∧ y.typ = a ∧ y.sclass = b ∧
        (XcoffS.Csect b → ∃ x, csectOf f.symbols (indexOf o i) y = .ok (some x) ∧ x.smtyp = c ∧ x.smclas = d)) := by
  obtain ⟨f, hr⟩ := C74_round_trip o hv flags is64 h64 hf out h
  have h1 := hr.parse.1
  rw [h64, Option.some.injEq] at h1
  refine ⟨f, by rw [h1]; exact hr.parse.2, ?_, ?_⟩
  · intro i s g hs hg
    obtain ⟨x, h2, h3⟩ := hr.sections i s hs
    refine ⟨x, h2, ?_⟩
    have h4 := h3.flags
    unfold XcoffW.sectionFlags at h4
    rw [hg] at h4
    simp only [Option.some.injEq] at h4
    exact h4.symm
  · intro i s a b c d e hs hg
    obtain ⟨y, h2, h3⟩ := hr.symbols i s hs
    obtain ⟨c', d', e', h4, h5⟩ := h3.flags
    unfold XcoffW.symbolFlags at h4
    rw [hg] at h4
    simp only [Res.ok.injEq, Option.some.injEq, XcoffW.Flags.mk.injEq] at h4
    obtain ⟨rfl, rfl, rfl, rfl, -⟩ := h4
    refine ⟨y, h2, rfl, rfl, ?_⟩
    intro hc
    obtain ⟨x, h6, h7, h8, -⟩ := h5 hc
    exact ⟨x, h6, h7, h8⟩

/-- Bounded size: the file is not larger than the room of its parts and the strings. -/
theorem C74_size (o : Object) (hv : Valid o) (flags : Option Nat) (out : List UInt8) (h : xcoffWrite o flags = .ok out) :
    out.length < room o + 2 ^ 32 := by
  obtain ⟨is64, t, len, data, -, im⟩ := (xcoffWrite_sat o hv flags).ok h
  have h1 := (bounds is64 o).2.2.2.1
  have h2 := im.written.lt
  have h3 := im.length
  have hU : U32 = 2 ^ 32 := by decide
  omega

/-! A concrete object: a function with a relocation against an undefined symbol with a long name, data, zero-filled data;
external, weak, hidden, local and file symbols. -/

/-- (concrete object) -/
def xcoffExample (arch : Arch) : Object :=
  { Object.new .xcoff arch .big with
    sections := [⟨[], ".text".toUTF8.toList, .text, 6, 4, [72, 0, 0, 1, 0, 0],
        [⟨0, 1, none, 0, .xcoff 0 0x99⟩, ⟨2, 2, none, 0, .xcoff 2 31⟩], none, .none⟩,
      ⟨[], ".data".toUTF8.toList, .data, 3, 8, [1, 2, 3], [], none, .none⟩,
      ⟨[], ".bss".toUTF8.toList, .uninitializedData, 100, 16, [], [], none, .none⟩]
    symbols := [⟨"file.c".toUTF8.toList, 0, 0, .file, .compilation, false, .none, .none⟩,
      ⟨"a_function_elsewhere".toUTF8.toList, 0, 0, .text, .unknown, false, .undefined, .none⟩,
      ⟨"data".toUTF8.toList, 1, 2, .data, .linkage, false, .inSec 1, .none⟩,
      ⟨"local".toUTF8.toList, 2, 0, .data, .compilation, false, .inSec 1, .none⟩,
      ⟨"weak".toUTF8.toList, 4, 2, .text, .dynamic, true, .inSec 0, .none⟩,
      ⟨"entry".toUTF8.toList, 0, 6, .text, .dynamic, false, .inSec 0, .xcoff 0 2 2 0 (some 4)⟩] }

/-- (concrete object) -/
theorem xcoffExample_valid (arch : Arch) (h : arch ≠ .unknown) : Valid (xcoffExample arch) := by
  refine ⟨h, by show 3 < _; decide, by show 12 < _; decide, ?_, ?_, ?_, ?_, ?_, ?_, ?_⟩
  · intro s hs i hi
    simp only [xcoffExample, List.mem_cons, List.not_mem_nil, or_false] at hs
    rcases hs with rfl | rfl | rfl | rfl | rfl | rfl <;> simp at hi <;> subst hi <;> (show _ < 3) <;> decide
  · intro s hs hi
    simp only [xcoffExample, List.mem_cons, List.not_mem_nil, or_false] at hs
    rcases hs with rfl | rfl | rfl | rfl | rfl | rfl <;> simp at hi <;> rfl
  · have : ∀ s ∈ (xcoffExample .powerPc).symbols, (0 : UInt8) ∉ s.name := by decide +kernel
    exact this
  · have : ∀ s ∈ (xcoffExample .powerPc).symbols, s.value < 2 ^ 63 := by decide
    exact this
  · intro s hs a b c d i hi
    simp only [xcoffExample, List.mem_cons, List.not_mem_nil, or_false] at hs
    rcases hs with rfl | rfl | rfl | rfl | rfl | rfl <;> simp at hi
    obtain ⟨-, -, -, -, rfl⟩ := hi
    show _ < 6; decide
  · intro s hs r hr
    simp only [xcoffExample, List.mem_cons, List.not_mem_nil, or_false] at hs
    rcases hs with rfl | rfl | rfl <;> simp at hr
    rcases hr with rfl | rfl <;> (show _ < 6) <;> decide
  · have : room (xcoffExample .powerPc) < 2 ^ 62 := by decide
    exact this

/-- (concrete object) -/
theorem xcoffExample_fits (arch : Arch) (is64 : Bool) : XcoffO.Fits is64 (xcoffExample arch) (some 4) := by
  refine ⟨by intro n h; cases h; decide, ?_, ?_, ?_, ?_, ?_, ?_, ?_⟩
  · intro _
    have : room (xcoffExample .powerPc) < 2 ^ 32 := by decide
    exact this
  · intro s hs f h
    simp only [xcoffExample, List.mem_cons, List.not_mem_nil, or_false] at hs
    rcases hs with rfl | rfl | rfl <;> simp at h
  · have : ∀ s ∈ (xcoffExample .powerPc).sections, s.relocs.length < if is64 then 2 ^ 32 else 65535 := by cases is64 <;> decide
    exact this
  · have : ∀ s ∈ (xcoffExample .powerPc).sections, ∀ r ∈ s.relocs, r.offset < if is64 then 2 ^ 64 else 2 ^ 32 := by cases is64 <;> decide
    exact this
  · intro s hs r hr t n h
    simp only [xcoffExample, List.mem_cons, List.not_mem_nil, or_false] at hs
    rcases hs with rfl | rfl | rfl <;> simp at hr
    rcases hr with rfl | rfl <;> cases h <;> decide
  · intro s hs a b c d i h
    simp only [xcoffExample, List.mem_cons, List.not_mem_nil, or_false] at hs
    rcases hs with rfl | rfl | rfl | rfl | rfl | rfl <;> simp at h
    obtain ⟨rfl, rfl, rfl, rfl, -⟩ := h
    decide
  · have : ∀ s ∈ (xcoffExample .powerPc).symbols, s.size < if is64 then 2 ^ 64 else 2 ^ 32 := by cases is64 <;> decide
    exact this

/-- (concrete object) -/
theorem xcoffExample_written (arch : Arch) (h : arch ≠ .unknown) : ∃ out, xcoffWrite (xcoffExample arch) (some 4) = .ok out := by
  cases hq : xcoffWrite (xcoffExample arch) (some 4) with
  | ok out => exact ⟨out, rfl⟩
  | panic => exact absurd hq (C74_no_panic _ (xcoffExample_valid arch h) _)
  | err =>
    exfalso
    cases C74_refused _ (xcoffExample_valid arch h) _ hq with
    | name s h1 h2 =>
      have : ∀ s ∈ (xcoffExample .powerPc).sections, s.name.length ≤ 8 := by decide +kernel
      have := this s h1
      omega
    | section_ s h1 h2 =>
      simp only [xcoffExample, List.mem_cons, List.not_mem_nil, or_false] at h1
      rcases h1 with rfl | rfl | rfl <;> simp [XcoffW.sectionFlags, XcoffW.defaultSectionFlags] at h2
    | symbol s h1 h2 =>
      simp only [xcoffExample, List.mem_cons, List.not_mem_nil, or_false] at h1
      rcases h1 with rfl | rfl | rfl | rfl | rfl | rfl <;>
        simp [XcoffW.symbolFlags, XcoffW.defaultSymbolFlags, storageClass, external, kindOfSection, csectFlags, xcoffExample] at h2
    | reloc s r h1 h2 h3 =>
      simp only [xcoffExample, List.mem_cons, List.not_mem_nil, or_false] at h1
      rcases h1 with rfl | rfl | rfl <;> simp at h2
      rcases h2 with rfl | rfl
      · exact h3 _ _ rfl
      · exact h3 _ _ rfl
    | strings h2 =>
      have h3 : nameBytes (xcoffExample arch) < 2 ^ 32 := by
        have : nameBytes (xcoffExample .powerPc) < 2 ^ 32 := by decide +kernel
        exact this
      omega

/-- The object is written and read back, for 32 and for 64 bits. -/
example : ∃ out f, xcoffWrite (xcoffExample .powerPc) (some 4) = .ok out ∧ ReadsBack (xcoffExample .powerPc) (some 4) out f := by
  obtain ⟨out, h⟩ := xcoffExample_written .powerPc (by decide)
  obtain ⟨f, hf⟩ := C74_round_trip _ (xcoffExample_valid _ (by decide)) _ false rfl (xcoffExample_fits _ _) out h
  exact ⟨out, f, h, hf⟩

example : ∃ out f, xcoffWrite (xcoffExample .powerPc64) (some 4) = .ok out ∧ ReadsBack (xcoffExample .powerPc64) (some 4) out f := by
  obtain ⟨out, h⟩ := xcoffExample_written .powerPc64 (by decide)
  obtain ⟨f, hf⟩ := C74_round_trip _ (xcoffExample_valid _ (by decide)) _ true rfl (xcoffExample_fits _ _) out h
  exact ⟨out, f, h, hf⟩

/-- A label has no XCOFF class. -/
example : xcoffWrite { Object.new .xcoff .powerPc .big with symbols := [⟨[97], 0, 0, .label, .compilation, false, .absolute, .none⟩] } none = .err := by
  rfl

end Obj.Props

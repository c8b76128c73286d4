import Verif.Proof.MachoBW17
import Verif.Props.MachoBuildWrite

/-! C100: the layout of a file that the Mach-O builder writes. -/

namespace Obj.Props
open Obj Obj.MachoB Obj.Spec.MachoB Obj.MachoR
open Obj.Spec.MachoF (Each headerIn HasName ascii num segmentIn sectionsIn)

/-- A linked file: segments are made of pages of the file and are in order in the file and in memory, data of sections is where it is mapped to the
address of the section, and `__LINKEDIT` is the rest of the file.  The parts of the file do not overlap. -/
theorem C100_linked (b : Builder) (hs : Sound (cleaned b)) (hf : b.filetype ≠ 1) (hp : ∃ n < 64, b.pageSize = 2 ^ n) (out : List UInt8)
    (h : MachoB.write b = .ok out) :
    ∃ cmds start, CommandsAll ⟨b.is64, b.endian⟩ (headerIn b.endian out) out cmds ∧ LinkedLaid ⟨b.is64, b.endian⟩ b.pageSize out cmds start := by
  obtain ⟨o, l, -, h1, h2, x⟩ := write_written hs h
  obtain ⟨ks, -, hc, -⟩ := x.commands
  obtain ⟨start, hl⟩ := x.linked h1 h2 hf hp hc
  exact ⟨ks, start, hc, hl⟩

/-- An object file: there is one segment without a name, for all sections; data is aligned in the file, and relocations come after it.  The parts of the
file do not overlap. -/
theorem C100_object (b : Builder) (hs : Sound (cleaned b)) (hf : b.filetype = 1) (out : List UInt8) (h : MachoB.write b = .ok out) :
    ∃ cmds start, CommandsAll ⟨b.is64, b.endian⟩ (headerIn b.endian out) out cmds ∧ ObjectLaid ⟨b.is64, b.endian⟩ out cmds start := by
  obtain ⟨o, l, -, h1, h2, x⟩ := write_written hs h
  obtain ⟨ks, -, hc, -⟩ := x.commands
  obtain ⟨start, hl⟩ := x.object h1 h2 hf hc
  exact ⟨ks, start, hc, hl⟩

/-- `LC_DYSYMTAB` gives the groups of the symbols that are read from the file. -/
theorem C100_groups (b : Builder) (hs : Sound (cleaned b)) (out : List UInt8) (h : MachoB.write b = .ok out) :
    ∃ cmds x, CommandsAll ⟨b.is64, b.endian⟩ (headerIn b.endian out) out cmds ∧ readFile b.is64 out = .ok x ∧
      ∀ k ∈ cmds, isDysymtab b.endian k → GroupsAre b.endian k x.symbols := by
  obtain ⟨o, l, -, -, -, x⟩ := write_written hs h
  obtain ⟨ks, -, hc, -⟩ := x.commands
  obtain ⟨z, h1, h2⟩ := C99_write b hs out h
  exact ⟨ks, z, hc, h1, fun k hk hd => x.groups hc h2 hk hd⟩

open MachoWriteSample

/-- The hypotheses of `C100_object` and `C100_groups` are met by the sample of `C99_write`. -/
example : ∃ out cmds start, MachoB.write ex = .ok out ∧ out.length = 568 ∧ ObjectLaid ⟨true, .little⟩ out cmds start := by
  obtain ⟨out, h1, h2⟩ := exWrite (fun out => out.length == 568) (by decide +kernel)
  have hs : Sound (cleaned ex) := by rw [exCleaned]; exact exSound
  obtain ⟨cmds, start, -, h3⟩ := C100_object ex hs rfl out h1
  exact ⟨out, cmds, start, h1, by simpa using h2, h3⟩

/-- A linked file with data, uninitialized data, `__LINKEDIT` and a code signature. -/
private def lk : Builder :=
  { endian := .little, is64 := true, pageSize := 256, cputype := 0x0100000c, cpusubtype := 0, filetype := 2, flags := 0
    commands := [.segment 0, .segment 1, .symtab, .dysymtab, .linkedit 0x26 [1, 2, 3, 4, 5], .linkedit 0x1d [7, 7, 7]]
    segments := [⟨0, false, nm "__TEXT", 0x1000, 0x400, 7, 7, 0, [0, 1]⟩, ⟨1, false, nm "__LINKEDIT", 0x2000, 0x400, 7, 7, 0, []⟩]
    sections := [⟨0, false, nm "__text", nm "__TEXT", 0x1280, 2, [], 0x80000400, [], 0, .data [1, 2, 3, 4]⟩,
      ⟨1, false, nm "__bss", nm "__TEXT", 0x1300, 3, [], 1, [], 0, .uninit 16⟩]
    symbols := [⟨0, false, [0x5f, 0x66], some 0, 0xf, 1, 0, 0x1280⟩, ⟨1, false, [0x5f, 0x61], none, 1, 0, 0, 0⟩]
    dylibs := [] }

private theorem lkCleaned : cleaned lk = lk := by decide +kernel

private theorem lkSound : Sound lk := by
  refine ⟨by decide, by decide, by decide, by decide, ⟨?_, ?_, ?_⟩, by decide, by decide, ?_, ?_, ?_, ?_, ?_, by decide, ?_⟩
  · intro i g h
    match i with
    | 0 => cases h; rfl
    | 1 => cases h; rfl
    | i + 2 => cases h
  · intro i g h
    match i with
    | 0 => cases h; rfl
    | 1 => cases h; rfl
    | i + 2 => cases h
  · intro i g h
    match i with
    | 0 => cases h; rfl
    | 1 => cases h; rfl
    | i + 2 => cases h
  · intro g hg _
    simp only [lk, List.mem_cons, List.not_mem_nil, or_false] at hg
    rcases hg with rfl | rfl <;> exact ⟨by decide, by decide, by decide, by decide, by decide, by decide⟩
  · intro s hs hd
    simp only [lk, List.mem_cons, List.not_mem_nil, or_false] at hs
    rcases hs with rfl | rfl
    · refine ⟨by decide, by decide, by decide, by decide, by decide, by decide, by decide, fun h => absurd rfl h, ?_, ?_, by unfold IndirectCount; decide, ?_, ?_⟩ <;>
        (intro r hr; cases hr)
    · refine ⟨by decide, by decide, by decide, by decide, by decide, by decide, by decide, fun h => absurd rfl h, ?_, ?_, by unfold IndirectCount; decide, ?_, ?_⟩ <;>
        (intro r hr; cases hr)
  · intro y hy hd
    simp only [lk, List.mem_cons, List.not_mem_nil, or_false] at hy
    rcases hy with rfl | rfl <;> exact ⟨by decide, by decide, by decide, by decide, by decide⟩
  · intro i d hi hd; cases hd
  · intro k hk
    simp only [lk, List.mem_cons, List.not_mem_nil, or_false] at hk
    rcases hk with rfl | rfl | rfl | rfl | rfl | rfl
    · trivial
    · trivial
    · trivial
    · trivial
    · show _ ∈ _; decide
    · show _ ∈ _; decide
  · intro s hs hd hi
    simp only [lk, List.mem_cons, List.not_mem_nil, or_false] at hs
    rcases hs with rfl | rfl <;> exact absurd rfl hi

/-- The hypotheses of `C100_linked` are met: the file has 640 bytes of `__TEXT`, padded to pages, and then `__LINKEDIT`. -/
example : ∃ out cmds start, MachoB.write lk = .ok out ∧ 768 < out.length ∧ LinkedLaid ⟨true, .little⟩ 256 out cmds start := by
  have hw : ∃ out, MachoB.write lk = .ok out ∧ (768 < out.length) := by
    have : (match MachoB.write lk with | .ok out => decide (768 < out.length) | _ => false) = true := by decide +kernel
    split at this
    · next out e => exact ⟨out, e, by simpa using this⟩
    · cases this
  obtain ⟨out, h1, h2⟩ := hw
  have hs : Sound (cleaned lk) := by rw [lkCleaned]; exact lkSound
  obtain ⟨cmds, start, -, h3⟩ := C100_linked lk hs (by decide) ⟨8, by decide, rfl⟩ out h1
  exact ⟨out, cmds, start, h1, h2, h3⟩

end Obj.Props

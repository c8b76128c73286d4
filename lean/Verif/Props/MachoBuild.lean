import Verif.Proof.MachoBuild

/-! C97: deletion in a Mach-O builder. -/

namespace Obj.Props
open Obj Obj.MachoR Obj.MachoB Obj.Spec.MachoB

/-- `delete_orphans`: sections, symbols, segments, relocations and load commands after deletion; it panics exactly for invalid numbers. -/
theorem C97_orphans (b : Builder) : (InRange b → deleteOrphans b = .ok (cleaned b)) ∧ (¬ InRange b → deleteOrphans b = .panic) :=
  deleteOrphans_ok b

/-- After `delete_orphans` nothing that is kept refers to something deleted, except for relocations to sections. -/
theorem C97_clean (b b' : Builder) (h : deleteOrphans b = .ok b') : NoOrphans b' := by
  by_cases hr : InRange b
  · rw [(deleteOrphans_ok b).1 hr] at h
    injection h with h
    exact h ▸ cleaned_noOrphans b
  · rw [(deleteOrphans_ok b).2 hr] at h; cases h

/-- A second call changes nothing. -/
theorem C97_idempotent (b b' : Builder) (h : deleteOrphans b = .ok b') : deleteOrphans b' = .ok b' := by
  by_cases hr : InRange b
  · rw [(deleteOrphans_ok b).1 hr] at h
    injection h with h
    have := (deleteOrphans_ok b').1 (h ▸ inRange_cleaned hr)
    rw [this, noOrphans_cleaned (h ▸ cleaned_noOrphans b)]
  · rw [(deleteOrphans_ok b).2 hr] at h; cases h

/-- A builder without deleted items and with numbers of items is not changed. -/
theorem C97_unchanged (b : Builder) (hr : InRange b) (h : NoOrphans b) : deleteOrphans b = .ok b := by
  rw [(deleteOrphans_ok b).1 hr, noOrphans_cleaned h]

/-- A section for examples. -/
private def sec (id : Nat) (delete : Bool) (relocs : List Rel) : Sec :=
  ⟨id, delete, List.replicate 16 97, List.replicate 16 0, 0, 0, relocs, 0, [], 0, .data [1]⟩
/-- A symbol for examples. -/
private def sym (id : Nat) (sect : Nat) : Sym := ⟨id, false, [97], some sect, 0xf, sect + 1, 0, 0⟩
/-- An object file with two sections, of which the second is deleted, and a symbol in each. -/
private def two : Builder :=
  ⟨.little, true, 0x4000, 0x1000007, 3, 1, 0, [.segment 0, .symtab], [⟨0, false, List.replicate 16 0, 0, 2, 7, 7, 0, [0, 1]⟩],
    [sec 0 false [⟨.symbol 0, 0, false, 2, 0⟩, ⟨.symbol 1, 0, false, 2, 0⟩, ⟨.section_ 0, 0, false, 2, 0⟩], sec 1 true []],
    [sym 0 0, sym 1 1], []⟩

/-- The relocation to the second symbol, which is in the deleted section, is removed. -/
example : (cleaned two).sections = [sec 0 false [⟨.symbol 0, 0, false, 2, 0⟩, ⟨.section_ 0, 0, false, 2, 0⟩], sec 1 true []] ∧
    (cleaned two).symbols.map (·.delete) = [false, true] ∧ (cleaned two).segments.map (·.sections) = [[0]] ∧
    (cleaned two).commands = [.segment 0, .symtab] := by decide +kernel

example : InRange two := by
  refine ⟨by decide +kernel, fun y hy hd i hi => ?_, fun s hs hd r hr i hi => ?_, fun s hs hd r hr i hi => ?_, fun i hi => ?_, fun i hi => ?_⟩
  · have : ∀ y ∈ two.symbols, y.sect.all (fun i => decide (i < two.sections.length)) = true := by decide +kernel
    have := this y hy
    rw [hi] at this
    simpa using this
  · have : ∀ s ∈ two.sections, ∀ r ∈ s.relocs, (match r.target with | .symbol i => decide (i < two.symbols.length) | _ => true) = true := by
      decide +kernel
    have := this s hs r hr
    rw [hi] at this
    simpa using this
  · have : ∀ s ∈ two.sections, ∀ r ∈ s.relocs, (match r.target with | .section_ i => decide (i < (two.sections.filter fun s => !s.delete).length) | _ => true) = true := by
      decide +kernel
    have := this s hs r hr
    rw [hi] at this
    simpa using this
  · have : ∀ k ∈ two.commands, (match k with | .segment i => decide (i < two.segments.length) | _ => true) = true := by decide +kernel
    simpa using this _ hi
  · have : ∀ k ∈ two.commands, (match k with | .dylib i => decide (i < two.dylibs.length) | _ => true) = true := by decide +kernel
    simpa using this _ hi

/-- A relocation that refers to a deleted section is kept if the number of the section is below the number of those kept... -/
example : relKept { two with sections := [sec 0 true [], sec 1 false [⟨.section_ 0, 0, false, 2, 0⟩]] } ⟨.section_ 0, 0, false, 2, 0⟩ = true := rfl

/-- ...and otherwise `delete_orphans` panics, even if it refers to a section that is kept. -/
example : deleteOrphans { two with sections := [sec 0 true [], sec 1 false [⟨.section_ 1, 0, false, 2, 0⟩]] } = .panic := by
  refine (C97_orphans _).2 fun h => ?_
  have := h.relSections (sec 1 false [⟨.section_ 1, 0, false, 2, 0⟩]) (List.mem_cons_of_mem _ List.mem_cons_self) rfl _ List.mem_cons_self 1 rfl
  revert this
  decide +kernel

end Obj.Props

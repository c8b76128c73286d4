import Verif.Proof.MachoBW11
import Verif.Props.MachoBuildRead

/-! C99: a file that the Mach-O builder writes is read back as the same items. -/

namespace Obj.Props
open Obj Obj.MachoB Obj.Spec.MachoB Obj.MachoR
open Obj.Spec.MachoF (Each headerIn HasName ascii)

/-- What `Builder::write` writes is a file that `Builder::read` reads, and it has the items of the builder that are not deleted. -/
theorem C99_write (b : Builder) (hs : Sound (cleaned b)) (out : List UInt8) (h : MachoB.write b = .ok out) :
    ∃ x, readFile b.is64 out = .ok x ∧ Same (cleaned b) x := by
  obtain ⟨h1, x, h2, h3⟩ := write_reads hs h
  exact ⟨x, (readFile_iff b.is64 out (by omega) x).2 h2, h3⟩

/-- A file that is read and written without changes is read as the same items again, if all segment commands have the class of the file and there
is one symbol table; in big-endian files there must be no relocations. -/
theorem C99_rewrite (is64 : Bool) (data : List UInt8) (hl : data.length < 2 ^ 63) (b : Builder) (hb : readFile is64 data = .ok b)
    (hcls : ∀ cmds, CommandsAll ⟨is64, b.endian⟩ (headerIn b.endian data) data cmds → ∀ k ∈ cmds, number b.endian k ≠ if is64 then 1 else 0x19)
    (hsy : (b.commands.filter fun k => k = .symtab).length ≤ 1) (hen : ∀ s ∈ b.sections, s.relocs ≠ [] → b.endian = .little)
    (out : List UInt8) (h : MachoB.write b = .ok out) : ∃ x, readFile is64 out = .ok x ∧ Same b x := by
  have hr := (readFile_iff is64 data hl b).1 hb
  have hc := (C98_sound is64 data hl b hb).2.2.2.2.2.1
  have he := noOrphans_cleaned hc
  have := C99_write b (by rw [he]; exact sound_of_reads hr hcls hsy hen) out h
  rwa [he, hr.width] at this

/-- What the builder refuses to write: items that are not deleted and that no load command refers to, symbols without `LC_SYMTAB`, more than 255
sections, more than 2^24 symbols, and files of 4 GB. -/
theorem C99_complete (b : Builder) (hn : Numbered (cleaned b)) (hy : ∀ y ∈ b.symbols, y.ntype < 2 ^ 8) (out : List UInt8) (h : MachoB.write b = .ok out) :
    InRange b ∧ (∀ i g, (cleaned b).segments[i]? = some g → g.delete = false → Cmd.segment i ∈ b.commands) ∧
    (∀ i s, b.sections[i]? = some s → s.delete = false → i ∈ sectionOrder (cleaned b)) ∧
    (∀ i d, b.dylibs[i]? = some d → d.delete = false → Cmd.dylib i ∈ b.commands) ∧
    (∀ y ∈ (cleaned b).symbols, y.delete = false → Cmd.symtab ∈ b.commands) ∧
    (sectionOrder (cleaned b)).length ≤ 255 ∧ (∃ syms, SymbolOrder (cleaned b) syms ∧ syms.length ≤ 2 ^ 24) ∧ out.length < 2 ^ 32 := by
  obtain ⟨hr, o, ho, hlen⟩ := write_order h
  have hk : ∀ k, k ∈ (cleaned b).commands → k ∈ b.commands := fun k hk => (List.mem_filter.1 hk).1
  have hids := sections_ids hn ho
  have hso : SymbolOrder (cleaned b) o.syms := by
    rw [ho.syms]
    refine symbolOrder_ok hn fun y h1 _ => ?_
    obtain ⟨y', h2, rfl⟩ := List.mem_map.1 h1
    exact hy y' h2
  refine ⟨hr, ?_, ?_, fun i d hd he => hk _ (ho.allLibraries i d hd he), ?_, ?_, ⟨o.syms, hso, ho.syms_le⟩, hlen⟩
  · intro i g hg hd
    have := ho.allSegments g (List.mem_of_getElem? hg) hd
    rw [hn.segments i g hg] at this
    obtain ⟨k, hk1, hk2⟩ := List.mem_filterMap.1 this
    split at hk2
    · cases hk2; exact hk _ hk1
    · cases hk2
  · intro i s hs hd
    have hg : (cleaned b).sections[i]? = some (secAfter b s) := by
      show (b.sections.map (secAfter b))[i]? = _
      rw [List.getElem?_map, hs]; rfl
    have hd' : (secAfter b s).delete = false := by unfold secAfter; split <;> exact hd
    have := ho.allSections _ (List.mem_of_getElem? hg) hd'
    rwa [hids, hn.sections i _ hg] at this
  · intro y h1 h2
    rcases ho.symtab with he | he
    · have := (hso.all y).2 ⟨h1, h2⟩
      rw [he] at this
      cases this
    · exact hk _ he
  · rw [← hids, List.length_map]; exact ho.secs_le

/-! An object file with three sections, one of which is deleted with its symbol and the relocation for it. -/

namespace MachoWriteSample

def nm (s : String) : List UInt8 := ascii s ++ List.replicate (16 - s.length) 0

def ex : Builder :=
  { endian := .little, is64 := true, pageSize := 256, cputype := 0x0100000c, cpusubtype := 0, filetype := 1, flags := 0
    commands := [.segment 0, .symtab, .dysymtab, .dylib 0, .buildVersion 1 2 3 [(4, 5)], .linkedit 0x26 [1, 2, 3, 4, 5, 6, 7, 8]]
    segments := [⟨0, false, nm "", 0, 4, 7, 7, 0, [1, 0, 2]⟩]
    sections := [
      ⟨0, false, nm "__text", nm "__TEXT", 0, 2, [⟨.symbol 0, 0, false, 2, 0⟩, ⟨.section_ 1, 2, true, 1, 1⟩, ⟨.symbol 1, 4, false, 2, 0⟩], 0x80000400, [], 0,
        .data [1, 2, 3, 4]⟩,
      ⟨1, false, nm "__got", nm "__DATA", 8, 3, [], 6, [.symbol 2, .flags 0x80000000], 0, .data [0, 0, 0, 0, 0, 0, 0, 0, 0, 0, 0, 0, 0, 0, 0, 0]⟩,
      ⟨2, true, nm "__gone", nm "__DATA", 8, 3, [], 0, [], 0, .data [9]⟩]
    symbols := [⟨0, false, [0x5f, 0x66], some 0, 0xf, 1, 0, 0⟩, ⟨1, false, [0x5f, 0x67], some 2, 0xe, 3, 0, 0⟩, ⟨2, false, [0x5f, 0x61], none, 1, 0, 0, 0⟩,
      ⟨3, false, [0x6c], some 1, 0xe, 2, 0, 8⟩]
    dylibs := [⟨false, 0xc, [0x2f, 0x61], 1, 2, 3⟩] }

/-- The builder after deletion. -/
def exC : Builder :=
  { ex with
    segments := [⟨0, false, nm "", 0, 4, 7, 7, 0, [1, 0]⟩]
    sections := [
      ⟨0, false, nm "__text", nm "__TEXT", 0, 2, [⟨.symbol 0, 0, false, 2, 0⟩, ⟨.section_ 1, 2, true, 1, 1⟩], 0x80000400, [], 0, .data [1, 2, 3, 4]⟩,
      ⟨1, false, nm "__got", nm "__DATA", 8, 3, [], 6, [.symbol 2, .flags 0x80000000], 0, .data [0, 0, 0, 0, 0, 0, 0, 0, 0, 0, 0, 0, 0, 0, 0, 0]⟩,
      ⟨2, true, nm "__gone", nm "__DATA", 8, 3, [], 0, [], 0, .data [9]⟩]
    symbols := [⟨0, false, [0x5f, 0x66], some 0, 0xf, 1, 0, 0⟩, ⟨1, true, [0x5f, 0x67], some 2, 0xe, 3, 0, 0⟩, ⟨2, false, [0x5f, 0x61], none, 1, 0, 0, 0⟩,
      ⟨3, false, [0x6c], some 1, 0xe, 2, 0, 8⟩] }

theorem exCleaned : cleaned ex = exC := by decide +kernel

theorem exSound : Sound exC := by
  refine ⟨by decide, by decide, by decide, by decide, ⟨?_, ?_, ?_⟩, by decide, by decide, ?_, ?_, ?_, ?_, ?_, by decide, ?_⟩
  · intro i g h
    match i with
    | 0 => cases h; rfl
    | i + 1 => cases h
  · intro i g h
    match i with
    | 0 => cases h; rfl
    | 1 => cases h; rfl
    | 2 => cases h; rfl
    | i + 3 => cases h
  · intro i g h
    match i with
    | 0 => cases h; rfl
    | 1 => cases h; rfl
    | 2 => cases h; rfl
    | 3 => cases h; rfl
    | i + 4 => cases h
  · intro g hg _
    have : g = ⟨0, false, nm "", 0, 4, 7, 7, 0, [1, 0]⟩ := by simpa [exC] using hg
    subst this
    exact ⟨by decide, by decide, by decide, by decide, by decide, by decide⟩
  · intro s hs hd
    simp only [exC, List.mem_cons, List.not_mem_nil, or_false] at hs
    rcases hs with rfl | rfl | rfl
    · refine ⟨by decide, by decide, by decide, by decide, by decide, by decide, by decide, fun _ => rfl, by decide, ?_, by unfold IndirectCount; decide, ?_, ?_⟩
      · intro r hr i hi
        simp only [List.mem_cons, List.not_mem_nil, or_false] at hr
        rcases hr with rfl | rfl
        · cases hi
        · cases hi; exact ⟨_, rfl, rfl⟩
      · intro v hv; cases hv
      · intro v hv; cases hv
    · refine ⟨by decide, by decide, by decide, by decide, by decide, by decide, by decide, fun h => absurd rfl h, by decide, ?_, by unfold IndirectCount; decide, ?_, ?_⟩
      · intro r hr; cases hr
      · intro v hv
        simp only [List.mem_cons, List.not_mem_nil, or_false] at hv
        rcases hv with h | h
        · cases h
        · cases h; decide
      · intro v hv
        simp only [List.mem_cons, List.not_mem_nil, or_false] at hv
        rcases hv with h | h
        · cases h; exact ⟨_, rfl, rfl⟩
        · cases h
    · cases hd
  · intro y hy hd
    simp only [exC, List.mem_cons, List.not_mem_nil, or_false] at hy
    rcases hy with rfl | rfl | rfl | rfl
    · exact ⟨by decide, by decide, by decide, by decide, by decide⟩
    · cases hd
    · exact ⟨by decide, by decide, by decide, by decide, by decide⟩
    · exact ⟨by decide, by decide, by decide, by decide, by decide⟩
  · intro i d hi hd
    match i with
    | 0 => cases hd; exact ⟨rfl, by decide, by decide, by decide, by decide, by decide⟩
    | i + 1 => cases hd
  · intro k hk
    simp only [exC, ex, List.mem_cons, List.not_mem_nil, or_false] at hk
    rcases hk with rfl | rfl | rfl | rfl | rfl | rfl
    · trivial
    · trivial
    · trivial
    · trivial
    · exact ⟨by decide, by decide, by decide, by decide⟩
    · show _ ∈ _; decide
  · intro s _ _ _; decide

theorem exWrite (P : List UInt8 → Bool) (h : (match MachoB.write ex with | .ok out => P out | _ => false) = true) : ∃ out, MachoB.write ex = .ok out ∧ P out := by
  split at h
  · next out e => exact ⟨out, e, h⟩
  · cases h

end MachoWriteSample

open MachoWriteSample

/-- The hypotheses of `C99_write` are met: the sections are in the order 1, 0, and the symbols in the order 3, 0, 2. -/
example : ∃ out x, MachoB.write ex = .ok out ∧ out.length = 568 ∧ Sound (cleaned ex) ∧ readFile true out = .ok x ∧ Same (cleaned ex) x := by
  obtain ⟨out, h1, h2⟩ := exWrite (fun out => out.length == 568) (by decide +kernel)
  have hs : Sound (cleaned ex) := by rw [exCleaned]; exact exSound
  obtain ⟨x, h3, h4⟩ := C99_write ex hs out h1
  exact ⟨out, x, h1, by simpa using h2, hs, h3, h4⟩

example : sectionOrder (cleaned ex) = [1, 0] := by decide +kernel

/-- The hypotheses of `C99_rewrite` are met by the file of `C98`. -/
example : ∃ out x, MachoB.write MachoSample.sampleB = .ok out ∧ readFile true out = .ok x ∧ Same MachoSample.sampleB x := by
  have hw : ∃ out, MachoB.write MachoSample.sampleB = .ok out := by
    have : (match MachoB.write MachoSample.sampleB with | .ok _ => true | _ => false) = true := by decide +kernel
    split at this
    · next out e => exact ⟨out, e⟩
    · cases this
  obtain ⟨out, h⟩ := hw
  obtain ⟨x, h1, h2⟩ := C99_rewrite true MachoSample.sample (by decide +kernel) MachoSample.sampleB MachoSample.sample_read (by
    intro cmds hc k hk
    have : cmds = [MachoSample.segCmd, MachoSample.symCmd, MachoSample.libCmd] :=
      commandsAll_unique hc ⟨.inr (by decide +kernel), fun k hk => (by
        simp only [List.mem_cons, List.not_mem_nil, or_false] at hk
        rcases hk with rfl | rfl | rfl <;> exact ⟨by decide +kernel, by decide +kernel⟩), by decide +kernel, [], by decide +kernel⟩
    subst this
    revert k
    decide +kernel) (by decide) (fun _ _ _ => rfl) out h
  exact ⟨out, x, h, h1, h2⟩

end Obj.Props

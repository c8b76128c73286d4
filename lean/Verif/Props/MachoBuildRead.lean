import Verif.Proof.MachoBuildR6
import Verif.Props.MachoImport

/-! C98: what the Mach-O builder reads from a file. -/

namespace Obj.Props
open Obj Obj.MachoB Obj.Spec.MachoB Obj.MachoR
open Obj.Spec.MachoF (headerIn Each)

/-- `Builder::read32` and `Builder::read64` succeed if and only if the file is well-formed, and then give the builder for the file. -/
theorem C98_read (is64 : Bool) (data : List UInt8) (hl : data.length < 2 ^ 63) (b : Builder) :
    readFile is64 data = .ok b ↔ Reads is64 data b := readFile_iff is64 data hl b

/-- Reading does not panic unless the file has several `LC_SYMTAB` commands. -/
theorem C98_no_panic (is64 : Bool) (data : List UInt8) (hl : data.length < 2 ^ 63) (h : readFile is64 data = .panic) :
    ∃ en cmds, CommandsAll ⟨is64, en⟩ (headerIn en data) data cmds ∧ 2 ≤ (cmds.filter (isSymtab en)).length :=
  readFile_panic is64 data hl h

/-- What is read from a file has no deleted items and no references to other items than those of the file. -/
theorem C98_sound (is64 : Bool) (data : List UInt8) (hl : data.length < 2 ^ 63) (b : Builder) (h : readFile is64 data = .ok b) :
    (∀ g ∈ b.segments, g.delete = false) ∧ (∀ s ∈ b.sections, s.delete = false) ∧ (∀ y ∈ b.symbols, y.delete = false) ∧ (∀ d ∈ b.dylibs, d.delete = false) ∧
    InRange b ∧ NoOrphans b ∧ deleteOrphans b = .ok b := by
  have hr := (readFile_iff is64 data hl b).1 h
  obtain ⟨cmds, t, hall, htot, hpage, q1, q2, q3, ⟨gs, q4, q4a, q4b⟩, ⟨yss, q5, q5a⟩, q6, hny⟩ := hr.body
  have hsec : b.sections.length = t.sections := by
    have h1 := sections_count q4
    rw [← q4b, ← htot.sections] at h1
    exact h1
  have dseg : ∀ g ∈ b.segments, g.delete = false := by
    intro g hg
    rw [q4a] at hg
    obtain ⟨p, hp, rfl⟩ := List.mem_map.1 hg
    obtain ⟨k, _, hk⟩ := BuildR.each_mem q4 hp
    exact hk.delete
  have hsecs : ∀ s ∈ b.sections, ∃ c h o, SectionIs c data t h o s := by
    intro s hs
    rw [q4b] at hs
    obtain ⟨p, hp, hs⟩ := List.mem_flatMap.1 hs
    obtain ⟨k, _, hk⟩ := BuildR.each_mem q4 hp
    obtain ⟨offs, _, h2⟩ := hk.sections
    obtain ⟨x, _, hx⟩ := BuildR.each_mem h2 hs
    exact ⟨_, _, _, hx⟩
  have dsec : ∀ s ∈ b.sections, s.delete = false := by
    intro s hs
    obtain ⟨_, _, _, h⟩ := hsecs s hs
    exact h.delete
  have hsyms : ∀ y ∈ b.symbols, ∃ tab n, SymbolIs data t tab n y := by
    intro y hy
    rw [q5a] at hy
    obtain ⟨ys, hys, hy⟩ := List.mem_flatten.1 hy
    obtain ⟨k, _, tab, _, h2⟩ := BuildR.each_mem q5 hys
    obtain ⟨n, _, hn⟩ := BuildR.each_mem h2 hy
    exact ⟨_, _, hn⟩
  have dsym : ∀ y ∈ b.symbols, y.delete = false := by
    intro y hy
    obtain ⟨_, _, h⟩ := hsyms y hy
    exact h.delete
  have dlib : ∀ d ∈ b.dylibs, d.delete = false := by
    intro d hd
    obtain ⟨k, _, hk⟩ := BuildR.each_mem q6 hd
    exact hk.delete
  have hrel : ∀ s ∈ b.sections, ∀ r ∈ s.relocs, (∀ i, r.target = .symbol i → i < b.symbols.length) ∧ (∀ i, r.target = .section_ i → i < b.sections.length) := by
    intro s hs r hr
    obtain ⟨_, _, _, h⟩ := hsecs s hs
    obtain ⟨i, _, hi⟩ := BuildR.each_mem h.relocs.2 hr
    obtain ⟨h1, h2⟩ := relIs_target hi
    exact ⟨fun i e => hny ▸ h1 i e, fun i e => hsec ▸ h2 i e⟩
  have hin : InRange b := by
    refine ⟨?_, ?_, fun s hs _ r hr => (hrel s hs r hr).1, ?_, ?_, ?_⟩
    · intro g hg _ i hi
      rw [q4a] at hg
      obtain ⟨p, hp, rfl⟩ := List.mem_map.1 hg
      obtain ⟨k, _, hk⟩ := BuildR.each_mem q4 hp
      rw [hk.ids] at hi
      obtain ⟨s, hs, rfl⟩ := List.mem_map.1 hi
      have hm : s ∈ b.sections := by rw [q4b]; exact List.mem_flatMap.2 ⟨p, hp, hs⟩
      obtain ⟨j, hj⟩ := List.mem_iff_getElem?.1 hm
      have := hr.numbered.sections j s hj
      rw [this]
      exact (List.getElem?_eq_some_iff.1 hj).1
    · intro y hy _ i hi
      obtain ⟨_, n, h⟩ := hsyms y hy
      have := h.sect
      split at this
      · obtain ⟨h1, h2, h3⟩ := this
        rw [h3] at hi
        injection hi with hi
        omega
      · rw [this] at hi; cases hi
    · intro s hs _ r hr i hi
      rw [List.filter_eq_self.2 (fun s hs => by simp [dsec s hs])]
      exact (hrel s hs r hr).2 i hi
    · intro i hi
      have : i ∈ segmentsOf b.commands := List.mem_filterMap.2 ⟨_, hi, rfl⟩
      rw [q2] at this
      simpa using this
    · intro i hi
      have : i ∈ librariesOf b.commands := List.mem_filterMap.2 ⟨_, hi, rfl⟩
      rw [q3] at this
      simpa using this
  have hno : NoOrphans b := by
    constructor
    · exact fun g _ _ i _ s hs => dsec s (List.mem_of_getElem? hs)
    · exact fun y _ _ i s _ hs => dsec s (List.mem_of_getElem? hs)
    · exact fun s _ _ r _ i y _ hy => dsym y (List.mem_of_getElem? hy)
    · exact fun i g _ hg => dseg g (List.mem_of_getElem? hg)
    · exact fun i d _ hd => dlib d (List.mem_of_getElem? hd)
  exact ⟨dseg, dsec, dsym, dlib, hin, hno, by rw [(deleteOrphans_ok b).1 hin, noOrphans_cleaned hno]⟩

/-! An object file with a section, a relocation, a symbol and a library. -/

namespace MachoSample

def w (n : Nat) : List UInt8 := [UInt8.ofNat n, UInt8.ofNat (n / 256), UInt8.ofNat (n / 65536), UInt8.ofNat (n / 16777216)]
def q (n : Nat) : List UInt8 := w n ++ w 0
def name (s : String) : List UInt8 := Spec.MachoF.ascii s ++ List.replicate (16 - s.length) 0
def segCmd : List UInt8 := w 0x19 ++ w 152 ++ name "" ++ q 0 ++ q 4 ++ q 256 ++ q 4 ++ w 7 ++ w 7 ++ w 1 ++ w 0 ++
  name "__text" ++ name "__TEXT" ++ q 0 ++ q 4 ++ w 256 ++ w 2 ++ w 264 ++ w 1 ++ w 0x80000400 ++ w 0 ++ w 0 ++ w 0
def symCmd : List UInt8 := w 2 ++ w 24 ++ w 272 ++ w 1 ++ w 288 ++ w 4
def libCmd : List UInt8 := w 0xc ++ w 32 ++ w 24 ++ w 1 ++ w 2 ++ w 3 ++ [0x2f, 0x61, 0, 0, 0, 0, 0, 0]
def sample : List UInt8 := w 0xfeedfacf ++ w 0x0100000c ++ w 0 ++ w 1 ++ w 3 ++ w 208 ++ w 0 ++ w 0 ++ segCmd ++ symCmd ++ libCmd ++
  List.replicate 16 0 ++ [1, 2, 3, 4, 0, 0, 0, 0] ++ w 0 ++ w 0x0c000000 ++ w 1 ++ [0xf, 1, 0, 0] ++ q 0 ++ [0, 0x5f, 0x66, 0]
def sampleB : Builder :=
  ⟨.little, true, 256, 0x0100000c, 0, 1, 0, [.segment 0, .symtab, .dylib 0],
    [⟨0, false, name "", 0, 4, 7, 7, 0, [0]⟩],
    [⟨0, false, name "__text", name "__TEXT", 0, 2, [⟨.symbol 0, 0, false, 2, 0⟩], 0x80000400, [], 0, .data [1, 2, 3, 4]⟩],
    [⟨0, false, [0x5f, 0x66], some 0, 0xf, 1, 0, 0⟩], [⟨false, 0xc, [0x2f, 0x61], 1, 2, 3⟩]⟩

theorem sample_runs : Runs (MachO.LoadCommands.next .little) ⟨segCmd ++ symCmd ++ libCmd, 3, 32⟩
    [⟨0x19, 32, segCmd⟩, ⟨2, 184, symCmd⟩, ⟨0xc, 208, libCmd⟩] .done :=
  .item (s' := ⟨symCmd ++ libCmd, 2, 184⟩) (by decide +kernel) (.item (s' := ⟨libCmd, 1, 208⟩) (by decide +kernel)
    (.item (s' := ⟨[], 0, 240⟩) (by decide +kernel) (.done (s' := ⟨[], 0, 240⟩) (by decide +kernel))))

/-- The sample is read. -/
theorem sample_read : readFile true sample = .ok sampleB := by
  have h1 : parseHeader true sample = .ok (⟨true, .little⟩, ⟨0x0100000c, 0, 1, 3, 208, 0⟩) := by decide +kernel
  have h2 : loadCommands ⟨true, .little⟩ ⟨0x0100000c, 0, 1, 3, 208, 0⟩ sample = .ok ⟨segCmd ++ symCmd ++ libCmd, 3, 32⟩ := by decide +kernel
  unfold readFile
  rw [h1, Res.ok_bind]
  dsimp only
  rw [h2, Res.ok_bind, MachoI.for_eq _ sample_runs]
  have h3 : MachoI.foldRes (scanStep ⟨true, .little⟩ sample) ⟨0, 0, [], 14⟩ [⟨0x19, 32, segCmd⟩, ⟨2, 184, symCmd⟩, ⟨0xc, 208, libCmd⟩] = .ok ⟨1, 1, [], 8⟩ := by
    decide +kernel
  rw [h3, Res.ok_bind]
  dsimp only
  rw [Res.ok_bind, MachoI.for_eq _ sample_runs]
  have h4 : MachoI.foldRes (readStep ⟨true, .little⟩ sample ⟨1, 1, [], 8⟩) ⟨.little, true, 2 ^ 8, 0x0100000c, 0, 1, 0, [], [], [], [], []⟩
      [⟨0x19, 32, segCmd⟩, ⟨2, 184, symCmd⟩, ⟨0xc, 208, libCmd⟩] = .ok sampleB := by
    decide +kernel
  rw [h4, Res.ok_bind]
  rfl

/-- The specification has the sample as a case. -/
example : Reads true sample sampleB := (C98_read true sample (by decide +kernel) sampleB).1 sample_read
/-- ... and no other builder. -/
example (b : Builder) (h : Reads true sample b) : b = sampleB := by
  have := (C98_read true sample (by decide +kernel) b).2 h
  rw [sample_read] at this
  injection this with this
  exact this.symm
/-- Nothing is deleted from the sample. -/
example : deleteOrphans sampleB = .ok sampleB := (C98_sound true sample (by decide +kernel) sampleB sample_read).2.2.2.2.2.2
/-- A file that ends in the section data is refused. -/
example : ∀ b, ¬ Reads true (sample.take 200) b := by
  intro b h
  have := (C98_read true _ (by decide +kernel) b).2 h
  unfold readFile at this
  rw [show parseHeader true (sample.take 200) = .ok (⟨true, .little⟩, ⟨0x0100000c, 0, 1, 3, 208, 0⟩) by decide +kernel, Res.ok_bind] at this
  dsimp only at this
  rw [show loadCommands ⟨true, .little⟩ ⟨0x0100000c, 0, 1, 3, 208, 0⟩ (sample.take 200) = .err by decide +kernel] at this
  cases this

end MachoSample

end Obj.Props

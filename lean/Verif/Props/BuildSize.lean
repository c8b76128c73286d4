import Verif.Proof.BuildSize2
import Verif.Props.BuildWrite

/-! # C101: the ELF builder knows the sizes of loaded sections before writing -/

namespace Obj.Props
open Obj Obj.Build Obj.BuildW Obj.Spec
open Obj.Spec.ElfF (SectionsOf headerIn)
open Obj.Spec.BuildW (Valid live Sound loaded SizeRel SizeSet has)

/-- C101: the size of a loaded section of a builder with segments, as computed in advance, is the `sh_size` of the section in the file that
is written. -/
theorem C101_size (b c : Full) (out : List UInt8) (hc : clean b = .ok c) (h : BuildW.write b = .ok out) (hs : Sound c)
    (hg : live c.tables.segments ≠ []) :
    ∃ ss, SectionsOf ⟨c.is64, c.endian⟩ (headerIn ⟨c.is64, c.endian⟩ out) out ss ∧
      ∀ (i : Nat) s, (live c.tables.sections)[i]? = some s → loaded s = true →
        ∃ h n, ss[i + 1]? = some h ∧ sectionSize c s = .ok n ∧ SizeRel c s.data n h.size := by
  unfold BuildW.write at h
  rw [hc, Res.ok_bind] at h
  obtain ⟨p, l, x, -, hp⟩ := writeClean_ctx h hs
  obtain ⟨ss, t⟩ := x.tab
  have hcfg := x.plan.cfg
  refine ⟨ss, ?_, ?_⟩
  · have := t.of
    rw [← x.counts.1] at this
    rw [← hcfg]; exact this
  · intro i s h1 h2
    rw [← x.secs] at h1
    exact t.size hp hg h1 h2

/-- C101: sections that are deleted or not loaded have size 0. -/
theorem C101_zero (b : Full) (s : Sec) (h : s.delete = true ∨ loaded s = false) : sectionSize b s = .ok 0 := by
  have : (s.delete || !isAlloc s) = true := by
    rw [isAlloc_eq]
    rcases h with h | h <;> simp [h]
  unfold sectionSize
  rw [if_pos this]

/-- C101: the program headers follow the file header, and the first loaded section with data may start after them: these sizes are the space that the headers
take. -/
theorem C101_headers (b c : Full) (out : List UInt8) (hb : Valid b.tables) (hc : clean b = .ok c) (h : BuildW.write b = .ok out)
    (hg : live c.tables.segments ≠ []) : c.header.ePhoff = fileHeaderSize c ∧
    ∀ s ∈ live c.tables.sections, loaded s = true → (∀ len, s.data ≠ .uninit len) → fileHeaderSize c + programHeadersSize c ≤ s.shOffset := by
  have hn : Build.count c.tables.segments = (live c.tables.segments).length := by unfold Build.count; rw [iter_eq]; rfl
  have h1 := C95_phoff b c out hb hc h hg
  have h2 := (C95_disjoint b c out hb hc h hg).1
  unfold fileHeaderSize programHeadersSize cfgOf Elf.Cfg.ehdrSize Elf.Cfg.phdrSize
  rw [hn]
  refine ⟨h1, ?_⟩
  intro s hs hl hd
  have := h2 s hs hl hd
  cases hi : c.is64 <;> rw [hi] at this <;> exact this

/-- C101: setting the sizes changes nothing but the sizes of the sections that are loaded and not deleted, which become those computed. -/
theorem C101_set (b b' : Full) (h : setSectionSizes b = .ok b') :
    b' = setSections b b'.tables.sections ∧ b'.tables.sections.length = b.tables.sections.length ∧
    ∀ (i : Nat) s, b.tables.sections[i]? = some s → ∃ s', b'.tables.sections[i]? = some s' ∧ SizeSet (sectionSize b) s s' := by
  obtain ⟨h1, h2, h3⟩ := setSizes_fold _ h
  refine ⟨h1.rest, h2, ?_⟩
  intro i s hi
  obtain ⟨s', k1, k2, -⟩ := h3 i s hi
  exact ⟨s', k1, k2 (List.mem_range.2 (List.getElem?_eq_some_iff.1 hi).1)⟩

/-- C101: the sizes do not depend on the sizes that are set: setting them again changes nothing. -/
theorem C101_stable (b b' : Full) (h : setSectionSizes b = .ok b') : setSectionSizes b' = .ok b' ∧
    ∀ s ∈ live b'.tables.sections, loaded s = true → sectionSize b' s = .ok s.shSize := by
  obtain ⟨h1, h2, h3⟩ := setSizes_fold _ h
  have key : ∀ (i : Nat) s', b'.tables.sections[i]? = some s' → s'.delete = false → loaded s' = true → sectionSize b' s' = .ok s'.shSize := by
    intro i s' hi hd hl
    have hlt := (List.getElem?_eq_some_iff.1 hi).1
    rw [h2] at hlt
    obtain ⟨s2, k1, k2, -⟩ := h3 i _ (List.getElem?_eq_getElem hlt)
    rw [hi] at k1; cases k1
    have k3 := k2 (List.mem_range.2 hlt)
    unfold SizeSet at k3
    split at k3
    · obtain ⟨n, e1, e2⟩ := k3
      rw [e2, h1.size]; exact e1
    · next hn =>
      rw [k3] at hd hl
      exact absurd ⟨hd, hl⟩ hn
  have fixed : ∀ is : List Nat, (∀ i ∈ is, i < b'.tables.sections.length) → foldR setSizeStep b' is = .ok b' := by
    intro is
    induction is with
    | nil => intro _; rfl
    | cons i is ih =>
      intro hi
      refine foldR_cons.2 ⟨b', ?_, ih fun j hj => hi j (by simp [hj])⟩
      have hlt := hi i (by simp)
      have hs := List.getElem?_eq_getElem hlt
      unfold setSizeStep
      rw [hs]
      simp only
      cases hx : (b'.tables.sections[i].delete || !isAlloc b'.tables.sections[i]) with
      | true => rfl
      | false =>
        rw [isAlloc_eq, Bool.or_eq_false_iff, Bool.not_eq_false'] at hx
        rw [key i _ hs hx.1 hx.2]
        simp only [Bool.false_eq_true, if_false, Res.ok_bind]
        rw [List.set_getElem_self]; rfl
  refine ⟨fixed _ fun i hi => List.mem_range.1 hi, ?_⟩
  intro s hs hl
  obtain ⟨h4, h5⟩ := List.mem_filter.1 hs
  obtain ⟨i, hi⟩ := List.getElem?_of_mem h4
  rw [Bool.not_eq_true'] at h5
  exact key i s hi h5 hl

/-- The hypotheses of the theorems are met. -/
example : ∃ out, clean bwB = .ok bwC ∧ BuildW.write bwB = .ok out ∧ Sound bwC ∧ live bwC.tables.segments ≠ [] := by
  obtain ⟨out, h, -⟩ := bwWrite (fun _ => true) (by decide +kernel)
  exact ⟨out, bwClean, h, bwSound, by decide +kernel⟩

/-- The sizes of the sections of a library after they are set.  Of the sections that are loaded, `.gnu.hash` (the last) is written with 4 bytes
more, because its symbol has a section and the field `st_shndx` is not set. -/
example : (match setSectionSizes bwC with
    | .ok b => some (b.tables.sections.map (·.shSize))
    | _ => none) = some [4, 0, 0, 0, 48, 24, 6, 32, 32, 24, 0, 0, 0, 24] := by decide +kernel

end Obj.Props

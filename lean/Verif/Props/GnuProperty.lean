import Verif.Props.WriteObject
import Verif.Props.Note
import Verif.Spec.GnuProperty

/-! # C102: GNU properties added to an object being built -/

namespace Obj.Props
open Obj Obj.Elf Obj.Spec Obj.W Obj.W.Spec

private theorem gnu_ascii : ascii "GNU" ++ [0] = [71, 78, 85, 0] := by decide +kernel

private theorem take_all {l : List UInt8} {n : Nat} (h : l.length ≤ n) : l.take n = l :=
  List.take_of_length_le h

/-- The bytes appended are the note of the specification. -/
private theorem data_eq (en : Endianness) (asz : Nat) (ha : asz = 4 ∨ asz = 8) (p v : Nat) :
    gnuPropertyData en asz p v = .ok (noteBytes en asz (gnuNote en asz (p, v))) := by
  have hl : ∀ n : Nat, (wr en 4 n).length = 4 := fun n => length_wr ..
  unfold gnuPropertyData
  rw [alignUsize_4_8 ha (by decide)]
  simp only [Res.ok_bind, encode, List.append_nil, List.length_append, hl, List.length_cons,
    List.length_nil]
  rw [alignUsize_4_8 ha (by decide)]
  simp only [Res.ok_bind]
  rcases ha with rfl | rfl
  · rw [take_all (by simp)]
    simp [noteBytes, gnuNote, gnu_ascii, propertyBytes, gnuProp, padTo, encode, roundUp, List.replicate]
  · rw [take_all (by simp)]
    simp [noteBytes, gnuNote, gnu_ascii, propertyBytes, gnuProp, padTo, encode, roundUp, List.replicate]

private theorem note_len (en : Endianness) (asz : Nat) (ha : asz = 4 ∨ asz = 8) (p : Nat × Nat) :
    (noteBytes en asz (gnuNote en asz p)).length = if asz = 8 then 32 else 28 := by
  have h0 : 0 < asz := by omega
  rcases ha with rfl | rfl <;>
    simp [noteBytes, gnuNote, gnu_ascii, propertyBytes, gnuProp, padTo, encode, roundUp]

private theorem run_snoc {o0 o o' : Object} {p : List Op} {x : Op} (h : run o0 p = some o)
    (hx : step o x = some o') : run o0 (p ++ [x]) = some o' := by
  induction p generalizing o0 with
  | nil =>
    simp only [run, Option.some.injEq] at h
    subst h
    simp only [List.nil_append, run, hx, Option.bind_some]
  | cons y ys ih =>
    simp only [run, List.cons_append] at h ⊢
    cases hy : step o0 y with
    | none => rw [hy] at h; simp at h
    | some o1 => rw [hy] at h; exact ih h

private theorem reach_step {o o' : Object} {x : Op} (h : Reachable o) (hx : step o x = some o') :
    Reachable o' := by
  obtain ⟨f, a, e, p, hp⟩ := h
  exact ⟨f, a, e, p ++ [x], run_snoc hp hx⟩

private theorem static_step {o o' : Object} {x : Op} (hx : step o x = some o') :
    o'.format = o.format ∧ o'.arch = o.arch ∧ o'.endian = o.endian := by
  refine Chain.rel (R := fun a b => b.format = a.format ∧ b.arch = a.arch ∧ b.endian = a.endian)
    (fun _ => ⟨rfl, rfl, rfl⟩) (fun a b c h1 h2 => ⟨by rw [h2.1, h1.1], by rw [h2.2.1, h1.2.1], by rw [h2.2.2, h1.2.2]⟩)
    (fun a e b hm _ => ⟨(format_micro hm).1, (format_micro hm).2, ?_⟩) (step_chain hx)
  cases hm with
  | secSymbol h1 h2 h3 =>
    unfold Object.sectionSymbol at h3
    rw [h1] at h3
    simp only [h2, Res.ok.injEq, Prod.mk.injEq] at h3
    rw [← h3.2]
  | misc _ _ h => exact h
  | _ => rfl

/-- What `section_id` gives for the property section, with the object it leaves: an index, a section with
the kind and name, and either an existing section of the unchanged object or a new empty one. -/
private theorem get_section (o : Object) (hr : Reachable o) :
    ∃ s, (o.sectionId .gnuProperty).2.sections[(o.sectionId .gnuProperty).1]? = some s ∧
      IsStd o .gnuProperty s ∧
      (((o.sectionId .gnuProperty).2 = o ∧ HasProps o) ∨ (s.data = [] ∧ s.align = 1 ∧ ¬ HasProps o)) := by
  rcases C60_section_id o hr .gnuProperty with ⟨i, s, h1, h2, h3, -⟩ | ⟨h1, h2, s, h3, h4, h5, -, h6, -⟩
  · rw [h1]
    exact ⟨s, h2, h3, Or.inl ⟨rfl, s, List.mem_of_getElem? h2, h3⟩⟩
  · refine ⟨s, ?_, h4, Or.inr ⟨h5, h6, ?_⟩⟩
    · rw [h2, h3]; simp
    · rintro ⟨t, ht, hs⟩; exact h1 t ht hs

private theorem isStd_static {o o' : Object} (h : o'.format = o.format ∧ o'.arch = o.arch ∧ o'.endian = o.endian)
    (ss : StdSection) (s : Section) : IsStd o' ss s ↔ IsStd o ss s := by
  unfold IsStd
  rw [h.1, h.2.1]

private theorem get_static (o : Object) : (o.sectionId .gnuProperty).2.format = o.format ∧
    (o.sectionId .gnuProperty).2.arch = o.arch ∧ (o.sectionId .gnuProperty).2.endian = o.endian :=
  static_step (x := .sectionId .gnuProperty) rfl

private theorem std_kind {o : Object} (hf : o.format = .elf) {s : Section} (h : IsStd o .gnuProperty s) :
    s.kind = .note := by
  have := h.2.2
  rw [hf] at this
  exact this

/-- **C102.** `add_elf_gnu_property_u32` on an ELF object with a known address size: it does not panic
unless the section would become too large.  One note with the property is appended, at the next multiple
of the address size, to the section `section_id` gives for GNU properties (created if there is none), and
the alignment of that section is raised to the address size.  Nothing else changes. -/
theorem C102_add (o : Object) (hr : Reachable o) (hf : o.format = .elf) (is64 : Bool)
    (ha : ∃ n, o.arch.addressSize = some n ∧ (is64 = true ↔ n = 8))
    (hsmall : ∀ s ∈ o.sections, s.data.length + 64 < 2 ^ 63) (p v : Nat) :
    ∃ s, (o.sectionId .gnuProperty).2.sections[(o.sectionId .gnuProperty).1]? = some s ∧
      IsStd o .gnuProperty s ∧ (¬ HasProps o → s.data = [] ∧ s.align = 1) ∧
      o.addGnuProperty p v = .ok { (o.sectionId .gnuProperty).2 with
        sections := (o.sectionId .gnuProperty).2.sections.set (o.sectionId .gnuProperty).1
          { s with data := padTo (gnuAlign is64) s.data ++
                     noteBytes o.endian (gnuAlign is64) (gnuNote o.endian (gnuAlign is64) (p, v)),
                   size := (padTo (gnuAlign is64) s.data).length + (if is64 then 32 else 28),
                   align := max s.align (gnuAlign is64) } } := by
  obtain ⟨n, hn, h8⟩ := ha
  have hg : (if n = 8 then 8 else 4) = gnuAlign is64 := by
    unfold gnuAlign
    by_cases h : n = 8
    · rw [if_pos h, if_pos (h8.2 h)]
    · rw [if_neg h, if_neg (fun hh => h (h8.1 hh))]
  have hcases : gnuAlign is64 = 4 ∨ gnuAlign is64 = 8 := by unfold gnuAlign; cases is64 <;> simp
  have hpow : PowTwo (gnuAlign is64) := by
    rcases hcases with h | h <;> rw [h]
    · exact ⟨2, rfl⟩
    · exact ⟨3, rfl⟩
  have hpos : 0 < gnuAlign is64 := by omega
  obtain ⟨s, h1, h2, h3⟩ := get_section o hr
  refine ⟨s, h1, h2, fun hnp => ?_, ?_⟩
  · rcases h3 with ⟨_, h3⟩ | ⟨h3, h4, _⟩
    · exact absurd h3 hnp
    · exact ⟨h3, h4⟩
  have hkind := std_kind hf h2
  have hlen : s.data.length + 64 < 2 ^ 63 := by
    rcases h3 with ⟨h3, _⟩ | ⟨h3, _, _⟩
    · rw [h3] at h1; exact hsmall s (List.mem_of_getElem? h1)
    · rw [h3]; decide
  have hnl := note_len o.endian (gnuAlign is64) hcases (p, v)
  have hru := roundUp_spec s.data.length (gnuAlign is64) hpos
  simp only at hru
  change roundUp s.data.length (gnuAlign is64) % gnuAlign is64 = 0 ∧ s.data.length ≤ roundUp s.data.length (gnuAlign is64) ∧
    roundUp s.data.length (gnuAlign is64) < s.data.length + gnuAlign is64 at hru
  have hn64 : (if gnuAlign is64 = 8 then 32 else 28) = (if is64 then 32 else 28) := by
    unfold gnuAlign; cases is64 <;> rfl
  rw [hn64] at hnl
  have hn32 : (if is64 then 32 else 28) ≤ 32 := by cases is64 <;> simp
  have happ := (C43_append_data (o.sectionId .gnuProperty).2 _ (o.sectionId .gnuProperty).1
    (noteBytes o.endian (gnuAlign is64) (gnuNote o.endian (gnuAlign is64) (p, v))) (gnuAlign is64)
    (roundUp s.data.length (gnuAlign is64))).2
    ⟨s, h1, by rw [hkind]; simp, by rw [hkind]; simp, hpow, rfl, by rw [hnl]; omega, rfl⟩
  unfold Object.addGnuProperty
  rw [if_neg (by simp [hf]), hn]
  dsimp only
  rw [hg, data_eq _ _ hcases, Res.ok_bind, happ, Res.ok_bind, hnl, length_padTo _ hpos]
  rfl

/-- The state of the property section after a history. -/
private structure Inv (a : Arch) (en : Endianness) (asz : Nat) (o : Object) (ps : List (Nat × Nat)) : Prop where
  reach : Reachable o
  format : o.format = .elf
  arch : o.arch = a
  endian : o.endian = en
  fits : ∀ p ∈ ps, p.1 < 2 ^ 32 ∧ p.2 < 2 ^ 32
  state : (ps = [] ∧ ¬ HasProps o) ∨ ∃ i s, o.sectionId .gnuProperty = (i, o) ∧ o.sections[i]? = some s ∧
    IsStd o .gnuProperty s ∧ s.data = ps.flatMap (fun p => noteBytes en asz (gnuNote en asz p)) ∧
    s.align = if ps = [] then 1 else asz

private theorem flat_len (en : Endianness) (asz : Nat) (ha : asz = 4 ∨ asz = 8) (ps : List (Nat × Nat)) :
    (ps.flatMap (fun p => noteBytes en asz (gnuNote en asz p))).length % asz = 0 := by
  induction ps with
  | nil => simp
  | cons p ps ih =>
    rw [List.flatMap_cons, List.length_append, note_len en asz ha]
    rcases ha with rfl | rfl
    · rw [if_neg (by decide)]; omega
    · rw [if_pos rfl]; omega

private theorem padTo_self {asz : Nat} (h : 0 < asz) {l : List UInt8} (hl : l.length % asz = 0) :
    padTo asz l = l := by
  have h1 := roundUp_spec l.length asz h
  simp only at h1
  change roundUp l.length asz % asz = 0 ∧ l.length ≤ roundUp l.length asz ∧
    roundUp l.length asz < l.length + asz at h1
  obtain ⟨h1, h2, h3⟩ := h1
  have : roundUp l.length asz - l.length = 0 := by
    have h4 : (roundUp l.length asz - l.length) % asz = 0 :=
      Nat.sub_mod_eq_zero_of_mod_eq (by rw [h1, hl])
    rwa [Nat.mod_eq_of_lt (by omega)] at h4
  unfold padTo
  rw [this]
  simp

private theorem getId_stable {o : Object} (hr : Reachable o) :
    (o.sectionId .gnuProperty).2.sectionId .gnuProperty =
      ((o.sectionId .gnuProperty).1, (o.sectionId .gnuProperty).2) :=
  C60_stable o _ hr .gnuProperty [] rfl

private theorem inv_get {a : Arch} {en : Endianness} {asz : Nat} {o : Object} {ps : List (Nat × Nat)}
    (h : Inv a en asz o ps) : Inv a en asz (o.sectionId .gnuProperty).2 ps := by
  have hs := get_static o
  obtain ⟨s, h1, h2, h3⟩ := get_section o h.reach
  refine ⟨reach_step h.reach (x := .sectionId .gnuProperty) rfl, by rw [hs.1, h.format],
    by rw [hs.2.1, h.arch], by rw [hs.2.2, h.endian], h.fits, Or.inr ?_⟩
  refine ⟨_, s, getId_stable h.reach, h1, (isStd_static hs _ _).2 h2, ?_⟩
  rcases h.state with ⟨hps, hno⟩ | ⟨i, t, g1, g2, g3, g4, g5⟩
  · rcases h3 with ⟨-, h3⟩ | ⟨h3, h4, -⟩
    · exact absurd h3 hno
    · subst hps; exact ⟨h3, h4⟩
  · rw [g1] at h1
    rw [g2, Option.some.injEq] at h1
    subst h1
    exact ⟨g4, g5⟩

private theorem inv_add {a : Arch} {en : Endianness} {asz : Nat} (ha : asz = 4 ∨ asz = 8) {o o' : Object}
    {ps : List (Nat × Nat)} {p v n : Nat} (hn : a.addressSize = some n) (hasz : asz = if n = 8 then 8 else 4)
    (h : Inv a en asz o ps) (hp : p < 2 ^ 32) (hv : v < 2 ^ 32) (hadd : o.addGnuProperty p v = .ok o') :
    Inv a en asz o' (ps ++ [(p, v)]) := by
  have hpos : 0 < asz := by omega
  have hstep : step o (.addGnuProperty p v) = some o' := by simp only [step, hadd]
  have hst := static_step hstep
  have hi := inv_get h
  rcases hi.state with ⟨-, hno⟩ | ⟨i, s, g1, g2, g3, g4, g5⟩
  · obtain ⟨s, h1, h2, -⟩ := get_section o h.reach
    exact absurd ⟨s, List.mem_of_getElem? h1, (isStd_static (get_static o) _ _).2 h2⟩ hno
  have g1' := getId_stable h.reach
  rw [g1'] at g1
  simp only [Prod.mk.injEq, and_true] at g1
  have hadd' := hadd
  unfold Object.addGnuProperty at hadd'
  rw [if_neg (by simp [h.format]), h.arch, hn] at hadd'
  dsimp only at hadd'
  rw [← hasz, h.endian, data_eq _ _ ha, Res.ok_bind, g1] at hadd'
  obtain ⟨r, hr1, hr2⟩ := bind_ok_iff.1 hadd'
  simp only [Res.ok.injEq] at hr2
  subst hr2
  obtain ⟨t, f1, -, -, -, f2, -, f3⟩ := (C43_append_data _ r.2 i _ asz r.1).1 hr1
  rw [g2, Option.some.injEq] at f1
  subst f1
  have hmod : s.data.length % asz = 0 := by rw [g4]; exact flat_len en asz ha ps
  have hpad := padTo_self hpos hmod
  have hlt := getElem_lt g2
  have hget : r.2.sections[i]? = some { s with
      data := s.data ++ List.replicate (r.1 - s.data.length) 0 ++ noteBytes en asz (gnuNote en asz (p, v)),
      size := r.1 + (noteBytes en asz (gnuNote en asz (p, v))).length, align := max s.align asz } := by
    rw [f3]; simp [hlt]
  have hstab : r.2.sectionId .gnuProperty = (i, r.2) := by
    have := C60_stable o r.2 h.reach .gnuProperty
      [.appendSectionData i (noteBytes en asz (gnuNote en asz (p, v))) asz]
      (by simp only [run, step, hr1, Option.bind_some])
    rw [g1] at this
    exact this
  refine ⟨reach_step h.reach hstep, by rw [hst.1, h.format], by rw [hst.2.1, h.arch],
    by rw [hst.2.2, h.endian], ?_, Or.inr ⟨i, _, hstab, hget, ?_, ?_, ?_⟩⟩
  · intro q hq
    rcases List.mem_append.1 hq with hq | hq
    · exact h.fits q hq
    · rw [List.mem_singleton.1 hq]; exact ⟨hp, hv⟩
  · refine (isStd_static hst _ _).2 ?_
    exact (isStd_static (get_static o) _ _).1 g3
  · have : s.data ++ List.replicate (r.1 - s.data.length) 0 = s.data := by rw [f2]; exact hpad
    dsimp only
    rw [this, g4]
    simp
  · dsimp only
    rw [g5]
    rcases ha with rfl | rfl <;> split <;> simp

private theorem inv_other {a : Arch} {en : Endianness} {asz : Nat} {o o' : Object} {ps : List (Nat × Nat)}
    {op : Op} (h : Inv a en asz o ps) (hs : step o op = some o')
    (ht : ∀ (i : Nat) s, o.sections[i]? = some s → IsStd o .gnuProperty s → ¬ Touches o i op)
    (hp : HasProps o' → HasProps o) : Inv a en asz o' ps := by
  have hst := static_step hs
  refine ⟨reach_step h.reach hs, by rw [hst.1, h.format], by rw [hst.2.1, h.arch], by rw [hst.2.2, h.endian],
    h.fits, ?_⟩
  rcases h.state with ⟨h1, h2⟩ | ⟨i, s, g1, g2, g3, g4, g5⟩
  · exact Or.inl ⟨h1, fun hh => h2 (hp hh)⟩
  · right
    obtain ⟨y, hy⟩ := C43_frame o o' op hs i s g2 (ht i s g2 g3)
    have hstab := C60_stable o o' h.reach .gnuProperty [op] (by rw [g1]; simp only [run, hs, Option.bind_some])
    rw [g1] at hstab
    exact ⟨i, _, hstab, hy, (isStd_static hst _ _).2 g3, g4, g5⟩

private theorem inv_of {a : Arch} {en : Endianness} {asz n : Nat} (ha : asz = 4 ∨ asz = 8)
    (hn : a.addressSize = some n) (hasz : asz = if n = 8 then 8 else 4) {o : Object} {ps : List (Nat × Nat)}
    (h : Added a en o ps) : Inv a en asz o ps := by
  induction h with
  | new =>
    refine ⟨⟨.elf, a, en, [], rfl⟩, rfl, rfl, rfl, by simp, Or.inl ⟨rfl, ?_⟩⟩
    rintro ⟨s, hs, -⟩
    simp [Object.new] at hs
  | add _ hp hv hadd ih => exact inv_add ha hn hasz ih hp hv hadd
  | get _ ih => exact inv_get ih
  | other _ hs ht hp ih => exact inv_other ih hs ht hp

private theorem runs_one {en : Endianness} {asz : Nat} (ha : asz = 4 ∨ asz = 8) (p : Nat × Nat)
    (hp : p.1 < 2 ^ 32) :
    Runs (nextProperty en asz) (propertyBytes en asz (gnuProp en p)) [gnuProp en p] .done := by
  have := C45_round_trip en asz ha [gnuProp en p] (by
    intro q hq
    rw [List.mem_singleton.1 hq]
    exact ⟨hp, by rw [gnuProp, length_wr]; decide⟩)
  simpa using this

/-- **C102.** After any such history, the notes of the property section, read with the alignment of the
section, are one note for each call, in order; each is a GNU property note, whose properties (read with
the class of the file) are exactly the one given, with the given value. -/
theorem C102_round_trip (a : Arch) (en : Endianness) (is64 : Bool)
    (ha : ∃ n, a.addressSize = some n ∧ (is64 = true ↔ n = 8)) (o : Object) (ps : List (Nat × Nat))
    (h : Added a en o ps) (hne : ps ≠ []) :
    ∃ i s, o.sectionId .gnuProperty = (i, o) ∧ o.sections[i]? = some s ∧
      s.name = ascii ".note.gnu.property" ∧ s.kind = .note ∧
      noteAlign s.align = .ok (gnuAlign is64) ∧
      Runs (nextNote en (gnuAlign is64)) s.data (ps.map (gnuNote en (gnuAlign is64))) .done ∧
      ∀ p ∈ ps, ∃ data, (gnuNote en (gnuAlign is64) p).gnuProperties is64 = some (gnuAlign is64, data) ∧
        Runs (nextProperty en (gnuAlign is64)) data [gnuProp en p] .done ∧
        (gnuProp en p).typ = p.1 ∧ (gnuProp en p).dataU32 en = .ok p.2 := by
  obtain ⟨n, hn, h8⟩ := ha
  have hcases : gnuAlign is64 = 4 ∨ gnuAlign is64 = 8 := by unfold gnuAlign; cases is64 <;> simp
  have hg : gnuAlign is64 = if n = 8 then 8 else 4 := by
    unfold gnuAlign
    by_cases h : n = 8
    · rw [if_pos h, if_pos (h8.2 h)]
    · rw [if_neg h, if_neg (fun hh => h (h8.1 hh))]
  have hi := inv_of hcases hn hg h
  rcases hi.state with ⟨h1, -⟩ | ⟨i, s, g1, g2, g3, g4, g5⟩
  · exact absurd h1 hne
  have hal : noteAlign s.align = .ok (gnuAlign is64) := by
    rw [g5, if_neg hne]
    unfold gnuAlign
    cases is64 <;> decide
  have hname : s.name = ascii ".note.gnu.property" := by
    have := g3.2.1
    rw [hi.format] at this
    rw [this]
    have hgen : ∀ x : Arch, (sectionInfo .elf x .gnuProperty).name = ascii ".note.gnu.property" := by
      intro x
      have : ascii ".note.gnu.property" =
          [46, 110, 111, 116, 101, 46, 103, 110, 117, 46, 112, 114, 111, 112, 101, 114, 116, 121] := by decide +kernel
      rw [this]; rfl
    exact hgen o.arch
  refine ⟨i, s, g1, g2, hname, std_kind hi.format g3, hal, ?_, ?_⟩
  · have := (C20_round_trip en s.align (gnuAlign is64) hal (ps.map (gnuNote en (gnuAlign is64))) ?_).1
    · rw [List.flatMap_map] at this
      rw [g4]; exact this
    · intro x hx
      obtain ⟨q, -, rfl⟩ := List.mem_map.1 hx
      refine ⟨by rw [gnuNote, gnu_ascii]; simp, ?_, by simp [gnuNote]⟩
      simp only [gnuNote]
      rw [propertyBytes, length_padTo _ (by omega), List.length_append, length_encode, gnuProp, length_wr]
      rcases hcases with hc | hc <;> rw [hc] <;> simp [roundUp]
  · intro q hq
    obtain ⟨q1, q2⟩ := hi.fits q hq
    refine ⟨_, ?_, runs_one hcases q q1, rfl, ?_⟩
    · unfold Note.gnuProperties
      have ht : (gnuNote en (gnuAlign is64) q).trimmedName = [0x47, 0x4e, 0x55] := by
        simp only [Note.trimmedName, gnuNote, gnu_ascii]
        decide
      rw [ht]
      simp only [gnuNote, ne_eq, not_true_eq_false, or_self, if_false]
      rfl
    · unfold GnuProperty.dataU32 gnuProp
      have : Bytes.readAt (wr en 4 q.2) 0 4 = .ok (wr en 4 q.2) := by
        rw [bytes_readAt_eq, if_pos (by rw [length_wr]; decide), List.drop_zero,
          List.take_of_length_le (by rw [length_wr]; decide)]
      rw [this]
      show Res.ok (rd en (wr en 4 q.2)) = _
      rw [rd_wr _ _ _ q2]

/-- **C102.** For the other formats nothing happens. -/
theorem C102_other_formats (o : Object) (hf : o.format ≠ .elf) (p v : Nat) : o.addGnuProperty p v = .ok o := by
  unfold Object.addGnuProperty
  rw [if_pos hf]

private def gpOps : List Op :=
  [.sectionId .text, .addGnuProperty 0xc0000002 3, .appendSectionData 0 [1, 2] 4, .addGnuProperty 0xc0008002 1]

example : ((run (Object.new .elf .x86_64 .little) gpOps).map (fun o => o.sections.map (fun s => (s.align, s.data)))) =
    some [(4, [1, 2]), (8, [4, 0, 0, 0, 16, 0, 0, 0, 5, 0, 0, 0, 71, 78, 85, 0, 2, 0, 0, 192, 4, 0, 0, 0, 3, 0, 0, 0, 0, 0, 0, 0,
      4, 0, 0, 0, 16, 0, 0, 0, 5, 0, 0, 0, 71, 78, 85, 0, 2, 128, 0, 192, 4, 0, 0, 0, 1, 0, 0, 0, 0, 0, 0, 0])] := by
  decide

example : ∃ o, Added .i386 .big o [(0xc0000002, 3)] ∧ o.sections.map (fun s => (s.align, s.data.length)) = [(4, 28)] :=
  ⟨_, .add .new (by decide) (by decide) rfl, by decide⟩

end Obj.Props

import Verif.Proof.WriteObject2

/-!
# Properties of the object builder: section contents (C43), standard sections (C60), symbols (C61)
-/

namespace Obj.Props
open Obj.W Obj.W.Spec

/-- The states a program can reach with the public methods of `Object`. -/
def Reachable (o : Object) : Prop :=
  ∃ (f : Format) (a : Arch) (e : Endianness) (ops : List Op), run (Object.new f a e) ops = some o

private theorem reachable_inv {I : Object → Prop} {o : Object} (h : Reachable o)
    (h0 : ∀ f a e, I (Object.new f a e))
    (hm : ∀ (P : Eff → Prop) o e o', Micro o e o' → P e → I o → I o') : I o := by
  obtain ⟨f, a, e, ops, hr⟩ := h
  exact run_inv (I := I) (Q := fun _ => True)
    (fun o op o' hs _ => Chain.inv (hm _) (step_chain hs)) (fun _ _ => trivial) hr (h0 f a e)

/-! ## C43 -/

/-- **C43.** `append_section_data` succeeds exactly for an existing section with data, a power of two as
alignment and a result below 2^63 bytes.  The offset is the length rounded up to the alignment; the new
data is the old data, zeros up to the offset, and the appended bytes; the size is the new length and the
alignment is raised to the requested one.  Nothing else changes. -/
theorem C43_append_data (o o' : Object) (i : Nat) (d : List UInt8) (a off : Nat) :
    o.appendSectionData i d a = .ok (off, o') ↔
      ∃ s, o.sections[i]? = some s ∧ s.kind ≠ .uninitializedData ∧ s.kind ≠ .uninitializedTls ∧ PowTwo a ∧
        off = Obj.Spec.roundUp s.data.length a ∧ off + d.length < 2 ^ 63 ∧
        o' = { o with
          sections := o.sections.set i
            { s with data := s.data ++ List.replicate (off - s.data.length) 0 ++ d,
                     size := off + d.length, align := max s.align a } } := by
  have hk : ∀ s : Section, s.kind.isBss = false ↔ s.kind ≠ .uninitializedData ∧ s.kind ≠ .uninitializedTls := by
    intro s; cases s.kind <;> simp [SectionKind.isBss]
  unfold Object.appendSectionData
  cases hs : o.sections[i]? with
  | none => simp
  | some s =>
    simp only [Option.some.injEq]
    constructor
    · intro h
      match hq : s.appendData d a with
      | .ok q =>
        rw [hq, Res.ok_bind] at h
        simp only [Res.ok.injEq, Prod.mk.injEq] at h
        obtain ⟨h1, h2⟩ := h
        obtain ⟨g1, g2, g3, g4, g5⟩ := (appendData_iff s d a q.1 q.2).1 hq
        subst h1
        refine ⟨s, rfl, ((hk s).1 g1).1, ((hk s).1 g1).2, g2, g3, g4, ?_⟩
        rw [← h2, g5]; rfl
      | .err => rw [hq] at h; simp at h
      | .panic => rw [hq] at h; simp at h
    · rintro ⟨s', rfl, g1, g1', g2, g3, g4, rfl⟩
      rw [(appendData_iff s d a off _).2 ⟨(hk s).2 ⟨g1, g1'⟩, g2, g3, g4, rfl⟩]
      rfl

/-- **C43.** `append_section_bss`, likewise for a section without data: only the size grows. -/
theorem C43_append_bss (o o' : Object) (i n a off : Nat) :
    o.appendSectionBss i n a = .ok (off, o') ↔
      ∃ s, o.sections[i]? = some s ∧ (s.kind = .uninitializedData ∨ s.kind = .uninitializedTls) ∧ PowTwo a ∧
        off = Obj.Spec.roundUp s.size a ∧ off + n < 2 ^ 64 ∧
        o' = { o with sections := o.sections.set i { s with size := off + n, align := max s.align a } } := by
  have hk : ∀ s : Section, s.kind.isBss = true ↔ s.kind = .uninitializedData ∨ s.kind = .uninitializedTls := by
    intro s; cases s.kind <;> simp [SectionKind.isBss]
  unfold Object.appendSectionBss
  cases hs : o.sections[i]? with
  | none => simp
  | some s =>
    simp only [Option.some.injEq]
    constructor
    · intro h
      match hq : s.appendBss n a with
      | .ok q =>
        rw [hq, Res.ok_bind] at h
        simp only [Res.ok.injEq, Prod.mk.injEq] at h
        obtain ⟨h1, h2⟩ := h
        obtain ⟨g1, g2, g3, g4, g5⟩ := (appendBss_iff s n a q.1 q.2).1 hq
        subst h1
        refine ⟨s, rfl, (hk s).1 g1, g2, g3, g4, ?_⟩
        rw [← h2, g5]; rfl
      | .err => rw [hq] at h; simp at h
      | .panic => rw [hq] at h; simp at h
    · rintro ⟨s', rfl, g1, g2, g3, g4, rfl⟩
      rw [(appendBss_iff s n a off _).2 ⟨(hk s).2 g1, g2, g3, g4, rfl⟩]
      rfl

/-- **C43.** `set_section_data` succeeds exactly for a section that may have data and has none yet, with
a power of two as alignment, and gives it that data, size and alignment. -/
theorem C43_set_data (o o' : Object) (i : Nat) (d : List UInt8) (a : Nat) :
    o.setSectionData i d a = .ok o' ↔
      ∃ s, o.sections[i]? = some s ∧ s.kind ≠ .uninitializedData ∧ s.kind ≠ .uninitializedTls ∧ PowTwo a ∧
        s.data = [] ∧
        o' = { o with sections := o.sections.set i { s with data := d, size := d.length, align := a } } := by
  have hk : ∀ s : Section, s.kind.isBss = false ↔ s.kind ≠ .uninitializedData ∧ s.kind ≠ .uninitializedTls := by
    intro s; cases s.kind <;> simp [SectionKind.isBss]
  unfold Object.setSectionData
  cases hs : o.sections[i]? with
  | none => simp
  | some s =>
    simp only [Option.some.injEq]
    constructor
    · intro h
      match hq : s.setData d a with
      | .ok q =>
        rw [hq, Res.ok_bind] at h
        simp only [Res.ok.injEq] at h
        obtain ⟨g1, g2, g3, g5⟩ := (setData_iff s d a q).1 hq
        refine ⟨s, rfl, ((hk s).1 g1).1, ((hk s).1 g1).2, g2, g3, ?_⟩
        rw [← h, g5]; rfl
      | .err => rw [hq] at h; simp at h
      | .panic => rw [hq] at h; simp at h
    · rintro ⟨s', rfl, g1, g1', g2, g3, rfl⟩
      rw [(setData_iff s d a _).2 ⟨(hk s).2 ⟨g1, g1'⟩, g2, g3, rfl⟩]
      rfl

/-- The offset of an append is a multiple of the alignment, not before the end of the section, and less
than the alignment after it. -/
private theorem roundUp_facts (n : Nat) {a : Nat} (h : PowTwo a) :
    a ∣ Obj.Spec.roundUp n a ∧ n ≤ Obj.Spec.roundUp n a ∧ Obj.Spec.roundUp n a < n + a := by
  have := roundUp_spec n a h.pos
  exact ⟨Nat.dvd_of_mod_eq_zero this.1, this.2.1, this.2.2⟩

/-- **C43.** In every reachable state, every section has a power of two as alignment; a section with
data has the length of its data as size; a section without data has none. -/
theorem C43_reachable (o : Object) (h : Reachable o) : ∀ s ∈ o.sections,
    PowTwo s.align ∧
    (s.kind = .uninitializedData ∨ s.kind = .uninitializedTls → s.data = []) ∧
    (¬ (s.kind = .uninitializedData ∨ s.kind = .uninitializedTls) → s.size = s.data.length) := by
  have hi : AllOk o := reachable_inv h (fun _ _ _ s hs => by simp [Object.new] at hs)
    (fun _ o e o' hm _ hi => micro_ok hm hi)
  intro s hs
  have := hi s hs
  refine ⟨this.align, fun hk => this.uninit ?_, fun hk => this.init ?_⟩
  · obtain hk | hk := hk <;> rw [hk] <;> rfl
  · cases hk' : s.kind <;> simp_all [SectionKind.isBss]

/-- **C43.** Over any history of calls, an existing section keeps its segment, name and kind, its
relocations so far and the length it has; unless a call may overwrite it, its data so far; unless
`set_section_data` was called for it, its alignment is only raised; the size of a section without data
only grows. -/
theorem C43_history (o o' : Object) (ops : List Op) (h : run o ops = some o') (j : Nat) (s : Section)
    (hs : o.sections[j]? = some s) :
    ∃ s', o'.sections[j]? = some s' ∧ s'.segment = s.segment ∧ s'.name = s.name ∧ s'.kind = s.kind ∧
      StartsWith s.relocs s'.relocs ∧ s.data.length ≤ s'.data.length ∧
      ((∀ op ∈ ops, ¬ Overwrites j op) → StartsWith s.data s'.data) ∧
      ((∀ op ∈ ops, ¬ ResetsAlign j op) → s.align ≤ s'.align) ∧
      (s.kind = .uninitializedData ∨ s.kind = .uninitializedTls → s.size ≤ s'.size) := by
  have key : ∃ s', o'.sections[j]? = some s' ∧
      SecRel (fun e => (e = .write j ∧ ∃ op ∈ ops, Overwrites j op) ∨
        (e = .reset j ∧ ∃ op ∈ ops, ResetsAlign j op) ∨ (e ≠ .write j ∧ e ≠ .reset j)) j s s' := by
    induction ops generalizing o s with
    | nil =>
      simp only [run, Option.some.injEq] at h; subst h
      exact ⟨s, hs, SecRel.refl _ _ _⟩
    | cons op ops ih =>
      simp only [run] at h
      match hst : step o op with
      | none => rw [hst] at h; simp at h
      | some o1 =>
        rw [hst] at h
        have hlen := getElem_lt hs
        have c : Chain (fun e => (e = .write j ∧ ∃ x ∈ op :: ops, Overwrites j x) ∨
            (e = .reset j ∧ ∃ x ∈ op :: ops, ResetsAlign j x) ∨ (e ≠ .write j ∧ e ≠ .reset j)) o o1 := by
          refine (step_chain hst).mono ?_
          intro e he
          by_cases h1 : e = .write j
          · subst h1; exact Or.inl ⟨rfl, op, List.mem_cons_self .., he⟩
          · by_cases h2 : e = .reset j
            · subst h2
              obtain he | he := he
              · omega
              · exact Or.inr (Or.inl ⟨rfl, op, List.mem_cons_self .., he⟩)
            · exact Or.inr (Or.inr ⟨h1, h2⟩)
        obtain ⟨s1, hs1, r1⟩ := c.sec hs
        obtain ⟨s2, hs2, r2⟩ := ih o1 h s1 hs1
        refine ⟨s2, hs2, r1.trans ?_⟩
        refine { segment := r2.segment, name := r2.name, kind := r2.kind, symbol := r2.symbol,
                 relocs := r2.relocs, data := fun hp => r2.data ?_, len := r2.len,
                 align := fun hp => r2.align ?_, bss := r2.bss, frame := fun hp => r2.frame ?_ }
        · rintro (⟨_, x, hx, hx'⟩ | ⟨hh, _⟩ | ⟨hh, _⟩)
          · exact hp (Or.inl ⟨rfl, x, List.mem_cons_of_mem _ hx, hx'⟩)
          · simp at hh
          · exact hh rfl
        · rintro (⟨hh, _⟩ | ⟨_, x, hx, hx'⟩ | ⟨_, hh⟩)
          · simp at hh
          · exact hp (Or.inr (Or.inl ⟨rfl, x, List.mem_cons_of_mem _ hx, hx'⟩))
          · exact hh rfl
        · intro e he
          exact absurd (hp (.extend j) rfl) (by simp)
  obtain ⟨s', hs', r⟩ := key
  refine ⟨s', hs', r.segment, r.name, r.kind, r.relocs, r.len, fun hn => r.data ?_, fun hn => r.align ?_,
    fun hk => r.bss ?_⟩
  · rintro (⟨_, x, hx, hx'⟩ | ⟨hh, _⟩ | ⟨hh, _⟩)
    · exact hn x hx hx'
    · simp at hh
    · exact hh rfl
  · rintro (⟨hh, _⟩ | ⟨_, x, hx, hx'⟩ | ⟨_, hh⟩)
    · simp at hh
    · exact hn x hx hx'
    · exact hh rfl
  · obtain hk | hk := hk <;> rw [hk] <;> rfl

/-- **C43.** Bytes appended to a section stay at the returned offset, which is aligned, over any later
history that does not overwrite the section, and a later append starts after them. -/
theorem C43_placed (o o1 o2 : Object) (i : Nat) (d : List UInt8) (a off : Nat) (ops : List Op)
    (h : o.appendSectionData i d a = .ok (off, o1)) (hr : run o1 ops = some o2)
    (hn : ∀ op ∈ ops, ¬ Overwrites i op) :
    a ∣ off ∧
    (∃ s2, o2.sections[i]? = some s2 ∧ (s2.data.drop off).take d.length = d ∧
      ((∀ op ∈ ops, ¬ ResetsAlign i op) → a ≤ s2.align)) ∧
    (∀ d' a' off' o3, o2.appendSectionData i d' a' = .ok (off', o3) → off + d.length ≤ off') := by
  obtain ⟨s, hs, _, _, hp, ho, _, rfl⟩ := (C43_append_data o o1 i d a off).1 h
  have hf := roundUp_facts s.data.length hp
  have hs1 : ({ o with
      sections := o.sections.set i
        { s with data := s.data ++ List.replicate (off - s.data.length) 0 ++ d,
                 size := off + d.length, align := max s.align a } } : Object).sections[i]? =
      some { s with data := s.data ++ List.replicate (off - s.data.length) 0 ++ d,
                    size := off + d.length, align := max s.align a } := getElem_set_self hs
  have hpre : (s.data ++ List.replicate (off - s.data.length) 0).length = off := by
    simp only [List.length_append, List.length_replicate]; omega
  obtain ⟨s2, hs2, _, _, _, _, hl, hd, ha, _⟩ := C43_history _ o2 ops hr i _ hs1
  obtain ⟨t, ht⟩ := hd hn
  refine ⟨by rw [ho]; exact hf.1, ⟨s2, hs2, ?_, fun hh => ?_⟩, ?_⟩
  · rw [ht]
    simp only [List.append_assoc]
    rw [← List.append_assoc]
    generalize s.data ++ List.replicate (off - s.data.length) 0 = pre at hpre
    rw [← hpre, List.drop_left, List.take_left]
  · have := ha hh
    exact Nat.le_trans (Nat.le_max_right _ _) this
  · intro d' a' off' o3 h3
    obtain ⟨s3, hs3, _, _, hp3, ho3, _, _⟩ := (C43_append_data o2 o3 i d' a' off').1 h3
    rw [hs2, Option.some.injEq] at hs3
    subst hs3
    have hf3 := roundUp_facts s2.data.length hp3
    have hl2 : s2.data.length = off + d.length + t.length := by
      rw [ht, List.length_append, List.length_append, hpre]
    omega

/-- **C43.** Uninitialized space: the reserved range is aligned and stays within the section, and a later
reservation starts after it, over any history. -/
theorem C43_placed_bss (o o1 o2 : Object) (i n a off : Nat) (ops : List Op)
    (h : o.appendSectionBss i n a = .ok (off, o1)) (hr : run o1 ops = some o2) :
    a ∣ off ∧ (∃ s2, o2.sections[i]? = some s2 ∧ off + n ≤ s2.size) ∧
    (∀ n' a' off' o3, o2.appendSectionBss i n' a' = .ok (off', o3) → off + n ≤ off') := by
  obtain ⟨s, hs, hk, hp, ho, _, rfl⟩ := (C43_append_bss o o1 i n a off).1 h
  have hf := roundUp_facts s.size hp
  have hs1 : ({ o with
      sections := o.sections.set i
        { s with size := off + n, align := max s.align a } } : Object).sections[i]? =
      some { s with size := off + n, align := max s.align a } := getElem_set_self hs
  obtain ⟨s2, hs2, _, _, _, _, _, _, _, hb⟩ := C43_history _ o2 ops hr i _ hs1
  have hb' := hb hk
  refine ⟨by rw [ho]; exact hf.1, ⟨s2, hs2, hb'⟩, ?_⟩
  intro n' a' off' o3 h3
  obtain ⟨s3, hs3, _, hp3, ho3, _, _⟩ := (C43_append_bss o2 o3 i n' a' off').1 h3
  rw [hs2, Option.some.injEq] at hs3
  subst hs3
  have hf3 := roundUp_facts s2.size hp3
  have hb'' : off + n ≤ s2.size := hb'
  omega

/-- **C43.** A call leaves every section it does not touch unchanged, except that the section may get a
section symbol. -/
theorem C43_frame (o o' : Object) (op : Op) (h : step o op = some o') (j : Nat) (s : Section)
    (hs : o.sections[j]? = some s) (hn : ¬ Touches o j op) :
    ∃ y, o'.sections[j]? = some { s with symbol := y } := by
  obtain ⟨s', hs', r⟩ := (step_chain h).sec hs
  have hl := getElem_lt hs
  refine ⟨s'.symbol, ?_⟩
  rw [hs']
  congr 1
  apply r.frame
  intro e he hp
  have hor : ∀ op, ResetsAlign j op → Touches o j op := by intro op; cases op <;> simp [ResetsAlign, Touches]
  have how : ∀ op, Overwrites j op → Touches o j op := by intro op; cases op <;> simp [Overwrites, Touches]
  cases e <;> simp only [Hits] at he <;> subst he <;> simp only [Allowed] at hp
  · obtain hp | hp := hp
    · omega
    · exact hn hp
  · obtain hp | hp := hp
    · omega
    · exact hn (hor _ hp)
  · obtain hp | hp := hp
    · omega
    · exact hn hp
  · exact hn (how _ hp)
  · obtain hp | hp := hp
    · omega
    · exact hn hp
  · obtain hp | hp := hp
    · omega
    · exact hn hp

/-- A history on an ELF object. -/
private def demo : List Op :=
  [.sectionId .text, .appendSectionData 0 [1, 2, 3] 4, .addSection [] [46, 98] .uninitializedData,
    .appendSectionBss 1 5 2, .appendSectionData 0 [9] 8]

example : ((run (Object.new .elf .x86_64 .little) demo).map (fun o => o.sections.map (·.data))) =
    some [[1, 2, 3, 0, 0, 0, 0, 0, 9], []] := by decide

example : Reachable ((run (Object.new .elf .x86_64 .little) demo).get (by decide)) :=
  ⟨.elf, .x86_64, .little, demo, (Option.some_get _).symm⟩

example : ∀ op ∈ demo, ¬ Overwrites 0 op ∧ ¬ ResetsAlign 0 op := by
  simp [demo, Overwrites, ResetsAlign]

/-! ## C60 -/

private theorem reachable_std (o : Object) (h : Reachable o) : StdOk o :=
  reachable_inv h (fun _ _ _ _ => rfl) (fun _ _ _ _ hm _ hi => micro_std hm hi)

private theorem run_static (o o' : Object) (ops : List Op) (h : run o ops = some o') :
    o'.format = o.format ∧ o'.arch = o.arch :=
  run_rel (R := fun a b => b.format = a.format ∧ b.arch = a.arch) (Q := fun _ => True)
    (fun _ => ⟨rfl, rfl⟩) (fun a b c h1 h2 => ⟨by rw [h2.1, h1.1], by rw [h2.2, h1.2]⟩)
    (fun o op o' hs _ => Chain.rel (R := fun a b => b.format = a.format ∧ b.arch = a.arch)
      (fun _ => ⟨rfl, rfl⟩) (fun a b c h1 h2 => ⟨by rw [h2.1, h1.1], by rw [h2.2, h1.2]⟩)
      (fun _ _ _ hm _ => format_micro hm) (step_chain hs)) (fun _ _ => trivial) h

/-- **C60.** `section_id` in a reachable state: if some section has the segment, name and kind of the
standard section, it is the first such section and nothing changes; otherwise one section is added at
the end, empty, with the standard segment, name, kind and flags. -/
theorem C60_section_id (o : Object) (h : Reachable o) (ss : StdSection) :
    (∃ i s, (o.sectionId ss) = (i, o) ∧ o.sections[i]? = some s ∧ IsStd o ss s ∧
      ∀ (j : Nat) (t : Section), j < i → o.sections[j]? = some t → ¬ IsStd o ss t) ∨
    ((∀ s ∈ o.sections, ¬ IsStd o ss s) ∧ (o.sectionId ss).1 = o.sections.length ∧
      ∃ s, (o.sectionId ss).2.sections = o.sections ++ [s] ∧ IsStd o ss s ∧ s.data = [] ∧ s.size = 0 ∧
        s.align = 1 ∧ s.relocs = [] ∧ s.symbol = none ∧
        s.flags = (sectionInfo o.format o.arch ss).flags ∧
        (o.sectionId ss).2.symbols = o.symbols) := by
  have hi := reachable_std o h ss
  unfold Object.sectionId
  cases hst : o.std ss with
  | some i =>
    left
    rw [hst] at hi
    obtain ⟨hl, hp, hq⟩ := List.findIdx?_eq_some_iff_getElem.1 hi.symm
    refine ⟨i, o.sections[i], rfl, List.getElem?_eq_getElem hl, (matches_iff o ss _).1 hp, ?_⟩
    intro j t hj ht hstd
    have hjl : j < o.sections.length := by omega
    rw [List.getElem?_eq_getElem hjl, Option.some.injEq] at ht
    have := hq j hj
    rw [ht] at this
    rw [(matches_iff o ss t).2 hstd] at this
    simp at this
  | none =>
    right
    rw [hst] at hi
    refine ⟨?_, rfl, ?_⟩
    · intro s hs hstd
      have := List.findIdx?_eq_none_iff.1 hi.symm s hs
      rw [(matches_iff o ss s).2 hstd] at this
      simp at this
    · simp only [Object.addSection, Object.setSectionFlags, Object.setSection,
        List.getElem?_concat_length]
      refine ⟨_, by rw [List.set_append_right _ _ (Nat.le_refl _), Nat.sub_self, List.set_cons_zero],
        ⟨rfl, rfl, rfl⟩, rfl, rfl, rfl, rfl, rfl, rfl, trivial⟩

/-- **C60.** Once `section_id` has returned an id, it returns the same id and changes nothing after any
history. -/
theorem C60_stable (o o' : Object) (h : Reachable o) (ss : StdSection) (ops : List Op)
    (hr : run (o.sectionId ss).2 ops = some o') : o'.sectionId ss = ((o.sectionId ss).1, o') := by
  have hreach : Reachable (o.sectionId ss).2 := by
    obtain ⟨f, a, e, p, hp⟩ := h
    refine ⟨f, a, e, p ++ [.sectionId ss], ?_⟩
    have : ∀ (p : List Op) (o0 : Object), run o0 p = some o → run o0 (p ++ [.sectionId ss]) = some (o.sectionId ss).2 := by
      intro p
      induction p with
      | nil => intro o0 h0; simp only [run, Option.some.injEq] at h0; subst h0; rfl
      | cons x xs ih =>
        intro o0 h0
        simp only [run, List.cons_append] at h0 ⊢
        cases hx : step o0 x with
        | none => rw [hx] at h0; simp at h0
        | some o1 => rw [hx] at h0; exact ih o1 h0
    exact this p _ hp
  have hstd1 : (o.sectionId ss).2.std ss = some (o.sectionId ss).1 := by
    have h1 := reachable_std _ hreach ss
    have hfa := sectionId_chain o ss (P := fun _ => True) trivial trivial
    have hfa' : (o.sectionId ss).2.format = o.format ∧ (o.sectionId ss).2.arch = o.arch :=
      Chain.rel (R := fun a b => b.format = a.format ∧ b.arch = a.arch)
        (fun _ => ⟨rfl, rfl⟩) (fun a b c h1 h2 => ⟨by rw [h2.1, h1.1], by rw [h2.2, h1.2]⟩)
        (fun _ _ _ hm _ => format_micro hm) hfa
    obtain ⟨i, s, he, hs, hstd, hj⟩ | ⟨hn, hid, s, hs, hstd, _⟩ := C60_section_id o h ss
    · rw [he]
      obtain hx | hx := sectionId_fst o ss
      · rw [he] at hx; exact hx
      · exfalso
        have := reachable_std o h ss
        rw [hx.1] at this
        have := List.findIdx?_eq_none_iff.1 this.symm s (List.mem_of_getElem? hs)
        rw [(matches_iff o ss s).2 hstd] at this
        simp at this
    · rw [h1, hid, hs, hfa'.1, hfa'.2, findIdx_append]
      have : o.sections.findIdx? (fun s => (sectionInfo o.format o.arch ss).matches s) = none := by
        rw [List.findIdx?_eq_none_iff]
        intro t ht
        have := hn t ht
        rw [← matches_iff] at this
        simpa using this
      rw [this]
      simp only
      rw [if_pos ((matches_iff o ss s).2 hstd)]
  have hstd2 : o'.std ss = some (o.sectionId ss).1 := by
    refine run_inv (I := fun x => StdOk x ∧ x.std ss = some (o.sectionId ss).1) (Q := fun _ => True)
      ?_ (fun _ _ => trivial) hr ⟨reachable_std _ hreach, hstd1⟩ |>.2
    intro x op x' hs _ hx
    refine Chain.inv (I := fun x => StdOk x ∧ x.std ss = some (o.sectionId ss).1) ?_ (step_chain hs) hx
    intro a e b hm _ ha
    refine ⟨micro_std hm ha.1, ?_⟩
    cases hm with
    | @newSection g n k =>
      simp only [Object.addSection]
      rw [foldl_std (fun ss => (sectionInfo a.format a.arch ss).matches
        { segment := g, name := n, kind := k, size := 0, align := 1, data := [], relocs := [],
          symbol := none, flags := .none }), ha.2]
    | secSymbol h1 h2 h3 =>
      obtain ⟨_, _, _, _, rfl⟩ := sectionSymbol_new h1 h2 h3
      exact ha.2
    | misc h1 h2 h3 h4 h5 => rw [h5]; exact ha.2
    | _ => exact ha.2
  unfold Object.sectionId
  rw [hstd2]
  rfl

example : ((Object.new .elf .x86_64 .little).sectionId .text).1 = 0 := by decide

example : ∃ o', run (Object.new .elf .x86_64 .little) [.sectionId .readOnlyData, .sectionId .readOnlyString] = some o'
    ∧ o'.sections.length = 1 := ⟨_, rfl, by decide⟩

/-! ## C61 -/

private theorem reachable_sym (o : Object) (h : Reachable o) : SymOk o :=
  reachable_inv h (fun _ _ _ => ⟨fun _ _ _ hs => by simp [Object.new] at hs,
    fun _ _ _ _ _ hs => by simp [Object.new] at hs⟩) (fun _ _ _ _ hm _ hi => micro_sym hm hi)

/-- **C61.** `section_symbol` returns the section's symbol if it has one, changing nothing; otherwise it
adds exactly one symbol at the end, of kind section and defined in that section, and records it. -/
theorem C61_section_symbol (o o' : Object) (i k : Nat) (h : o.sectionSymbol i = .ok (k, o')) :
    ∃ s, o.sections[i]? = some s ∧
      ((s.symbol = some k ∧ o' = o) ∨
       (s.symbol = none ∧ k = o.symbols.length ∧ ∃ y, y.kind = .sectionSym ∧ y.section_ = .inSec i ∧
          y.value = 0 ∧ y.scope = .compilation ∧ y.weak = false ∧
          o' = { o with symbols := o.symbols ++ [y], sections := o.sections.set i { s with symbol := some k } })) := by
  unfold Object.sectionSymbol at h
  cases hs : o.sections[i]? with
  | none => rw [hs] at h; simp at h
  | some s =>
    rw [hs] at h
    refine ⟨s, rfl, ?_⟩
    cases hy : s.symbol with
    | some id =>
      simp only [hy, Res.ok.injEq, Prod.mk.injEq] at h
      exact Or.inl ⟨by rw [h.1], h.2.symm⟩
    | none =>
      simp only [hy, Res.ok.injEq, Prod.mk.injEq] at h
      obtain ⟨rfl, rfl⟩ := h
      exact Or.inr ⟨rfl, rfl, _, rfl, rfl, rfl, rfl, rfl, rfl⟩

/-- **C61.** Once a section has a symbol, `section_symbol` returns it and changes nothing, after any
history. -/
theorem C61_section_symbol_stable (o o1 o2 : Object) (i k : Nat) (h : o.sectionSymbol i = .ok (k, o1))
    (ops : List Op) (hr : run o1 ops = some o2) : o2.sectionSymbol i = .ok (k, o2) := by
  have h1 : ∃ s, o1.sections[i]? = some s ∧ s.symbol = some k := by
    obtain ⟨s, hs, ⟨hk, rfl⟩ | ⟨_, _, y, _, _, _, _, _, rfl⟩⟩ := C61_section_symbol o o1 i k h
    · exact ⟨s, hs, hk⟩
    · exact ⟨_, getElem_set_self hs, rfl⟩
  have h2 : ∃ s, o2.sections[i]? = some s ∧ s.symbol = some k := by
    refine run_inv (I := fun x => ∃ s, x.sections[i]? = some s ∧ s.symbol = some k) (Q := fun _ => True)
      ?_ (fun _ _ => trivial) hr h1
    rintro x op x' hs _ ⟨s, h3, h4⟩
    obtain ⟨s', hs', r⟩ := (step_chain hs).sec h3
    exact ⟨s', hs', r.symbol k h4⟩
  obtain ⟨s, hs, hk⟩ := h2
  unfold Object.sectionSymbol
  rw [hs]
  simp only [hk]

/-- **C61.** In a reachable state every section symbol is an existing symbol, and no two sections share
one. -/
theorem C61_section_symbols_distinct (o : Object) (h : Reachable o) (i j k k' : Nat) (s t : Section)
    (hs : o.sections[i]? = some s) (ht : o.sections[j]? = some t) (hk : s.symbol = some k)
    (hk' : t.symbol = some k') : k < o.symbols.length ∧ (i ≠ j → k ≠ k') := by
  have := reachable_sym o h
  exact ⟨this.lt i k s hs hk, fun hij hkk => hij (this.inj i j k s t hs ht hk (by rw [hkk]; exact hk'))⟩

/-- **C61.** If symbols were never edited through `symbol_mut`, the symbols of kind section are exactly
the section symbols, one for each section that has one. -/
theorem C61_section_kind (f : Format) (a : Arch) (e : Endianness) (ops : List Op) (o : Object)
    (h : run (Object.new f a e) ops = some o) (hn : ∀ op ∈ ops, ¬ EditsSymbol op) (k : Nat) :
    (∃ y, o.symbols[k]? = some y ∧ y.kind = .sectionSym) ↔
      (∃ (i : Nat) (s : Section), o.sections[i]? = some s ∧ s.symbol = some k) := by
  have : KindOk o := by
    refine run_inv (I := KindOk) (Q := fun op => ¬ EditsSymbol op) ?_ hn h ?_
    · intro x op x' hs hq
      refine Chain.inv ?_ (step_chain hs)
      intro a e b hm he
      refine micro_kind hm ?_
      rintro k rfl
      exact hq he
    · exact ⟨fun _ _ _ hs => by simp [Object.new] at hs, fun _ _ hs => by simp [Object.new] at hs⟩
  constructor
  · rintro ⟨y, hy, hk⟩; exact this.sec k y hy hk
  · rintro ⟨i, s, hs, hk⟩; exact this.kind i k s hs hk

/-- **C61.** Adding a symbol that is not a section symbol: the id is the number of symbols so far, the
symbol is stored at the end, its name prefixed as the mangling says if it is a named text, data or TLS
symbol, which is then what `symbol_id` finds for its name; no other name changes. -/
theorem C61_add_symbol (o : Object) (s : Symbol) (hk : s.kind ≠ .sectionSym)
    (hd : s.section_ = .undefined ∨ s.scope ≠ .unknown) :
    ∃ id o' y, o.addSymbol s = .ok (id, o') ∧ id = o.symbols.length ∧ o'.symbols = o.symbols ++ [y] ∧
      o'.sections = o.sections ∧ { y with name := s.name } = s ∧
      (Named s → y.name = (match o.mangling with
          | .coffI386 | .macho => (95 : UInt8) :: s.name
          | _ => s.name) ∧ o'.symbolId s.name = some id) ∧
      (¬ Named s → y = s) ∧
      (∀ n, ¬ (Named s ∧ n = s.name) → o'.symbolId n = o.symbolId n) := by
  unfold Object.addSymbol
  rw [if_neg (by simpa using fun h => hd.resolve_left h), if_neg hk]
  by_cases hn : s.named = true
  · rw [if_pos hn]
    have hN := (named_iff s).1 hn
    refine ⟨_, _, _, rfl, rfl, rfl, rfl, ?_, fun _ => ⟨?_, ?_⟩, fun h => absurd hN h, ?_⟩
    · cases o.mangling <;> rfl
    · cases o.mangling <;> rfl
    · simp [Object.symbolId, W.insert]
    · intro n hnn
      simp only [Object.symbolId, W.insert]
      rw [if_neg (fun h => hnn ⟨hN, h⟩)]
      rfl
  · rw [if_neg hn]
    have hN : ¬ Named s := fun h => hn ((named_iff s).2 h)
    exact ⟨_, _, s, rfl, rfl, rfl, rfl, rfl, fun h => absurd h hN, fun _ => rfl, fun _ _ => rfl⟩

/-- **C61.** `symbol_id` of a name keeps its result over any history that does not define that name. -/
theorem C61_symbol_id_stable (o o' : Object) (n : List UInt8) (ops : List Op) (h : run o ops = some o')
    (hn : ∀ op ∈ ops, ¬ Defines n op) : o'.symbolId n = o.symbolId n :=
  run_rel (R := fun a b => b.symbolId n = a.symbolId n) (Q := fun op => ¬ Defines n op) (fun _ => rfl)
    (fun a b c h1 h2 => by rw [h2, h1]) (fun o op o' hs hq => (step_chain hs).map_eq n hq) hn h

/-- **C61.** Symbol ids are stable: a symbol keeps its name, kind, scope and weakness over any history
without `symbol_mut`. -/
theorem C61_symbols_stable (o o' : Object) (ops : List Op) (h : run o ops = some o')
    (hn : ∀ op ∈ ops, ¬ EditsSymbol op) (k : Nat) (y : Symbol) (hy : o.symbols[k]? = some y) :
    ∃ y', o'.symbols[k]? = some y' ∧ y'.name = y.name ∧ y'.kind = y.kind ∧ y'.scope = y.scope ∧
      y'.weak = y.weak := by
  refine run_rel (R := fun a b => ∀ y, a.symbols[k]? = some y → ∃ y', b.symbols[k]? = some y' ∧
      y'.name = y.name ∧ y'.kind = y.kind ∧ y'.scope = y.scope ∧ y'.weak = y.weak)
    (Q := fun op => ¬ EditsSymbol op) (fun _ y hy => ⟨y, hy, rfl, rfl, rfl, rfl⟩) ?_ ?_ hn h y hy
  · intro a b c h1 h2 y hy
    obtain ⟨y1, hy1, e1, e2, e3, e4⟩ := h1 y hy
    obtain ⟨y2, hy2, f1, f2, f3, f4⟩ := h2 y1 hy1
    exact ⟨y2, hy2, by rw [f1, e1], by rw [f2, e2], by rw [f3, e3], by rw [f4, e4]⟩
  · intro o op o' hs hq y hy
    obtain ⟨y', hy', r⟩ := (step_chain hs).symbol hy
    have hp : ¬ Allowed o op (.symMut k) := hq
    exact ⟨y', hy', r.name hp, r.kind hp, r.scope hp, r.weak hp⟩

private def foo : Symbol :=
  { name := [102, 111, 111], value := 0, size := 0, kind := .text, scope := .dynamic, weak := false,
    section_ := .undefined, flags := .none }

example : ((run (Object.new .macho .x86_64 .little) [.sectionId .text, .sectionSymbol 0, .addSymbol foo,
    .addSymbolData 1 0 [1] 1]).map (fun o => (o.symbols.map (·.name), o.symbolId [102, 111, 111]))) =
    some ([[108, 116, 109, 112, 48], [95, 102, 111, 111]], some 1) := by decide

example : ¬ Defines [102] (.addSymbol foo) := by simp [Defines, foo]

end Obj.Props

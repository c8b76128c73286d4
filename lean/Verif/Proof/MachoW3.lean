import Verif.Proof.MachoW2
import Verif.Proof.Elf

/-! The plan of `macho_write`, and the file header with the load commands. -/

namespace Obj.MachoW
open Obj Obj.Reserve Obj.Parts Obj.Spec Obj.Spec.MachoO Obj.MachoR
open Obj.ElfW (check tabAdd check_ok addU32_eq addU64_eq mulU64_eq idOf TabW tabAdd_eq length_of_getElem? storedSize_append storedSize_addAll
  storedSize_filter addAll_append addAll_cons Written nmOf nmOf_spec)
open Obj.CoffW (storedSize_cons)

/-! ## The plan -/

/-- The end of the segment in the file. -/
def segEnd (c : Cfg) (o : W.Object) (x : Extra) : Nat := (cmdsOf c o.sections.length x.version).stop + fileSizeOf o.sections

/-- Offset of the symbol table. -/
def symOff (c : Cfg) (o : W.Object) (x : Extra) : Nat := up (endOf (segEnd c o x) (relSizes c o.sections)) c.w

/-- Offset of the string table. -/
def strOff (c : Cfg) (o : W.Object) (x : Extra) : Nat := symOff c o x + (orderOf o).length * nlistSize c

/-- The plan. -/
def planOf (c : Cfg) (o : W.Object) (x : Extra) (t : StrTab) (data : List UInt8) : Plan :=
  ⟨cmdsOf c o.sections.length x.version, placesOf (cmdsOf c o.sections.length x.version).stop o.sections, fileSizeOf o.sections,
    vmSizeOf o.sections, idsOf o.arch (tabOf o) o.symbols, locals o, externals o, undefineds o,
    assign (List.replicate o.symbols.length 0) 0 (orderOf o), (orderOf o).length, relPlaces c (segEnd c o x) o.sections, symOff c o x,
    data.length, t, data, strOff c o x, strOff c o x + data.length⟩

/-- What is known of the plan. -/
structure Planned (c : Cfg) (o : W.Object) (x : Extra) (t : StrTab) (data : List UInt8) : Prop where
  strings : t.strings = (tabOf o).strings
  written : Written t data
  len : strOff c o x + data.length < U32
  sections : o.sections.length ≤ 255
  symbols : (orderOf o).length ≤ 2 ^ 24
  vm : c.is64 = false → vmSizeOf o.sections < U32

theorem sum_le {α : Type} (f : α → Nat) (B : Nat) : ∀ l : List α, (∀ x ∈ l, f x ≤ B) → (l.map f).sum ≤ B * l.length
  | [], _ => by simp
  | x :: l, h => by
    have := sum_le f B l (fun y hy => h y (by simp [hy]))
    have := h x (by simp)
    rw [List.map_cons, List.sum_cons, List.length_cons, Nat.mul_succ]; omega

theorem nl_le (c : Cfg) (n : Nat) : n * nlistSize c ≤ 16 * n := by
  rw [Nat.mul_comm]
  exact Nat.mul_le_mul_right _ (nlistSize_le c).2

theorem plan_sat (c : Cfg) (o : W.Object) (x : Extra) (hv : Valid o) (hc : elfIs64 o.arch = some c.is64) :
    Res.Sat (Refused o x) (plan c o x) fun p => ∃ t data, p = planOf c o x t data ∧ Planned c o x t data := by
  have hU : U32 = 2 ^ 32 := by decide
  have hn := hv.sections
  unfold plan
  rw [Nat.mod_eq_of_lt (by omega)]
  by_cases h255 : 255 < o.sections.length
  · simp only [if_pos h255]; exact .sections h255
  · simp only [if_neg h255]
    rw [planCmds_eq c x.version (by omega)]
    simp only [Res.bind_eq, Res.ok_bind]
    have hstop := stop_le c o.sections.length x.version
    refine ((planSections_sat c o hv _ (by omega)).mono (fun h => .memory (by rw [hc, h.1]) h.2) (fun a h => h)).bind ?_
    rintro r ⟨rfl, hvm⟩
    simp only
    refine (planSymbols_sat o hv _ (fun s hs hk => .label s hs hk) (fun h => .symbols h)).bind ?_
    rintro r ⟨rfl, hord⟩
    simp only
    have hmem := hv.memory
    have hfs := fileSize_le o
    have hcost := cost_relSizes c o.sections
    have hsum := sum_le (fun s : W.Section => 24 * s.relocs.length + 8) (24 * 2 ^ 30 + 8) o.sections (fun s hs => by
      have := hv.relocs s hs
      show 24 * s.relocs.length + 8 ≤ _
      omega)
    have hu : (2 : Nat) ^ 62 + 2 ^ 61 + 2 ^ 50 < U64 := by decide
    have hend := endOf_le (relSizes c o.sections) (segEnd c o x)
    have hse : segEnd c o x = (cmdsOf c o.sections.length x.version).stop + fileSizeOf o.sections := rfl
    rw [← hse, reserveRelocs_eq c o.sections _ hv.relocs (by omega)]
    simp only [Res.ok_bind]
    have hsy := nl_le c (orderOf o).length
    have hw := w_le c
    have hlo := length_order o
    have hso : symOff c o x = up (endOf (segEnd c o x) (relSizes c o.sections)) c.w := rfl
    have hst : strOff c o x = symOff c o x + (orderOf o).length * nlistSize c := rfl
    have hup := up_le (endOf (segEnd c o x) (relSizes c o.sections)) c.w
    have hroom : room o = 256 + 80 * o.sections.length + memory o + (o.sections.map fun s => 24 * s.relocs.length + 8).sum +
      16 * o.symbols.length + storedSize (o.symbols.map (·.name)) := rfl
    unfold planTables
    rw [reserve_eq (pow_w c) (by omega)]
    simp only [Res.bind_eq, Res.ok_bind]
    rw [← hso, ← hst]
    have hes : Res.Sat (Refused o x) (encStrtab c (tabOf o)) _ := (encStrtab_sat c o hv).mono (fun h => .file (by omega)) (fun a h => h)
    generalize encStrtab c (tabOf o) = ES at hes ⊢
    cases ES with
    | panic => exact hes
    | err => exact hes
    | ok r =>
      obtain ⟨n, t, data⟩ := r
      obtain ⟨h1, h2, h3, h4⟩ := hes
      simp only at h1 h2 h3 h4
      subst h1
      simp only [Res.ok_bind]
      have h5 := h3.len
      rw [reserve_one (by omega)]
      simp only [Res.ok_bind]
      by_cases hb : U32 - 1 < strOff c o x + data.length
      · rw [if_pos hb]
        refine .file ?_
        omega
      · rw [if_neg hb]
        simp only [Res.ok_bind]
        refine ⟨t, data, rfl, h2, h3, by omega, by omega, hord, hvm⟩

/-! ## Lengths of the structures -/

theorem length_magic (c : Cfg) : (magic c).length = 4 := by
  unfold magic; split <;> rfl

theorem length_mhdr (c : Cfg) (h : Mhdr) : (h.encode c).length = hdrSize c := by
  unfold Mhdr.encode hdrSize
  rw [List.length_append, List.length_append, length_magic, length_encode]
  cases c.is64 <;> simp

theorem length_seg (c : Cfg) (s : Seg) (h : s.segname.length = 16) : (s.encode c).length = segSize c := by
  unfold Seg.encode segSize
  rw [List.length_append, List.length_append, length_encode, length_encode, h]
  unfold Elf.Cfg.w
  cases c.is64 <;> simp

theorem length_sect (c : Cfg) (s : Sect) (h : s.sectname.length = 16) (h' : s.segname.length = 16) : (s.encode c).length = sectSize c := by
  unfold Sect.encode sectSize Sect.fields
  rw [List.length_append, List.length_append, length_encode, h, h']
  unfold Elf.Cfg.w
  cases c.is64 <;> simp

theorem length_nlist (c : Cfg) (s : Nlist) : (s.encode c).length = nlistSize c := by
  unfold Nlist.encode nlistSize
  rw [length_encode]
  unfold Elf.Cfg.w
  cases c.is64 <;> simp

theorem length_symtab (c : Cfg) (s : SymtabCmd) : (s.encode c).length = 24 := by
  unfold SymtabCmd.encode; rw [length_encode]; rfl

theorem length_dysymtab (c : Cfg) (s : DysymtabCmd) (h : s.rest.length = 12) : (s.encode c).length = 80 := by
  unfold DysymtabCmd.encode
  rw [length_encode]
  have : ∀ l : List Nat, ((l.map fun x => ((4 : Nat), x)).map (·.1)).sum = 4 * l.length := by
    intro l; induction l with
    | nil => rfl
    | cons a l ih => rw [List.map_cons, List.map_cons, List.sum_cons, ih, List.length_cons]; show 4 + _ = _; omega
  rw [List.map_append, List.sum_append, this, h]; rfl

theorem length_version (c : Cfg) (s : BuildVersion) : (s.encode c).length = 24 := by
  unfold BuildVersion.encode; rw [length_encode]; rfl

/-! ## Section headers -/

theorem fixedName_ok {name l : List UInt8} (h : fixedName name = .ok l) : name.length ≤ 16 ∧ l = name ++ List.replicate (16 - name.length) 0 := by
  unfold fixedName at h
  split at h
  · simp only [Res.ok.injEq] at h; exact ⟨by assumption, h.symm⟩
  · cases h

theorem fixedName_sat (name : List UInt8) : Res.Sat (16 < name.length) (fixedName name) fun l => fixedName name = .ok l := by
  unfold fixedName
  by_cases h : name.length ≤ 16
  · rw [if_pos h]; rfl
  · rw [if_neg h]; show 16 < _; omega

theorem sectionHeader_sat (s : W.Section) (p r : Nat × Nat) :
    Res.Sat ((16 < s.name.length ∨ 16 < s.segment.length) ∨ MachoW.sectionFlags s = none) (sectionHeader s p r) fun h =>
      sectionHeader s p r = .ok h := by
  generalize hx : sectionHeader s p r = X
  unfold sectionHeader at hx
  cases h1 : fixedName s.name with
  | panic => have := fixedName_sat s.name; rw [h1] at this; exact this.elim
  | err =>
    have := fixedName_sat s.name; rw [h1] at this hx
    simp only [Res.bind_eq, Res.err_bind] at hx
    subst hx; exact .inl (.inl this)
  | ok a =>
    rw [h1] at hx
    simp only [Res.bind_eq, Res.ok_bind] at hx
    cases h2 : fixedName s.segment with
    | panic => have := fixedName_sat s.segment; rw [h2] at this; exact this.elim
    | err =>
      have := fixedName_sat s.segment; rw [h2] at this hx
      simp only [Res.err_bind] at hx
      subst hx; exact .inl (.inr this)
    | ok b =>
      rw [h2] at hx
      simp only [Res.ok_bind] at hx
      cases h3 : MachoW.sectionFlags s with
      | none => rw [h3] at hx; simp only at hx; subst hx; exact .inr rfl
      | some f => rw [h3] at hx; obtain ⟨f1, f2⟩ := f; simp only at hx; subst hx; exact rfl

theorem sectionHeader_names {s : W.Section} {p r : Nat × Nat} {h : Sect} (e : sectionHeader s p r = .ok h) :
    s.name.length ≤ 16 ∧ s.segment.length ≤ 16 ∧ ∃ f g, MachoW.sectionFlags s = some (f, g) ∧
    h = ⟨s.name ++ List.replicate (16 - s.name.length) 0, s.segment ++ List.replicate (16 - s.segment.length) 0, p.1, s.size, p.2 % U32,
      tz 64 s.align, r.1 % U32, r.2, f, 0, g, 0⟩ := by
  unfold sectionHeader at e
  cases h1 : fixedName s.name with
  | panic => rw [h1] at e; cases e
  | err => rw [h1] at e; cases e
  | ok a =>
    rw [h1] at e
    simp only [Res.bind_eq, Res.ok_bind] at e
    cases h2 : fixedName s.segment with
    | panic => rw [h2] at e; cases e
    | err => rw [h2] at e; cases e
    | ok b =>
      rw [h2] at e
      simp only [Res.ok_bind] at e
      obtain ⟨g1, rfl⟩ := fixedName_ok h1
      obtain ⟨g2, rfl⟩ := fixedName_ok h2
      cases h3 : MachoW.sectionFlags s with
      | none => rw [h3] at e; cases e
      | some f =>
        rw [h3] at e; obtain ⟨f1, f2⟩ := f
        simp only [Res.ok.injEq] at e
        exact ⟨g1, g2, f1, f2, rfl, e.symm⟩

theorem length_sect_of {c : Cfg} {s : W.Section} {p r : Nat × Nat} {h : Sect} (e : sectionHeader s p r = .ok h) :
    (h.encode c).length = sectSize c := by
  obtain ⟨g1, g2, f, g, -, rfl⟩ := sectionHeader_names e
  refine length_sect c _ ?_ ?_
  · simp; omega
  · simp; omega

theorem writeHeaders_sat (c : Cfg) (E : Prop) : ∀ (l : List (W.Section × (Nat × Nat) × (Nat × Nat))) (out : List UInt8),
    (∀ e ∈ l, ((16 < e.1.name.length ∨ 16 < e.1.segment.length) ∨ MachoW.sectionFlags e.1 = none) → E) →
    out.length + l.length * 80 < U64 →
    Res.Sat E (writeHeaders c out l) fun r => ∃ hs : List Sect, r = out ++ hs.flatMap (Sect.encode c) ∧ hs.length = l.length ∧
      ∀ (i : Nat) (s : W.Section) (p q : Nat × Nat), l[i]? = some (s, p, q) → ∃ h, hs[i]? = some h ∧ sectionHeader s p q = .ok h
  | [], out, _, _ => ⟨[], by simp, rfl, by simp⟩
  | (s, p, q) :: l, out, hE, hl => by
    unfold writeHeaders
    simp only [Res.bind_eq]
    refine ((sectionHeader_sat s p q).mono (hE (s, p, q) (by simp)) (fun a h => h)).bind ?_
    intro h hh
    have hs := (sectSize_le c).2
    have hlen := length_sect_of (c := c) hh
    simp only [List.length_cons] at hl
    rw [bufBytes_eq _ _ (by rw [hlen]; omega)]
    simp only [Res.ok_bind]
    refine (writeHeaders_sat c E l _ (fun e he => hE e (by simp [he])) (by rw [List.length_append, hlen]; omega)).mono id ?_
    rintro r ⟨hs, rfl, h1, h2⟩
    refine ⟨h :: hs, by simp, by simp [h1], ?_⟩
    intro i s' p' q' hi
    cases i with
    | zero =>
      simp only [List.getElem?_cons_zero, Option.some.injEq, Prod.mk.injEq] at hi
      obtain ⟨rfl, rfl, rfl⟩ := hi
      exact ⟨h, by simp, hh⟩
    | succ i => simpa using h2 i s' p' q' (by simpa using hi)

theorem length_flat {c : Cfg} {hs : List Sect} {l : List (W.Section × (Nat × Nat) × (Nat × Nat))} (h1 : hs.length = l.length)
    (h2 : ∀ (i : Nat) (s : W.Section) (p q : Nat × Nat), l[i]? = some (s, p, q) → ∃ h, hs[i]? = some h ∧ sectionHeader s p q = .ok h) :
    (∀ h ∈ hs, (h.encode c).length = sectSize c) ∧ (hs.flatMap (Sect.encode c)).length = hs.length * sectSize c := by
  have : ∀ h ∈ hs, (h.encode c).length = sectSize c := by
    intro h hh
    obtain ⟨i, hi⟩ := List.mem_iff_getElem?.1 hh
    have hlt : i < l.length := by rw [← h1]; exact length_of_getElem? hi
    obtain ⟨h', e1, e2⟩ := h2 i (l[i]).1 (l[i]).2.1 (l[i]).2.2 (by rw [List.getElem?_eq_getElem hlt])
    rw [hi] at e1
    simp only [Option.some.injEq] at e1
    subst e1
    exact length_sect_of e2
  exact ⟨this, Elf.length_flatMap_const _ _ _ this⟩

/-! ## The load commands -/

/-- The build version command. -/
def verBytes (c : Cfg) (v : Option Version) : List UInt8 := match v with
  | none => []
  | some v => BuildVersion.encode c ⟨v.platform, v.minos, v.sdk, 0⟩

theorem length_verBytes (c : Cfg) (v : Option Version) : (verBytes c v).length = verSize v := by
  cases v with
  | none => rfl
  | some v => exact length_version _ _

/-- The file header. -/
def mhdrOf (c : Cfg) (o : W.Object) (x : Extra) (cpu sub : Nat) : Mhdr :=
  ⟨cpu, x.cpuSubtype.getD sub, 1, cmdCount x.version, (cmdsOf c o.sections.length x.version).stop - hdrSize c, fileFlags o x⟩

/-- The segment. -/
def segOf (c : Cfg) (o : W.Object) (x : Extra) : Seg :=
  ⟨List.replicate 16 0, 0, vmSizeOf o.sections, (cmdsOf c o.sections.length x.version).stop, fileSizeOf o.sections, 7, 7, o.sections.length, 0⟩

/-- The symbol table command. -/
def symcmdOf (c : Cfg) (o : W.Object) (x : Extra) (data : List UInt8) : SymtabCmd :=
  ⟨symOff c o x, (orderOf o).length, strOff c o x, data.length⟩

/-- The groups of symbols. -/
def dycmdOf (o : W.Object) : DysymtabCmd :=
  ⟨0, (locals o).length, (locals o).length, (externals o).length, (locals o).length + (externals o).length, (undefineds o).length,
    List.replicate 12 0⟩

/-- The first part of the file. -/
def headOf (c : Cfg) (o : W.Object) (x : Extra) (cpu sub : Nat) (data : List UInt8) (hs : List Sect) : List UInt8 :=
  (mhdrOf c o x cpu sub).encode c ++ ((segOf c o x).encode c ++ hs.flatMap (Sect.encode c)) ++ verBytes c x.version ++
    (symcmdOf c o x data).encode c ++ (dycmdOf o).encode c

theorem cpuOf_sat (arch : Arch) (sub : Option CoffW.SubArch) :
    Res.Sat (∀ p, ((arch, sub), p) ∉ cpuTable) (cpuOf arch sub) fun p => ((arch, sub), p) ∈ cpuTable ∧ machoCpu arch = .ok p.1 := by
  cases arch <;> cases sub <;> first
    | (simp [cpuOf, cpuTable, Res.Sat, machoCpu]; done)
    | (rename_i s; cases s <;> (simp [cpuOf, cpuTable, Res.Sat, machoCpu]; done))

/-- The headers of the sections. -/
def Headers (c : Cfg) (o : W.Object) (x : Extra) (hs : List Sect) : Prop :=
  hs.length = o.sections.length ∧ ∀ (i : Nat) (s : W.Section) (p q : Nat × Nat), o.sections[i]? = some s →
    (placesOf (cmdsOf c o.sections.length x.version).stop o.sections)[i]? = some p → (relPlaces c (segEnd c o x) o.sections)[i]? = some q →
    ∃ h, hs[i]? = some h ∧ sectionHeader s p q = .ok h

theorem length_relPlaces (c : Cfg) : ∀ (ss : List W.Section) (a : Nat), (relPlaces c a ss).length = ss.length
  | [], _ => rfl
  | s :: ss, a => by unfold relPlaces; split <;> simp [length_relPlaces c ss]

theorem zip3_get {α β γ : Type} (a : List α) (b : List β) (d : List γ) (i : Nat) (x : α) (y : β) (z : γ) :
    (a.zip (b.zip d))[i]? = some (x, y, z) ↔ a[i]? = some x ∧ b[i]? = some y ∧ d[i]? = some z := by
  rw [List.getElem?_zip_eq_some, List.getElem?_zip_eq_some]

theorem writeCmds_sat (c : Cfg) (o : W.Object) (x : Extra) (hv : Valid o) {t : StrTab} {data : List UInt8} (hp : Planned c o x t data) :
    Res.Sat (Refused o x) (writeCmds c o x (planOf c o x t data)) fun out => ∃ cpu sub hs, ((o.arch, x.sub), (cpu, sub)) ∈ cpuTable ∧
      machoCpu o.arch = .ok cpu ∧ out = headOf c o x cpu sub data hs ∧ Headers c o x hs ∧
      out.length = (cmdsOf c o.sections.length x.version).stop ∧ (hs.flatMap (Sect.encode c)).length = o.sections.length * sectSize c ∧
      (∀ h ∈ hs, (h.encode c).length = sectSize c) := by
  have hU : U32 = 2 ^ 32 := by decide
  have hu : U32 + 100000 < U64 := by decide
  have h1 := hdrSize_le c
  have h2 := segSize_le c
  have h3 := mul_sect_le c o.sections.length
  have hn := hp.sections
  have h4 : verSize x.version ≤ 24 := by cases x.version <;> simp [verSize]
  have hst := stop_le c o.sections.length x.version
  have hl := length_order o
  have hsym := hv.symbols
  have hol : (locals o).length + (externals o).length + (undefineds o).length = (orderOf o).length := by
    unfold orderOf; rw [List.length_append, List.length_append]
  have hord := hp.symbols
  unfold writeCmds
  simp only [Res.bind_eq]
  refine ((cpuOf_sat o.arch x.sub).mono (fun h => .arch h) (fun a h => h)).bind ?_
  rintro ⟨cpu, sub⟩ ⟨hcpu, hmc⟩
  simp only
  have g1 := length_mhdr c (mhdrOf c o x cpu sub)
  have e1 : (Mhdr.mk cpu (x.cpuSubtype.getD sub) 1 (planOf c o x t data).cmds.ncmds ((planOf c o x t data).cmds.stop - hdrSize c)
    (fileFlags o x)) = mhdrOf c o x cpu sub := rfl
  rw [e1]
  have g2 := length_seg c (segOf c o x) (by rfl)
  have hmod : o.sections.length % U32 = o.sections.length := Nat.mod_eq_of_lt (by omega)
  have e2 : (Seg.mk (List.replicate 16 0) 0 (planOf c o x t data).vmSize (planOf c o x t data).cmds.stop (planOf c o x t data).fileSize 7 7
    (o.sections.length % U32) 0) = segOf c o x := by rw [hmod]; rfl
  rw [e2, bufBytes_eq _ _ (by simp [g1]; omega)]
  simp only [Res.ok_bind, List.nil_append]
  rw [check_ok (by rw [g1]; rfl)]
  simp only [Res.ok_bind]
  rw [bufBytes_eq _ _ (by rw [g1, g2]; omega)]
  simp only [Res.ok_bind]
  have hz : (o.sections.zip ((planOf c o x t data).places.zip (planOf c o x t data).relocs)).length = o.sections.length := by
    show (o.sections.zip ((placesOf _ o.sections).zip (relPlaces c _ o.sections))).length = _
    rw [List.length_zip, List.length_zip, length_placesOf, length_relPlaces, Nat.min_self, Nat.min_self]
  refine (writeHeaders_sat c (Refused o x) _ _ ?_ ?_).bind ?_
  · rintro ⟨s, p, q⟩ he h
    have hs : s ∈ o.sections := (List.of_mem_zip he).1
    rcases h with h | h
    · exact .name s hs h
    · exact .section_ s hs h
  · rw [List.length_append, g1, g2, hz]; omega
  rintro r ⟨hs, rfl, hlen, hhs⟩
  rw [hz] at hlen
  obtain ⟨g0, g3⟩ := length_flat (c := c) (by rw [hlen, hz]) hhs
  rw [hlen] at g3
  have hH : Headers c o x hs := by
    refine ⟨hlen, fun i s p q h1 h2 h3 => hhs i s p q ?_⟩
    rw [zip3_get]; exact ⟨h1, h2, h3⟩
  have g4 := length_verBytes c x.version
  have e3 : ∀ out : List UInt8, out.length = hdrSize c + (segSize c + o.sections.length * sectSize c) →
      writeVersion c (planOf c o x t data).cmds x.version out = .ok (out ++ verBytes c x.version) := by
    intro out ho
    unfold writeVersion
    cases hx : x.version with
    | none => simp [verBytes]
    | some v =>
      simp only
      rw [check_ok (by rw [ho]; show (cmdsOf c o.sections.length x.version).version = _; rw [hx]; rfl)]
      simp only [Res.bind_eq, Res.ok_bind]
      rw [bufBytes_eq _ _ (by rw [length_version, ho]; omega)]
      rfl
  rw [e3 _ (by rw [List.length_append, List.length_append, g1, g2, g3]; omega)]
  simp only [Res.ok_bind]
  have e4 : (SymtabCmd.mk (planOf c o x t data).symtabOffset (planOf c o x t data).nsyms (planOf c o x t data).strtabOffset
    (planOf c o x t data).strsize) = symcmdOf c o x data := rfl
  rw [e4]
  have g5 := length_symtab c (symcmdOf c o x data)
  have g6 := length_dysymtab c (dycmdOf o) (by rfl)
  rw [check_ok (by
    show hdrSize c + (segSize c + o.sections.length * sectSize c) + verSize x.version = _
    simp only [List.length_append, g1, g2, g3, g4]; omega)]
  simp only [Res.ok_bind]
  rw [bufBytes_eq _ _ (by simp only [List.length_append, g1, g2, g3, g4, g5]; omega)]
  simp only [Res.ok_bind]
  rw [check_ok (by
    show hdrSize c + (segSize c + o.sections.length * sectSize c) + verSize x.version + 24 = _
    simp only [List.length_append, g1, g2, g3, g4, g5]; omega)]
  simp only [Res.ok_bind]
  have m1 : (planOf c o x t data).locals.length % U32 = (locals o).length := Nat.mod_eq_of_lt (by show (locals o).length < _; omega)
  have m2 : (planOf c o x t data).externals.length % U32 = (externals o).length := Nat.mod_eq_of_lt (by show (externals o).length < _; omega)
  rw [m1, m2, addU32_eq (by omega)]
  simp only [Res.ok_bind]
  have e5 : (DysymtabCmd.mk 0 (planOf c o x t data).locals.length (planOf c o x t data).locals.length (planOf c o x t data).externals.length
    ((locals o).length + (externals o).length) (planOf c o x t data).undefineds.length (List.replicate 12 0)) = dycmdOf o := rfl
  rw [e5, bufBytes_eq _ _ (by simp only [List.length_append, g1, g2, g3, g4, g5, g6]; omega)]
  refine ⟨cpu, sub, hs, hcpu, hmc, ?_, hH, ?_, g3, g0⟩
  · unfold headOf; simp only [List.append_assoc]
  · show _ = hdrSize c + (segSize c + o.sections.length * sectSize c) + verSize x.version + 24 + 80
    simp only [List.length_append, g1, g2, g3, g4, g5, g6]; omega

end Obj.MachoW

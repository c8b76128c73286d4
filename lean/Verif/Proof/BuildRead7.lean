import Verif.Proof.BuildRead6

/-! The file of a builder that is read. -/

namespace Obj.BuildR
open Obj Obj.Build Obj.Spec Obj.Spec.BuildR Obj.Props
open Obj.Elf (StrTable Shdr SymTab SectionTable)
open Obj.Spec.MachoF (num Each)
open Obj.Spec.ElfF (RecordsOf DataOf SymbolsOf symbolAt)

theorem records_all {α : Type} {size : Nat} {record : Nat → α} {data : List UInt8} {s : Shdr} {xs : List α} (h : RecordsOf size record data s xs)
    {P : α → Prop} (hP : ∀ o, P (record o)) : ∀ x ∈ xs, P x := by
  unfold RecordsOf at h
  split at h
  · subst h; simp
  · obtain ⟨-, n, -, rfl⟩ := h
    intro x hx
    obtain ⟨i, -, rfl⟩ := List.mem_map.1 hx
    exact hP _

theorem symtab_bounds {c : Elf.Cfg} {data : List UInt8} {ss : List Shdr} {type : Nat} {t : SymTab} (h : SymbolsOf c data ss type t) :
    (∀ x ∈ t.shndx, x < 2 ^ 32) ∧ ∀ p ∈ t.symbols.zipIdx.drop 1, p.1.shndx < 2 ^ 16 := by
  have hs : ∀ xs : List Elf.Sym, (∀ x ∈ xs, x.shndx < 2 ^ 16) → ∀ p ∈ xs.zipIdx.drop 1, p.1.shndx < 2 ^ 16 := by
    intro xs hx p hp
    have hp := List.mem_of_mem_drop hp
    obtain ⟨s, i⟩ := p
    exact hx s (List.mem_of_getElem? (List.mem_zipIdx_iff_getElem?.1 hp))
  unfold SymbolsOf at h
  rcases h with ⟨-, rfl⟩ | ⟨s, -, -, -, h1, -, -, -, h2⟩
  · simp
  · refine ⟨?_, hs _ (records_all h1 fun o => ?_)⟩
    · rcases h2 with ⟨x, -, h2, -⟩ | ⟨-, -, h2⟩
      · exact records_all h2 fun o => MachoF.num_lt c.en data o 4
      · rw [h2]; simp
    · unfold symbolAt
      split
      · exact MachoF.num_lt c.en data _ 2
      · exact MachoF.num_lt c.en data _ 2

theorem map_fst_zipIdx_drop {α : Type} (l : List α) : (l.zipIdx.drop 1).map Prod.fst = l.drop 1 := by
  rw [List.map_drop]
  congr 1
  exact List.zipIdx_map_fst _ _

/-- The results of the parts. -/
theorem readVersions_iff (t : Tables) (data : List UInt8) (hlen : data.length < 2 ^ 64) (ss : List Build.Sym)
    (h0 : ∀ s ∈ ss, s.version = 0 ∧ s.versionHidden = false) (hl : ss.length = t.dynSymbols.symbols.length - 1) (r : VerState × List Build.Sym) :
    readGnuVersions t.cfg.en data ⟨t.sections, t.strings⟩ t.dynSymbols ss = .ok r ↔
      (∃ defs needs, InFirst t.sections 0x6ffffffd t.dynSymbols.stringSection data (Defs t.cfg.en) defs ∧
        InFirst t.sections 0x6ffffffe t.dynSymbols.stringSection data (Needs t.cfg.en) needs ∧
        VersionsOf data t.dynSymbols.strings defs needs r.1.base r.1.versions r.1.files ∧ SymVersions t data (indices defs needs) r.2 ∧
        r.1.ids = idsOf (indices defs needs)) ∧ r.2.map bare = ss := by
  unfold readGnuVersions
  simp only [Res.bind_eq_ok, verdef_iff t.cfg.en data hlen, Res.ok.injEq]
  constructor
  · rintro ⟨st1, ⟨defs, b, ds, a1, a2, a3, a4, rfl⟩, st2, h2, ys, h3, rfl⟩
    have hld : ds.length = (defIdx defs).length := by rw [each_length a3]; simp [defIdx]
    rw [verneed_iff t.cfg.en data hlen _ _ _ _ _ hld a2] at h2
    obtain ⟨needs, ns, names, b1, b2, b3, b4, rfl⟩ := h2
    replace h3 := (versym_iff t data hlen _ b2 ss h0 hl ys).1 h3
    exact ⟨⟨defs, needs, a1, b1, ⟨a4, b2, ⟨ds, ns, a3, b3, rfl⟩, ⟨names, b4, rfl⟩⟩, h3.1, rfl⟩, h3.2⟩
  · rintro ⟨⟨defs, needs, a1, b1, ⟨a4, b2, ⟨ds, ns, a3, b3, e1⟩, ⟨names, b4, e2⟩⟩, h3, e3⟩, h4⟩
    have b2' : Good (defIdx defs ++ needs.flatMap fun n => n.2.map (·.other)) := b2
    have a2 : Good (defIdx defs) := good_left b2'
    have hld : ds.length = (defIdx defs).length := by rw [each_length a3]; simp [defIdx]
    obtain ⟨⟨ids, base, versions, files⟩, ys⟩ := r
    simp only [] at e1 e2 e3 h3 h4 a4
    refine ⟨_, ⟨defs, base, ds, a1, a2, a3, a4, rfl⟩, stOf (indices defs needs) base (ds ++ ns) names,
      (verneed_iff t.cfg.en data hlen _ _ _ _ _ hld a2 _).2 ⟨needs, ns, names, b1, b2, b3, b4, rfl⟩, ys,
      (versym_iff t data hlen _ b2 ss h0 hl ys).2 ⟨h3, h4⟩, ?_⟩
    rw [e1, e2, e3]
    rfl

theorem readVersions_np (en : Endianness) (data : List UInt8) (hlen : data.length < 2 ^ 64) (t : SectionTable) (dyn : SymTab) (ss : List Build.Sym)
    (hl : ss.length = dyn.symbols.length - 1) : readGnuVersions en data t dyn ss ≠ .panic := by
  unfold readGnuVersions
  exact Res.bind_no_panic (verdef_np en data hlen t dyn _) fun _ _ => Res.bind_no_panic (verneed_np en data hlen t dyn _) fun _ _ =>
    Res.bind_no_panic (versym_np en data t dyn _ ss hl) fun _ _ => by simp

theorem readFile_iff (is64 : Bool) (data : List UInt8) (hlen : data.length < 2 ^ 64) (b : Full) : readFile is64 data = .ok b ↔ Image is64 data b := by
  have hdr : ∀ c : Elf.Cfg, (Spec.ElfF.headerIn c data).phnum < 65536 ∧ (Spec.ElfF.headerIn c data).shnum < 65536 :=
    fun c => ⟨MachoF.num_lt c.en data _ 2, MachoF.num_lt c.en data _ 2⟩
  have hsec : ∀ (t : Tables) new, Each (SectionOf t data) (t.sections.zipIdx.drop 1) new → new.length = t.sections.length - 1 := by
    intro t new h; rw [each_length h]; simp
  have hsym : ∀ (y : SymTab) (n : Nat) l, Each (SymbolOf data y n) (y.symbols.zipIdx.drop 1) l → l.length = y.symbols.length - 1 := by
    intro t n new h; rw [each_length h]; simp
  unfold readFile Image
  simp only [Res.bind_eq_ok, Res.ok.injEq]
  constructor
  · rintro ⟨⟨c, h⟩, h1, names, h2, ps, h3, ⟨ss, strs⟩, h4, sy, h5, dy, h6, r, h7, syms, h8, dyns, h9, v, h10, rfl⟩
    obtain ⟨a1, a2, a3, rfl⟩ := (ElfF.parseHeader_iff _ _ _ _).1 h1
    obtain ⟨b1, b2⟩ := (ElfF.sectionTable_iff _ _ _ (hdr c).2 _).1 h4
    have b5 := (ElfF.symbols_iff _ _ hlen _ _ (.inl rfl) _).1 h5
    have b6 := (ElfF.symbols_iff _ _ hlen _ _ (.inr rfl) _).1 h6
    let t : Tables := ⟨c, (Spec.ElfF.headerIn c data).machine, names, ss, strs, sy, dy⟩
    obtain ⟨new, c1, c2⟩ := (sections_iff t data hlen _ _ _ _ _).1 h7
    subst c2
    have hn := hsec t new c1
    simp only [List.nil_append] at h8 h9 ⊢
    simp only [t] at hn
    rw [hn] at h8 h9
    obtain ⟨d1, d2⟩ := (symbols_each data hlen sy _ (symtab_bounds b5).1 _ (symtab_bounds b5).2 _).1 h8
    obtain ⟨e1, e2⟩ := (symbols_each data hlen dy _ (symtab_bounds b6).1 _ (symtab_bounds b6).2 _).1 h9
    obtain ⟨⟨defs, needs, f1, f2, f3, f4, f5⟩, f6⟩ := (readVersions_iff t data hlen dyns e2 (hsym _ _ _ e1) v).1 h10
    have hp := params_eq c.en data ss
    refine ⟨t, Spec.ElfF.headerIn c data, ps, ?_⟩
    constructor
    · exact a1
    · exact a2
    · exact a3
    · rfl
    · rfl
    · exact (ElfF.shstrndx_iff _ _ _ _).1 h2
    · exact (ElfF.segments_iff _ _ _ (hdr c).1 _).1 h3
    · exact b1
    · exact b2
    · exact b5
    · exact b6
    · rfl
    · rfl
    · exact loadAlign_eq ps
    · rfl
    · exact segments_eq ps new
    · exact c1
    · simp only [map_fst_zipIdx_drop]; exact hp.1
    · simp only [map_fst_zipIdx_drop]; exact ⟨hp.2.2.2, hp.2.2.1, hp.2.1⟩
    · exact d1
    · exact d2
    · rw [← f6] at e1; exact each_bare.1 e1
    · exact ⟨defs, needs, f1, f2, f3, f4⟩
  · rintro ⟨t, h, ps, i⟩
    obtain ⟨c, machine, names, ss, strs, sy, dy⟩ := t
    obtain ⟨a1, a2, a3, a4, a5, a6, a7, a8, a9, a10, a11, a12, a13, a14, a15, a16, a17, a18, a19, a20, a21, a22, defs, needs, a23, a24, a25, a26⟩ := i
    simp only [] at *
    subst a4
    subst a5
    obtain ⟨bEn, bIs, bLoad, bHdr, bBase, bHb, bBs, bBc, bGb, segs, secs, bsyms, bdyns, bfiles, bvers⟩ := b
    simp only [] at *
    have hn := hsec _ _ a17
    simp only [] at hn
    have hb1 := symtab_bounds a10
    have hb2 := symtab_bounds a11
    have e1 : Each (SymbolOf data dy ss.length) (dy.symbols.zipIdx.drop 1) (bdyns.map bare) := each_bare.2 a22
    have e2 : ∀ x ∈ bdyns.map bare, x.version = 0 ∧ x.versionHidden = false := by
      intro x hx; obtain ⟨y, -, rfl⟩ := List.mem_map.1 hx; exact ⟨rfl, rfl⟩
    have hp := params_eq c.en data ss
    refine ⟨(c, _), (ElfF.parseHeader_iff _ _ _ _).2 ⟨a1, a2, a3, rfl⟩, names, (ElfF.shstrndx_iff _ _ _ _).2 a6, ps,
      (ElfF.segments_iff _ _ _ (hdr c).1 _).2 a7, ⟨ss, strs⟩, (ElfF.sectionTable_iff _ _ _ (hdr c).2 _).2 ⟨a8, a9⟩, sy,
      (ElfF.symbols_iff _ _ hlen _ _ (.inl rfl) _).2 a10, dy, (ElfF.symbols_iff _ _ hlen _ _ (.inr rfl) _).2 a11, _,
      (sections_iff ⟨c, _, names, ss, strs, sy, dy⟩ data hlen _ _ _ _ _).2 ⟨secs, a17, rfl⟩, bsyms, ?_, bdyns.map bare, ?_,
      (⟨idsOf (indices defs needs), bBase, bvers, bfiles⟩, bdyns), ?_, ?_⟩
    · simp only [List.nil_append]
      rw [hn]
      exact (symbols_each data hlen sy _ hb1.1 _ hb1.2 _).2 ⟨a20, a21⟩
    · simp only [List.nil_append]
      rw [hn]
      exact (symbols_each data hlen dy _ hb2.1 _ hb2.2 _).2 ⟨e1, e2⟩
    · exact (readVersions_iff ⟨c, _, names, ss, strs, sy, dy⟩ data hlen _ e2 (hsym _ _ _ e1) _).2 ⟨⟨defs, needs, a23, a24, a25, a26, rfl⟩, rfl⟩
    · simp only [map_fst_zipIdx_drop, List.nil_append]
      rw [hp.1, hp.2.1, hp.2.2.1, hp.2.2.2, segments_eq, loadAlign_eq, a12, a13, a14, a15, a16, a18, a19.1, a19.2.1, a19.2.2]

theorem readFile_np (is64 : Bool) (data : List UInt8) (hlen : data.length < 2 ^ 64) : readFile is64 data ≠ .panic := by
  have hz : Shdr := ⟨0, 0, 0, 0, 0, 0, 0, 0, 0, 0⟩
  have hp : Elf.Phdr := ⟨0, 0, 0, 0, 0, 0, 0, 0⟩
  have np := fun c h t => C42_no_panic c is64 h data t hz hp 0 0 0 hlen
  unfold readFile
  refine Res.bind_no_panic (np ⟨is64, .little⟩ (Spec.ElfF.headerIn ⟨is64, .little⟩ data) ⟨[], none⟩).1 fun p _ => ?_
  obtain ⟨c, h⟩ := p
  have n2 := np c h ⟨[], none⟩
  refine Res.bind_no_panic (shstrndx_no_panic c h data) fun _ _ => Res.bind_no_panic n2.2.2.1 fun _ _ => Res.bind_no_panic n2.2.2.2.1 fun t _ =>
    Res.bind_no_panic (ElfF.symbols_no_panic _ _ _ _ (.inl rfl)) fun sy _ => Res.bind_no_panic (ElfF.symbols_no_panic _ _ _ _ (.inr rfl)) fun dy hdy =>
    Res.bind_no_panic (sections_np _ data hlen _ _) fun r hr => Res.bind_no_panic (symbols_np data hlen _ _ _) fun _ _ =>
    Res.bind_no_panic (symbols_np data hlen _ _ _) fun ds hds => Res.bind_no_panic (readVersions_np _ data hlen _ _ _ ?_) fun _ _ => by simp
  have hb := symtab_bounds ((ElfF.symbols_iff _ _ hlen _ _ (.inr rfl) _).1 hdy)
  have := (symbols_each data hlen dy (r.2.2.length + 1) hb.1 _ hb.2 ds).1 hds
  rw [each_length this.1]
  simp

end Obj.BuildR

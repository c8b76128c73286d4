import Verif.Proof.MachoBuildR1

/-! Reading of load commands by the Mach-O builder. -/

namespace Obj.MachoB
open Obj Obj.MachoR Obj.Spec.MachoB
open Obj.BuildW (foldR mapR)
open Obj.Spec.MachoF (Each num width headerSize headerIn IsCommand segmentSize sectionSize segmentIn sectionsIn Zerofill OffsetsOf SymbolsOf IndirectOf)
open Obj.Spec.MachoI (PartIs)
open Obj.Spec.Pe (CStrAt)
open Obj.MachO (LoadCommands LoadCommandData)
open Obj.MachoF

theorem each_numbered {α β : Type} {P : α → β → Prop} (f : β → Nat) (base : Nat) (xs : List α) (n : Nat) (ys : List β) :
    Each (fun (x : α × Nat) y => f y = base + x.2 ∧ P x.1 y) (xs.zipIdx n) ys ↔
      Each P xs ys ∧ ∀ (i : Nat) (y : β), ys[i]? = some y → f y = base + n + i := by
  induction xs generalizing n ys with
  | nil =>
    rw [List.zipIdx_nil, BuildR.each_nil_left, BuildR.each_nil_left]
    exact ⟨fun h => ⟨h, fun i y hy => by subst h; simp at hy⟩, fun h => h.1⟩
  | cons x xs ih =>
    rw [List.zipIdx_cons, BuildR.each_cons_left, BuildR.each_cons_left]
    constructor
    · rintro ⟨y, ys', rfl, ⟨h1, h2⟩, h3⟩
      obtain ⟨h4, h5⟩ := (ih ..).1 h3
      refine ⟨⟨y, ys', rfl, h2, h4⟩, fun i z hz => ?_⟩
      cases i with
      | zero => simp at hz; subst hz; exact h1
      | succ i => have := h5 i z (by simpa using hz); omega
    · rintro ⟨⟨y, ys', rfl, h2, h4⟩, h5⟩
      refine ⟨y, ys', rfl, ⟨h5 0 y rfl, h2⟩, (ih ..).2 ⟨h4, fun i z hz => ?_⟩⟩
      have := h5 (i + 1) z (by simpa using hz)
      omega

/-- The ids of new items. -/
def IdsFrom {β : Type} (f : β → Nat) (base : Nat) (l : List β) : Prop := ∀ (i : Nat) (y : β), l[i]? = some y → f y = base + i

theorem sectionsIn_nreloc (c : Cfg) (b : List UInt8) : ∀ s ∈ sectionsIn c b, s.nreloc < 2 ^ 32 := by
  intro s hs
  obtain ⟨i, -, rfl⟩ := List.mem_map.1 hs
  exact num_lt ..

theorem readSections_iff {st : State} {t : Totals} (ht : TotalsEq st t) (c : Cfg) (data : List UInt8) (base : Nat) (hs : List Sect)
    (hn : ∀ s ∈ hs, s.nreloc < 2 ^ 32) (offs : List Nat) (secs : List Sec) :
    mapR (fun x : (Sect × Nat) × Nat => readSection c data st (base + x.2) x.1.1 x.1.2) ((hs.zip offs).zipIdx) = .ok secs ↔
      Each (fun x s => SectionIs c data t x.1 x.2 s) (hs.zip offs) secs ∧ IdsFrom (·.id) base secs := by
  rw [BuildW.mapR_each]
  have := each_numbered (P := fun (x : Sect × Nat) s => SectionIs c data t x.1 x.2 s) (fun s : Sec => s.id) base (hs.zip offs) 0 secs
  rw [Nat.add_zero] at this
  rw [show (Each (fun x s => SectionIs c data t x.1 x.2 s) (hs.zip offs) secs ∧ IdsFrom (·.id) base secs) ↔ _ from this.symm]
  refine BuildR.each_congr fun x hx s => ?_
  refine readSection_iff ht c data _ _ (hn _ ?_) _ s
  have h1 : x.1 ∈ hs.zip offs := by
    have := List.mem_map_of_mem (f := Prod.fst) hx
    rwa [List.zipIdx_map_fst] at this
  exact (List.of_mem_zip h1).1

/-- What reading a segment does. -/
def SegStep (en : Endianness) (data : List UInt8) (t : Totals) (k : List UInt8) (b b' : Builder) : Prop :=
  ∃ g, SegmentIs en data t k g ∧ g.1.id = b.segments.length ∧ IdsFrom (·.id) b.sections.length g.2 ∧
    b' = { b with sections := b.sections ++ g.2, segments := b.segments ++ [g.1], commands := b.commands ++ [.segment b.segments.length] }

theorem readSegment_iff {st : State} {t : Totals} (ht : TotalsEq st t) (en : Endianness) (data k : List UInt8)
    (hk : segmentSize (segCfg en k).is64 ≤ k.length) (b b' : Builder) :
    readSegment (segCfg en k) data st b (segmentIn (segCfg en k) k) (k.drop (segmentSize (segCfg en k).is64)) = .ok b' ↔ SegStep en data t k b b' := by
  have hen : (segCfg en k).en = en := rfl
  unfold readSegment SegStep
  generalize hcc : segCfg en k = c at *
  obtain ⟨hf, hn⟩ := segmentIn_bounds c k
  have hw : sectionSize c.is64 ≤ 80 := by unfold sectionSize; split <;> omega
  have hw0 : 0 < sectionSize c.is64 := by unfold sectionSize; split <;> omega
  have hu : (segmentIn c k).nsects * sectSize c < U64 := by
    rw [sectSize_eq]
    have := Nat.mul_le_mul (Nat.le_of_lt hn) hw
    simp only [Nat.reducePow, Nat.reduceMul] at *
    omega
  have hmap : ((List.range (segmentIn c k).nsects).map fun i => slice (k.drop (segmentSize c.is64)) (0 + sectSize c * i) (sectSize c)).map (Sect.decode c) =
      sectionsIn c k := by
    unfold sectionsIn
    rw [List.map_map]
    apply List.map_congr_left
    intro i _
    simp only [Function.comp_apply]
    rw [show slice (k.drop (segmentSize c.is64)) (0 + sectSize c * i) (sectSize c) = slice k (segmentSize c.is64 + sectSize c * i) (sectSize c) by
      simp only [slice, List.drop_drop, Nat.zero_add]]
    rw [sect_decode]; rfl
  have hin : ((segmentIn c k).nsects * sectSize c = 0 ∨ 0 + sectSize c * (segmentIn c k).nsects ≤ (k.drop (segmentSize c.is64)).length) ↔
      segmentSize c.is64 + sectionSize c.is64 * (segmentIn c k).nsects ≤ k.length := by
    rw [List.length_drop, sectSize_eq]
    rw [Nat.mul_comm]
    omega
  have hoff := fun os => offsetsOf_iff (segmentIn c k) hf (sectionsIn c k) (sectionsIn_offset c k) os
  have hsec := fun offs secs => readSections_iff ht c data b.sections.length (sectionsIn c k) (sectionsIn_nreloc c k) offs secs
  constructor
  · intro hh
    obtain ⟨imgs, h1, h2⟩ := (Res.bind_eq_ok ..).1 hh
    obtain ⟨h3, rfl⟩ := (Pe.readSliceAt_iff _ _ _ _ hu _).1 h1
    rw [hmap] at h2
    obtain ⟨os, h4, h5⟩ := (Res.bind_eq_ok ..).1 h2
    obtain ⟨secs, h6, h7⟩ := (Res.bind_eq_ok ..).1 h5
    injection h7 with h7
    obtain ⟨h8, h9⟩ := (hsec ..).1 h6
    refine ⟨⟨⟨b.segments.length, false, (segmentIn c k).segname, (segmentIn c k).vmaddr, (segmentIn c k).vmsize, (segmentIn c k).maxprot,
      (segmentIn c k).initprot, (segmentIn c k).flags, secs.map (·.id)⟩, secs⟩, ?_, rfl, h9, h7.symm⟩
    subst hcc
    exact ⟨hin.1 h3, rfl, rfl, rfl, rfl, rfl, rfl, rfl, rfl, os, (hoff os).1 h4, h8⟩
  · rintro ⟨⟨g, secs⟩, ⟨h1, h2, h3, h4, h5, h6, h7, h8, h9, os, h10, h11⟩, hid, hids, rfl⟩
    rw [hcc] at h1 h4 h5 h6 h7 h8 h10 h11
    rw [(Pe.readSliceAt_iff _ _ _ _ hu _).2 ⟨hin.2 h1, rfl⟩, Res.ok_bind]
    rw [hmap, (hoff _).2 h10, Res.ok_bind]
    rw [(hsec ..).2 ⟨h11, hids⟩, Res.ok_bind]
    cases g
    simp only at *
    subst h2 h3 h4 h5 h6 h7 h8 h9 hid
    rfl

/-! ## Symbols -/

theorem and_e (y : Nat) : y &&& 0xe = 0xe ↔ y / 2 % 8 = 7 := by rw [MachoI.and_0e]; omega

theorem readSymbol_iff {st : State} {t : Totals} (ht : TotalsEq st t) (data : List UInt8) (hl : data.length < 2 ^ 63) (tab : SymTab) (id : Nat) (n : Nlist)
    (y : Sym) : readSymbol st data tab id n = .ok y ↔ y.id = id ∧ SymbolIs data t tab.strings n y := by
  have hname := fun nm => BuildR.str_iff data (by simp only [Nat.reducePow] at *; omega) tab.strings n.strx nm
  unfold readSymbol SymTab.name
  rw [Res.bind_eq_ok, ht.1]
  constructor
  · rintro ⟨sect, h1, h2⟩
    obtain ⟨nm, h3, h4⟩ := (Res.bind_eq_ok ..).1 h2
    injection h4 with h4
    subst h4
    refine ⟨rfl, rfl, rfl, rfl, rfl, rfl, (hname nm).1 h3, ?_⟩
    by_cases he : n.typ &&& 0xe = 0xe
    · rw [if_pos he] at h1
      rw [if_pos ((and_e _).1 he)]
      split at h1
      · cases h1
      · next hc => injection h1 with h1; exact ⟨by omega, by omega, h1.symm⟩
    · rw [if_neg he] at h1
      rw [if_neg (fun h => he ((and_e _).2 h))]
      injection h1 with h1; exact h1.symm
  · rintro ⟨rfl, h⟩
    refine ⟨y.sect, ?_, ?_⟩
    · have hs := h.sect
      by_cases he : n.typ &&& 0xe = 0xe
      · rw [if_pos ((and_e _).1 he)] at hs
        rw [if_pos he, if_neg (by omega), hs.2.2]
      · rw [if_neg (fun h => he ((and_e _).2 h))] at hs
        rw [if_neg he, hs]
    · rw [(hname _).2 h.name, Res.ok_bind]
      obtain ⟨h1, h2, h3, h4, h5, _, _⟩ := h
      cases y
      simp only at *
      subst h1 h2 h3 h4 h5
      rfl

/-- What reading symbols does. -/
def SymStep (c : Cfg) (data : List UInt8) (t : Totals) (k : List UInt8) (b b' : Builder) : Prop :=
  ∃ ys, SymbolsAre c data t k ys ∧ IdsFrom (·.id) b.symbols.length ys ∧ b' = { b with symbols := b.symbols ++ ys, commands := b.commands ++ [.symtab] }

theorem readSymbols_iff {st : State} {t : Totals} (ht : TotalsEq st t) (c : Cfg) (data : List UInt8) (hl : data.length < 2 ^ 63) (k : List UInt8)
    (hk : 24 ≤ k.length) (b b' : Builder) :
    (((SymtabCmd.decode c k).symbols c data).bind fun tab => readSymbols st data b tab) = .ok b' ↔ SymStep c data t k b b' := by
  unfold SymStep SymbolsAre readSymbols
  rw [Res.bind_eq_ok]
  have hy : ∀ (tab : SymTab) ys, mapR (fun x : Nlist × Nat => readSymbol st data tab (b.symbols.length + x.2) x.1) tab.symbols.zipIdx = .ok ys ↔
      Each (SymbolIs data t tab.strings) tab.symbols ys ∧ IdsFrom (·.id) b.symbols.length ys := by
    intro tab ys
    rw [BuildW.mapR_each]
    have := each_numbered (P := fun (x : Nlist) s => SymbolIs data t tab.strings x s) (fun s : Sym => s.id) b.symbols.length tab.symbols 0 ys
    rw [Nat.add_zero] at this
    rw [show (Each (SymbolIs data t tab.strings) tab.symbols ys ∧ IdsFrom (·.id) b.symbols.length ys) ↔ _ from this.symm]
    exact BuildR.each_congr fun x hx s => readSymbol_iff ht data hl tab _ _ s
  constructor
  · rintro ⟨tab, h1, h2⟩
    obtain ⟨ys, h3, h4⟩ := (Res.bind_eq_ok ..).1 h2
    injection h4 with h4
    obtain ⟨h5, h6⟩ := (hy ..).1 h3
    exact ⟨ys, ⟨tab, (symbols_iff c data k hk tab).1 h1, h5⟩, h6, h4.symm⟩
  · rintro ⟨ys, ⟨tab, h1, h5⟩, h6, rfl⟩
    refine ⟨tab, (symbols_iff c data k hk tab).2 h1, ?_⟩
    rw [(hy ..).2 ⟨h5, h6⟩, Res.ok_bind]

/-! ## Libraries -/

theorem field_slice (en : Endianness) (k : List UInt8) (n o w : Nat) (h : o + w ≤ n) : field en (slice k 0 n) o w = num en k o w := by
  have := num_slice en k 0 n o w h
  rw [Nat.zero_add] at this
  exact this

theorem readDylib_iff (c : Cfg) (o : Nat) (k : List UInt8) (hk : 24 ≤ k.length) (d : Dylib) :
    readDylib c ⟨num c.en k 0 4, o, k⟩ (slice k 0 24) = .ok d ↔ LibraryIs c.en k d := by
  unfold readDylib MachoI.lcString
  rw [field_slice _ _ _ _ _ (by omega), field_slice _ _ _ _ _ (by omega), field_slice _ _ _ _ _ (by omega), field_slice _ _ _ _ _ (by omega),
    field_slice _ _ _ _ _ (by omega)]
  rw [Res.bind_eq_ok]
  constructor
  · rintro ⟨nm, h1, h2⟩
    injection h2 with h2
    subst h2
    exact ⟨hk, rfl, rfl, (MachoI.string_iff ..).1 h1, rfl, rfl, rfl⟩
  · intro h
    refine ⟨d.name, (MachoI.string_iff ..).2 h.name, ?_⟩
    obtain ⟨_, h1, h2, _, h3, h4, h5⟩ := h
    cases d
    simp only at *
    subst h1 h2 h3 h4 h5
    rfl

end Obj.MachoB

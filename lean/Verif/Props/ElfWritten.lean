import Verif.Props.ElfFile
import Verif.Props.ElfWrite
import Verif.Spec.ElfWritten

/-! # C87: ELF files that were written -/

namespace Obj.Props
open Obj Obj.Elf Obj.ElfF Obj.ElfW Obj.Spec Obj.Spec.ElfF Obj.W
open Obj.Spec.ElfO (Valid ReadsBack SymbolsBack secIndex symtabIndex symIndex hdrCount)
open Obj.Spec.ElfBack
open Obj.Spec.MachoF (Each)
open Obj.Spec.ElfRelocS (IsReloc Applies)

private theorem secIndex_succ (o : Object) {i : Nat} {s : Section} (h : o.sections[i]? = some s) : secIndex o (i + 1) = secIndex o i + hdrCount s := by
  have : o.sections.take (i + 1) = o.sections.take i ++ [s] := by
    rw [List.take_add_one, h]; rfl
  unfold secIndex
  rw [this, List.map_append, List.sum_append]
  simp only [List.map_cons, List.map_nil, List.sum_cons, List.sum_nil]
  omega

private theorem hdrCount_pos (s : Section) : 1 ≤ hdrCount s ∧ (s.relocs ≠ [] → hdrCount s = 2) := by
  unfold hdrCount
  split
  · exact ⟨by omega, fun h => absurd (by assumption) h⟩
  · exact ⟨by omega, fun _ => rfl⟩

private theorem secIndex_mono (o : Object) (i d : Nat) : secIndex o i ≤ secIndex o (i + d) := by
  induction d with
  | zero => exact Nat.le_refl _
  | succ d ih =>
    cases h : o.sections[i + d]? with
    | some s => have := secIndex_succ o h; have := hdrCount_pos s; rw [← Nat.add_assoc]; omega
    | none =>
      have hl := List.getElem?_eq_none_iff.1 h
      have : o.sections.take (i + (d + 1)) = o.sections.take (i + d) := by
        rw [List.take_of_length_le hl, List.take_of_length_le (by omega)]
      unfold secIndex at ih ⊢
      rw [this]; exact ih

private theorem secIndex_step (o : Object) {i j : Nat} {s : Section} (h : o.sections[i]? = some s) (hj : i < j) : secIndex o i + hdrCount s ≤ secIndex o j := by
  rw [← secIndex_succ o h]
  have := secIndex_mono o (i + 1) (j - (i + 1))
  rwa [show i + 1 + (j - (i + 1)) = j by omega] at this

private theorem secIndex_inj (o : Object) {i j : Nat} {s s' : Section} (h : o.sections[i]? = some s) (h' : o.sections[j]? = some s')
    (he : secIndex o i = secIndex o j) : i = j := by
  rcases Nat.lt_trichotomy i j with hl | hl | hl
  · have := secIndex_step o h hl; have := hdrCount_pos s; omega
  · exact hl
  · have := secIndex_step o h' hl; have := hdrCount_pos s'; omega

/-- The size of a file that is written. -/
theorem elf_length {o : Object} (hv : Valid o) {hasSub : Bool} {flags : FileFlags} {out : List UInt8} (h : elfWrite o hasSub flags = .ok out) :
    out.length < ElfO.room o + 2 ^ 34 := by
  obtain ⟨r, is64, m, x, hdr, D⟩ := (elfWrite_sat o hv hasSub flags).ok h
  obtain ⟨b1, b2, b3, b4, b5, b6, b7, b8, b9⟩ := bounds o ⟨is64, o.endian⟩ r (needB o) x.data.length x.shd.length
  have hroom := hv.room
  have hdl := D.strs.wu.len
  have hsl := D.strs.wt.len
  have := D.len
  omega

/-- The relocations in a section of the kind that is written. -/
private theorem relocsIn_of_rels {c : Elf.Cfg} {machine : Nat} {isRela : Bool} {data : List UInt8} (hlen : data.length < 2 ^ 64) {h : Shdr} {rels : List Rel} {link : Nat}
    (hr : h.rels c (isMips64el c machine) isRela data = .ok (some (rels, link))) :
    h.link = link ∧ h.type = (if isRela then 4 else 9) ∧
    RelocsIn c machine data h ((rels.map toCrel).map (reported c machine (!isRela))) := by
  have hw : 0 < word c.is64 := by unfold word; split <;> omega
  have e1 : c.relSize false = 2 * word c.is64 := by unfold Elf.Cfg.relSize Elf.Cfg.w word; simp
  have e2 : c.relSize true = 3 * word c.is64 := by unfold Elf.Cfg.relSize Elf.Cfg.w word; simp
  unfold Shdr.rels at hr
  by_cases ht : h.type ≠ if isRela then 4 else 9
  · rw [if_pos ht] at hr; simp at hr
  · rw [if_neg ht] at hr
    have ht : h.type = if isRela then 4 else 9 := Classical.not_not.1 ht
    cases hd : h.dataAsArray data (c.relSize isRela) with
    | err => rw [hd] at hr; cases hr
    | panic => rw [hd] at hr; cases hr
    | ok imgs =>
      rw [hd] at hr
      simp only [Res.ok.injEq, Option.some.injEq, Prod.mk.injEq] at hr
      obtain ⟨rfl, rfl⟩ := hr
      refine ⟨rfl, ht, ?_⟩
      cases isRela with
      | false =>
        refine .rel ht ((records_iff h data hlen _ (by omega) (fun i => toCrel (readRel c false false i)) (relAt c data) (fun o _ => rel_decode c data o) _).1 ⟨imgs, ?_, ?_⟩)
        · rw [← e1]; exact hd
        · rw [List.map_map]
          apply List.map_congr_left
          intro i _
          show toCrel (readRel c _ false i) = _
          unfold readRel
          simp
      | true =>
        refine .rela ht ((records_iff h data hlen _ (by omega) (fun i => toCrel (readRel c (isMips64el c machine) true i)) (relaAt c machine data)
          (fun o h => rela_decode c machine data o h) _).1 ⟨imgs, ?_, ?_⟩)
        · rw [← e2]; exact hd
        · rw [List.map_map]; rfl

/-- C87: a file that was written is read as the object that was written: `File::parse` succeeds, and its sections, symbols and relocations, as they
are available from the file, are those of the object. -/
theorem C87_written (o : Object) (hv : Valid o) (hasSub : Bool) (flags : FileFlags)
    (hfl : ∀ a b f, flags = .elf a b f → f < 2 ^ 32) (is64 isRela : Bool) (hi : elfIs64 o.arch = some is64)
    (hr : elfHasAddend o.arch = .ok isRela) (hf : ElfO.Fits o is64 isRela) (hp : Plain o) (out : List UInt8)
    (h : elfWrite o hasSub flags = .ok out) :
    ∃ m f, elfMachine o.arch = .ok m ∧ File.parse is64 out = .ok f ∧ FileBack o m flags is64 isRela out f := by
  obtain ⟨m, e, t, hm, R⟩ := C67_round_trip o hv hasSub flags hfl is64 isRela hi hr hf out h
  have hlen : out.length < 2 ^ 64 := by
    have := elf_length hv h
    have := hv.room
    omega
  obtain ⟨hh, tab, S⟩ := R.symbols
  have hsec : ∀ k h, t.section k = .ok h → t.sections[k]? = some h := fun k h hk => ((C42_section_index t k h).1.1 hk).2
  have hstep : ∀ {i : Nat} {s : Section}, o.sections[i]? = some s → secIndex o i + hdrCount s ≤ symtabIndex o := fun {i s} h =>
    secIndex_step o h (List.getElem?_eq_some_iff.1 h).1
  -- what the types say
  have hback : ∀ {i : Nat} {s : Section} {h : Shdr}, o.sections[i]? = some s → t.sections[secIndex o i]? = some h →
      h.link = 0 ∧ ¬ IsReloc h ∧ h.type ≠ 2 ∧ h.type ≠ 11 := by
    intro i s h his hh
    obtain ⟨h', B⟩ := R.sections i s his
    have := hsec _ _ B.index
    rw [hh] at this
    injection this with this
    subst this
    obtain ⟨q1, q2, q3, q4, q5⟩ := hp s (List.mem_of_getElem? his) _ _ B.flags
    refine ⟨B.links.1, ?_, q1, q2⟩
    unfold IsReloc
    omega
  have hty : ∀ (ty : Nat), ty = 2 ∨ ty = 11 → ∀ k h, t.sections[k]? = some h → h.type = ty → ty = 2 ∧ k = symtabIndex o := by
    intro ty hty k h hk ht
    rcases R.types k h hk with ⟨-, h1⟩ | ⟨_, _, _, h1⟩ | ⟨i, s, his, h1 | ⟨-, -, h1⟩⟩ | ⟨h1, h2⟩ | ⟨-, h1⟩
    · omega
    · omega
    · subst h1
      have := hback his hk
      omega
    · split at h1 <;> omega
    · exact ⟨by omega, h1⟩
    · omega
  have hsym2 := S.byType (fun s hs f hf => (hp s hs _ _ hf).1 rfl)
  have hsym := (symbols_iff ⟨is64, o.endian⟩ out hlen t 2 (.inl rfl) tab).1 hsym2
  have hts : tab.sec = symtabIndex o := by
    rcases hsym with ⟨h1, h2⟩ | ⟨s, h1, h2, -⟩
    · have := S.length
      rw [h2] at this
      simp only [List.length_nil] at this
      omega
    · exact (hty 2 (.inl rfl) _ s h1 h2).2
  have hrel : ∀ (j : Nat) (x : Shdr), t.sections[j]? = some x → IsReloc x → x.link = symtabIndex o →
      ∃ i s, o.sections[i]? = some s ∧ j = secIndex o i + 1 ∧ s.relocs ≠ [] ∧ x.info = secIndex o i := by
    intro j x hj hx hl
    have hs1 : 1 ≤ symtabIndex o := by unfold symtabIndex secIndex; omega
    unfold IsReloc at hx
    rcases R.types j x hj with ⟨-, h1⟩ | ⟨_, _, _, h1⟩ | ⟨i, s, his, h1 | ⟨h1, h2, -⟩⟩ | ⟨h1, h2⟩ | ⟨-, h1⟩
    · omega
    · omega
    · subst h1
      have := hback his hj
      omega
    · refine ⟨i, s, his, h1, h2, ?_⟩
      obtain ⟨h', rels, B⟩ := R.relocs i s his h2
      have := hsec _ _ B.index
      rw [← h1, hj] at this
      injection this with this
      subst this
      exact B.target
    · omega
    · omega
  obtain ⟨g1, g2⟩ := C23_parse t tab.sec
  cases hrs : relocationSections t tab.sec with
  | panic => exact absurd hrs g1
  | err =>
    exfalso
    obtain ⟨j, x, hj, hx, hl, -, hbad⟩ := g2.1 hrs
    rw [hts] at hl
    obtain ⟨i, s, his, -, -, hin⟩ := hrel j x hj hx hl
    obtain ⟨h', B⟩ := R.sections i s his
    have hg := hsec _ _ B.index
    rw [hin] at hbad
    rcases hbad with hbad | ⟨s', h1, h2⟩
    · have := (List.getElem?_eq_some_iff.1 hg).1; omega
    · exact (hback his h1).2.1 h2
  | ok L =>
    have hdyn : SectionTable.symbols ⟨is64, o.endian⟩ out t 11 = .ok { sec := 0, stringSection := 0, shndxSection := 0, symbols := [], strings := none, shndx := [] } := by
      rw [symbols_iff _ out hlen t 11 (.inr rfl)]
      left
      refine ⟨?_, rfl⟩
      intro s hs ht
      obtain ⟨k, hk⟩ := List.getElem?_of_mem hs
      have := hty 11 (.inr rfl) k s hk ht
      omega
    have hparse : File.parse is64 out = .ok ⟨⟨is64, o.endian⟩, e, [], t, tab, { sec := 0, stringSection := 0, shndxSection := 0, symbols := [], strings := none, shndx := [] }, L⟩ := by
      unfold File.parse
      simp only [Res.bind_eq, R.parse, R.segments, R.table, hsym2, hdyn, hrs, Res.ok_bind]
    refine ⟨m, _, hm, hparse, ⟨rfl, R, rfl, ⟨hh, S⟩, rfl, ?_, ?_, ?_⟩⟩
    · show kind e.type = _
      rw [R.header.type]; rfl
    · intro hb
      show ElfF.architecture e.machine is64 e.flags = _
      rw [R.header.machine]
      unfold elfIs64 at hi
      cases hw : o.arch.addressSize with
      | none => rw [hw] at hi; simp at hi
      | some w =>
        rw [hw] at hi
        simp only [Option.map_some, Option.some.injEq] at hi
        rw [← hi]
        refine C87_architecture o.arch m w e.flags hm hw ?_
        intro ha
        have hfl : ∃ x, e.flags = elfFlags o.arch x ∧ (o.arch = .mips → x.testBit 5 = false) := by
          cases hq : flags with
          | elf a b x => exact ⟨x, (R.header.osAbi a b x hq).2.2, fun h => hb h a b x hq⟩
          | other => exact ⟨0, (R.header.default hq).2.2, fun _ => rfl⟩
        obtain ⟨x, h1, h2⟩ := hfl
        rw [h1]
        unfold elfFlags
        rcases ha with ha | ha
        · rw [ha, if_neg (by decide), if_neg (by decide), h2 ha]; rfl
        · rw [ha, if_pos rfl, if_neg (by decide)]
          simp only [Nat.testBit_or]
          rw [show Nat.testBit 32 5 = true by decide, Bool.or_true]; rfl
    · intro i s his
      obtain ⟨h', B⟩ := R.sections i s his
      have hg := hsec _ _ B.index
      have h0 : ∀ s, t.sections[0]? = some s → ¬ IsReloc s := by
        intro x hx hx'
        unfold IsReloc at hx'
        have hs1 : ∀ i, 1 ≤ secIndex o i := by intro i; unfold secIndex; omega
        rcases R.types 0 x hx with ⟨-, h1⟩ | ⟨_, _, _, h1⟩ | ⟨i, s, his, h1 | ⟨h1, h2, -⟩⟩ | ⟨h1, h2⟩ | ⟨h0, h1⟩
        · omega
        · omega
        · have := hs1 i; omega
        · omega
        · omega
        · omega
      have hruns := C87_relocations is64 out hlen _ hparse h0 (secIndex o i) h' hg (hback his hg).2.1
      have hap : ∀ j, Applies t.sections tab.sec (secIndex o i) j ↔ j = secIndex o i + 1 ∧ s.relocs ≠ [] := by
        intro j
        constructor
        · rintro ⟨x, h1, h2, h3, h4, -⟩
          rw [hts] at h3
          obtain ⟨i', s', k1, k2, k3, k4⟩ := hrel j x h1 h2 h3
          have : i = i' := secIndex_inj o his k1 (by rw [← h4, k4])
          subst this
          rw [his] at k1
          injection k1 with k1
          subst k1
          exact ⟨k2, k3⟩
        · rintro ⟨rfl, hne⟩
          obtain ⟨x, rels, C⟩ := R.relocs i s his hne
          obtain ⟨c1, c2, -⟩ := relocsIn_of_rels hlen C.read
          refine ⟨x, hsec _ _ C.index, ?_, ?_, C.target, ?_⟩
          · unfold IsReloc; split at c2 <;> omega
          · rw [hts]; exact c1
          · unfold secIndex; omega
      by_cases hne : s.relocs = []
      · refine ⟨[], (hruns _ _).2 ⟨rfl, [], [], .nil, ?_, .nil, rfl⟩, by rw [hne]; rfl, ?_⟩
        · intro j
          show _ ↔ Applies t.sections tab.sec _ j
          rw [hap]
          simp [hne]
        · intro k x y hx
          rw [hne] at hx
          simp at hx
      · obtain ⟨x, rels, C⟩ := R.relocs i s his hne
        obtain ⟨-, -, c3⟩ := relocsIn_of_rels hlen C.read
        refine ⟨_, (hruns _ _).2 ⟨rfl, [secIndex o i + 1], [(rels.map toCrel).map (reported ⟨is64, o.endian⟩ e.machine (!isRela))], by simp, ?_,
          .cons ⟨x, hsec _ _ C.index, c3⟩ .nil, rfl⟩, ?_, ?_⟩
        · intro j
          show _ ↔ Applies t.sections tab.sec _ j
          rw [hap]
          simp [hne]
        · simp [C.length]
        · intro k x y hx hy
          obtain ⟨z, hz, z1, z2, z3, z4⟩ := C.each k x hx
          simp only [List.flatten_cons, List.flatten_nil, List.append_nil, List.getElem?_map, hz, Option.map_some, Option.some.injEq] at hy
          subst hy
          have hpos : symIndex o x.symbol ≠ 0 := by
            have := (symIndex_pos o (hv.relocSymbol s (List.mem_of_getElem? his) x (List.mem_of_getElem? hx))).1
            omega
          refine ⟨z.type, z3, z1, rfl, ?_, ?_, z4, rfl⟩
          · show _ = elfKind m is64 o.endian z.type
            rw [← R.header.machine]; rfl
          · show (if z.sym = 0 then none else some z.sym) = _
            rw [z2, if_neg hpos]

/-- The example of C67: the relocation is a call of the second symbol, whose entry is the last one. -/
example : ∃ out f ys, elfWrite elfObj64 false .other = .ok out ∧ File.parse true out = .ok f ∧ f.architecture = .x86_64 ∧
    Runs (sectionRelocNext f out) (relocationsOf 2) ys .done ∧ ys = [(1, ⟨.pltRelative, .x86Branch, 32, some 4, -4, false, 4⟩)] := by
  obtain ⟨out, hout⟩ := elfObj_small .x86_64 ⟨1, 1, none, -4, .elf 4⟩ 4 rfl (by decide) 62 rfl true rfl
  have hp : Plain elfObj64 := by
    intro s hs
    simp only [elfObj64, elfObj, List.mem_cons, List.not_mem_nil, or_false] at hs
    rcases hs with rfl | rfl | rfl <;> simp [sectionFlags, defaultSectionFlags]
  obtain ⟨m, f, h1, h2, h3⟩ := C87_written elfObj64 (elfObj_valid _ _ (by decide)) false .other (by simp) true true rfl rfl elfObj_fits64 hp out hout
  have hm : m = 62 := by cases h1; rfl
  subst hm
  obtain ⟨ys, g1, g2, g3⟩ := h3.relocations 0 _ rfl
  refine ⟨out, f, ys, hout, h2, h3.architecture (by intro h; cases h), g1, ?_⟩
  have hl : ys.length = 1 := g2
  match ys, hl with
  | [⟨off, r⟩], _ =>
    obtain ⟨t, k1, k2, k3, k4, k5, k6, k7⟩ := g3 0 _ _ rfl rfl
    have ht : t = 4 := by cases k1; rfl
    subst ht
    have e : elfKind 62 true elfObj64.endian 4 = (.pltRelative, .x86Branch, 32) := by decide +kernel
    rw [e] at k4
    have e2 : symIndex elfObj64 1 = 4 := by decide +kernel
    cases r
    simp only [Prod.mk.injEq] at k2 k3 k4 k5 k6 k7
    obtain ⟨q1, q2, q3⟩ := k4
    subst q1 q2 q3 k2 k3 k5 k6 k7
    rw [e2]
    rfl

end Obj.Props

import Verif.Proof.ElfW8

/-! The writing phase of `elf_write`: relocations and headers, and the whole function. -/

namespace Obj.ElfW
open Obj Obj.Elf Obj.Reserve Obj.Parts Obj.Spec Obj.W Obj.Spec.ElfO

/-- The last headers. -/
def tailHdrs (o : Object) (c : Cfg) (r : Bool) (x : Strs) : List Shdr :=
  [⟨nmOf x.T nSymtab, 2, 0, 0, up (L2 o c) c.w, num o * c.symSize, strtabIndex o (needB o), 1 + nLocal o, c.w, c.symSize⟩] ++
  ((if needB o then [⟨nmOf x.T nShndx, 18, 0, 0, up (L3 o c) 4, num o * 4, symtabIndex o, 0, 4, 4⟩] else []) ++
  [⟨nmOf x.T nStrtab, 3, 0, 0, L4 o c (needB o), x.data.length, 0, 0, 1, 0⟩,
   ⟨nmOf x.T nShstrtab, 3, 0, 0, L6 o c r (needB o) x.data.length, x.shd.length, 0, 0, 1, 0⟩])

/-- All headers but the null header. -/
def allHdrs (o : Object) (c : Cfg) (r : Bool) (x : Strs) : List Shdr :=
  comdatHdrs (nmOf x.T) (symtabIndex o) (finalIx o) c.ehdrSize o.comdats ++
  (secHdrs c r (nmOf x.T) (symtabIndex o) (1 + o.comdats.length) (L1 o c) (L4 o c (needB o) + x.data.length) o.sections ++
   tailHdrs o c r x)

theorem length_tailHdrs (o : Object) (c : Cfg) (r : Bool) (x : Strs) : (tailHdrs o c r x).length = 3 + ifn (needB o) 1 := by
  unfold tailHdrs ifn
  cases needB o <;> rfl

theorem length_allHdrs (o : Object) (c : Cfg) (r : Bool) (x : Strs) : 1 + (allHdrs o c r x).length = total o (needB o) := by
  unfold allHdrs total
  rw [List.length_append, List.length_append, length_comdatHdrs, length_secHdrs, length_tailHdrs]
  omega

/-- The layout written in the header. -/
def layoutOf (o : Object) (c : Cfg) (r : Bool) (x : Strs) : Layout :=
  ⟨0, 0, up (L6 o c r (needB o) x.data.length + x.shd.length) c.w, total o (needB o), strtabIndex o (needB o) + 1⟩

/-- The parts after the string table. -/
def tailParts (o : Object) (c : Cfg) (mips r : Bool) (x : Strs) : List (Nat × List UInt8) :=
  relParts c mips r (finalIx o) o.sections ++ [(1, x.shd),
    (c.w, nullSectionHeader c (layoutOf o c r x) ++ (allHdrs o c r x).flatMap (Shdr.encode c))]

theorem length_finalIx (o : Object) : (finalIx o).length = o.symbols.length := by
  unfold finalIx
  rw [length_ixs, List.length_zip, length_ixs, List.length_map]; omega

theorem secName_mem (r : Bool) : ∀ (ss : List Section) (s : Section), s ∈ ss → s.name ∈ secNames r ss ∧
    (s.relocs ≠ [] → relocName r s ∈ secNames r ss)
  | [], _, h => by simp at h
  | a :: ss, s, h => by
    unfold secNames
    rcases List.mem_cons.1 h with rfl | h
    · refine ⟨by simp, fun hr => ?_⟩
      rw [if_neg hr]; simp
    · obtain ⟨h1, h2⟩ := secName_mem r ss s h
      exact ⟨by simp [h1], fun hr => by simp [h2 hr]⟩

theorem writeNullHeader_eq {w : Wtr} {c : Cfg} (hc : w.c = c) (h0 : w.layout.shoff ≠ 0) (h1 : w.layout.shoff = up w.out.length c.w)
    (h2 : 1 ≤ w.layout.sectionNum) (h3 : w.out.length + c.w + c.shdrSize < U64) :
    w.writeNullHeader = .ok { w with out := pad w.out c.w ++ nullSectionHeader c w.layout, written := 1 } := by
  subst hc
  have hp := length_pad w.out w.c.w
  have hu := up_le w.out.length w.c.w
  unfold Wtr.writeNullHeader
  rw [if_neg h0]
  unfold Wtr.writeNullHeaderSome
  rw [writeAlign_eq (alignOk_w _) (by omega)]
  simp only [Res.bind_eq, Res.ok_bind]
  rw [check_ok (show w.layout.shoff = (pad w.out w.c.w).length by rw [hp, h1])]
  simp only [Res.bind_eq, Res.ok_bind]
  rw [write_eq (by show (pad w.out w.c.w).length + (nullSectionHeader w.c w.layout).length < _
                   unfold nullSectionHeader; rw [Shdr.length_encode, hp]; omega)]
  simp only [Res.bind_eq, Res.ok_bind]
  rw [check_ok h2]
  rfl

theorem emitTail_sat (o : Object) (hv : Valid o) (c : Cfg) (r : Bool) (E : Prop)
    (hR : ∀ s ∈ o.sections, ∀ x ∈ s.relocs, (∀ t, x.flags ≠ .elf t) → E) (hS : ∀ s ∈ o.sections, sectionFlags s = none → E)
    (x : Strs) (hx : StrsOk o r x) (mips : Bool) (out : List UInt8) (hh : out.length = L4 o c (needB o) + x.data.length) :
    Res.Sat E (emitTail o r (planOf o c r (needB o) x.data.length) (WE o c r x mips out 0 (num o) [])) fun w =>
      w.out = emit out (tailParts o c mips r x) ∧ w.out.length = L8 o c r (needB o) x.data.length x.shd.length ∧
      (∀ s ∈ o.sections, sectionFlags s ≠ none) ∧ ∀ s ∈ o.sections, ∀ x ∈ s.relocs, ∃ t, x.flags = .elf t := by
  obtain ⟨b1, b2, b3, b4, b5, b6, b7, b8, b9⟩ := bounds o c r (needB o) x.data.length x.shd.length
  have hroom := hv.room
  have hdl := hx.wu.len
  have hsl := hx.wt.len
  have he := ehdrSize_le c
  have hsec := hv.sections
  have hhl := hdrs_le o.sections
  have hn1 := ifn_le (needB o) 1
  have hsx := symtabIndex_eq o
  have htot : total o (needB o) = 4 + o.comdats.length + hdrs o.sections + ifn (needB o) 1 := rfl
  have hst : strtabIndex o (needB o) = symtabIndex o + 1 + ifn (needB o) 1 := rfl
  have hsecs : (planOf o c r (needB o) x.data.length).secs = secsW o c r x.data.length := rfl
  have hix : (planOf o c r (needB o) x.data.length).symIndex = finalIx o := rfl
  have hco : (planOf o c r (needB o) x.data.length).comdats = comdatOffs (shT o r (needB o)) c.ehdrSize o.comdats := rfl
  have hnl : (planOf o c r (needB o) x.data.length).numLocal = 1 + nLocal o := rfl
  have hzl : ∀ p ∈ o.sections.zip (secsW o c r x.data.length), p.1 ∈ o.sections := fun p hp => (List.of_mem_zip hp).1
  have hL6 : L6 o c r (needB o) x.data.length = endOf (L4 o c (needB o) + x.data.length) (relSizes c r o.sections) := rfl
  have hL6' := le_endOf (relSizes c r o.sections) (L4 o c (needB o) + x.data.length)
  have hL4' := le_endOf (shndxSizes (needB o) (num o)) (L3 o c)
  have hL4 : L4 o c (needB o) = endOf (L3 o c) (shndxSizes (needB o) (num o)) := rfl
  have hL3 : L3 o c = up (L2 o c) c.w + num o * c.symSize := rfl
  have hupL2 := le_up (L2 o c) c.w
  have hL8 : L8 o c r (needB o) x.data.length x.shd.length =
      up (L6 o c r (needB o) x.data.length + x.shd.length) c.w + total o (needB o) * c.shdrSize := rfl
  have hu8 := le_up (L6 o c r (needB o) x.data.length + x.shd.length) c.w
  have hu8' := up_le (L6 o c r (needB o) x.data.length + x.shd.length) c.w
  unfold emitTail
  rw [hsecs, hix, hco, hnl]
  -- relocations
  refine Res.Sat.bind (writeRelocs_sat E c (shT o r (needB o)) mips r (finalIx o) _ _ (1 + o.comdats.length) (L1 o c) (by rfl) (by rfl)
    (by show SecsOk c _ r _ _ out.length _; rw [hh]; exact secsOk_secsW o c r x.data.length)
    (by intro p hp y hy; rw [length_finalIx]; exact hv.relocSymbol p.1 (hzl p hp) y hy)
    (by intro p hp y hy; exact hR p.1 (hzl p hp) y hy)
    (by show out.length + _ < U64; rw [zip_fst]; omega)) ?_
  rintro w ⟨rfl, hq1⟩
  rw [zip_fst]
  show Res.Sat E (Res.bind (Wtr.writeShstrtab (WE o c r x mips (emit out (relParts c mips r (finalIx o) o.sections)) 0 (num o) [])) _) _
  generalize hO1 : emit out (relParts c mips r (finalIx o) o.sections) = O1
  have hlen1 : O1.length = L6 o c r (needB o) x.data.length := by rw [← hO1, length_emit, sizes_relParts, hh]; rfl
  -- section names
  rw [writeShstrtab_eq (by show L6 o c r (needB o) x.data.length ≠ 0; omega) (by exact hlen1.symm) (by show O1.length + x.shd.length < U64; omega)]
  simp only [Res.bind_eq, Res.ok_bind]
  show Res.Sat E (Res.bind (Wtr.writeNullHeader (WE o c r x mips (O1 ++ x.shd) 0 (num o) [])) _) _
  generalize hO2 : O1 ++ x.shd = O2
  have hlen2 : O2.length = L6 o c r (needB o) x.data.length + x.shd.length := by rw [← hO2, List.length_append, hlen1]
  have hss : c.shdrSize ≤ total o (needB o) * c.shdrSize := by
    have := Nat.mul_le_mul_right c.shdrSize (show 1 ≤ total o (needB o) by omega)
    omega
  rw [writeNullHeader_eq (c := c) (by rfl) (by show up (L6 o c r (needB o) x.data.length + x.shd.length) c.w ≠ 0; omega)
    (by show up (L6 o c r (needB o) x.data.length + x.shd.length) c.w = up O2.length c.w; rw [hlen2])
    (by show 1 ≤ total o (needB o); omega) (by show O2.length + c.w + c.shdrSize < U64; omega)]
  simp only [Res.bind_eq, Res.ok_bind]
  show Res.Sat E (Res.bind (writeComdatHeaders (finalIx o) (WE o c r x mips (pad O2 c.w ++ nullSectionHeader c (layoutOf o c r x)) 1 (num o) []) _) _) _
  generalize hO3 : pad O2 c.w ++ nullSectionHeader c (layoutOf o c r x) = O3
  have hlen3 : O3.length = up (L6 o c r (needB o) x.data.length + x.shd.length) c.w + c.shdrSize := by
    rw [← hO3, List.length_append, length_pad, hlen2]; unfold nullSectionHeader; rw [Shdr.length_encode]
  generalize hw0 : WE o c r x mips O3 1 (num o) [] = w0
  have hroomW : Room w0 (o.comdats.length + (hdrs o.sections + (3 + ifn (needB o) 1))) := by
    rw [← hw0]
    refine ⟨?_, ?_, ?_⟩
    · show O3.length + _ * c.shdrSize < U64
      have : c.shdrSize + (o.comdats.length + (hdrs o.sections + (3 + ifn (needB o) 1))) * c.shdrSize = total o (needB o) * c.shdrSize := by
        rw [htot, show 4 + o.comdats.length + hdrs o.sections + ifn (needB o) 1 =
          1 + (o.comdats.length + (hdrs o.sections + (3 + ifn (needB o) 1))) by omega, Nat.add_mul 1, Nat.one_mul]
      omega
    · show 1 + _ ≤ total o (needB o); omega
    · show total o (needB o) < U32; omega
  -- group headers
  have hT := hx.t
  have hgrp : ∀ d ∈ o.comdats, nGroup ∈ (shT o r (needB o)).strings := by
    intro d hd
    apply shNames_mem
    unfold shNames
    apply List.mem_append_left
    rw [List.mem_replicate]
    exact ⟨by have := List.length_pos_of_mem hd; omega, rfl⟩
  have hgz : ∀ d ∈ o.comdats, (d.sections.length + 1) * 4 < U64 := by
    intro d hd
    have h1 : ∀ ds : List Comdat, d ∈ ds → (d.sections.length + 1) * 4 ≤ cost (comdatSizes ds) := by
      intro ds
      induction ds with
      | nil => simp
      | cons a ds ih =>
        intro h
        have hc : cost (comdatSizes (a :: ds)) = 4 + (a.sections.length + 1) * 4 + cost (comdatSizes ds) := rfl
        rcases List.mem_cons.1 h with rfl | h
        · omega
        · have := ih h; omega
    have := h1 _ hd
    omega
  have hsz : ∀ s ∈ o.sections, s.relocs.length * c.relSize r < U64 := by
    intro s hs
    have h1 : ∀ ss : List Section, s ∈ ss → s.relocs.length * c.relSize r ≤ cost (relSizes c r ss) := by
      intro ss
      induction ss with
      | nil => simp
      | cons a ss ih =>
        intro h
        have hc : cost (relSizes c r (a :: ss)) = cost (relSize1 c r a) + cost (relSizes c r ss) := by
          conv => lhs; unfold relSizes
          rw [cost_append]
        rcases List.mem_cons.1 h with rfl | h
        · have : s.relocs.length * c.relSize r ≤ cost (relSize1 c r s) := by
            unfold relSize1
            split
            · rename_i he; rw [he]; simp
            · simp only [cost]; omega
          omega
        · have := ih h; omega
    have := h1 _ hs
    omega
  rw [writeComdatHeaders_eq c (shT o r (needB o)) x.T x.shd hT hx.wt (finalIx o) (symtabIndex o) (hdrs o.sections + (3 + ifn (needB o) 1))
    o.comdats w0 c.ehdrSize (by rw [← hw0]; rfl) (by rw [← hw0]; rfl) (by rw [← hw0]; rfl) hgrp
    (by intro d hd; rw [length_finalIx]; exact hv.comdatSymbol d hd) hgz hroomW]
  simp only [Res.bind_eq, Res.ok_bind]
  -- section headers
  have hroomW2 := Room.add (hs := comdatHdrs (nmOf x.T) (symtabIndex o) (finalIx o) c.ehdrSize o.comdats)
    (hroomW.mono (by rw [length_comdatHdrs]; exact Nat.le_refl _))
  refine Res.Sat.bind (writeSectionHeaders_sat E c r (shT o r (needB o)) x.T x.shd hT hx.wt (symtabIndex o) (3 + ifn (needB o) 1) _ _
    (1 + o.comdats.length) (L1 o c) (L4 o c (needB o) + x.data.length) (by rw [← hw0]; rfl) (by rw [← hw0]; rfl) (by rw [← hw0]; rfl)
    (secsOk_secsW o c r x.data.length) (fun p hp => hS p.1 (hzl p hp))
    (by intro p hp
        obtain ⟨h1, h2⟩ := secName_mem r o.sections p.1 (hzl p hp)
        refine ⟨shNames_mem o r _ ?_, fun hr => shNames_mem o r _ ?_⟩
        · unfold shNames; apply List.mem_append_right; apply List.mem_append_left; exact h1
        · unfold shNames; apply List.mem_append_right; apply List.mem_append_left; exact h2 hr)
    (fun p hp => hsz p.1 (hzl p hp)) (by rw [zip_fst]; exact hroomW2)) ?_
  rintro w ⟨rfl, hq2⟩
  rw [zip_fst, addHdrs_append]
  have hroomW3 := Room.add (hs := secHdrs c r (nmOf x.T) (symtabIndex o) (1 + o.comdats.length) (L1 o c) (L4 o c (needB o) + x.data.length) o.sections)
    (k := 3 + ifn (needB o) 1) (hroomW2.mono (by rw [length_secHdrs]; exact Nat.le_refl _))
  rw [addHdrs_append] at hroomW3
  generalize hH1 : comdatHdrs (nmOf x.T) (symtabIndex o) (finalIx o) c.ehdrSize o.comdats ++
    secHdrs c r (nmOf x.T) (symtabIndex o) (1 + o.comdats.length) (L1 o c) (L4 o c (needB o) + x.data.length) o.sections = H1 at hroomW3 ⊢
  have hH1l : H1.length = o.comdats.length + hdrs o.sections := by
    rw [← hH1, List.length_append, length_comdatHdrs, length_secHdrs]
  -- symbol table header
  have hnm : ∀ n, n ∈ [nSymtab] ++ (shndxNames (needB o) ++ ([nStrtab] ++ [nShstrtab])) →
      nameOffset x.T (some (idOf (shT o r (needB o)) n)) = .ok (nmOf x.T n) := by
    intro n hn
    apply name_eq hT hx.wt
    apply shNames_mem
    unfold shNames
    exact List.mem_append_right _ (List.mem_append_right _ hn)
  have ha1 : (addHdrs w0 H1).writeSymtabHeader (1 + nLocal o) =
      .ok (addHdrs w0 (H1 ++ [⟨nmOf x.T nSymtab, 2, 0, 0, up (L2 o c) c.w, num o * c.symSize, strtabIndex o (needB o), 1 + nLocal o, c.w, c.symSize⟩])) := by
    unfold Wtr.writeSymtabHeader
    rw [if_neg (by rw [← hw0]; show ¬ some _ = none; simp)]
    unfold Wtr.writeSymtabHeaderSome
    rw [show nameOffset (addHdrs w0 H1).sh.tab (addHdrs w0 H1).sy.id = .ok (nmOf x.T nSymtab) by
      rw [← hw0]; exact hnm _ (by simp)]
    simp only [Res.bind_eq, Res.ok_bind]
    rw [mulU64_eq (show (addHdrs w0 H1).sy.num * (addHdrs w0 H1).c.symSize < U64 by
      rw [← hw0]; show num o * c.symSize < U64; omega)]
    simp only [Res.ok_bind]
    rw [writeHeader_add (k := 2 + ifn (needB o) 1) _ (hroomW3.mono (by omega))]
    simp only [Res.ok_bind]
    rw [check_ok (show (addHdrs (addHdrs w0 H1) _).sy.index = (addHdrs w0 H1).written by
      rw [← hw0]; show symtabIndex o = 1 + H1.length; omega)]
    simp only [Res.ok_bind]
    rw [addHdrs_append, ← hw0]
    rfl
  rw [ha1]
  simp only [Res.bind_eq, Res.ok_bind]
  generalize hH2 : H1 ++ [(⟨nmOf x.T nSymtab, 2, 0, 0, up (L2 o c) c.w, num o * c.symSize, strtabIndex o (needB o), 1 + nLocal o, c.w, c.symSize⟩ : Shdr)] = H2
  have hH2l : H2.length = H1.length + 1 := by rw [← hH2, List.length_append]; rfl
  have hroomW4 : Room (addHdrs w0 H2) (2 + ifn (needB o) 1) := by
    rw [← hH2, ← addHdrs_append]
    exact Room.add (hroomW3.mono (by simp only [List.length_cons, List.length_nil]; omega))
  -- extended indices header
  have ha2 : (addHdrs w0 H2).writeShndxHeader =
      .ok (addHdrs w0 (H2 ++ (if needB o then [⟨nmOf x.T nShndx, 18, 0, 0, up (L3 o c) 4, num o * 4, symtabIndex o, 0, 4, 4⟩] else []))) := by
    unfold Wtr.writeShndxHeader
    cases hb : needB o with
    | false =>
      rw [if_pos (by rw [← hw0]; show (if needB o then some _ else none) = none; rw [hb]; rfl)]
      simp
    | true =>
      have hLb : ifn (needB o) (up (L3 o c) 4) = up (L3 o c) 4 := by rw [hb]; rfl
      have hup3 := le_up (L3 o c) 4
      rw [if_neg (by rw [← hw0]; show ¬ (if needB o then some _ else none) = none; rw [hb]; simp)]
      unfold Wtr.writeShndxHeaderSome
      have hz : (addHdrs w0 H2).shndxSize = .ok (num o * 4) := by
        unfold Wtr.shndxSize
        rw [← hw0]
        show (if ifn (needB o) (up (L3 o c) 4) = 0 then _ else if num o * 4 < U32 then Res.ok (num o * 4) else _) = _
        have hsy := hv.symbols
        have hnum : num o = 1 + o.symbols.length := rfl
        rw [hLb, if_neg (by omega), if_pos (by omega)]
      rw [hz]
      simp only [Res.bind_eq, Res.ok_bind]
      rw [show nameOffset (addHdrs w0 H2).sh.tab (addHdrs w0 H2).sx.id = .ok (nmOf x.T nShndx) by
        rw [← hw0]
        show nameOffset x.T (if needB o then some (idOf (shT o r (needB o)) nShndx) else none) = _
        rw [if_pos hb]
        exact hnm _ (by rw [hb]; unfold shndxNames; simp)]
      simp only [Res.ok_bind]
      rw [writeHeader_add (k := 2) _ (hroomW4.mono (by rw [hb]; exact Nat.le_refl _))]
      simp only [Res.ok_bind]
      rw [addHdrs_append, ← hw0]
      show Res.ok (addHdrs _ (H2 ++ [⟨nmOf x.T nShndx, 18, 0, 0, ifn (needB o) (up (L3 o c) 4), num o * 4, symtabIndex o, 0, 4, 4⟩])) = _
      rw [hLb]
      rfl
  rw [ha2]
  simp only [Res.bind_eq, Res.ok_bind]
  generalize hH3 : H2 ++ (if needB o then [(⟨nmOf x.T nShndx, 18, 0, 0, up (L3 o c) 4, num o * 4, symtabIndex o, 0, 4, 4⟩ : Shdr)] else []) = H3
  have hH3l : H3.length = H2.length + ifn (needB o) 1 := by
    rw [← hH3, List.length_append]; cases needB o <;> rfl
  have hroomW5 : Room (addHdrs w0 H3) 2 := by
    rw [← hH3, ← addHdrs_append]
    exact Room.add (hroomW4.mono (by cases needB o <;> simp [ifn]))
  -- strings header
  have ha3 : (addHdrs w0 H3).writeStrtabHeader =
      .ok (addHdrs w0 (H3 ++ [⟨nmOf x.T nStrtab, 3, 0, 0, L4 o c (needB o), x.data.length, 0, 0, 1, 0⟩])) := by
    unfold Wtr.writeStrtabHeader
    rw [if_neg (by rw [← hw0]; show ¬ some _ = none; simp)]
    unfold Wtr.writeStrtabHeaderSome
    rw [show nameOffset (addHdrs w0 H3).sh.tab (addHdrs w0 H3).st.id = .ok (nmOf x.T nStrtab) by
      rw [← hw0]; exact hnm _ (by simp)]
    simp only [Res.bind_eq, Res.ok_bind]
    rw [writeHeader_add (k := 1) _ hroomW5]
    simp only [Res.ok_bind]
    rw [check_ok (show (addHdrs (addHdrs w0 H3) _).st.index = (addHdrs w0 H3).written by
      rw [← hw0]; show strtabIndex o (needB o) = 1 + H3.length; omega)]
    simp only [Res.ok_bind]
    rw [addHdrs_append, ← hw0]
    rfl
  rw [ha3]
  simp only [Res.bind_eq, Res.ok_bind]
  generalize hH4 : H3 ++ [(⟨nmOf x.T nStrtab, 3, 0, 0, L4 o c (needB o), x.data.length, 0, 0, 1, 0⟩ : Shdr)] = H4
  have hH4l : H4.length = H3.length + 1 := by rw [← hH4, List.length_append]; rfl
  have hroomW6 : Room (addHdrs w0 H4) 1 := by
    rw [← hH4, ← addHdrs_append]
    exact Room.add hroomW5
  -- section names header
  have ha4 : (addHdrs w0 H4).writeShstrtabHeader =
      .ok (addHdrs w0 (H4 ++ [⟨nmOf x.T nShstrtab, 3, 0, 0, L6 o c r (needB o) x.data.length, x.shd.length, 0, 0, 1, 0⟩])) := by
    unfold Wtr.writeShstrtabHeader
    rw [if_neg (by rw [← hw0]; show ¬ some _ = none; simp)]
    unfold Wtr.writeShstrtabHeaderSome
    rw [check_ok (show (addHdrs w0 H4).sh.offset ≠ 0 by rw [← hw0]; show L6 o c r (needB o) x.data.length ≠ 0; omega)]
    simp only [Res.bind_eq, Res.ok_bind]
    rw [show nameOffset (addHdrs w0 H4).sh.tab (addHdrs w0 H4).sh.id = .ok (nmOf x.T nShstrtab) by
      rw [← hw0]; exact hnm _ (by simp)]
    simp only [Res.ok_bind]
    rw [writeHeader_add (k := 0) _ hroomW6]
    simp only [Res.ok_bind]
    rw [check_ok (show (addHdrs (addHdrs w0 H4) _).layout.shstrtabIndex = (addHdrs w0 H4).written by
      rw [← hw0]; show strtabIndex o (needB o) + 1 = 1 + H4.length; omega)]
    simp only [Res.ok_bind]
    rw [addHdrs_append, ← hw0]
    rfl
  rw [ha4]
  simp only [Res.bind_eq, Res.ok_bind]
  have hall : H4 ++ [(⟨nmOf x.T nShstrtab, 3, 0, 0, L6 o c r (needB o) x.data.length, x.shd.length, 0, 0, 1, 0⟩ : Shdr)] = allHdrs o c r x := by
    rw [← hH4, ← hH3, ← hH2, ← hH1]
    unfold allHdrs tailHdrs
    simp only [List.append_assoc, List.cons_append, List.nil_append]
  rw [hall]
  have hlast : (addHdrs w0 (allHdrs o c r x)).out.length = L8 o c r (needB o) x.data.length x.shd.length := by
    rw [length_addHdrs, ← hw0]
    show O3.length + (allHdrs o c r x).length * c.shdrSize = _
    rw [hlen3, hL8, ← length_allHdrs o c r x, Nat.add_mul, Nat.one_mul]
    omega
  rw [check_ok (show (addHdrs w0 (allHdrs o c r x)).len = (addHdrs w0 (allHdrs o c r x)).out.length by
    rw [hlast, ← hw0]; rfl)]
  refine ⟨?_, hlast, ?_, ?_⟩
  · rw [← hw0]
    show O3 ++ (allHdrs o c r x).flatMap (Shdr.encode c) = _
    unfold tailParts
    rw [emit_append, hO1, emit_cons, emit_one, emit_one, pad_one, hO2, ← hO3, List.append_assoc]
  · intro s hs
    rw [← zip_fst o c r x.data.length] at hs
    obtain ⟨p, hp, rfl⟩ := List.mem_map.1 hs
    exact hq2 p hp
  · intro s hs
    rw [← zip_fst o c r x.data.length] at hs
    obtain ⟨p, hp, rfl⟩ := List.mem_map.1 hs
    exact hq1 p hp

end Obj.ElfW

import Verif.Proof.ElfW9
import Verif.Proof.RelocMap
import Verif.Props.ElfHeader

/-! `elf_write` as a whole. -/

namespace Obj.ElfW
open Obj Obj.Elf Obj.Reserve Obj.Parts Obj.Spec Obj.W Obj.Spec.ElfO

private theorem archs : ∀ a ∈ allArch, elfHasAddend a ≠ .panic ∧ elfMachine a ≠ .panic ∧
    ((elfHasAddend a = .ok true ∨ elfHasAddend a = .ok false) → elfIs64 a ≠ none) := by decide +kernel

theorem sizes_dataParts (o : Object) (c : Cfg) (x : Strs) :
    endOf c.ehdrSize (sizes (dataParts o c x)) = L4 o c (needB o) + x.data.length := by
  have e1 : sizes (o.comdats.map fun d => ((4 : Nat), comdatBytes c (d.sections.map (secIndex o)))) = comdatSizes o.comdats := by
    unfold sizes comdatSizes
    rw [List.map_map]
    apply List.map_congr_left
    intro d _
    simp only [Function.comp, length_comdatBytes, List.length_map]
  have e2 : sizes (if needB o then [((4 : Nat), symtabShndxBytes c (wsyms o x.U))] else []) = shndxSizes (needB o) (num o) := by
    unfold sizes shndxSizes
    split
    · simp only [List.map_cons, List.map_nil, length_symtabShndxBytes, length_wsyms]; rfl
    · rfl
  have e3 : sizes ((c.w, symtabBytes c (wsyms o x.U)) :: ((if needB o then [((4 : Nat), symtabShndxBytes c (wsyms o x.U))] else []) ++ [(1, x.data)]))
      = (c.w, num o * c.symSize) :: (shndxSizes (needB o) (num o) ++ [(1, x.data.length)]) := by
    rw [← e2, ← show sizes [((1 : Nat), x.data)] = [(1, x.data.length)] from rfl, ← sizes_append]
    show (c.w, (symtabBytes c (wsyms o x.U)).length) :: _ = _
    rw [length_symtabBytes, length_wsyms]; rfl
  unfold dataParts
  rw [sizes_append, sizes_append, e1, e3, sizes_secParts, endOf_append, endOf_append]
  show endOf (up (L2 o c) c.w + num o * c.symSize) _ = _
  rw [endOf_append]
  show up (L4 o c (needB o)) 1 + x.data.length = _
  rfl

/-- What a successful `elf_write` has done. -/
structure Done (o : Object) (hasSub : Bool) (flags : FileFlags) (r is64 : Bool) (m : Nat) (x : Strs) (hdr out : List UInt8) : Prop where
  rela : elfHasAddend o.arch = .ok r
  cls : elfIs64 o.arch = some is64
  mach : elfMachine o.arch = .ok m
  sub : hasSub = false
  strs : StrsOk o r x
  header : fileHeader ⟨is64, o.endian⟩ (headerOf o.arch m flags) (layoutOf o ⟨is64, o.endian⟩ r x) = .ok hdr
  hlen : hdr.length = (⟨is64, o.endian⟩ : Cfg).ehdrSize
  file : out = emit hdr (dataParts o ⟨is64, o.endian⟩ x ++ tailParts o ⟨is64, o.endian⟩ (isMips64el ⟨is64, o.endian⟩ m) r x)
  len : out.length = L8 o ⟨is64, o.endian⟩ r (needB o) x.data.length x.shd.length
  small : is64 = false → out.length < U32
  kinds : ∀ d ∈ o.comdats, d.kind = 1
  symf : ∀ s ∈ o.symbols, symbolFlags s ≠ none
  secf : ∀ s ∈ o.sections, sectionFlags s ≠ none
  relf : ∀ s ∈ o.sections, ∀ x ∈ s.relocs, ∃ t, x.flags = .elf t

theorem headerOf_machine (a : Arch) (m : Nat) (f : FileFlags) : (headerOf a m f).machine = m := by cases f <;> rfl

theorem elfWrite_sat (o : Object) (hv : Valid o) (hasSub : Bool) (flags : FileFlags) :
    Res.Sat (Refused o hasSub) (elfWrite o hasSub flags) fun out => ∃ r is64 m x hdr, Done o hasSub flags r is64 m x hdr out := by
  obtain ⟨ha1, ha2, ha3⟩ := archs o.arch (mem_allArch _)
  have hstt := fun r => storedSize_tables o r (needB o)
  unfold elfWrite
  cases hr : elfHasAddend o.arch with
  | panic => exact absurd hr ha1
  | err => exact .arch (.inr (.inr (by rw [hr]; simp)))
  | ok r =>
    rw [hr] at ha3
    simp only [Res.bind_eq, Res.ok_bind]
    obtain ⟨is64, hi⟩ : ∃ b, elfIs64 o.arch = some b := by
      cases h : elfIs64 o.arch with
      | some b => exact ⟨b, rfl⟩
      | none => exact absurd h (ha3 (by cases r <;> simp))
    unfold is64Of
    rw [hi]
    simp only [Res.ok_bind]
    generalize hc : (⟨is64, o.endian⟩ : Cfg) = c
    refine Res.Sat.bind (plan_sat o hv c r _ (fun d hd hk => .comdat d hd hk) (fun h => .strings h)) ?_
    rintro p ⟨U, data, T, shd, rfl, ⟨u1, u2, u3⟩, ⟨t1, t2, t3⟩, hk⟩
    simp only
    generalize hx : (⟨U, data, T, shd⟩ : Strs) = x
    have hxo : StrsOk o r x := by rw [← hx]; exact ⟨u1, u2, u3, t1, t2, t3⟩
    obtain ⟨b1, b2, b3, b4, b5, b6, b7, b8, b9⟩ := bounds o c r (needB o) x.data.length x.shd.length
    have hst := hstt r
    unfold machineOf
    cases hs : hasSub with
    | true => exact .arch (.inl rfl)
    | false =>
      simp only [Bool.false_eq_true, if_false]
      cases hm : elfMachine o.arch with
      | panic => exact absurd hm ha2
      | err => exact .arch (.inr (.inl (by rw [hm]; simp)))
      | ok m =>
        simp only [Res.ok_bind]
        have hW : W4 o c r (needB o) U data T shd = WE o c r x false [] 0 0 [] := by rw [← hx]; rfl
        have hP : planOf o c r (needB o) data.length = planOf o c r (needB o) x.data.length := by rw [← hx]
        rw [hW, hP]
        have hlu := hxo.lu
        have hlt := hxo.lt
        have hroom := hv.room
        have hdl := hxo.wu.len
        have hsl := hxo.wt.len
        -- the file header
        unfold Wtr.writeFileHeader
        rw [check_ok (show (WE o c r x false [] 0 0 []).out.length = 0 from rfl)]
        simp only [Res.bind_eq, Res.ok_bind]
        unfold Wtr.checkLen
        by_cases hbig : ¬ c.is64 ∧ U32 ≤ L8 o c r (needB o) x.data.length x.shd.length
        · rw [show (if ¬ (WE o c r x false [] 0 0 []).c.is64 = true ∧ U32 ≤ (WE o c r x false [] 0 0 []).len then Res.err else Res.ok ()) = .err from
            if_pos hbig]
          refine .size ?_ ?_
          · rw [hi, ← show c.is64 = is64 by rw [← hc]]
            cases h : c.is64
            · rfl
            · exact absurd h hbig.1
          · have := hbig.2; omega
        · rw [show (if ¬ (WE o c r x false [] 0 0 []).c.is64 = true ∧ U32 ≤ (WE o c r x false [] 0 0 []).len then Res.err else Res.ok ()) = .ok () from
            if_neg hbig]
          simp only [Res.ok_bind]
          have hw := Props.C33_header_written_iff c (headerOf o.arch m flags) (layoutOf o c r x)
          rcases hw with ⟨hdr, hh, hhl⟩ | ⟨-, hc1, -⟩
          swap
          · have : (layoutOf o c r x).segmentNum = 0 := rfl
            omega
          have hhl' : hdr.length = c.ehdrSize := hhl
          have he := ehdrSize_le c
          rw [show fileHeader (WE o c r x false [] 0 0 []).c (headerOf o.arch m flags) (WE o c r x false [] 0 0 []).layout = .ok hdr from hh]
          simp only [Res.ok_bind]
          rw [write_eq (w := { (WE o c r x false [] 0 0 []) with mips := _ }) (by show 0 + hdr.length < U64; omega)]
          simp only [Res.ok_bind]
          show Res.Sat _ (Res.bind (emitData o _ (WE o c r x (isMips64el c (headerOf o.arch m flags).machine) hdr 0 0 [])) _) _
          rw [headerOf_machine]
          generalize hmi : isMips64el c m = mips
          refine Res.Sat.bind (emitData_sat o hv c r _ (fun s hs hf => .symbol s hs hf) x hxo mips hdr hhl') ?_
          rintro w ⟨rfl, hsf⟩
          have hl4 : (emit hdr (dataParts o c x)).length = L4 o c (needB o) + x.data.length := by
            rw [length_emit, hhl', sizes_dataParts]
          refine Res.Sat.bind (emitTail_sat o hv c r _ (fun s hs y hy hf => .reloc s y hs hy hf) (fun s hs hf => .section_ s hs hf) x hxo mips _ hl4) ?_
          rintro w ⟨h1, h2, h3, h4⟩
          refine ⟨r, is64, m, x, hdr, ⟨hr, hi, hm, rfl, hxo, ?_, ?_, ?_, ?_, ?_, hk, hsf, h3, h4⟩⟩
          · rw [hc]; exact hh
          · rw [hc]; exact hhl'
          · rw [hc, hmi, h1, emit_append]
          · rw [hc]; exact h2
          · intro h
            rw [h2]
            have : c.is64 = false := by rw [← hc]; exact h
            by_cases hge : U32 ≤ L8 o c r (needB o) x.data.length x.shd.length
            · exact absurd ⟨by rw [this]; decide, hge⟩ hbig
            · omega

end Obj.ElfW

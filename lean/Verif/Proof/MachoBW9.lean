import Verif.Proof.MachoBW8

/-! Writing with the Mach-O builder: symbols and strings. -/

namespace Obj.MachoB
open Obj Obj.MachoR
open Obj.BuildW (mapR mapR_each Blk NameId Built StrIn)
open Obj.Spec.MachoF (Each num headerSize headerIn IsCommand SymbolsOf symbolAt)
open Obj.Spec.MachoB

section
variable {b : Builder} {o : Order} {l : Layout} {out : List UInt8}

theorem strings_ok {c : Cfg} {t t' : StrTab} {n : Nat} {d : List UInt8} (hb : Built t) (h : MachoW.encStrtab c t = .ok (n, t', d)) :
    d.length = n ∧ n < 2 ^ 32 ∧ ∀ (s : List UInt8) (id : Option Nat) (off : Nat), NameId t s id → ElfW.nameOffset t' id = .ok off →
      Spec.StringAt d s off ∧ off < 2 ^ 32 ∧ (0 : UInt8) ∉ s := by
  unfold MachoW.encStrtab at h
  split at h
  · next m u e hw =>
    rw [Res.bind_eq_ok] at h
    obtain ⟨a, h1, h2⟩ := h
    have ht : BuildW.tabOut t = .ok ⟨m, u, 0 :: e⟩ := by unfold BuildW.tabOut ElfW.encStrtab; rw [hw]; rfl
    obtain ⟨t1, t2, -⟩ := BuildW.tabOut_ok hb ht
    simp only at t1 t2
    have ha := BuildW.align64_ge h1
    split at h2
    · next hlt =>
      cases h2
      refine ⟨by rw [List.length_append, List.length_replicate]; omega, hlt, fun s id off hi ho => ?_⟩
      obtain ⟨⟨p, q, e1, e2⟩, s2, s3⟩ := BuildW.nameOffset_ok hb ht hi ho
      refine ⟨⟨p, q ++ List.replicate (n - m) 0, ?_, e2⟩, s2, s3⟩
      have e1 : 0 :: e = p ++ s ++ 0 :: q := e1
      rw [e1]
      simp [List.append_assoc]
    · cases h2
  · cases h
  · cases h

/-- A symbol after reading. -/
def newSym (o : Order) (y : Sym) : Sym :=
  ⟨symPos o y.id, false, y.name, y.sect.map (secPos o), y.ntype, match y.sect with | some i => secPos o i + 1 | none => y.nsect, y.desc, y.value⟩

theorem Written.nlist_ok (x : Written b o l out) {k : Nat} {y : Sym} (hy : o.syms[k]? = some y) {name : Option Nat} (hn : NameId o.tab y.name name) {n : Nlist}
    (h : nlistOf b o l.tab y name = .ok n) :
    Nlist.decode b.cfg (Nlist.encode b.cfg n) = n ∧ SymbolIs out (totals o l (indTable o)) (some (l.stroff, l.stroff + l.strsize)) n (newSym o y) ∧
      SymSame (sectionOrder b) y (newSym o y) := by
  obtain ⟨m1, m2⟩ := (x.sym_order.all y).1 (List.mem_of_getElem? hy)
  have so := x.sound.symbols y m1 m2
  have hse := x.ord.secs_le
  unfold nlistOf at h
  rw [Res.bind_eq_ok] at h
  obtain ⟨sc, h1, h⟩ := h
  rw [Res.bind_eq_ok] at h
  obtain ⟨st, h2, h3⟩ := h
  cases h3
  obtain ⟨d1, d2, d3⟩ := strings_ok x.ord.built x.laid.strtab
  obtain ⟨⟨p, q, e1, e2⟩, s2, s3⟩ := d3 y.name name st hn (by cases name <;> exact h2)
  have hstr := x.em.strings
  have hout := x.lt
  have hblk := hstr.2
  -- the section
  have hs : sc < 256 ∧ (if y.ntype / 2 % 8 = 7 then 0 < sc ∧ sc ≤ o.secs.length ∧ y.sect.map (secPos o) = some (sc - 1) else y.sect.map (secPos o) = none) ∧
      (match y.sect with | some i => secPos o i + 1 | none => y.nsect) = sc ∧ Ref (sectionOrder b) y.sect (y.sect.map (secPos o)) := by
    cases hc : y.sect with
    | none =>
      rw [hc] at h1
      cases h1
      have : ¬ y.ntype / 2 % 8 = 7 := fun e => absurd hc (so.sect.2 e)
      rw [if_neg this]
      exact ⟨so.nsect, rfl, rfl, .inl ⟨rfl, rfl⟩⟩
    | some i =>
      rw [hc] at h1
      rw [Res.bind_eq_ok] at h1
      obtain ⟨num, h4, h5⟩ := h1
      cases h5
      unfold secNum at h4
      split at h4
      · next hlt =>
        have hg := List.getElem?_eq_getElem hlt
        obtain ⟨j, j1, j2, j3⟩ := x.sec_live hg (x.clean.symbols y m1 m2 i _ hc hg)
        rw [j2] at h4
        cases h4
        have hp : secPos o i = j := by rw [secPos, posIn, j2]; rfl
        rw [Nat.mod_eq_of_lt (show j + 1 < 256 by omega), if_pos (so.sect.1 (by rw [hc]; simp)), Option.map_some, hp]
        exact ⟨by omega, ⟨by omega, by omega, rfl⟩, congrArg (· + 1) hp, .inr ⟨i, j, rfl, rfl, j1⟩⟩
      · cases h4
  obtain ⟨c1, c2, c3, c4⟩ := hs
  refine ⟨?_, ⟨rfl, rfl, c3, rfl, rfl, ?_, c2⟩, ⟨rfl, rfl, c4, rfl, ⟨?_, ?_⟩, rfl, rfl⟩⟩
  · rw [MachoW.nlist_decode b.cfg _ s2 so.ntype c1 so.desc]
    have hw := space_w b
    simp only [Nlist.mk.injEq, true_and]
    exact Nat.mod_eq_of_lt (by rw [← hw]; exact so.value)
  · have hpl : p.length + y.name.length + 1 + q.length = l.strings.length := by
      rw [e1]; simp; omega
    have hsub := slice_slice out l.stroff l.strings.length p.length (y.name.length + 1) (by omega)
    refine ⟨l.stroff, l.stroff + l.strsize, rfl, by omega, by simp only [newSym]; omega, ?_, s3⟩
    show slice out (l.stroff + st) (y.name ++ [0]).length = y.name ++ [0]
    rw [List.length_append, List.length_singleton, ← e2, ← hsub, hstr.1, e1, List.append_assoc]
    have := slice_right p (y.name ++ 0 :: q) 0 (y.name.length + 1)
    rw [Nat.add_zero] at this
    rw [this, show y.name ++ 0 :: q = (y.name ++ [0]) ++ q by simp]
    unfold slice
    rw [List.drop_zero]
    exact List.take_left' (by simp)
  · intro e
    unfold newSym
    rw [e]
  · intro j hj
    unfold newSym at hj ⊢
    cases hc : y.sect with
    | none => rw [hc] at hj; cases hj
    | some i => rw [hc] at hj; cases hj; rfl

/-- The symbol table. -/
theorem Written.symbols_ok (x : Written b o l out) :
    SymbolsAre b.cfg out (totals o l (indTable o)) (SymtabCmd.encode b.cfg ⟨l.symoff, o.syms.length, l.stroff, l.strsize⟩) (o.syms.map (newSym o)) ∧
      Each (SymSame (sectionOrder b)) o.syms (o.syms.map (newSym o)) := by
  obtain ⟨ys, h1, h2⟩ := x.em.symbols
  rw [mapR_each] at h1
  have hnl := BuildR.each_length x.ord.names
  have hz (k : Nat) (y : Sym) (hy : o.syms[k]? = some y) : ∃ name n, NameId o.tab y.name name ∧ nlistOf b o l.tab y name = .ok n ∧ ys[k]? = some n := by
    obtain ⟨name, n1, n2⟩ := BuildW.each_get_left x.ord.names hy
    obtain ⟨n, n3, n4⟩ := BuildW.each_get_left h1 (x := (y, name)) (by rw [List.getElem?_zip_eq_some]; exact ⟨hy, n1⟩)
    exact ⟨name, n, n2, n4, n3⟩
  have hlen : ys.length = o.syms.length := by
    rw [BuildR.each_length h1, List.length_zip]; omega
  have hout := x.lt
  have hfl := length_flat (Nlist.encode b.cfg) (nlistSize b.cfg) ys fun n _ => MachoW.length_nlist _ n
  have hlt := blk_lt h2 hout
  have hb := h2.2
  rw [hfl, hlen] at hb
  have hns : nlistSize b.cfg = 8 + Spec.MachoF.width b.is64 := by unfold nlistSize Spec.MachoF.width; split <;> rfl
  obtain ⟨d1, d2, -⟩ := strings_ok x.ord.built x.laid.strtab
  have hstr := x.em.strings.2
  have hsy := x.ord.syms_le
  have hf (i v : Nat) (hi : [2, 24, l.symoff, o.syms.length, l.stroff, l.strsize][i]? = some v) :
      num b.endian (SymtabCmd.encode b.cfg ⟨l.symoff, o.syms.length, l.stroff, l.strsize⟩) (4 * i) 4 = v % 256 ^ 4 := num_words b.endian _ i v hi
  have f2 := (hf 2 _ rfl).trans (mod_lt4 hlt.1)
  have f3 := (hf 3 _ rfl).trans (mod_lt4 (by omega))
  have f4 := (hf 4 _ rfl).trans (mod_lt4 (by omega))
  have f5 := (hf 5 _ rfl).trans (mod_lt4 d2)
  have hdec : ∀ n ∈ ys, Nlist.decode b.cfg (Nlist.encode b.cfg n) = n := by
    intro n hn
    obtain ⟨p, hp, e⟩ := BuildR.each_mem h1 hn
    obtain ⟨k, hk⟩ := List.mem_iff_getElem?.1 hp
    rw [List.getElem?_zip_eq_some] at hk
    obtain ⟨name, n1, n2⟩ := BuildW.each_get_left x.ord.names hk.1
    rw [hk.2] at n1
    cases n1
    exact (x.nlist_ok hk.1 n2 e).1
  refine ⟨⟨⟨ys, some (l.stroff, l.stroff + l.strsize)⟩, ⟨?_, ?_, ?_, ?_⟩, ?_⟩, ?_⟩
  · rw [MachoW.length_symtab]
  · refine .inr ?_
    show num b.endian _ 8 4 + (8 + Spec.MachoF.width b.is64) * num b.endian _ 12 4 ≤ out.length
    rw [show num b.endian (SymtabCmd.encode b.cfg ⟨l.symoff, o.syms.length, l.stroff, l.strsize⟩) 8 4 = l.symoff from f2,
      show num b.endian (SymtabCmd.encode b.cfg ⟨l.symoff, o.syms.length, l.stroff, l.strsize⟩) 12 4 = o.syms.length from f3, ← hns]
    exact hb
  · show ys = (List.range (num b.endian _ 12 4)).map fun i => symbolAt b.cfg out (num b.endian _ 8 4 + (8 + Spec.MachoF.width b.is64) * i)
    rw [show num b.endian (SymtabCmd.encode b.cfg ⟨l.symoff, o.syms.length, l.stroff, l.strsize⟩) 8 4 = l.symoff from f2,
      show num b.endian (SymtabCmd.encode b.cfg ⟨l.symoff, o.syms.length, l.stroff, l.strsize⟩) 12 4 = o.syms.length from f3, ← hns, ← hlen]
    apply List.ext_getElem?
    intro i
    rw [List.getElem?_map]
    by_cases hil : i < ys.length
    · rw [List.getElem?_eq_getElem hil, List.getElem?_eq_getElem (by simpa using hil), List.getElem_range, Option.map_some, Option.some.injEq,
        ← MachoF.nlist_decode, (blk_item h2 (n := nlistSize b.cfg) (fun n _ => MachoW.length_nlist _ n) (List.getElem?_eq_getElem hil)).1]
      exact (hdec _ (List.getElem_mem hil)).symm
    · rw [List.getElem?_eq_none (by omega), List.getElem?_eq_none (by simpa using hil)]; rfl
  · show some (l.stroff, l.stroff + l.strsize) = some (num b.endian _ 16 4, num b.endian _ 16 4 + num b.endian _ 20 4)
    rw [show num b.endian (SymtabCmd.encode b.cfg ⟨l.symoff, o.syms.length, l.stroff, l.strsize⟩) 16 4 = l.stroff from f4,
      show num b.endian (SymtabCmd.encode b.cfg ⟨l.symoff, o.syms.length, l.stroff, l.strsize⟩) 20 4 = l.strsize from f5]
  · refine BuildW.each_of_forall (by rw [List.length_map, hlen]) fun i n y hn hy => ?_
    rw [List.getElem?_map] at hy
    obtain ⟨y0, e1, rfl⟩ := Option.map_eq_some_iff.1 hy
    obtain ⟨name, n', n1, n2, n3⟩ := hz i y0 e1
    rw [hn] at n3
    cases n3
    exact (x.nlist_ok e1 n1 n2).2.1
  · refine BuildW.each_map_right _ (BuildW.each_self _ fun y hy => ?_)
    obtain ⟨k, hk⟩ := List.mem_iff_getElem?.1 hy
    obtain ⟨name, n', n1, n2, n3⟩ := hz k y hk
    exact (x.nlist_ok hk n1 n2).2.2

end

end Obj.MachoB

import Verif.Proof.ElfW5
import Verif.Proof.Elf

/-! The writing phase of `elf_write`: the contents. -/

namespace Obj.ElfW
open Obj Obj.Elf Obj.Reserve Obj.Parts Obj.Spec Obj.W Obj.Spec.ElfO

theorem write_eq {w : Wtr} {b : List UInt8} (h : w.out.length + b.length < U64) :
    w.write b = .ok { w with out := w.out ++ b } := by
  unfold Wtr.write
  rw [bufBytes_eq _ _ h]; rfl

theorem writeAlign_eq {w : Wtr} {a : Nat} (ha : AlignOk a) (h : w.out.length + a < U64) :
    w.writeAlign a = .ok { w with out := pad w.out a } := by
  unfold Wtr.writeAlign
  by_cases h1 : 1 < a
  · rw [if_pos h1, bufAlign_eq _ _ ha h1 h]; rfl
  · rw [if_neg h1, pad_of_le_one _ _ h1]

/-! ## COMDAT groups -/

/-- The section header index of a section. -/
def ixOf (secs : List SecOff) (i : Nat) : Nat := ((secs[i]?).map (·.index)).getD 0

theorem writeEntries_eq (c : Cfg) (secs : List SecOff) : ∀ (is : List Nat) (w : Wtr), w.c = c → (∀ i ∈ is, i < secs.length) →
    w.out.length + 4 * is.length < U64 →
    writeEntries secs w is = .ok { w with out := w.out ++ (is.map (ixOf secs)).flatMap fun s => wr c.en 4 s } := by
  intro is
  induction is with
  | nil => intro w _ _ _; simp [writeEntries]
  | cons i is ih =>
    intro w hc h1 h2
    have h3 := h1 i (by simp)
    simp only [List.length_cons] at h2
    unfold writeEntries
    rw [List.getElem?_eq_getElem h3]
    simp only
    unfold Wtr.writeComdatEntry
    rw [write_eq (by simp; omega)]
    simp only [Res.bind_eq, Res.ok_bind]
    rw [ih _ (by exact hc) (fun x hx => h1 x (by simp [hx])) (by simp; omega)]
    have e : ixOf secs i = (secs[i]).index := by unfold ixOf; rw [List.getElem?_eq_getElem h3]; rfl
    simp only [List.map_cons, List.flatMap_cons, e, List.append_assoc, hc]

/-- The groups as parts. -/
def comdatParts (c : Cfg) (secs : List SecOff) (ds : List Comdat) : List (Nat × List UInt8) :=
  ds.map fun d => (4, comdatBytes c (d.sections.map (ixOf secs)))

theorem length_comdatBytes (c : Cfg) (xs : List Nat) : (comdatBytes c xs).length = (xs.length + 1) * 4 := by
  unfold comdatBytes
  rw [List.length_append, length_wr]
  have : (xs.flatMap fun s => wr c.en 4 s).length = xs.length * 4 := by
    exact length_flatMap_const _ 4 xs (by intro a _; simp)
  omega

theorem sizes_comdatParts (c : Cfg) (secs : List SecOff) (ds : List Comdat) : sizes (comdatParts c secs ds) = comdatSizes ds := by
  unfold sizes comdatParts comdatSizes
  rw [List.map_map]
  apply List.map_congr_left
  intro d _
  simp [length_comdatBytes]

theorem writeComdats_eq (c : Cfg) (secs : List SecOff) : ∀ (ds : List Comdat) (w : Wtr), w.c = c →
    (∀ d ∈ ds, ∀ i ∈ d.sections, i < secs.length) → w.out.length + cost (comdatSizes ds) < U64 →
    writeComdats secs w ds = .ok { w with out := emit w.out (comdatParts c secs ds) } := by
  intro ds
  induction ds with
  | nil => intro w _ _ _; rfl
  | cons d ds ih =>
    intro w hc h1 h2
    have hcost : cost (comdatSizes (d :: ds)) = 4 + (d.sections.length + 1) * 4 + cost (comdatSizes ds) := rfl
    rw [hcost] at h2
    have hu := up_le w.out.length 4
    have hp := length_pad w.out 4
    unfold writeComdats Wtr.writeComdatStart
    rw [bufAlign_eq _ _ alignOk_4 (by decide) (by omega)]
    simp only [Res.bind_eq, Res.ok_bind]
    rw [write_eq (by show (pad w.out 4).length + _ < _; rw [length_wr]; omega)]
    simp only [Res.ok_bind]
    rw [writeEntries_eq c secs _ _ (by exact hc) (h1 d (by simp))
      (by show (pad w.out 4 ++ wr w.c.en 4 1).length + _ < _; rw [List.length_append, length_wr]; omega)]
    simp only [Res.ok_bind]
    have e : pad w.out 4 ++ wr w.c.en 4 1 ++ ((d.sections.map (ixOf secs)).flatMap fun s => wr c.en 4 s) =
        pad w.out 4 ++ comdatBytes c (d.sections.map (ixOf secs)) := by
      unfold comdatBytes; rw [hc, List.append_assoc]
    rw [e]
    rw [ih _ (by exact hc) (fun x hx => h1 x (by simp [hx]))
      (by show (pad w.out 4 ++ comdatBytes c _).length + _ < _
          rw [List.length_append, length_comdatBytes, List.length_map]; omega)]
    rfl

/-! ## Sections -/

/-- The offsets agree with the positions. -/
def SecsOk (c : Cfg) (T : StrTab) (r : Bool) : Nat → Nat → Nat → List (Section × SecOff) → Prop
  | _, _, _, [] => True
  | n, len, rlen, (s, so) :: rest =>
    so = ⟨n, up len s.align, idOf T s.name, if s.relocs = [] then 0 else up rlen c.w, relId T r s⟩ ∧
    SecsOk c T r (n + hdrCount s) (up len s.align + s.data.length) (endOf rlen (relSize1 c r s)) rest

theorem secsOk_plan (c : Cfg) (T : StrTab) (r : Bool) : ∀ (ss : List Section) (n len rlen : Nat),
    SecsOk c T r n len rlen (ss.zip (relOffs c r rlen ss (secOffs T r len n ss)))
  | [], _, _, _ => trivial
  | s :: ss, n, len, rlen => by
    unfold secOffs relOffs
    rw [List.zip_cons_cons]
    exact ⟨rfl, secsOk_plan c T r ss _ _ _⟩

/-- The sections as parts. -/
def secParts (ss : List Section) : List (Nat × List UInt8) := ss.map fun s => (s.align, s.data)

theorem sizes_secParts (ss : List Section) : sizes (secParts ss) = secSizes ss := by
  unfold sizes secParts secSizes; rw [List.map_map]; rfl

theorem writeSections_eq (c : Cfg) (T : StrTab) (r : Bool) : ∀ (l : List (Section × SecOff)) (w : Wtr) (n rlen : Nat),
    SecsOk c T r n w.out.length rlen l → (∀ x ∈ l, AlignOk x.1.align) →
    w.out.length + cost (secSizes (l.map (·.1))) < U64 →
    writeSections w l = .ok { w with out := emit w.out (secParts (l.map (·.1))) } := by
  intro l
  induction l with
  | nil => intro w _ _ _ _ _; rfl
  | cons x l ih =>
    obtain ⟨s, so⟩ := x
    intro w n rlen h1 h2 h3
    obtain ⟨rfl, h1⟩ := h1
    have hcost : cost (secSizes (((s, ⟨n, up w.out.length s.align, idOf T s.name, if s.relocs = [] then 0 else up rlen c.w,
        relId T r s⟩) :: l).map (·.1))) = s.align + s.data.length + cost (secSizes (l.map (·.1))) := rfl
    rw [hcost] at h3
    have hu := up_le w.out.length s.align
    have hp := length_pad w.out s.align
    have ha : AlignOk s.align := h2 _ List.mem_cons_self
    unfold writeSections
    rw [writeAlign_eq ha (by omega)]
    simp only [Res.bind_eq, Res.ok_bind]
    rw [check_ok (show up w.out.length s.align = (pad w.out s.align).length by rw [hp])]
    simp only [Res.ok_bind]
    rw [write_eq (by show (pad w.out s.align).length + _ < _; omega)]
    simp only [Res.ok_bind]
    have hl : (pad w.out s.align ++ s.data).length = up w.out.length s.align + s.data.length := by
      rw [List.length_append, hp]
    rw [ih _ (n + hdrCount s) (endOf rlen (relSize1 c r s)) (by rw [hl]; exact h1) (fun x hx => h2 x (by simp [hx]))
      (by rw [hl]; omega)]
    rfl

/-! ## Symbols -/

/-- The section field of a symbol without section. -/
def shndxOf (s : Symbol) : Nat :=
  match s.section_ with
  | .none | .absolute => 0xfff1
  | .common => 0xfff2
  | _ => 0

/-- The name offset of a symbol. -/
def symName (U : StrTab) (s : Symbol) : Nat := if hasName s then nmOf U s.name else 0

/-- The symbol given to the encoder. -/
def wsymOf (o : Object) (U : StrTab) (s : Symbol) : WSym :=
  ⟨symName U s, ((symbolFlags s).getD (0, 0)).1, ((symbolFlags s).getD (0, 0)).2, shndxOf s, s.value, s.size, symSec o s⟩

theorem symShndx_eq (o : Object) {secs : List SecOff} {s : Symbol} (h0 : s.section_ = .none → s.kind = .file)
    (h1 : ∀ i, s.section_ = .inSec i → ∃ so, secs[i]? = some so ∧ so.index = secIndex o i) :
    symShndx secs s = .ok (shndxOf s, symSec o s) := by
  unfold symShndx shndxOf symSec
  cases hs : s.section_ with
  | none => simp only [h0 hs, if_true]
  | undefined => rfl
  | absolute => rfl
  | common => rfl
  | inSec i =>
    obtain ⟨so, h2, h3⟩ := h1 i hs
    simp only [h2, h3]

/-- The extended index data after symbols. -/
def sxData (c : Cfg) (off : Nat) (d : List UInt8) (ws : List WSym) : List UInt8 :=
  if off ≠ 0 then d ++ ws.flatMap fun s => wr c.en 4 ((writeSymbol c s).2.getD 0) else d

theorem Sym.length_enc (c : Cfg) (s : Sym) : (Sym.encode c s).length = c.symSize := Sym.length_encode c s

theorem length_writeSymbol (c : Cfg) (s : WSym) : (writeSymbol c s).1.length = c.symSize := by
  unfold writeSymbol; exact Sym.length_encode c _

theorem length_writeSymbols (c : Cfg) (ws : List WSym) : (ws.flatMap fun s => (writeSymbol c s).1).length = ws.length * c.symSize := by
  exact length_flatMap_const _ c.symSize ws (by intro a _; exact length_writeSymbol c a)

theorem writeSym_eq {w : Wtr} {c : Cfg} {s : WSym} (hc : w.c = c) (h1 : w.out.length + c.symSize < U64) (h2 : w.sy.written + 1 ≤ w.sy.num)
    (h3 : w.sy.num < U32) (h4 : w.sx.offset ≠ 0 → w.sx.need = true) :
    w.writeSym s = .ok { w with
      out := w.out ++ (writeSymbol c s).1,
      sx := { w.sx with data := sxData c w.sx.offset w.sx.data [s] },
      sy := { w.sy with written := w.sy.written + 1 } } := by
  unfold Wtr.writeSym sxData
  subst hc
  simp only
  rw [write_eq (by rw [length_writeSymbol]; exact h1)]
  simp only [Res.bind_eq, Res.ok_bind]
  rw [addU32_eq (by omega)]
  simp only [Res.ok_bind]
  rw [check_ok h2]
  simp only [Res.ok_bind]
  by_cases h : w.sx.offset ≠ 0
  · simp only [if_pos h, List.flatMap_cons, List.flatMap_nil, List.append_nil, h4 h, Bool.true_or]
  · simp only [if_neg h]

theorem writeSymbols_sat (o : Object) (E : Prop) (c : Cfg) (U : StrTab) (data : List UInt8) (hU : Written U data) (p : Symbol → Bool)
    (secs : List SecOff) : ∀ (l : List Symbol) (w : Wtr), w.c = c → w.st.tab = U →
    (∀ s ∈ l, s.section_ = .none → s.kind = .file) →
    (∀ s ∈ l, ∀ i, s.section_ = .inSec i → ∃ so, secs[i]? = some so ∧ so.index = secIndex o i) →
    (∀ s ∈ l, symbolFlags s = none → E) → (∀ s ∈ l, hasName s = true → s.name ∈ U.strings) →
    (w.sx.offset ≠ 0 → w.sx.need = true) →
    w.out.length + (l.filter p).length * c.symSize < U64 → w.sy.written + (l.filter p).length ≤ w.sy.num → w.sy.num < U32 →
    Res.Sat E (writeSymbols p secs w (l.zip (l.map (symId U)))) fun w' =>
      w' = { w with out := w.out ++ ((l.filter p).map (wsymOf o U)).flatMap fun s => (writeSymbol c s).1,
                    sx := { w.sx with data := sxData c w.sx.offset w.sx.data ((l.filter p).map (wsymOf o U)) },
                    sy := { w.sy with written := w.sy.written + (l.filter p).length } } ∧
      ∀ s ∈ l, p s = true → symbolFlags s ≠ none := by
  intro l
  induction l with
  | nil =>
    intro w _ _ _ _ _ _ _ _ _ _
    refine ⟨?_, by simp⟩
    simp [sxData]
  | cons s l ih =>
    intro w hc hst h1 h2 h3 h4 h5 h6 h7 h8
    rw [List.map_cons, List.zip_cons_cons]
    unfold writeSymbols
    by_cases hp : p s
    · rw [if_pos hp]
      rw [List.filter_cons_of_pos hp] at h6 h7 ⊢
      simp only [List.length_cons] at h6 h7
      have h6' : w.out.length + c.symSize + (l.filter p).length * c.symSize < U64 := by
        rw [Nat.add_mul] at h6; omega
      unfold writeOneSymbol
      cases hf : symbolFlags s with
      | none => exact h3 s (by simp) hf
      | some f =>
        obtain ⟨info, other⟩ := f
        simp only
        rw [symShndx_eq o (h1 s (by simp)) (h2 s (by simp))]
        simp only [Res.bind_eq, Res.ok_bind]
        have hn : nameOffset w.st.tab (symId U s) = .ok (symName U s) := by
          unfold symId symName
          by_cases hh : hasName s
          · rw [if_pos hh, if_pos hh, hst]
            exact (nmOf_spec hU (h4 s (by simp) hh)).1
          · rw [if_neg hh, if_neg hh]; rfl
        rw [hn]
        simp only [Res.ok_bind]
        have hw : (⟨symName U s, info, other, shndxOf s, s.value, s.size, symSec o s⟩ : WSym) = wsymOf o U s := by
          unfold wsymOf; rw [hf]; rfl
        rw [hw, writeSym_eq hc (by omega) (by omega) h8 h5]
        simp only [Res.ok_bind]
        have hlen := length_writeSymbol c (wsymOf o U s)
        have ih' := fun a b => ih { w with
          out := w.out ++ (writeSymbol c (wsymOf o U s)).1,
          sx := { w.sx with data := sxData c w.sx.offset w.sx.data [wsymOf o U s] },
          sy := { w.sy with written := w.sy.written + 1 } } hc hst (fun x hx => h1 x (by simp [hx]))
          (fun x hx => h2 x (by simp [hx])) (fun x hx => h3 x (by simp [hx])) (fun x hx => h4 x (by simp [hx])) h5 a b h8
        refine (ih' (by show (w.out ++ _).length + _ < _; rw [List.length_append, hlen]; omega)
          (by show w.sy.written + 1 + _ ≤ w.sy.num; omega)).mono (fun h => h) ?_
        rintro w' ⟨rfl, hq⟩
        refine ⟨?_, ?_⟩
        · have e1 : sxData c w.sx.offset (sxData c w.sx.offset w.sx.data [wsymOf o U s]) ((l.filter p).map (wsymOf o U)) =
              sxData c w.sx.offset w.sx.data (wsymOf o U s :: (l.filter p).map (wsymOf o U)) := by
            unfold sxData
            by_cases h : w.sx.offset ≠ 0
            · simp only [if_pos h, List.flatMap_cons, List.flatMap_nil, List.append_nil, List.append_assoc]
            · simp only [if_neg h]
          have e2 : w.sy.written + 1 + (l.filter p).length = w.sy.written + (s :: l.filter p).length := by
            rw [List.length_cons]; omega
          simp only [List.map_cons, List.flatMap_cons, e1, e2, List.append_assoc]
        · intro x hx hpx
          rcases List.mem_cons.1 hx with rfl | hx
          · rw [hf]; simp
          · exact hq x hx hpx
    · rw [if_neg hp]
      rw [List.filter_cons_of_neg hp] at h6 h7 ⊢
      refine (ih w hc hst (fun x hx => h1 x (by simp [hx])) (fun x hx => h2 x (by simp [hx])) (fun x hx => h3 x (by simp [hx]))
        (fun x hx => h4 x (by simp [hx])) h5 h6 h7 h8).mono (fun h => h) ?_
      rintro w' ⟨e, hq⟩
      refine ⟨e, ?_⟩
      intro x hx hpx
      rcases List.mem_cons.1 hx with rfl | hx
      · exact absurd hpx hp
      · exact hq x hx hpx

end Obj.ElfW

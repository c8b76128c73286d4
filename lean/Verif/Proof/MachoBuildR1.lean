import Verif.Proof.MachoBuild
import Verif.Proof.MachoFile4
import Verif.Proof.MachoImport3
import Verif.Proof.BuildRead

/-! Reading of sections, symbols and libraries by the Mach-O builder. -/

namespace Obj.MachoB
open Obj Obj.MachoR Obj.Spec.MachoB
open Obj.BuildW (foldR mapR)
open Obj.Spec.MachoF (Each num width headerSize headerIn IsCommand segmentSize sectionSize segmentIn sectionsIn Zerofill OffsetsOf SymbolsOf IndirectOf)
open Obj.Spec.MachoI (PartIs)
open Obj.MachoF

/-- The numbers of the first loop agree with those of the specification. -/
def TotalsEq (st : State) (t : Totals) : Prop := st.sections = t.sections ∧ st.symbols = t.symbols ∧ st.indirect = t.indirect

theorem and_one (w k : Nat) : (w >>> k) &&& 1 = w / 2 ^ k % 2 := by
  rw [Nat.shiftRight_eq_div_pow, show (1 : Nat) = 2 ^ 1 - 1 from rfl, Nat.and_two_pow_sub_one_eq_mod]

theorem and_three (w k : Nat) : (w >>> k) &&& 3 = w / 2 ^ k % 4 := by
  rw [Nat.shiftRight_eq_div_pow, show (3 : Nat) = 2 ^ 2 - 1 from rfl, Nat.and_two_pow_sub_one_eq_mod]

theorem and_24 (w : Nat) : w &&& 0x00ffffff = w % 2 ^ 24 := Nat.and_two_pow_sub_one_eq_mod w 24
theorem and_4 (w : Nat) : w &&& 0xf = w % 16 := Nat.and_two_pow_sub_one_eq_mod w 4

theorem ne_zero_one (n : Nat) : decide (n % 2 ≠ 0) = decide (n % 2 = 1) := by
  rw [decide_eq_decide]; omega

/-- The fields of a record. -/
theorem relInfo_eq (en : Endianness) (a w : Nat) (hw : w < 2 ^ 32) : relInfo en (a, w) =
    ⟨a, match en with | .little => w % 2 ^ 24 | .big => w / 2 ^ 8,
      decide ((match en with | .little => w / 2 ^ 24 % 2 | .big => w / 2 ^ 7 % 2) = 1),
      match en with | .little => w / 2 ^ 25 % 4 | .big => w / 2 ^ 5 % 4,
      decide ((match en with | .little => w / 2 ^ 27 % 2 | .big => w / 2 ^ 4 % 2) = 1),
      match en with | .little => w / 2 ^ 28 % 16 | .big => w % 16⟩ := by
  cases en with
  | little =>
    unfold relInfo
    simp only [and_one, and_three, and_24, ne_zero_one]
    congr 1
    rw [Nat.shiftRight_eq_div_pow]
    simp only [Nat.reducePow] at *
    omega
  | big =>
    unfold relInfo
    simp only [and_one, and_three, and_4, ne_zero_one]
    congr 1
    rw [Nat.shiftRight_eq_div_pow]

theorem readRel_aux {st : State} {t : Totals} (ht : TotalsEq st t) (a n p l e ty : Nat) (r : Rel) :
    readRel st ⟨a, n, decide (p = 1), l, decide (e = 1), ty⟩ = .ok r ↔
    r.address = a ∧ r.pcrel = decide (p = 1) ∧ r.length = l ∧ r.typ = ty ∧
    if e = 1 then n < t.symbols ∧ r.target = .symbol n else 0 < n ∧ n ≤ t.sections ∧ r.target = .section_ (n - 1) := by
  obtain ⟨h1, h2, _⟩ := ht
  rw [readRel]
  dsimp only
  rw [h1, h2]
  obtain ⟨tg, ra, rp, rl, rt⟩ := r
  simp only [decide_eq_true_eq]
  by_cases he : e = 1
  · rw [if_pos he, if_pos he]
    by_cases hn : t.symbols ≤ n
    · rw [if_pos hn]
      simp only [reduceCtorEq, false_iff]
      intro h
      omega
    · rw [if_neg hn]
      simp only [Res.ok.injEq, Rel.mk.injEq]
      constructor
      · rintro ⟨rfl, rfl, rfl, rfl, rfl⟩; exact ⟨rfl, rfl, rfl, rfl, by omega, rfl⟩
      · rintro ⟨rfl, rfl, rfl, rfl, _, rfl⟩; exact ⟨rfl, rfl, rfl, rfl, rfl⟩
  · rw [if_neg he, if_neg he]
    by_cases hn : n = 0 ∨ t.sections ≤ n - 1
    · rw [if_pos hn]
      simp only [reduceCtorEq, false_iff]
      intro h
      omega
    · rw [if_neg hn]
      simp only [Res.ok.injEq, Rel.mk.injEq]
      constructor
      · rintro ⟨rfl, rfl, rfl, rfl, rfl⟩; exact ⟨rfl, rfl, rfl, rfl, by omega, by omega, rfl⟩
      · rintro ⟨rfl, rfl, rfl, rfl, _, _, rfl⟩; exact ⟨rfl, rfl, rfl, rfl, rfl⟩

theorem readRel_iff {st : State} {t : Totals} (ht : TotalsEq st t) (en : Endianness) (a w : Nat) (hw : w < 2 ^ 32) (r : Rel) :
    readRel st (relInfo en (a, w)) = .ok r ↔ RelIs en t a w r := by
  rw [relInfo_eq en a w hw]
  cases en <;> exact readRel_aux ht ..

theorem and_c0 (v : Nat) : v &&& 0xc0000000 ≠ 0 ↔ v.testBit 31 = true ∨ v.testBit 30 = true := by
  have h := MachoI.and_mask v 30 2
  rw [show (2 ^ 2 - 1) <<< 30 = 0xc0000000 from rfl] at h
  rw [h, Nat.testBit_eq_decide_div_mod_eq, Nat.testBit_eq_decide_div_mod_eq, decide_eq_true_iff, decide_eq_true_iff]
  simp only [Nat.reducePow]
  omega

theorem readInd_iff {st : State} {t : Totals} (ht : TotalsEq st t) (v : Nat) (x : Ind) : readInd st v = .ok x ↔ IndIs t v x := by
  obtain ⟨_, h2, _⟩ := ht
  rw [readInd, IndIs, h2]
  by_cases h : v &&& 0xc0000000 ≠ 0
  · rw [if_pos h, if_pos ((and_c0 v).1 h), Res.ok.injEq, eq_comm]
  · rw [if_neg h, if_neg (fun hc => h ((and_c0 v).2 hc))]
    by_cases hn : t.symbols ≤ v
    · rw [if_pos hn]
      simp only [reduceCtorEq, false_iff]
      omega
    · rw [if_neg hn, Res.ok.injEq, eq_comm]
      exact ⟨fun h => ⟨by omega, h⟩, fun h => h.2⟩

theorem readData_iff (data : List UInt8) (h : Sect) (off : Nat) (d : Data) : readData data h off = .ok d ↔ DataIs data h off d := by
  rw [readData, DataIs]
  cases hf : h.fileSize with
  | none =>
    have hz := (fileSize_none h).1 hf
    simp only [Res.ok.injEq]
    exact ⟨fun e => Or.inl ⟨hz, e.symm⟩, fun e => (e.resolve_right fun e => e.1 hz).2.symm⟩
  | some n =>
    obtain ⟨hz, rfl⟩ := (fileSize_some h n).1 hf
    dsimp only
    rw [Res.bind_eq_ok]
    constructor
    · rintro ⟨l, h1, h2⟩
      injection h2 with h2
      exact Or.inr ⟨hz, l, (MachoI.part_iff ..).1 h1, h2.symm⟩
    · intro e
      obtain ⟨_, l, h1, rfl⟩ := e.resolve_left fun e => hz e.1
      exact ⟨l, (MachoI.part_iff ..).2 h1, rfl⟩

theorem relocs_iff {st : State} {t : Totals} (ht : TotalsEq st t) (c : Cfg) (data : List UInt8) (h : Sect) (hn : h.nreloc < 2 ^ 32) (rs : List Rel) :
    ((h.relocations c data).bind fun ws => mapR (readRel st) (ws.map (relInfo c.en))) = .ok rs ↔ RelocsAre c.en data t h rs := by
  have hu : h.nreloc * 8 < U64 := by
    have : (U64 : Nat) = 2 ^ 64 := rfl
    simp only [Nat.reducePow] at *; omega
  have hs : ∀ i, (rd c.en ((slice data (h.reloff + 8 * i) 8).take 4), rd c.en (((slice data (h.reloff + 8 * i) 8).drop 4).take 4)) =
      (num c.en data (h.reloff + 8 * i) 4, num c.en data (h.reloff + 8 * i + 4) 4) := by
    intro i
    have h1 := num_slice c.en data (h.reloff + 8 * i) 8 0 4 (by omega)
    have h2 := num_slice c.en data (h.reloff + 8 * i) 8 4 4 (by omega)
    rw [Nat.add_zero] at h1
    rw [← h1, ← h2]; rfl
  unfold Sect.relocations RelocsAre
  rw [Res.bind_eq_ok]
  constructor
  · rintro ⟨ws, h1, h2⟩
    obtain ⟨imgs, h3, h4⟩ := (Res.bind_eq_ok ..).1 h1
    obtain ⟨h5, rfl⟩ := (Pe.readSliceAt_iff _ _ _ _ hu _).1 h3
    injection h4 with h4
    refine ⟨by omega, ?_⟩
    rw [← h4, BuildW.mapR_each, List.map_map, List.map_map, BuildR.each_map_left] at h2
    refine BuildR.each_imp h2 fun i _ r hr => ?_
    simp only [Function.comp_apply, hs] at hr
    exact (readRel_iff ht _ _ _ (num_lt ..) _).1 hr
  · rintro ⟨h1, h2⟩
    rw [(Pe.readSliceAt_iff _ _ _ _ hu _).2 ⟨by omega, rfl⟩, Res.ok_bind]
    refine ⟨_, rfl, ?_⟩
    · rw [BuildW.mapR_each, List.map_map, List.map_map, BuildR.each_map_left]
      refine BuildR.each_imp h2 fun i _ r hr => ?_
      simp only [Function.comp_apply, hs]
      exact (readRel_iff ht _ _ _ (num_lt ..) _).2 hr

theorem readSection_iff {st : State} {t : Totals} (ht : TotalsEq st t) (c : Cfg) (data : List UInt8) (id : Nat) (h : Sect) (hn : h.nreloc < 2 ^ 32)
    (off : Nat) (s : Sec) : readSection c data st id h off = .ok s ↔ s.id = id ∧ SectionIs c data t h off s := by
  have hstub : symbolStubSize h = if h.flags % 256 = 8 then h.reserved2 else 0 := by
    rw [symbolStubSize, and255]
  unfold readSection
  rw [Res.bind_eq_ok]
  constructor
  · rintro ⟨d, h1, h2⟩
    obtain ⟨ws, h3, h4⟩ := (Res.bind_eq_ok ..).1 h2
    obtain ⟨rs, h5, h6⟩ := (Res.bind_eq_ok ..).1 h4
    obtain ⟨vs, h7, h8⟩ := (Res.bind_eq_ok ..).1 h6
    obtain ⟨is, h9, h10⟩ := (Res.bind_eq_ok ..).1 h8
    injection h10 with h10
    subst h10
    refine ⟨rfl, ⟨rfl, rfl, rfl, rfl, rfl, rfl, hstub, (readData_iff ..).1 h1, ?_, vs, ?_, ?_⟩⟩
    · exact (relocs_iff ht c data h hn rs).1 ((Res.bind_eq_ok ..).2 ⟨ws, h3, h5⟩)
    · rw [← ht.2.2]; exact (indirect_iff ..).1 h7
    · rw [BuildW.mapR_each] at h9
      exact BuildR.each_imp h9 fun v _ x hx => (readInd_iff ht v x).1 hx
  · rintro ⟨rfl, h⟩
    obtain ⟨ws, h3, h5⟩ := (Res.bind_eq_ok ..).1 ((relocs_iff ht c data _ hn s.relocs).2 h.relocs)
    obtain ⟨vs, h7, h9⟩ := h.indirect
    refine ⟨s.data, (readData_iff ..).2 h.contents, ?_⟩
    rw [h3, Res.ok_bind, h5, Res.ok_bind]
    rw [← ht.2.2] at h7
    rw [(indirect_iff ..).2 h7, Res.ok_bind]
    rw [(BuildW.mapR_each ..).2 (BuildR.each_imp h9 fun v _ x hx => (readInd_iff ht v x).2 hx), Res.ok_bind]
    obtain ⟨h1, h2, h3, h4, h5, h6, h7⟩ := h
    cases s
    simp only at *
    subst h1 h2 h3 h4 h5 h6
    rw [hstub, h7]

end Obj.MachoB

import Verif.Proof.PeW7

/-! # Reserving an image does not panic if there is room -/

namespace Obj.PeW
open Obj Obj.Pe Obj.Reserve Obj.Spec Obj.Spec.PeFile Obj.Spec.PeW

theorem pe_fine {len size a : Nat} (ha : Pow2 a) (h : len + size + a < U32) : ∃ o l, Reserve.pe len size a = .ok (o, l) ∧ l < len + size + a := by
  unfold Reserve.pe
  have h0 := ha.pos
  by_cases hs : size = 0
  · rw [if_pos hs]; exact ⟨_, _, rfl, by omega⟩
  · rw [if_neg hs, a64_eq ha (by omega)]
    have := ru_lt len ha
    simp only [Res.bind_eq, Res.ok_bind]
    unfold addU64
    rw [if_pos (by omega)]
    exact ⟨_, _, rfl, by omega⟩

theorem reserve_fine {w : State} {size a : Nat} (ha : Pow2 a) (h : w.lay.len + size + a < U32) :
    ∃ o w', w.reserve size a = .ok (o, w') ∧ w' = { w with lay := { w.lay with len := w'.lay.len } } ∧ w'.lay.len < w.lay.len + size + a := by
  obtain ⟨o, l, h1, h2⟩ := pe_fine ha h
  unfold State.reserve
  rw [h1]
  exact ⟨o, _, rfl, rfl, h2⟩

theorem peVirtual_fine {sa v n : Nat} (ha : Pow2 sa) (h : v + n + sa < U32) : ∃ l, peVirtual sa v n = .ok (v, l) ∧ l < v + n + sa := by
  unfold peVirtual addU32
  rw [if_pos (by omega)]
  simp only [Res.bind_eq, Res.ok_bind]
  rw [a32_eq ha h]
  exact ⟨_, rfl, ru_lt _ ha⟩

/-- All counters of the writer are at most `K`. -/
def Under (K : Nat) (w : State) : Prop :=
  w.lay.len ≤ K ∧ w.lay.vlen ≤ K ∧ w.lay.codeLen ≤ K ∧ w.lay.dataLen ≤ K ∧ w.lay.bssLen ≤ K

theorem addIf_fine {b : Bool} {l s : Nat} (h : l + s < U32) : ∃ r, addIf b l s = .ok r ∧ r ≤ l + s := by
  unfold addIf addU32
  cases b
  · exact ⟨_, rfl, by omega⟩
  · rw [if_pos rfl, if_pos h]; exact ⟨_, rfl, Nat.le_refl _⟩

theorem section_fine {w : State} {K n v d sa fa : Nat} {name : List UInt8} {c : Nat} (hu : Under K w) (h1 : w.lay.sectionAlign = sa) (h2 : w.lay.fileAlign = fa) (hs : Pow2 sa)
    (hf : Pow2 fa) (hv : v ≤ n) (hd : d ≤ n) (h : K + (n + sa + 2 * fa) < U32) :
    ∃ r w', w.reserveSection name c v d = .ok (r, w') ∧ Under (K + (n + sa + 2 * fa)) w' ∧ w'.lay.sectionAlign = sa ∧ w'.lay.fileAlign = fa ∧
      w'.dirs = w.dirs ∧ w'.relocs = w.relocs := by
  obtain ⟨u1, u2, u3, u4, u5⟩ := hu
  have hs0 := hs.pos
  have hf0 := hf.pos
  unfold State.reserveSection peSection
  rw [h1, h2]
  obtain ⟨l1, e1, b1⟩ := peVirtual_fine (v := w.lay.vlen) (n := v) hs (by omega)
  rw [e1]
  simp only [Res.bind_eq, Res.ok_bind]
  rw [a32_eq hf (by omega)]
  simp only [Res.ok_bind]
  have b2 := ru_lt d hf
  have hrange : ∃ o l, peFileRange w.lay (roundUp d fa) = .ok (o, l) ∧ l < w.lay.len + roundUp d fa + fa := by
    unfold peFileRange
    split
    · rw [h2]; exact pe_fine hf (by omega)
    · exact ⟨_, _, rfl, by omega⟩
  obtain ⟨o, l, e3, b3⟩ := hrange
  rw [e3]
  simp only [Res.ok_bind]
  rw [a32_eq hf (by omega)]
  have b4 := ru_lt v hf
  simp only [Res.ok_bind]
  obtain ⟨r1, e5, b5⟩ := addIf_fine (b := decide (Obj.PeW.content c = .code)) (l := w.lay.codeLen) (s := roundUp v fa) (by omega)
  obtain ⟨r2, e6, b6⟩ := addIf_fine (b := decide (Obj.PeW.content c = .data)) (l := w.lay.dataLen) (s := roundUp v fa) (by omega)
  obtain ⟨r3, e7, b7⟩ := addIf_fine (b := decide (Obj.PeW.content c = .bss)) (l := w.lay.bssLen) (s := roundUp v fa) (by omega)
  rw [e5, e6, e7]
  refine ⟨_, _, rfl, ⟨?_, ?_, ?_, ?_, ?_⟩, rfl, rfl, rfl, rfl⟩ <;> dsimp only <;> omega

theorem claim_fine {w : State} {i : Nat} {d old : DataDir} (h : w.dirs[i]? = some old) (h0 : old.virtualAddress = 0) :
    w.claimDir i d = .ok { w with dirs := w.dirs.set i d } := by
  unfold State.claimDir
  rw [h]
  simp only
  rw [if_neg (by simp [h0])]

/-- A directory that is still unset. -/
def Unset (w : State) (i : Nat) : Prop := ∃ old, w.dirs[i]? = some old ∧ old.virtualAddress = 0

theorem dirSection_fine {w : State} {K n sa fa i : Nat} {name : List UInt8} {c : Nat} (hu : Under K w) (h1 : w.lay.sectionAlign = sa) (h2 : w.lay.fileAlign = fa) (hs : Pow2 sa)
    (hf : Pow2 fa) (h : K + (n + sa + 2 * fa) < U32) {size : Nat} (hn : size ≤ n) (hi : Unset w i) :
    ∃ r w' d, w.reserveDirSection name c size i = .ok (r, w') ∧ Under (K + (n + sa + 2 * fa)) w' ∧ w'.lay.sectionAlign = sa ∧ w'.lay.fileAlign = fa ∧
      w'.dirs = w.dirs.set i d ∧ w'.relocs = w.relocs := by
  obtain ⟨r, w', e1, e2, e3, e4, e5, e6⟩ := section_fine (name := name) (c := c) hu h1 h2 hs hf hn hn h
  obtain ⟨old, g1, g2⟩ := hi
  unfold State.reserveDirSection
  rw [e1]
  simp only [Res.bind_eq, Res.ok_bind]
  rw [claim_fine (by rw [e5]; exact g1) g2]
  exact ⟨r, _, _, rfl, e2, e3, e4, by rw [e5], e6⟩

theorem sec_fine {p : Prog} {w : State} {K : Nat} {s : Sec} (hv : Valid p) (hs : s ∈ p.sections) {R0 R1 : RelocWriter} {size : Nat}
    (hR0 : s = .reloc → w.relocs.reserve = .ok (R1, size)) (hsize : size ≤ 12 * p.relocs.length + 2)
    (hu : Under K w) (h1 : w.lay.sectionAlign = p.sectionAlign) (h2 : w.lay.fileAlign = p.fileAlign) (h : K + space p s < U32)
    (hun : ∀ i, (Obj.Spec.PeW.entry [] s).dir = some i → Unset w i) :
    ∃ r w', w.reserveSec s = .ok (r, w') ∧ Under (K + space p s) w' ∧ w'.lay.sectionAlign = p.sectionAlign ∧ w'.lay.fileAlign = p.fileAlign ∧
      (s ≠ .reloc → w'.relocs = w.relocs) ∧ ∀ i, (Obj.Spec.PeW.entry [] s).dir ≠ some i → Unset w i → Unset w' i := by
  have plain : ∀ {name c v d n}, v ≤ n → d ≤ n → space p s = n + p.sectionAlign + 2 * p.fileAlign → s ≠ .reloc →
      ∃ r w', w.reserveSection name c v d = .ok (r, w') ∧ Under (K + space p s) w' ∧ w'.lay.sectionAlign = p.sectionAlign ∧ w'.lay.fileAlign = p.fileAlign ∧
      (s ≠ .reloc → w'.relocs = w.relocs) ∧ ∀ i, (Obj.Spec.PeW.entry [] s).dir ≠ some i → Unset w i → Unset w' i := by
    intro name c v d n a1 a2 a3 a4
    rw [a3] at h ⊢
    obtain ⟨r, w', e1, e2, e3, e4, e5, e6⟩ := section_fine (name := name) (c := c) hu h1 h2 hv.sectionAlign hv.fileAlign a1 a2 h
    exact ⟨r, w', e1, e2, e3, e4, fun _ => e6, fun i _ hx => by unfold Unset; rw [e5]; exact hx⟩
  have dir : ∀ {name c n i}, space p s = n + p.sectionAlign + 2 * p.fileAlign → s ≠ .reloc → (Obj.Spec.PeW.entry [] s).dir = some i →
      ∃ r w', w.reserveDirSection name c n i = .ok (r, w') ∧ Under (K + space p s) w' ∧ w'.lay.sectionAlign = p.sectionAlign ∧ w'.lay.fileAlign = p.fileAlign ∧
      (s ≠ .reloc → w'.relocs = w.relocs) ∧ ∀ i, (Obj.Spec.PeW.entry [] s).dir ≠ some i → Unset w i → Unset w' i := by
    intro name c n i a3 a4 a5
    rw [a3] at h ⊢
    obtain ⟨r, w', d, e1, e2, e3, e4, e5, e6⟩ := dirSection_fine (name := name) (c := c) hu h1 h2 hv.sectionAlign hv.fileAlign h (Nat.le_refl _) (hun i a5)
    refine ⟨r, w', e1, e2, e3, e4, fun _ => e6, fun j hj hx => ?_⟩
    unfold Unset
    rw [e5, List.getElem?_set_ne (by intro hij; subst hij; exact hj a5)]
    exact hx
  cases s with
  | custom n c v sz d => exact plain (n := v + sz) (by omega) (by omega) rfl (by simp)
  | text d => exact plain (Nat.le_refl _) (Nat.le_refl _) rfl (by simp)
  | data v d => exact plain (n := v + d.length) (by omega) (by omega) rfl (by simp)
  | rdata d => exact plain (Nat.le_refl _) (Nat.le_refl _) rfl (by simp)
  | bss n => exact plain (Nat.le_refl _) (Nat.zero_le _) rfl (by simp)
  | idata d => exact dir rfl (by simp) rfl
  | edata d => exact dir rfl (by simp) rfl
  | pdata d => exact dir rfl (by simp) rfl
  | xdata d => exact plain (Nat.le_refl _) (Nat.le_refl _) rfl (by simp)
  | rsrc d => exact dir rfl (by simp) rfl
  | reloc =>
    show ∃ r w', w.reserveReloc = .ok (r, w') ∧ _
    unfold State.reserveReloc
    rw [hR0 rfl]
    simp only [Res.bind_eq, Res.ok_bind]
    obtain ⟨r, w', d, e1, e2, e3, e4, e5, e6⟩ := dirSection_fine (w := { w with relocs := R1 }) (name := [0x2e, 0x72, 0x65, 0x6c, 0x6f, 0x63, 0, 0])
      (c := 0x40 ||| 0x40000000 ||| 0x02000000) hu h1 h2 hv.sectionAlign hv.fileAlign h hsize (hun 5 rfl)
    rw [e1]
    refine ⟨r, _, rfl, e2, e3, e4, fun h => absurd rfl h, fun j hj hx => ?_⟩
    unfold Unset
    dsimp only
    rw [e5, List.getElem?_set_ne (by rintro rfl; exact hj rfl)]
    exact hx

theorem secs_fine {p : Prog} (hv : Valid p) {R0 R1 : RelocWriter} {size : Nat} (hR0 : Sec.reloc ∈ p.sections → R0.reserve = .ok (R1, size)) (hsize : size ≤ 12 * p.relocs.length + 2) :
    ∀ (ss : List Sec) (w : State) (K : Nat), (∀ s ∈ ss, s ∈ p.sections) → (ss.filter (· = .reloc)).length ≤ 1 → (.reloc ∈ ss → w.relocs = R0) →
    Under K w → w.lay.sectionAlign = p.sectionAlign → w.lay.fileAlign = p.fileAlign → K + (ss.map (space p)).sum < U32 →
    (ss.Pairwise fun a b => ∀ i, (Obj.Spec.PeW.entry [] a).dir = some i → (Obj.Spec.PeW.entry [] b).dir ≠ some i) →
    (∀ s ∈ ss, ∀ i, (Obj.Spec.PeW.entry [] s).dir = some i → Unset w i) →
    ∃ rs w', w.reserveSecs ss = .ok (rs, w') ∧ Under (K + (ss.map (space p)).sum) w' ∧
      ∀ i, (∀ s ∈ ss, (Obj.Spec.PeW.entry [] s).dir ≠ some i) → Unset w i → Unset w' i
  | [], w, K, _, _, _, hu, _, _, _, _, _ => ⟨[], w, rfl, by simpa using hu, fun _ _ h => h⟩
  | s :: ss, w, K, hm, h1, hR, hu, a1, a2, hk, hp, hun => by
    rw [List.map_cons, List.sum_cons] at hk ⊢
    rw [List.pairwise_cons] at hp
    obtain ⟨r, w1, e1, e2, e3, e4, e5, e6⟩ := sec_fine (R0 := R0) (R1 := R1) (size := size) hv (hm s (by simp))
      (by rintro rfl; rw [hR (by simp)]; exact hR0 (hm _ (by simp))) hsize hu a1 a2 (by omega) (hun s (by simp))
    obtain ⟨rs, w2, f1, f2, f3⟩ := secs_fine hv hR0 hsize ss w1 (K + space p s) (fun x hx => hm x (by simp [hx])) (by
        rw [List.filter_cons] at h1
        split at h1
        · rw [List.length_cons] at h1; omega
        · exact h1) (by
        intro hx
        have : s ≠ .reloc := by
          rintro rfl
          rw [List.filter_cons, if_pos (by simp), List.length_cons] at h1
          have : 0 < (ss.filter (· = .reloc)).length := List.length_pos_iff.2 (List.ne_nil_of_mem (List.mem_filter.2 ⟨hx, by simp⟩))
          omega
        rw [e5 this]; exact hR (by simp [hx])) e2 e3 e4 (by omega) hp.2 (fun x hx i hi => e6 i (fun h => hp.1 x hx i h hi) (hun x (by simp [hx]) i hi))
    refine ⟨r :: rs, w2, ?_, by rw [← Nat.add_assoc]; exact f2, fun i hi hx => f3 i (fun x hx => hi x (by simp [hx])) (e6 i (hi s (by simp)) hx)⟩
    show (do let (r, w) ← w.reserveSec s; let (rs, w) ← w.reserveSecs ss; Res.ok (r :: rs, w)) = _
    rw [e1]
    simp only [Res.bind_eq, Res.ok_bind]
    rw [f1]
    rfl

theorem reserve_exact {w : State} {size a : Nat} (ha : Pow2 a) (hs : size ≠ 0) (h1 : w.lay.len < U32) (h2 : size < U32) :
    w.reserve size a = .ok (roundUp w.lay.len a % U32, { w with lay := { w.lay with len := roundUp w.lay.len a + size } }) := by
  have := ru_lt w.lay.len ha
  have := ha.lt
  simp only [Nat.reducePow] at this
  unfold State.reserve Reserve.pe
  rw [if_neg hs, a64_eq ha (by omega)]
  simp only [Res.bind_eq, Res.ok_bind]
  unfold addU64
  rw [if_pos (by omega)]
  rfl

theorem reserve_exact1 {w : State} {size : Nat} (h1 : w.lay.len < U32) (h2 : size < U32) :
    ∃ o, w.reserve size 1 = .ok (o, { w with lay := { w.lay with len := w.lay.len + size } }) := by
  by_cases hs : size = 0
  · subst hs
    unfold State.reserve Reserve.pe
    rw [if_pos rfl]
    exact ⟨_, rfl⟩
  · have := reserve_exact pow2_one hs h1 h2
    rw [roundUp_one] at this
    exact ⟨_, this⟩

theorem dos_fine (w : State) (d : Dos) (h : w.lay.len = 0) :
    w.reserveDos d = .ok { w with lay := { w.lay with len := 64 + (dosParts d).2.length } } := by
  have h1 : w.reserveDosHeader = .ok { w with lay := { w.lay with len := 64 } } := by
    unfold State.reserveDosHeader
    obtain ⟨o, e⟩ := reserve_exact1 (w := w) (size := 64) (by rw [h]; decide) (by decide)
    rw [if_neg (by simp [h]), e, h]
    rfl
  cases d with
  | standard =>
    show w.reserveDosHeaderAndStub = _
    unfold State.reserveDosHeaderAndStub
    rw [h1]
    simp only [Res.bind_eq, Res.ok_bind]
    obtain ⟨o, e⟩ := reserve_exact1 (w := { w with lay := { w.lay with len := 64 } }) (size := 64) (show 64 < U32 by decide) (by decide)
    rw [e]
    rfl
  | empty => exact h1
  | custom head => exact h1

theorem extra_fine : ∀ (xs : List (Nat × List UInt8)) (w : State), (∀ x ∈ xs, Pow2 x.1 ∧ x.2 ≠ []) → after w.lay.len xs < U32 →
    w.reserveExtra xs = .ok { w with lay := { w.lay with len := after w.lay.len xs } }
  | [], _, _, _ => rfl
  | (a, b) :: xs, w, h, h32 => by
    have ha : Pow2 a := (h (a, b) (by simp)).1
    have hb : b ≠ [] := (h (a, b) (by simp)).2
    have h1 := le_ru w.lay.len ha
    have h2 := le_after xs (roundUp w.lay.len a + b.length) (fun x hx => (h x (by simp [hx])).1)
    change after (roundUp w.lay.len a + b.length) xs < U32 at h32
    show (do let (_, w) ← w.reserve b.length a; w.reserveExtra xs) = _
    rw [reserve_exact ha (by intro h0; exact hb (List.eq_nil_of_length_eq_zero h0)) (by omega) (by omega)]
    simp only [Res.bind_eq, Res.ok_bind]
    rw [extra_fine xs _ (fun x hx => h x (by simp [hx])) h32]
    rfl

theorem nt_fine {w : State} {n : Nat} (h0 : w.ntOffset = 0) (hn : 8 * n < U16) (h1 : w.lay.len < U32) (h2 : roundUp w.lay.len 8 + 24 + optSize w.is64 < U32) :
    w.reserveNtHeaders n = .ok { w with ntOffset := roundUp w.lay.len 8 % U32, dirs := List.replicate n ⟨0, 0⟩, lay := { w.lay with len := roundUp w.lay.len 8 + 24 + optSize w.is64 + 8 * n } } := by
  unfold State.reserveNtHeaders
  rw [if_neg (by simp [h0]), reserve_exact pow2_eight (by omega) h1 (by omega)]
  simp only [Res.bind_eq, Res.ok_bind]
  have hm : mulU32 (n % U32) 8 = .ok (8 * n) := by
    unfold mulU32
    rw [Nat.mod_eq_of_lt (by omega), if_pos (by omega), Nat.mul_comm]
  rw [hm]
  simp only [Res.ok_bind]
  obtain ⟨o, e⟩ := reserve_exact1 (w := { w with ntOffset := roundUp w.lay.len 8 % U32, dirs := List.replicate n ⟨0, 0⟩, lay := { w.lay with len := roundUp w.lay.len 8 + (24 + optSize w.is64) } })
    (size := 8 * n) (by dsimp only; omega) (by omega)
  rw [e]
  dsimp only
  rw [Nat.add_assoc (roundUp w.lay.len 8) 24]
  rfl

theorem setDirs_fine : ∀ (xs : List (Nat × DataDir)) (w : State), (∀ x ∈ xs, x.1 < w.dirs.length) →
    w.setDirs xs = .ok { w with dirs := setAll w.dirs xs }
  | [], _, _ => rfl
  | (i, d) :: xs, w, h => by
    show (do let w ← w.setDir i d; w.setDirs xs) = _
    unfold State.setDir
    rw [if_pos (h (i, d) (by simp))]
    simp only [Res.bind_eq, Res.ok_bind]
    rw [setDirs_fine xs _ (fun x hx => by dsimp only; rw [List.length_set]; exact h x (by simp [hx]))]
    rfl

theorem headers_fine {w : State} {n : Nat} (hs : Pow2 w.lay.sectionAlign) (hf : Pow2 w.lay.fileAlign) (h0 : w.headerNum = 0) (hn : n < U16) (h1 : w.lay.len < U32)
    (h2 : w.lay.vlen + roundUp (w.lay.len + 40 * n) w.lay.fileAlign + w.lay.sectionAlign < U32) :
    ∃ v, w.reserveSectionHeaders n = .ok { w with headerNum := n, headersLen := roundUp (w.lay.len + 40 * n) w.lay.fileAlign, lay := { w.lay with len := roundUp (w.lay.len + 40 * n) w.lay.fileAlign, vlen := v } } ∧
      v < w.lay.vlen + roundUp (w.lay.len + 40 * n) w.lay.fileAlign + w.lay.sectionAlign := by
  unfold State.reserveSectionHeaders
  rw [if_neg (by simp [h0])]
  obtain ⟨o, e⟩ := reserve_exact1 (w := { w with headerNum := n }) (size := n * 40) h1 (by omega)
  rw [e]
  simp only [Res.bind_eq, Res.ok_bind]
  have := hf.lt
  simp only [Nat.reducePow] at this
  rw [a64_eq hf (by omega)]
  simp only [Res.ok_bind]
  rw [Nat.mul_comm n 40, Nat.mod_eq_of_lt (show roundUp (w.lay.len + 40 * n) w.lay.fileAlign < U32 by omega)]
  obtain ⟨l, e1, e2⟩ := peVirtual_fine (v := w.lay.vlen) (n := roundUp (w.lay.len + 40 * n) w.lay.fileAlign) hs h2
  rw [e1]
  exact ⟨l, rfl, e2⟩

theorem setAll_unset {i : Nat} : ∀ (xs : List (Nat × DataDir)) (ds : List DataDir), (∀ x ∈ xs, x.1 ≠ i) → (setAll ds xs)[i]? = ds[i]?
  | [], _, _ => rfl
  | x :: xs, ds, h => by
    show (setAll (ds.set x.1 x.2) xs)[i]? = _
    rw [setAll_unset xs _ (fun y hy => h y (by simp [hy])), List.getElem?_set_ne (h x (by simp))]

theorem reserveAll_fine {p : Prog} (hv : Valid p) (hr : Room p) {R0 R1 : RelocWriter} {size : Nat} (hR0 : RelocWriter.new.addAll p.relocs = .ok R0)
    (hR1 : Sec.reloc ∈ p.sections → R0.reserve = .ok (R1, size)) (hsize : size ≤ 12 * p.relocs.length + 2) :
    ∃ rs w, reserveAll p = .ok (rs, w) ∧ w.lay.len < U32 := by
  have hsz := hr.size
  simp only [Nat.reducePow] at hsz
  have hopt : optLen p < 65536 := by have := hv.dirNum; simpa using this
  have hfix := fixed_opt p.is64
  have hn := hv.sections
  simp only [Nat.reducePow] at hn
  have hh : Obj.Spec.PeW.ntOffset p + 24 + optLen p + 40 * p.sections.length ≤ headers p := le_ru _ hv.fileAlign
  have hnt : after (64 + (dosParts p.dos).2.length) p.extra ≤ Obj.Spec.PeW.ntOffset p := le_ru _ pow2_eight
  have ho : optLen p = optSize p.is64 + 8 * p.dirNum := by unfold optLen; rw [hfix]
  unfold reserveAll
  rw [dos_fine _ _ rfl]
  simp only [Res.bind_eq, Res.ok_bind]
  rw [extra_fine _ _ hv.extra (by dsimp only; omega)]
  simp only [Res.ok_bind]
  rw [nt_fine rfl (by omega) (by dsimp only; omega) (by
    have : roundUp (after (64 + (dosParts p.dos).2.length) p.extra) 8 = Obj.Spec.PeW.ntOffset p := rfl
    dsimp only [State.new]; rw [this]; omega)]
  simp only [Res.ok_bind]
  rw [setDirs_fine _ _ (by
    intro x hx
    dsimp only
    rw [List.length_replicate]; exact hr.before x hx)]
  simp only [Res.ok_bind]
  have hH : roundUp (roundUp (after (64 + (dosParts p.dos).2.length) p.extra) 8 + 24 + optSize p.is64 + 8 * p.dirNum + 40 * p.sections.length) p.fileAlign = headers p := by
    unfold headers Obj.Spec.PeW.ntOffset
    rw [ho]
    congr 1
    omega
  have hN : roundUp (after (64 + (dosParts p.dos).2.length) p.extra) 8 = Obj.Spec.PeW.ntOffset p := rfl
  obtain ⟨v, e1, e2⟩ := headers_fine (n := p.sections.length) (w := { (State.new p.is64 p.sectionAlign p.fileAlign) with ntOffset := roundUp (after (64 + (dosParts p.dos).2.length) p.extra) 8 % U32, dirs := setAll (List.replicate p.dirNum ⟨0, 0⟩) p.dirsBefore, lay := { (State.new p.is64 p.sectionAlign p.fileAlign).lay with len := roundUp (after (64 + (dosParts p.dos).2.length) p.extra) 8 + 24 + optSize p.is64 + 8 * p.dirNum } })
    hv.sectionAlign hv.fileAlign rfl hn (by dsimp only; rw [hN]; omega) (by
      simp only [State.new]
      rw [hH]
      omega)
  simp only [State.new] at e1 e2 ⊢
  rw [e1]
  rw [hH] at e2 ⊢
  simp only [Res.ok_bind]
  unfold State.addRelocs
  dsimp only
  rw [hR0]
  simp only [Res.bind_eq, Res.ok_bind]
  generalize hw : (State.mk _ _ _ _ _ _ _ _ _ _) = w
  have w1 : w.relocs = R0 := by rw [← hw]
  have w2 : Under (headers p + p.sectionAlign) w := by
    rw [← hw]
    unfold Under
    dsimp only
    refine ⟨?_, ?_, ?_, ?_, ?_⟩ <;> omega
  have w3 : w.lay.sectionAlign = p.sectionAlign := by rw [← hw]
  have w4 : w.lay.fileAlign = p.fileAlign := by rw [← hw]
  have w5 : w.dirs = setAll (List.replicate p.dirNum ⟨0, 0⟩) p.dirsBefore := by rw [← hw]
  have w6 : ∀ i, i < p.dirNum → (∀ x ∈ p.dirsBefore, x.1 ≠ i) → Unset w i := by
    intro i hi hx
    refine ⟨⟨0, 0⟩, ?_, rfl⟩
    rw [w5, setAll_unset _ _ hx, List.getElem?_replicate, if_pos hi]
  obtain ⟨rs, w', f1, f2, f3⟩ := secs_fine hv hR1 hsize p.sections w _ (fun _ h => h) hv.oneReloc (fun _ => w1) w2 w3 w4 (by omega) hr.once
    (fun s hs i hi => w6 i (hr.exist s hs i hi).1 (hr.exist s hs i hi).2)
  rw [f1]
  simp only [Res.ok_bind]
  have hdl : w'.dirs.length = p.dirNum := by
    have hl : ∀ (ss : List Sec) (w w' : State) (rs : List SectionRange), w.reserveSecs ss = .ok (rs, w') → w'.dirs.length = w.dirs.length := by
      have plain : ∀ {w w' : State} {r : SectionRange} {n c a b}, w.reserveSection n c a b = .ok (r, w') → w'.dirs = w.dirs := by
        intro w w' r n c a b h
        unfold State.reserveSection at h
        simp only [Res.bind_eq, Res.bind_eq_ok] at h
        obtain ⟨⟨r0, lay⟩, h, h0⟩ := h
        simp only [Res.ok.injEq, Prod.mk.injEq] at h0
        rw [← h0.2]
      have dir : ∀ {w w' : State} {r : SectionRange} {n c a b}, w.reserveDirSection n c a b = .ok (r, w') → w'.dirs.length = w.dirs.length := by
        intro w w' r n c a b h
        unfold State.reserveDirSection at h
        simp only [Res.bind_eq, Res.bind_eq_ok] at h
        obtain ⟨⟨r1, w1⟩, h1, w2, h2, h3⟩ := h
        simp only [Res.ok.injEq, Prod.mk.injEq] at h3
        obtain ⟨-, rfl⟩ := h3
        obtain ⟨rfl, -⟩ := claimDir_ok h2
        dsimp only
        rw [List.length_set, plain h1]
      intro ss
      induction ss with
      | nil =>
        intro w w' rs h
        simp only [State.reserveSecs, Res.ok.injEq, Prod.mk.injEq] at h
        rw [h.2]
      | cons s ss ih =>
        intro w w' rs h
        simp only [State.reserveSecs, Res.bind_eq, Res.bind_eq_ok] at h
        obtain ⟨⟨r, w1⟩, h1, ⟨rs1, w2⟩, h2, h3⟩ := h
        simp only [Res.ok.injEq, Prod.mk.injEq] at h3
        obtain ⟨-, rfl⟩ := h3
        rw [ih _ _ _ h2]
        cases s with
        | custom n c v sz d => rw [plain h1]
        | text d => rw [plain h1]
        | data v d => rw [plain h1]
        | rdata d => rw [plain h1]
        | bss n => rw [plain h1]
        | xdata d => rw [plain h1]
        | idata d => rw [dir h1]
        | edata d => rw [dir h1]
        | pdata d => rw [dir h1]
        | rsrc d => rw [dir h1]
        | reloc =>
          replace h1 : w.reserveReloc = .ok (r, w1) := h1
          unfold State.reserveReloc at h1
          simp only [Res.bind_eq, Res.bind_eq_ok] at h1
          obtain ⟨⟨R, n⟩, -, ⟨r2, w3⟩, h4, h5⟩ := h1
          simp only [Res.ok.injEq, Prod.mk.injEq] at h5
          have := dir h4
          rw [← h5.2]
          exact this
    rw [hl _ _ _ _ f1, w5, length_setAll, List.length_replicate]
  rw [setDirs_fine _ _ (fun x hx => by rw [hdl]; exact hr.after x hx)]
  simp only [Res.ok_bind]
  have hlen := f2.1
  cases hc : p.cert with
  | none => exact ⟨rs, _, rfl, by dsimp only; omega⟩
  | some d =>
    obtain ⟨c1, c2, c3⟩ := hr.cert (by rw [hc]; simp)
    rw [hc] at hsz
    dsimp only at hsz
    have hlast : Unset w' 4 := f3 4 (fun s hs => by cases s <;> simp [Obj.Spec.PeW.entry]) (w6 4 c1 c2)
    unfold State.reserveCertOpt State.reserveCert
    dsimp only
    rw [a32_eq pow2_eight (by omega)]
    simp only [Res.bind_eq, Res.ok_bind]
    have hd8 := ru_lt d.length pow2_eight
    obtain ⟨o, w'', g1, g2, g3⟩ := reserve_fine (w := { w' with dirs := setAll w'.dirs p.dirsAfter }) (size := roundUp d.length 8) pow2_eight (by dsimp only; omega)
    rw [g1]
    simp only [Res.ok_bind]
    obtain ⟨old, k1, k2⟩ := hlast
    rw [claim_fine (old := old) (by rw [g2]; dsimp only; rw [setAll_unset _ _ c3]; exact k1) k2]
    refine ⟨rs, _, rfl, ?_⟩
    dsimp only at g3 ⊢
    omega

end Obj.PeW

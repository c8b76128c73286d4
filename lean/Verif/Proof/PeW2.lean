import Verif.Proof.PeW1

/-! Reservation of the sections. -/

namespace Obj.PeW
open Obj Obj.Pe Obj.Reserve Obj.Spec Obj.Spec.PeFile Obj.Spec.PeW

theorem and_eq_pow (x k : Nat) : x &&& 2 ^ k = 2 ^ k ↔ x.testBit k = true := by
  constructor
  · intro h
    have := congrArg (fun y => y.testBit k) h
    simpa [Nat.testBit_and, Nat.testBit_two_pow_self] using this
  · intro h
    apply Nat.eq_of_testBit_eq
    intro i
    rw [Nat.testBit_and, Nat.testBit_two_pow]
    by_cases e : k = i
    · subst e; simp [h]
    · simp [e]

theorem content_iff (e : Entry) :
    (Obj.PeW.content e.characteristics = .code ↔ isCode e = true) ∧ (Obj.PeW.content e.characteristics = .data ↔ isData e = true) ∧
    (Obj.PeW.content e.characteristics = .bss ↔ isBss e = true) := by
  have h5 := and_eq_pow e.characteristics 5
  have h6 := and_eq_pow e.characteristics 6
  have h7 := and_eq_pow e.characteristics 7
  simp only [Nat.reducePow] at h5 h6 h7
  unfold Obj.PeW.content isCode isData isBss
  rcases Bool.eq_false_or_eq_true (e.characteristics.testBit 5) with a | a <;>
  rcases Bool.eq_false_or_eq_true (e.characteristics.testBit 6) with b | b <;>
  rcases Bool.eq_false_or_eq_true (e.characteristics.testBit 7) with c | c <;>
  rw [a] at h5 <;> rw [b] at h6 <;> rw [c] at h7 <;> simp [a, b, c, h5, h6, h7]

/-- The effect of reserving the sections `es`. -/
structure Adds (w : State) (rs : List SectionRange) (es : List Entry) (w' : State) : Prop where
  ranges : rs = place w.lay.sectionAlign w.lay.fileAlign w.lay.vlen w.lay.len es
  len : w'.lay.len = endFile w.lay.fileAlign w.lay.len es
  vlen : w'.lay.vlen = endVirtual w.lay.sectionAlign w.lay.vlen es
  sa : w'.lay.sectionAlign = w.lay.sectionAlign
  fa : w'.lay.fileAlign = w.lay.fileAlign
  is64 : w'.is64 = w.is64
  headersLen : w'.headersLen = w.headersLen
  ntOffset : w'.ntOffset = w.ntOffset
  headerNum : w'.headerNum = w.headerNum
  out : w'.out = w.out
  secs : w'.secs = w.secs ++ (rs.zip es).map fun x => (x.2.name, x.2.characteristics, x.1)
  dirs : w'.dirs = setAll w.dirs (sectionDirs (rs.zip es))
  codeLen : w'.lay.codeLen = w.lay.codeLen + total w.lay.fileAlign isCode es
  dataLen : w'.lay.dataLen = w.lay.dataLen + total w.lay.fileAlign isData es
  bssLen : w'.lay.bssLen = w.lay.bssLen + total w.lay.fileAlign isBss es
  codeAddress : w'.lay.codeAddress = if w.lay.codeAddress = 0 then firstAddress isCode (rs.zip es) else w.lay.codeAddress
  dataAddress : w'.lay.dataAddress =
    if w.lay.dataAddress = 0 then firstAddress (fun e => isData e || isBss e) (rs.zip es) else w.lay.dataAddress
  vsize : ∀ e ∈ es, e.virtualSize < U32
  bound : w.lay.vlen < U32 → w.lay.codeLen < U32 → w.lay.dataLen < U32 → w.lay.bssLen < U32 →
    w'.lay.vlen < U32 ∧ w'.lay.codeLen < U32 ∧ w'.lay.dataLen < U32 ∧ w'.lay.bssLen < U32
  pos : 0 < w.lay.vlen → 0 < w'.lay.vlen
  unset : ∀ e ∈ es, ∀ i, e.dir = some i → ∃ d, w.dirs[i]? = some d ∧ d.virtualAddress = 0
  once : es.Pairwise fun a b => ∀ i, a.dir = some i → b.dir ≠ some i

theorem endFile_le {fa : Nat} (ha : Pow2 fa) : ∀ (es : List Entry) (l : Nat), l ≤ endFile fa l es
  | [], l => Nat.le_refl _
  | e :: es, l => by
    have h := endFile_le ha es (if e.dataSize = 0 then l else roundUp l fa + roundUp e.dataSize fa)
    have h2 := le_ru l ha
    refine Nat.le_trans ?_ h
    by_cases hd : e.dataSize = 0
    · rw [if_pos hd]; exact Nat.le_refl _
    · rw [if_neg hd]; omega

theorem Adds.nil (w : State) : Adds w [] [] w := by
  constructor
  any_goals rfl
  · simp
  · show _ = if _ then 0 else _
    split <;> omega
  · show _ = if _ then 0 else _
    split <;> omega
  · intro e he; simp at he
  · intro a b c d; exact ⟨a, b, c, d⟩
  · exact id
  · intro e he; simp at he
  · exact .nil

theorem Adds.cons {w w1 w2 : State} {r : SectionRange} {rs : List SectionRange} {e : Entry} {es : List Entry}
    (hv : 0 < w.lay.vlen) (h1 : Adds w [r] [e] w1) (h2 : Adds w1 rs es w2) : Adds w (r :: rs) (e :: es) w2 := by
  have hr := h1.ranges
  simp only [place, List.cons.injEq, and_true] at hr
  have hrv : r.virtualAddress = w.lay.vlen := by rw [hr]
  have hlen := h1.len
  have hvlen := h1.vlen
  simp only [endFile, endVirtual] at hlen hvlen
  have step : ∀ x ∈ es, ∀ i, x.dir = some i → e.dir ≠ some i ∧ ∃ d, w.dirs[i]? = some d ∧ d.virtualAddress = 0 := by
    intro x hx i hi
    obtain ⟨d, hd, h0⟩ := h2.unset x hx i hi
    rw [h1.dirs] at hd
    simp only [sectionDirs, List.zip_cons_cons, List.zip_nil_right, List.filterMap_cons, List.filterMap_nil] at hd
    cases hj : e.dir with
    | none =>
      rw [hj] at hd
      exact ⟨by simp, d, hd, h0⟩
    | some j =>
      rw [hj] at hd
      simp only [Option.map_some, setAll, List.foldl_cons, List.foldl_nil] at hd
      by_cases hij : j = i
      · subst hij
        have hlt : j < w.dirs.length := by
          have := (List.getElem?_eq_some_iff.1 hd).1
          rwa [List.length_set] at this
        rw [List.getElem?_set_self hlt, Option.some.injEq] at hd
        rw [← hd] at h0
        dsimp only at h0
        omega
      · rw [List.getElem?_set_ne hij] at hd
        exact ⟨by simp [hij], d, hd, h0⟩
  constructor
  · rw [h2.ranges, h1.sa, h1.fa, hlen, hvlen]
    simp only [place, List.cons.injEq, and_true]
    exact hr
  · rw [h2.len, h1.fa, hlen]; rfl
  · rw [h2.vlen, h1.sa, hvlen]; rfl
  · rw [h2.sa, h1.sa]
  · rw [h2.fa, h1.fa]
  · rw [h2.is64, h1.is64]
  · rw [h2.headersLen, h1.headersLen]
  · rw [h2.ntOffset, h1.ntOffset]
  · rw [h2.headerNum, h1.headerNum]
  · rw [h2.out, h1.out]
  · rw [h2.secs, h1.secs]; simp
  · rw [h2.dirs, h1.dirs]
    unfold setAll
    rw [← List.foldl_append]
    congr 1
    simp only [sectionDirs, List.zip_cons_cons, List.zip_nil_right, ← List.filterMap_append, List.cons_append, List.nil_append]
  · rw [h2.codeLen, h1.codeLen, h1.fa, Nat.add_assoc]
    congr 1
    simp only [total]
    rw [List.filter_cons, List.filter_cons]
    split <;> simp
  · rw [h2.dataLen, h1.dataLen, h1.fa, Nat.add_assoc]
    congr 1
    simp only [total]
    rw [List.filter_cons, List.filter_cons]
    split <;> simp
  · rw [h2.bssLen, h1.bssLen, h1.fa, Nat.add_assoc]
    congr 1
    simp only [total]
    rw [List.filter_cons, List.filter_cons]
    split <;> simp
  · rw [h2.codeAddress, h1.codeAddress]
    simp only [List.zip_cons_cons, List.zip_nil_right, firstAddress]
    by_cases a : w.lay.codeAddress = 0
    · simp only [a, if_true]
      by_cases b : isCode e
      · simp only [b, if_true]
        rw [if_neg (by omega)]
      · simp [b]
    · simp [a]
  · rw [h2.dataAddress, h1.dataAddress]
    simp only [List.zip_cons_cons, List.zip_nil_right, firstAddress]
    by_cases a : w.lay.dataAddress = 0
    · simp only [a, if_true]
      by_cases b : (isData e || isBss e) = true
      · simp only [b, if_true]
        rw [if_neg (by omega)]
      · simp [b]
    · simp [a]
  · intro x hx
    rw [List.mem_cons] at hx
    rcases hx with rfl | hx
    · exact h1.vsize _ (by simp)
    · exact h2.vsize _ hx
  · intro a b c d
    obtain ⟨a, b, c, d⟩ := h1.bound a b c d
    exact h2.bound a b c d
  · intro h; exact h2.pos (h1.pos h)
  · intro x hx i hi
    rw [List.mem_cons] at hx
    rcases hx with rfl | hx
    · exact h1.unset _ (by simp) i hi
    · exact (step x hx i hi).2
  · refine List.pairwise_cons.2 ⟨fun x hx i hi hxi => ?_, h2.once⟩
    exact (step x hx i hxi).1 hi

theorem addIf_ok {b : Bool} {l s r : Nat} (h : addIf b l s = .ok r) : r = l + (if b then s else 0) ∧ (l < U32 → r < U32) := by
  unfold addIf at h
  cases b
  · simp only [Bool.false_eq_true, if_false, Res.ok.injEq] at h
    subst h; simp
  · simp only [if_true] at h
    obtain ⟨h1, h2⟩ := addU32_ok h
    subst h1
    exact ⟨by simp, fun _ => h2⟩

/-- One `reserve_section`. -/
theorem reserveSection_ok {w w' : State} {r : SectionRange} (e : Entry) (he : e.dir = none) (hs : Pow2 w.lay.sectionAlign)
    (hf : Pow2 w.lay.fileAlign) (h : w.reserveSection e.name e.characteristics e.virtualSize e.dataSize = .ok (r, w'))
    (h32 : w'.lay.len < U32) :
    Adds w [r] [e] w' ∧ w'.relocs = w.relocs ∧ w'.relocOffset = w.relocOffset ∧ w'.dirs = w.dirs := by
  unfold State.reserveSection at h
  simp only [Res.bind_eq, Res.bind_eq_ok] at h
  obtain ⟨⟨r0, lay⟩, h, h0⟩ := h
  simp only [Res.ok.injEq, Prod.mk.injEq] at h0
  obtain ⟨rfl, rfl⟩ := h0
  unfold peSection at h
  simp only [Res.bind_eq, Res.bind_eq_ok] at h
  obtain ⟨⟨va, vl⟩, h1, fs, h2, ⟨fo, l⟩, h3, av, h4, cl, h5, dl, h6, bl, h7, h8⟩ := h
  simp only [Res.ok.injEq, Prod.mk.injEq] at h8
  obtain ⟨rfl, rfl⟩ := h8
  obtain ⟨rfl, rfl, hvl, hvs⟩ := peVirtual_ok hs h1
  obtain ⟨rfl, -⟩ := a32_ok hf h2
  obtain ⟨rfl, -⟩ := a32_ok hf h4
  obtain ⟨rfl, hcl⟩ := addIf_ok h5
  obtain ⟨rfl, hdl⟩ := addIf_ok h6
  obtain ⟨rfl, hbl⟩ := addIf_ok h7
  simp only at h32
  have hfo : fo = (if e.dataSize = 0 then 0 else roundUp w.lay.len w.lay.fileAlign) ∧
      l = (if e.dataSize = 0 then w.lay.len else roundUp w.lay.len w.lay.fileAlign + roundUp e.dataSize w.lay.fileAlign) := by
    unfold peFileRange at h3
    by_cases hd : e.dataSize = 0
    · rw [hd, roundUp_zero hf.pos] at h3
      simp only [ne_eq, not_true_eq_false, if_false, Res.ok.injEq, Prod.mk.injEq] at h3
      simp only [hd, if_true]
      exact ⟨h3.1.symm, h3.2.symm⟩
    · have : roundUp e.dataSize w.lay.fileAlign ≠ 0 := by have := le_ru e.dataSize hf; omega
      rw [if_pos this] at h3
      obtain ⟨rfl, rfl⟩ := pe_ok hf this h3
      rw [if_neg hd, if_neg hd]
      refine ⟨Nat.mod_eq_of_lt (by omega), rfl⟩
  obtain ⟨rfl, rfl⟩ := hfo
  obtain ⟨c1, c2, c3⟩ := content_iff e
  refine ⟨?_, rfl, rfl, rfl⟩
  constructor <;> try (first | rfl | assumption)
  · simp only [sectionDirs, List.zip_cons_cons, List.zip_nil_right, List.filterMap_cons, he, Option.map_none, List.filterMap_nil, setAll, List.foldl_nil]
  · simp only [total, List.filter_cons, List.filter_nil, c1]
    split <;> simp_all
  · simp only [total, List.filter_cons, List.filter_nil, c2]
    split <;> simp_all
  · simp only [total, List.filter_cons, List.filter_nil, c3]
    split <;> simp_all
  · simp only [List.zip_cons_cons, List.zip_nil_right, firstAddress, c1]
    by_cases a : w.lay.codeAddress = 0 <;> by_cases b : isCode e <;> simp [a, b]
  · simp only [List.zip_cons_cons, List.zip_nil_right, firstAddress, c2, c3, Bool.or_eq_true]
    by_cases a : w.lay.dataAddress = 0 <;> by_cases b : (isData e = true ∨ isBss e = true) <;> simp [a, b]
  · intro x hx
    rw [List.mem_singleton] at hx
    subst hx
    omega
  · intro a b c d
    exact ⟨hvl, hcl b, hdl c, hbl d⟩
  · intro h
    show 0 < roundUp _ _
    have := le_ru (w.lay.vlen + e.virtualSize) hs
    omega
  · intro x hx i hi
    rw [List.mem_singleton] at hx
    subst hx
    rw [he] at hi; simp at hi
  · simp

theorem claimDir_ok {w w' : State} {i : Nat} {d : DataDir} (h : w.claimDir i d = .ok w') :
    w' = { w with dirs := w.dirs.set i d } ∧ i < w.dirs.length ∧ ∃ old, w.dirs[i]? = some old ∧ old.virtualAddress = 0 := by
  unfold State.claimDir at h
  cases hi : w.dirs[i]? with
  | none => rw [hi] at h; simp at h
  | some old =>
    rw [hi] at h
    simp only at h
    split at h
    · simp at h
    · simp only [Res.ok.injEq] at h
      rename_i hz
      exact ⟨h.symm, (List.getElem?_eq_some_iff.1 hi).1, old, rfl, by omega⟩

/-- One section with a data directory. -/
theorem reserveDirSection_ok {w w' : State} {r : SectionRange} (e : Entry) (i : Nat) (he : e.dir = some i) (hd : e.dataSize = e.virtualSize)
    (hs : Pow2 w.lay.sectionAlign) (hf : Pow2 w.lay.fileAlign)
    (h : w.reserveDirSection e.name e.characteristics e.virtualSize i = .ok (r, w')) (h32 : w'.lay.len < U32) :
    Adds w [r] [e] w' ∧ w'.relocs = w.relocs ∧ w'.relocOffset = w.relocOffset := by
  unfold State.reserveDirSection at h
  simp only [Res.bind_eq, Res.bind_eq_ok] at h
  obtain ⟨⟨r1, w1⟩, h1, w2, h2, h3⟩ := h
  simp only [Res.ok.injEq, Prod.mk.injEq] at h3
  obtain ⟨rfl, rfl⟩ := h3
  obtain ⟨rfl, hi, hold⟩ := claimDir_ok h2
  dsimp only at h32 h1
  have := reserveSection_ok (w := w) (w' := w1) (r := r1) { e with dir := none } rfl hs hf (by dsimp only; rw [hd]; exact h1) h32
  obtain ⟨ha, k1, k2, k3⟩ := this
  have t : ∀ k : Entry → Bool, k { e with dir := none } = k e → total w.lay.fileAlign k [{ e with dir := none }] = total w.lay.fileAlign k [e] := by
    intro k hk
    simp only [total, List.filter_cons, hk, List.filter_nil]
    split <;> rfl
  refine ⟨?_, k1, k2⟩
  constructor
  · rw [ha.ranges]; rfl
  · exact ha.len
  · exact ha.vlen
  · exact ha.sa
  · exact ha.fa
  · exact ha.is64
  · exact ha.headersLen
  · exact ha.ntOffset
  · exact ha.headerNum
  · exact ha.out
  · exact ha.secs
  · simp only [sectionDirs, List.zip_cons_cons, List.zip_nil_right, List.filterMap_cons, he, Option.map_some, List.filterMap_nil, setAll,
      List.foldl_cons, List.foldl_nil, k3]
  · rw [← t isCode rfl]; exact ha.codeLen
  · rw [← t isData rfl]; exact ha.dataLen
  · rw [← t isBss rfl]; exact ha.bssLen
  · exact ha.codeAddress
  · exact ha.dataAddress
  · intro x hx
    rw [List.mem_singleton] at hx
    subst hx
    exact ha.vsize { x with dir := none } (by simp)
  · exact ha.bound
  · exact ha.pos
  · intro x hx j hj
    rw [List.mem_singleton] at hx
    subst hx
    rw [he] at hj
    cases hj
    rw [← k3]; exact hold
  · simp

/-- One section of any kind. -/
theorem reserveSec_ok {w w' : State} {r : SectionRange} {s : Sec} {rb : List UInt8} {R : RelocWriter}
    (hr : s = .reloc → w.relocs.reserve = .ok (R, rb.length))
    (hs : Pow2 w.lay.sectionAlign) (hf : Pow2 w.lay.fileAlign)
    (h : w.reserveSec s = .ok (r, w')) (h32 : w'.lay.len < U32) :
    Adds w [r] [Obj.Spec.PeW.entry rb s] w' ∧ (s ≠ .reloc → w'.relocs = w.relocs ∧ w'.relocOffset = w.relocOffset) ∧
    (s = .reloc → w'.relocs = R ∧ w'.relocOffset = r.fileOffset) := by
  have n1 : name8 ".text" = [0x2e, 0x74, 0x65, 0x78, 0x74, 0, 0, 0] := by decide +kernel
  have n2 : name8 ".data" = [0x2e, 0x64, 0x61, 0x74, 0x61, 0, 0, 0] := by decide +kernel
  have n3 : name8 ".rdata" = [0x2e, 0x72, 0x64, 0x61, 0x74, 0x61, 0, 0] := by decide +kernel
  have n4 : name8 ".bss" = [0x2e, 0x62, 0x73, 0x73, 0, 0, 0, 0] := by decide +kernel
  have n5 : name8 ".idata" = [0x2e, 0x69, 0x64, 0x61, 0x74, 0x61, 0, 0] := by decide +kernel
  have n6 : name8 ".edata" = [0x2e, 0x65, 0x64, 0x61, 0x74, 0x61, 0, 0] := by decide +kernel
  have n7 : name8 ".pdata" = [0x2e, 0x70, 0x64, 0x61, 0x74, 0x61, 0, 0] := by decide +kernel
  have n8 : name8 ".xdata" = [0x2e, 0x78, 0x64, 0x61, 0x74, 0x61, 0, 0] := by decide +kernel
  have n9 : name8 ".rsrc" = [0x2e, 0x72, 0x73, 0x72, 0x63, 0, 0, 0] := by decide +kernel
  have n10 : name8 ".reloc" = [0x2e, 0x72, 0x65, 0x6c, 0x6f, 0x63, 0, 0] := by decide +kernel
  have plain : ∀ e : Entry, e.dir = none → w.reserveSection e.name e.characteristics e.virtualSize e.dataSize = .ok (r, w') → s ≠ .reloc →
      Adds w [r] [e] w' ∧ (s ≠ .reloc → w'.relocs = w.relocs ∧ w'.relocOffset = w.relocOffset) ∧
      (s = .reloc → w'.relocs = R ∧ w'.relocOffset = r.fileOffset) := by
    intro e he h hne
    obtain ⟨k1, k2, k3, -⟩ := reserveSection_ok e he hs hf h h32
    exact ⟨k1, fun _ => ⟨k2, k3⟩, fun h => absurd h hne⟩
  have dird : ∀ (e : Entry) i, e.dir = some i → e.dataSize = e.virtualSize →
      w.reserveDirSection e.name e.characteristics e.virtualSize i = .ok (r, w') → s ≠ .reloc →
      Adds w [r] [e] w' ∧ (s ≠ .reloc → w'.relocs = w.relocs ∧ w'.relocOffset = w.relocOffset) ∧
      (s = .reloc → w'.relocs = R ∧ w'.relocOffset = r.fileOffset) := by
    intro e i he hd h hne
    obtain ⟨k1, k2, k3⟩ := reserveDirSection_ok e i he hd hs hf h h32
    exact ⟨k1, fun _ => ⟨k2, k3⟩, fun h => absurd h hne⟩
  cases s with
  | custom n c v d b => exact plain (Obj.Spec.PeW.entry rb (.custom n c v d b)) rfl h (by simp)
  | text d => exact plain (Obj.Spec.PeW.entry rb (.text d)) rfl (by simp only [Obj.Spec.PeW.entry, n1]; exact h) (by simp)
  | data v d => exact plain (Obj.Spec.PeW.entry rb (.data v d)) rfl (by simp only [Obj.Spec.PeW.entry, n2]; exact h) (by simp)
  | rdata d => exact plain (Obj.Spec.PeW.entry rb (.rdata d)) rfl (by simp only [Obj.Spec.PeW.entry, n3]; exact h) (by simp)
  | bss n => exact plain (Obj.Spec.PeW.entry rb (.bss n)) rfl (by simp only [Obj.Spec.PeW.entry, n4]; exact h) (by simp)
  | xdata d => exact plain (Obj.Spec.PeW.entry rb (.xdata d)) rfl (by simp only [Obj.Spec.PeW.entry, n8]; exact h) (by simp)
  | idata d => exact dird (Obj.Spec.PeW.entry rb (.idata d)) 1 rfl rfl (by simp only [Obj.Spec.PeW.entry, n5]; exact h) (by simp)
  | edata d => exact dird (Obj.Spec.PeW.entry rb (.edata d)) 0 rfl rfl (by simp only [Obj.Spec.PeW.entry, n6]; exact h) (by simp)
  | pdata d => exact dird (Obj.Spec.PeW.entry rb (.pdata d)) 3 rfl rfl (by simp only [Obj.Spec.PeW.entry, n7]; exact h) (by simp)
  | rsrc d => exact dird (Obj.Spec.PeW.entry rb (.rsrc d)) 2 rfl rfl (by simp only [Obj.Spec.PeW.entry, n9]; exact h) (by simp)
  | reloc =>
    have hr := hr rfl
    unfold State.reserveSec State.reserveReloc at h
    simp only [Res.bind_eq, hr, Res.ok_bind, Res.bind_eq_ok] at h
    obtain ⟨⟨r1, w1⟩, h1, h3⟩ := h
    simp only [Res.ok.injEq, Prod.mk.injEq] at h3
    obtain ⟨rfl, rfl⟩ := h3
    obtain ⟨k1, k2, k3⟩ := reserveDirSection_ok (w := { w with relocs := R }) (w' := w1) (r := r1) (Obj.Spec.PeW.entry rb .reloc) 5 rfl rfl hs hf
      (by simp only [Obj.Spec.PeW.entry, n10]; exact h1) h32
    refine ⟨?_, fun h => absurd rfl h, fun _ => ⟨k2, rfl⟩⟩
    constructor
    · exact k1.ranges
    · exact k1.len
    · exact k1.vlen
    · exact k1.sa
    · exact k1.fa
    · exact k1.is64
    · exact k1.headersLen
    · exact k1.ntOffset
    · exact k1.headerNum
    · exact k1.out
    · exact k1.secs
    · exact k1.dirs
    · exact k1.codeLen
    · exact k1.dataLen
    · exact k1.bssLen
    · exact k1.codeAddress
    · exact k1.dataAddress
    · exact k1.vsize
    · exact k1.bound
    · exact k1.pos
    · exact k1.unset
    · exact k1.once

/-- The file length only grows. -/
theorem reserveSec_mono {w w' : State} {r : SectionRange} {s : Sec} (hf : Pow2 w.lay.fileAlign)
    (h : w.reserveSec s = .ok (r, w')) : w.lay.len ≤ w'.lay.len ∧ w'.lay.fileAlign = w.lay.fileAlign ∧ w'.lay.sectionAlign = w.lay.sectionAlign := by
  have base : ∀ {w : State} (_ : Pow2 w.lay.fileAlign) {n c v d w' r}, w.reserveSection n c v d = .ok (r, w') →
      w.lay.len ≤ w'.lay.len ∧ w'.lay.fileAlign = w.lay.fileAlign ∧ w'.lay.sectionAlign = w.lay.sectionAlign := by
    intro w hf n c v d w' r h
    unfold State.reserveSection at h
    simp only [Res.bind_eq, Res.bind_eq_ok] at h
    obtain ⟨⟨r0, lay⟩, h, h0⟩ := h
    simp only [Res.ok.injEq, Prod.mk.injEq] at h0
    obtain ⟨rfl, rfl⟩ := h0
    unfold peSection at h
    simp only [Res.bind_eq, Res.bind_eq_ok] at h
    obtain ⟨⟨va, vl⟩, h1, fs, h2, ⟨fo, l⟩, h3, av, h4, cl, h5, dl, h6, bl, h7, h8⟩ := h
    simp only [Res.ok.injEq, Prod.mk.injEq] at h8
    obtain ⟨rfl, rfl⟩ := h8
    refine ⟨?_, rfl, rfl⟩
    simp only
    unfold peFileRange at h3
    split at h3
    · rename_i hz
      have := (pe_ok hf hz h3).1
      have := le_ru w.lay.len hf
      omega
    · simp only [Res.ok.injEq, Prod.mk.injEq] at h3
      omega
  have dird : ∀ {w : State} (_ : Pow2 w.lay.fileAlign) {n c v i w' r}, w.reserveDirSection n c v i = .ok (r, w') →
      w.lay.len ≤ w'.lay.len ∧ w'.lay.fileAlign = w.lay.fileAlign ∧ w'.lay.sectionAlign = w.lay.sectionAlign := by
    intro w hf n c v i w' r h
    unfold State.reserveDirSection at h
    simp only [Res.bind_eq, Res.bind_eq_ok] at h
    obtain ⟨⟨r1, w1⟩, h1, w2, h2, h3⟩ := h
    simp only [Res.ok.injEq, Prod.mk.injEq] at h3
    obtain ⟨rfl, rfl⟩ := h3
    obtain ⟨rfl, -, -⟩ := claimDir_ok h2
    exact base (w := w) (w' := w1) (r := r1) hf h1
  cases s with
  | reloc =>
    unfold State.reserveSec State.reserveReloc at h
    simp only [Res.bind_eq, Res.bind_eq_ok] at h
    obtain ⟨⟨R, n⟩, -, ⟨r1, w1⟩, h1, h3⟩ := h
    simp only [Res.ok.injEq, Prod.mk.injEq] at h3
    obtain ⟨rfl, rfl⟩ := h3
    exact dird (w := { w with relocs := R }) (w' := w1) (r := r1) hf h1
  | idata d => exact dird hf h
  | edata d => exact dird hf h
  | pdata d => exact dird hf h
  | rsrc d => exact dird hf h
  | custom n c v d b => exact base hf h
  | text d => exact base hf h
  | data v d => exact base hf h
  | rdata d => exact base hf h
  | bss n => exact base hf h
  | xdata d => exact base hf h

theorem reserveSecs_mono : ∀ {ss : List Sec} {w w' : State} {rs : List SectionRange}, Pow2 w.lay.fileAlign →
    w.reserveSecs ss = .ok (rs, w') → w.lay.len ≤ w'.lay.len
  | [], w, w', rs, _, h => by
    simp only [State.reserveSecs, Res.ok.injEq, Prod.mk.injEq] at h
    rw [h.2]; exact Nat.le_refl _
  | s :: ss, w, w', rs, hf, h => by
    simp only [State.reserveSecs, Res.bind_eq, Res.bind_eq_ok] at h
    obtain ⟨⟨r, w1⟩, h1, ⟨rs1, w2⟩, h2, h3⟩ := h
    simp only [Res.ok.injEq, Prod.mk.injEq] at h3
    obtain ⟨rfl, rfl⟩ := h3
    dsimp only at h2
    have k := reserveSec_mono hf h1
    have := reserveSecs_mono (w := w1) (by rw [k.2.1]; exact hf) h2
    omega

/-- All sections. -/
theorem reserveSecs_ok {rb : List UInt8} {R : RelocWriter} : ∀ {ss : List Sec} {w w' : State} {rs : List SectionRange},
    (.reloc ∈ ss → w.relocs.reserve = .ok (R, rb.length)) → (ss.filter (· = .reloc)).length ≤ 1 →
    Pow2 w.lay.sectionAlign → Pow2 w.lay.fileAlign → 0 < w.lay.vlen →
    w.reserveSecs ss = .ok (rs, w') → w'.lay.len < U32 →
    Adds w rs (ss.map (Obj.Spec.PeW.entry rb)) w' ∧ rs.length = ss.length ∧
    (.reloc ∉ ss → w'.relocs = w.relocs ∧ w'.relocOffset = w.relocOffset) ∧
    (∀ r, (r, Sec.reloc) ∈ rs.zip ss → w'.relocs = R ∧ w'.relocOffset = r.fileOffset)
  | [], w, w', rs, _, _, _, _, _, h, _ => by
    simp only [State.reserveSecs, Res.ok.injEq, Prod.mk.injEq] at h
    obtain ⟨rfl, rfl⟩ := h
    exact ⟨Adds.nil _, rfl, fun _ => ⟨rfl, rfl⟩, by simp⟩
  | s :: ss, w, w', rs, hr, h1, hs, hf, hv, h, h32 => by
    simp only [State.reserveSecs, Res.bind_eq, Res.bind_eq_ok] at h
    obtain ⟨⟨r, w1⟩, e1, ⟨rs1, w2⟩, e2, h3⟩ := h
    simp only [Res.ok.injEq, Prod.mk.injEq] at h3
    obtain ⟨rfl, rfl⟩ := h3
    dsimp only at e2
    have k := reserveSec_mono hf e1
    have m := reserveSecs_mono (w := w1) (by rw [k.2.1]; exact hf) e2
    obtain ⟨a1, a2, a3⟩ := reserveSec_ok (rb := rb) (R := R) (fun h => hr (by simp [h])) hs hf e1 (by omega)
    by_cases hsr : s = .reloc
    · have hno : Sec.reloc ∉ ss := by
        intro hm
        have : 0 < (ss.filter (· = .reloc)).length := List.length_pos_of_mem (List.mem_filter.2 ⟨hm, by simp⟩)
        simp only [List.filter_cons, hsr, decide_true, if_true, List.length_cons] at h1
        omega
      obtain ⟨b1, b2, b3, b4⟩ := reserveSecs_ok (rb := rb) (R := R) (fun h => absurd h hno)
        (by simp only [List.filter_cons, hsr, decide_true, if_true, List.length_cons] at h1; omega)
        (by rw [k.2.2]; exact hs) (by rw [k.2.1]; exact hf) (a1.pos hv) e2 h32
      obtain ⟨c1, c2⟩ := b3 hno
      obtain ⟨d1, d2⟩ := a3 hsr
      refine ⟨a1.cons hv b1, by simp [b2], fun h => absurd (by simp [hsr]) h, ?_⟩
      intro r' hm
      rw [List.zip_cons_cons, List.mem_cons] at hm
      rcases hm with hm | hm
      · simp only [Prod.mk.injEq] at hm
        rw [hm.1, c1, c2]
        exact ⟨d1, d2⟩
      · exact b4 r' hm
    · obtain ⟨d1, d2⟩ := a2 hsr
      obtain ⟨b1, b2, b3, b4⟩ := reserveSecs_ok (rb := rb) (R := R) (w := w1) (fun h => by rw [d1]; exact hr (by simp [h]))
        (by simpa [List.filter_cons, hsr] using h1)
        (by rw [k.2.2]; exact hs) (by rw [k.2.1]; exact hf) (a1.pos hv) e2 h32
      refine ⟨a1.cons hv b1, by simp [b2], ?_, ?_⟩
      · intro hn
        rw [List.mem_cons, not_or] at hn
        obtain ⟨c1, c2⟩ := b3 hn.2
        exact ⟨by rw [c1, d1], by rw [c2, d2]⟩
      · intro r' hm
        rw [List.zip_cons_cons, List.mem_cons] at hm
        rcases hm with hm | hm
        · simp only [Prod.mk.injEq] at hm
          exact absurd hm.2.symm hsr
        · exact b4 r' hm

end Obj.PeW

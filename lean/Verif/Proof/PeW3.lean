import Verif.Proof.PeW2

/-! The state after all reservations. -/

namespace Obj.PeW
open Obj Obj.Pe Obj.Reserve Obj.Spec Obj.Spec.PeFile Obj.Spec.PeW

theorem setAll_append (ds : List DataDir) (a b : List (Nat × DataDir)) : setAll ds (a ++ b) = setAll (setAll ds a) b := by
  unfold setAll; rw [List.foldl_append]

theorem length_setAll : ∀ (b : List (Nat × DataDir)) (ds : List DataDir), (setAll ds b).length = ds.length
  | [], _ => rfl
  | x :: b, ds => by
    show (setAll (ds.set x.1 x.2) b).length = _
    rw [length_setAll b, List.length_set]

/-- The directory of a certificate table reserved at `len`. -/
def certSets (len : Nat) : Option (List UInt8) → List (Nat × DataDir)
  | none => []
  | some [] => [(4, ⟨len, 0⟩)]
  | some (b :: c) => [(4, ⟨roundUp len 8, roundUp (b :: c).length 8⟩)]

/-- The end of the file with it. -/
def certEnd (len : Nat) : Option (List UInt8) → Nat
  | none => len
  | some [] => len
  | some (b :: c) => roundUp len 8 + roundUp (b :: c).length 8

theorem le_certEnd (len : Nat) (c : Option (List UInt8)) : len ≤ certEnd len c := by
  have := le_ru len pow2_eight
  unfold certEnd
  split <;> omega

theorem certDir_eq (p : Prog) (es : List Entry) : certDir p es = certSets (fileEnd p es) p.cert := by
  unfold certDir certSets
  rcases p.cert with _ | _ | _ <;> rfl

theorem reserveCertOpt_ok {w w' : State} {c : Option (List UInt8)} (h : w.reserveCertOpt c = .ok w') (h32 : w'.lay.len < U32) :
    w' = { w with dirs := setAll w.dirs (certSets w.lay.len c), lay := { w.lay with len := certEnd w.lay.len c } } ∧
    (c ≠ none → 4 < w.dirs.length) ∧ ∀ d, c = some d → roundUp d.length 8 < U32 := by
  cases c with
  | none =>
    simp only [State.reserveCertOpt, Res.ok.injEq] at h
    subst h
    exact ⟨rfl, by simp, by simp⟩
  | some d =>
    simp only [State.reserveCertOpt, State.reserveCert, Res.bind_eq, Res.bind_eq_ok] at h
    obtain ⟨size, h1, ⟨o, w1⟩, h2, h3⟩ := h
    obtain ⟨rfl, hs⟩ := a32_ok pow2_eight h1
    dsimp only at h3
    obtain ⟨rfl, h4, -⟩ := claimDir_ok h3
    cases d with
    | nil =>
      unfold State.reserve Reserve.pe at h2
      simp only [List.length_nil, roundUp_zero (show 0 < 8 by decide), if_true, Res.bind_eq, Res.ok_bind, Res.ok.injEq, Prod.mk.injEq] at h2
      obtain ⟨rfl, rfl⟩ := h2
      refine ⟨?_, fun _ => h4, fun d hd => by cases hd; exact hs⟩
      dsimp only at h32
      simp only [List.length_nil, roundUp_zero (show 0 < 8 by decide), Nat.mod_eq_of_lt h32]
      rfl
    | cons b c =>
      obtain ⟨rfl, rfl⟩ := reserve_ok pow2_eight (by
        have := le_ru (b :: c).length pow2_eight
        rw [List.length_cons] at this ⊢
        omega) h2
      refine ⟨?_, fun _ => h4, fun d hd => by cases hd; exact hs⟩
      dsimp only at h32
      rw [Nat.mod_eq_of_lt (by omega)]
      rfl

/-- The state after all reservations. -/
structure Final (p : Prog) (rb : List UInt8) (R : RelocWriter) (rs : List SectionRange) (w : State) : Prop where
  ranges : rs = place p.sectionAlign p.fileAlign (roundUp (headers p) p.sectionAlign) (headers p) (p.sections.map (Obj.Spec.PeW.entry rb))
  is64 : w.is64 = p.is64
  sa : w.lay.sectionAlign = p.sectionAlign
  fa : w.lay.fileAlign = p.fileAlign
  vlen : w.lay.vlen = endVirtual p.sectionAlign (roundUp (headers p) p.sectionAlign) (p.sections.map (Obj.Spec.PeW.entry rb))
  headersLen : w.headersLen = headers p
  ntOffset : w.ntOffset = Obj.Spec.PeW.ntOffset p
  headerNum : w.headerNum = p.sections.length
  out : w.out = []
  secs : w.secs = (rs.zip (p.sections.map (Obj.Spec.PeW.entry rb))).map fun x => (x.2.name, x.2.characteristics, x.1)
  dirs : w.dirs = setAll (List.replicate p.dirNum ⟨0, 0⟩) (p.dirsBefore ++
    sectionDirs (rs.zip (p.sections.map (Obj.Spec.PeW.entry rb))) ++ p.dirsAfter ++ certDir p (p.sections.map (Obj.Spec.PeW.entry rb)))
  codeLen : w.lay.codeLen = total p.fileAlign isCode (p.sections.map (Obj.Spec.PeW.entry rb))
  dataLen : w.lay.dataLen = total p.fileAlign isData (p.sections.map (Obj.Spec.PeW.entry rb))
  bssLen : w.lay.bssLen = total p.fileAlign isBss (p.sections.map (Obj.Spec.PeW.entry rb))
  codeAddress : w.lay.codeAddress = firstAddress isCode (rs.zip (p.sections.map (Obj.Spec.PeW.entry rb)))
  dataAddress : w.lay.dataAddress = firstAddress (fun e => isData e || isBss e) (rs.zip (p.sections.map (Obj.Spec.PeW.entry rb)))
  len : w.lay.len = certEnd (fileEnd p (p.sections.map (Obj.Spec.PeW.entry rb))) p.cert
  relocs : ∀ r, (r, Sec.reloc) ∈ rs.zip p.sections → w.relocs = R ∧ w.relocOffset = r.fileOffset
  lengths : rs.length = p.sections.length
  vsize : ∀ e ∈ p.sections.map (Obj.Spec.PeW.entry rb), e.virtualSize < U32
  bound : w.lay.vlen < U32 ∧ w.lay.codeLen < U32 ∧ w.lay.dataLen < U32 ∧ w.lay.bssLen < U32
  once : (p.sections.map (Obj.Spec.PeW.entry rb)).Pairwise fun a b => ∀ i, a.dir = some i → b.dir ≠ some i
  dirIndex : ∀ e ∈ p.sections.map (Obj.Spec.PeW.entry rb), ∀ i, e.dir = some i → i < p.dirNum
  cert : p.cert ≠ none → 4 < w.dirs.length
  certSize : ∀ d, p.cert = some d → roundUp d.length 8 < U32

theorem reserveAll_ok {p : Prog} {rs : List SectionRange} {w : State} (hv : Valid p) (h : reserveAll p = .ok (rs, w))
    (h32 : w.lay.len < U32) {R0 R : RelocWriter} {rb : List UInt8} (hR0 : RelocWriter.new.addAll p.relocs = .ok R0)
    (hR : .reloc ∈ p.sections → R0.reserve = .ok (R, rb.length)) : Final p rb R rs w := by
  unfold reserveAll at h
  simp only [Res.bind_eq, Res.bind_eq_ok] at h
  obtain ⟨w1, e1, w2, e2, w3, e3, w4, e4, w5, e5, w6, e6, ⟨rs', w7⟩, e7, w8, e8, w9, e9, h⟩ := h
  simp only [Res.ok.injEq, Prod.mk.injEq] at h
  obtain ⟨rfl, rfl⟩ := h
  obtain ⟨-, rfl⟩ := reserveDos_ok e1
  replace e2 := reserveExtra_ok hv.extra e2
  subst e2
  have hn : p.dirNum < U32 := by
    have := hv.dirNum
    unfold optLen at this
    simp only [Nat.reducePow] at this
    omega
  obtain ⟨-, rfl⟩ := reserveNt_ok hn e3
  replace e4 := setDirs_ok e4
  subst e4
  obtain ⟨rfl, hv5⟩ := reserveHeaders_ok hv.sectionAlign hv.fileAlign e5
  unfold State.addRelocs at e6
  simp only [Res.bind_eq, Res.bind_eq_ok, Res.ok.injEq] at e6
  obtain ⟨R0', hR0', rfl⟩ := e6
  replace hR0' : R0' = R0 := by
    have : RelocWriter.new.addAll p.relocs = .ok R0' := hR0'
    rw [hR0] at this
    exact (Res.ok.inj this).symm
  subst hR0'
  dsimp only at e7 e8
  replace e8 := setDirs_ok e8
  subst e8
  obtain ⟨rfl, hc1, hc2⟩ := reserveCertOpt_ok e9 h32
  dsimp only at h32
  have h7 := le_certEnd w7.lay.len p.cert
  have hX : ∀ s, roundUp (roundUp (after (64 + (dosParts p.dos).2.length) p.extra) 8 + 24 + optSize p.is64 + 8 * p.dirNum + 40 * s) p.fileAlign =
      roundUp (Obj.Spec.PeW.ntOffset p + 24 + optLen p + 40 * s) p.fileAlign := by
    intro s
    unfold optLen Obj.Spec.PeW.ntOffset
    rw [fixed_opt]
    congr 1
    omega
  have hm := reserveSecs_mono (by exact hv.fileAlign) e7
  simp only [State.new, hX] at hm hv5 e7
  have hX2 : roundUp (Obj.Spec.PeW.ntOffset p + 24 + optLen p + 40 * p.sections.length) p.fileAlign = headers p := rfl
  simp only [hX2] at hm hv5 e7
  have hH : headers p < U32 := by omega
  have hNt : Obj.Spec.PeW.ntOffset p ≤ headers p := by
    rw [← hX2]
    have := le_ru (Obj.Spec.PeW.ntOffset p + 24 + optLen p + 40 * p.sections.length) hv.fileAlign
    omega
  have hNt2 : roundUp (after (64 + (dosParts p.dos).2.length) p.extra) 8 = Obj.Spec.PeW.ntOffset p := rfl
  simp only [hNt2, Nat.zero_add, Nat.mod_eq_of_lt hH, Nat.mod_eq_of_lt (Nat.lt_of_le_of_lt hNt hH)] at hv5 e7
  have hpos : 0 < headers p := by
    rw [← hX2]
    have := le_ru (Obj.Spec.PeW.ntOffset p + 24 + optLen p + 40 * p.sections.length) hv.fileAlign
    omega
  have hvpos : 0 < roundUp (headers p) p.sectionAlign := by
    have := le_ru (headers p) hv.sectionAlign
    omega
  obtain ⟨ha, hb, hc, hd⟩ := reserveSecs_ok (rb := rb) (R := R) (fun hm => hR hm) hv.oneReloc (by exact hv.sectionAlign) (by exact hv.fileAlign) (by exact hvpos) e7 (by omega)
  have hr := ha.ranges
  have hlen := ha.len
  dsimp only at hr hlen
  refine ⟨hr, ha.is64, ha.sa, ha.fa, ha.vlen, ha.headersLen, ha.ntOffset, ha.headerNum, ha.out, ?_, ?_, ?_, ?_, ?_, ?_, ?_, ?_, hd, hb, ha.vsize, ?_, ha.once, ?_, ?_, hc2⟩
  · show w7.secs = _
    rw [ha.secs]; rfl
  · show setAll (setAll w7.dirs p.dirsAfter) _ = _
    rw [certDir_eq, setAll_append, setAll_append, setAll_append, ha.dirs]
    dsimp only
    rw [hlen]
    rfl
  · show w7.lay.codeLen = _
    rw [ha.codeLen]; exact Nat.zero_add _
  · show w7.lay.dataLen = _
    rw [ha.dataLen]; exact Nat.zero_add _
  · show w7.lay.bssLen = _
    rw [ha.bssLen]; exact Nat.zero_add _
  · show w7.lay.codeAddress = _
    rw [ha.codeAddress]; rfl
  · show w7.lay.dataAddress = _
    rw [ha.dataAddress]; rfl
  · show certEnd w7.lay.len p.cert = _
    rw [hlen]; rfl
  · exact ha.bound hv5 (show (0 : Nat) < 4294967296 by decide) (show (0 : Nat) < 4294967296 by decide) (show (0 : Nat) < 4294967296 by decide)
  · intro e he i hi
    obtain ⟨d, hd, -⟩ := ha.unset e he i hi
    have := (List.getElem?_eq_some_iff.1 hd).1
    dsimp only at this
    rwa [length_setAll, List.length_replicate] at this
  · intro hx
    show 4 < (setAll _ _).length
    rw [length_setAll]
    exact hc1 hx

end Obj.PeW

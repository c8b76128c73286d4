import Verif.Proof.PeW3

/-! Writing the image. -/

namespace Obj.PeW
open Obj Obj.Pe Obj.Reserve Obj.Spec Obj.Spec.PeFile Obj.Spec.PeW

theorem ru_mono {m n a : Nat} (h : m ≤ n) : roundUp m a ≤ roundUp n a := by
  unfold roundUp
  exact Nat.mul_le_mul_right _ (Nat.div_le_div_right (by omega))

theorem ru_add {o n a : Nat} (ha : 0 < a) (h : o % a = 0) : roundUp (o + n) a = o + roundUp n a := by
  obtain ⟨m, rfl⟩ := Nat.dvd_of_mod_eq_zero h
  unfold roundUp
  have : a * m + n + (a - 1) = n + (a - 1) + a * m := by omega
  rw [this, Nat.add_mul_div_left _ _ ha, Nat.add_mul, Nat.mul_comm a m]
  omega

theorem ru_ru {n a : Nat} (ha : 0 < a) (h : n % a = 0) : roundUp n a = n := by
  have := ru_add (n := 0) ha h
  rwa [roundUp_zero ha] at this

theorem ru_between {n s a : Nat} (ha : Pow2 a) (h1 : n ≤ s) (h2 : s ≤ roundUp n a) : roundUp s a = roundUp n a := by
  have := ru_mono (a := a) h1
  have := ru_mono (a := a) h2
  rw [ru_ru ha.pos (ru_mod n ha)] at this
  omega

theorem bufAlign_pow2 (out : List UInt8) {a : Nat} (ha : Pow2 a) (h : out.length + a < U64) :
    bufAlign out a = .ok (out ++ List.replicate (roundUp out.length a - out.length) 0) := by
  unfold bufAlign
  rw [a64_eq ha h]
  have := le_ru out.length ha
  simp only [Res.bind_eq, Res.ok_bind]
  rw [if_neg (by omega)]

theorem write_eq (w : State) (b : List UInt8) (h : w.out.length + b.length < U64) : w.write b = .ok { w with out := w.out ++ b } := by
  unfold State.write
  rw [Parts.bufBytes_eq _ _ h]; rfl

theorem padUntil_eq (w : State) (o : Nat) (h : w.out.length ≤ o) :
    w.padUntil o = .ok { w with out := w.out ++ List.replicate (o - w.out.length) 0 } := by
  unfold State.padUntil bufUntil
  rw [if_neg (by omega)]; rfl

theorem writeAlign_eq (w : State) {a : Nat} (ha : Pow2 a) (h : w.out.length + a < U64) :
    w.writeAlign a = .ok { w with out := w.out ++ List.replicate (roundUp w.out.length a - w.out.length) 0 } := by
  unfold State.writeAlign
  rw [bufAlign_pow2 _ ha h]; rfl

theorem at_grow {out b : List UInt8} {o : Nat} (tl : List UInt8) (h : At out o b) (hl : o + b.length ≤ out.length) : At (out ++ tl) o b := by
  unfold At slice at *
  rw [List.drop_append_of_le_length (by omega), List.take_append_of_le_length (by rw [List.length_drop]; omega)]
  exact h

/-- Aligned data after `out`. -/
def ext : List UInt8 → List (Nat × List UInt8) → List UInt8
  | out, [] => out
  | out, (a, b) :: tl => ext (out ++ List.replicate (roundUp out.length a - out.length) 0 ++ b) tl

theorem length_step (out b : List UInt8) {a : Nat} (ha : Pow2 a) :
    (out ++ List.replicate (roundUp out.length a - out.length) 0 ++ b).length = roundUp out.length a + b.length := by
  have := le_ru out.length ha
  simp only [List.length_append, List.length_replicate]; omega

theorem length_ext : ∀ (xs : List (Nat × List UInt8)) (out : List UInt8), (∀ x ∈ xs, Pow2 x.1) → (ext out xs).length = after out.length xs
  | [], _, _ => rfl
  | (a, b) :: tl, out, h => by
    show (ext _ tl).length = _
    rw [length_ext tl _ (fun x hx => h x (by simp [hx])), length_step _ _ (h (a, b) (by simp))]; rfl

theorem ext_prefix : ∀ (xs : List (Nat × List UInt8)) (out : List UInt8), ∃ tl, ext out xs = out ++ tl
  | [], out => ⟨[], by simp [ext]⟩
  | (a, b) :: tl, out => by
    obtain ⟨t, h⟩ := ext_prefix tl (out ++ List.replicate (roundUp out.length a - out.length) 0 ++ b)
    exact ⟨_, by show ext _ tl = _; rw [h, List.append_assoc, List.append_assoc]⟩

theorem le_after : ∀ (xs : List (Nat × List UInt8)) (n : Nat), (∀ x ∈ xs, Pow2 x.1) → n ≤ after n xs
  | [], _, _ => Nat.le_refl _
  | (a, b) :: tl, n, h => by
    have := le_after tl (roundUp n a + b.length) (fun x hx => h x (by simp [hx]))
    have ha : Pow2 a := h (a, b) (by simp)
    have := le_ru n ha
    show n ≤ after _ tl
    omega

theorem at_ext : ∀ (pre : List (Nat × List UInt8)) (a : Nat) (b : List UInt8) (post : List (Nat × List UInt8)) (out : List UInt8),
    (∀ x ∈ pre ++ (a, b) :: post, Pow2 x.1) →
    At (ext out (pre ++ (a, b) :: post)) (roundUp (after out.length pre) a) b ∧
    roundUp (after out.length pre) a + b.length ≤ (ext out (pre ++ (a, b) :: post)).length
  | [], a, b, post, out, h => by
    have ha : Pow2 a := h (a, b) (by simp)
    show At (ext _ post) _ _ ∧ _ ≤ (ext _ post).length
    have hl := length_step out b ha
    obtain ⟨t, e⟩ := ext_prefix post (out ++ List.replicate (roundUp out.length a - out.length) 0 ++ b)
    rw [e]
    have : At (out ++ List.replicate (roundUp out.length a - out.length) 0 ++ b ++ t)
        (out ++ List.replicate (roundUp out.length a - out.length) 0).length b := Parts.at_mid _ _ _
    have hl2 := length_step out [] ha
    simp only [List.append_nil, List.length_nil, Nat.add_zero] at hl2
    rw [hl2] at this
    refine ⟨this, ?_⟩
    rw [List.length_append, hl]
    show roundUp out.length a + _ ≤ _
    omega
  | (a', b') :: pre, a, b, post, out, h => by
    have := at_ext pre a b post (out ++ List.replicate (roundUp out.length a' - out.length) 0 ++ b') (fun x hx => h x (by simp at hx ⊢; exact .inr hx))
    rw [length_step _ _ (h (a', b') (by simp))] at this
    exact this

theorem writeExtra_eq : ∀ (xs : List (Nat × List UInt8)) (w : State), (∀ x ∈ xs, Pow2 x.1) → after w.out.length xs < U32 →
    w.writeExtra xs = .ok { w with out := ext w.out xs }
  | [], w, _, _ => rfl
  | (a, b) :: tl, w, h, hl => by
    have ha : Pow2 a := h (a, b) (by simp)
    have h1 : after (roundUp w.out.length a + b.length) tl < U32 := hl
    have h2 := le_after tl (roundUp w.out.length a + b.length) (fun x hx => h x (by simp [hx]))
    have h3 := le_ru w.out.length ha
    have h4 := Pow2.lt ha
    simp only [Nat.reducePow] at h4
    simp only [State.writeExtra, Res.bind_eq]
    rw [writeAlign_eq w ha (by omega), Res.ok_bind, write_eq _ _ (by
      have := length_step w.out [] ha
      simp only [List.append_nil, List.length_nil, Nat.add_zero] at this
      dsimp only
      rw [this]
      omega), Res.ok_bind, writeExtra_eq tl _ (fun x hx => h x (by simp [hx])) (by
      dsimp only
      rw [length_step _ _ ha]; exact h1)]
    rfl

/-- The bytes of a section are within the space reserved. -/
def Fits (fa : Nat) (e : Entry) : Prop := e.data.length ≤ e.dataSize ∧ e.dataSize ≤ roundUp e.data.length fa

theorem length_content {fa : Nat} (hf : Pow2 fa) {e : Entry} (h : Fits fa e) : (Obj.Spec.PeW.content fa e).length = roundUp e.dataSize fa := by
  unfold Obj.Spec.PeW.content
  have := le_ru e.dataSize hf
  have := h.1
  simp only [List.length_append, List.length_replicate]
  omega

theorem put_ok (w : State) {fa l : Nat} (hf : Pow2 fa) {e : Entry} (h : Fits fa e) (h0 : e.dataSize ≠ 0) (hl : w.out.length ≤ l)
    (h32 : roundUp l fa + roundUp e.dataSize fa < U32) :
    (w.padUntil (roundUp l fa)).bind (fun w => (w.write e.data).bind fun w => w.writeAlign fa) =
      .ok { w with out := w.out ++ List.replicate (roundUp l fa - w.out.length) 0 ++ Obj.Spec.PeW.content fa e } := by
  have h1 := le_ru l hf
  have h2 := le_ru e.dataSize hf
  have h3 := h.1
  have h4 := Pow2.lt hf
  simp only [Nat.reducePow] at h4
  have e1 : (w.out ++ List.replicate (roundUp l fa - w.out.length) (0 : UInt8)).length = roundUp l fa := by
    simp only [List.length_append, List.length_replicate]; omega
  rw [padUntil_eq _ _ (by omega), Res.ok_bind, write_eq _ _ (by dsimp only; rw [e1]; omega), Res.ok_bind]
  have e2 : (w.out ++ List.replicate (roundUp l fa - w.out.length) (0 : UInt8) ++ e.data).length = roundUp l fa + e.data.length := by
    rw [List.length_append, e1]
  rw [writeAlign_eq _ hf (by dsimp only; rw [e2]; omega)]
  dsimp only
  rw [e2, ru_add hf.pos (ru_mod l hf), ← ru_between hf h.1 h.2, List.append_assoc _ e.data]
  unfold Obj.Spec.PeW.content
  congr 5
  omega

theorem writeSection_eq (w : State) (o : Nat) (d : List UInt8) (hd : d ≠ []) :
    w.writeSection o d = (w.padUntil o).bind fun w => (w.write d).bind fun w => w.writeAlign w.lay.fileAlign := by
  unfold State.writeSection peWriteSection State.padUntil State.write State.writeAlign
  rw [if_neg hd]
  simp only [Res.bind_eq]
  cases bufUntil w.out o <;> simp only [Res.bind]
  rename_i o1
  cases bufBytes o1 d <;> simp only [Res.bind]

/-- One section. -/
theorem writeSec_ok {w : State} {fa l : Nat} {rb : List UInt8} {s : Sec} {r : SectionRange} (hfa : w.lay.fileAlign = fa) (hf : Pow2 fa)
    (hfit : Fits fa (Obj.Spec.PeW.entry rb s)) (hl : w.out.length ≤ l) (hl0 : 0 < l)
    (hr : r.fileOffset = if (Obj.Spec.PeW.entry rb s).dataSize = 0 then 0 else roundUp l fa)
    (hrel : s = .reloc → w.relocs.write = .ok rb ∧ w.relocOffset = r.fileOffset)
    (h32 : (if (Obj.Spec.PeW.entry rb s).dataSize = 0 then l else roundUp l fa + roundUp (Obj.Spec.PeW.entry rb s).dataSize fa) < U32) :
    ∃ tl, w.writeSec r s = .ok { w with out := w.out ++ tl } ∧
      (w.out ++ tl).length ≤ (if (Obj.Spec.PeW.entry rb s).dataSize = 0 then l else roundUp l fa + roundUp (Obj.Spec.PeW.entry rb s).dataSize fa) ∧
      ((Obj.Spec.PeW.entry rb s).dataSize ≠ 0 → At (w.out ++ tl) r.fileOffset (Obj.Spec.PeW.content fa (Obj.Spec.PeW.entry rb s)) ∧
        r.fileOffset + roundUp (Obj.Spec.PeW.entry rb s).dataSize fa ≤ (w.out ++ tl).length) := by
  by_cases h0 : (Obj.Spec.PeW.entry rb s).dataSize = 0
  · rw [if_pos h0] at hr ⊢
    refine ⟨[], ?_, by simpa using hl, fun h => absurd h0 h⟩
    have hd : (Obj.Spec.PeW.entry rb s).data = [] := by
      have := hfit.1
      exact List.eq_nil_of_length_eq_zero (by omega)
    rw [List.append_nil]
    show _ = Res.ok w
    cases s with
    | bss n => rfl
    | reloc =>
      unfold State.writeSec State.writeReloc
      rw [if_pos (by rw [(hrel rfl).2]; exact hr)]
    | _ =>
      simp only [Obj.Spec.PeW.entry] at hd
      subst hd
      rfl
  · rw [if_neg h0] at hr h32 ⊢
    have hd : (Obj.Spec.PeW.entry rb s).data ≠ [] := by
      intro h
      have := hfit.2
      rw [h, List.length_nil, roundUp_zero hf.pos] at this
      omega
    have hput := put_ok w hf hfit h0 hl h32
    have h1 := le_ru l hf
    have e1 : (w.out ++ List.replicate (roundUp l fa - w.out.length) (0 : UInt8)).length = roundUp l fa := by
      simp only [List.length_append, List.length_replicate]; omega
    have hc := length_content hf hfit
    have key : w.writeSec r s = .ok { w with out := w.out ++ List.replicate (roundUp l fa - w.out.length) 0 ++ Obj.Spec.PeW.content fa (Obj.Spec.PeW.entry rb s) } := by
      rw [← hput]
      have gen : ∀ d, d = (Obj.Spec.PeW.entry rb s).data → w.writeSection r.fileOffset d =
          (w.padUntil (roundUp l fa)).bind (fun w => (w.write (Obj.Spec.PeW.entry rb s).data).bind fun w => w.writeAlign fa) := by
        rintro d rfl
        rw [writeSection_eq _ _ _ hd, hr]
        rw [padUntil_eq _ _ (by omega)]
        simp only [Res.ok_bind]
        unfold State.write
        cases bufBytes (w.out ++ List.replicate (roundUp l fa - w.out.length) 0) (Obj.Spec.PeW.entry rb s).data
        · simp only [Res.bind_eq, Res.ok_bind, hfa]
        · rfl
        · rfl
      cases s with
      | bss n => exact absurd rfl h0
      | reloc =>
        obtain ⟨k1, k2⟩ := hrel rfl
        unfold State.writeSec State.writeReloc
        rw [if_neg (by rw [k2, hr]; omega), k2, hr, padUntil_eq _ _ (by omega)]
        simp only [Res.bind_eq, Res.ok_bind, k1]
        unfold State.write
        simp only [Obj.Spec.PeW.entry]
        cases bufBytes (w.out ++ List.replicate (roundUp l fa - w.out.length) 0) rb
        · simp only [Res.bind_eq, Res.ok_bind, hfa]
        · rfl
        · rfl
      | custom n c v s d => exact gen _ rfl
      | text d => exact gen _ rfl
      | data v d => exact gen _ rfl
      | rdata d => exact gen _ rfl
      | idata d => exact gen _ rfl
      | edata d => exact gen _ rfl
      | pdata d => exact gen _ rfl
      | xdata d => exact gen _ rfl
      | rsrc d => exact gen _ rfl
    refine ⟨List.replicate (roundUp l fa - w.out.length) 0 ++ Obj.Spec.PeW.content fa (Obj.Spec.PeW.entry rb s), ?_, ?_, fun _ => ⟨?_, ?_⟩⟩
    · rw [key, List.append_assoc]
    · rw [← List.append_assoc, List.length_append, e1, hc]
      exact Nat.le_refl _
    · rw [← List.append_assoc, hr]
      have := Parts.at_mid (w.out ++ List.replicate (roundUp l fa - w.out.length) (0 : UInt8)) (Obj.Spec.PeW.content fa (Obj.Spec.PeW.entry rb s)) []
      rw [e1, List.append_nil] at this
      exact this
    · rw [← List.append_assoc, List.length_append, e1, hc, hr]
      exact Nat.le_refl _

/-- All sections. -/
theorem writeSecs_ok {fa sa : Nat} {rb : List UInt8} (hf : Pow2 fa) : ∀ (ss : List Sec) (w : State) (v l : Nat), w.lay.fileAlign = fa →
    (∀ s ∈ ss, Fits fa (Obj.Spec.PeW.entry rb s)) → w.out.length ≤ l → 0 < l →
    (∀ r, (r, Sec.reloc) ∈ (place sa fa v l (ss.map (Obj.Spec.PeW.entry rb))).zip ss → w.relocs.write = .ok rb ∧ w.relocOffset = r.fileOffset) →
    endFile fa l (ss.map (Obj.Spec.PeW.entry rb)) < U32 →
    ∃ tl, w.writeSecs ((place sa fa v l (ss.map (Obj.Spec.PeW.entry rb))).zip ss) = .ok { w with out := w.out ++ tl } ∧
      (w.out ++ tl).length ≤ endFile fa l (ss.map (Obj.Spec.PeW.entry rb)) ∧
      ∀ r e, (r, e) ∈ (place sa fa v l (ss.map (Obj.Spec.PeW.entry rb))).zip (ss.map (Obj.Spec.PeW.entry rb)) → e.dataSize ≠ 0 →
        At (w.out ++ tl) r.fileOffset (Obj.Spec.PeW.content fa e) ∧ r.fileOffset + roundUp e.dataSize fa ≤ (w.out ++ tl).length
  | [], w, v, l, _, _, hl, _, _, _ => ⟨[], by rw [List.append_nil]; rfl, by simpa [endFile] using hl, by simp [place]⟩
  | s :: ss, w, v, l, hfa, hfit, hl, hl0, hrel, h32 => by
    generalize hl' : (if (Obj.Spec.PeW.entry rb s).dataSize = 0 then l else roundUp l fa + roundUp (Obj.Spec.PeW.entry rb s).dataSize fa) = l'
    have hE : endFile fa l ((s :: ss).map (Obj.Spec.PeW.entry rb)) = endFile fa l' (ss.map (Obj.Spec.PeW.entry rb)) := by
      rw [← hl']; rfl
    rw [hE] at h32 ⊢
    have hle := endFile_le hf (ss.map (Obj.Spec.PeW.entry rb)) l'
    have hll : l ≤ l' := by
      have := le_ru l hf
      rw [← hl']; split <;> omega
    simp only [List.map_cons, place, hl', List.zip_cons_cons] at hrel ⊢
    obtain ⟨t1, a1, a2, a3⟩ := writeSec_ok (r := ⟨v, (Obj.Spec.PeW.entry rb s).virtualSize, if (Obj.Spec.PeW.entry rb s).dataSize = 0 then 0 else roundUp l fa,
      roundUp (Obj.Spec.PeW.entry rb s).dataSize fa⟩) hfa hf (hfit s (by simp)) hl hl0 rfl (by
        intro hs
        exact hrel _ (by rw [hs]; exact List.mem_cons_self)) (by omega)
    rw [hl'] at a2
    obtain ⟨t2, b1, b2, b3⟩ := writeSecs_ok hf ss { w with out := w.out ++ t1 } (roundUp (v + (Obj.Spec.PeW.entry rb s).virtualSize) sa) l' hfa
      (fun x hx => hfit x (by simp [hx])) a2 (by omega) (fun r hr => hrel r (List.mem_cons_of_mem _ hr)) h32
    dsimp only at b1 b2 b3
    refine ⟨t1 ++ t2, ?_, ?_, ?_⟩
    · simp only [State.writeSecs, Res.bind_eq]
      rw [a1, Res.ok_bind, b1, List.append_assoc]
    · rw [← List.append_assoc]; exact b2
    · intro r e hm h0
      rw [← List.append_assoc]
      rw [List.mem_cons] at hm
      rcases hm with hm | hm
      · cases hm
        obtain ⟨c1, c2⟩ := a3 h0
        refine ⟨at_grow t2 c1 (by rw [length_content hf (hfit s (by simp))]; exact c2), ?_⟩
        rw [List.length_append]
        omega
      · exact b3 r e hm h0

end Obj.PeW

import Verif.Proof.BuildW10

/-! Writing with the ELF builder: attributes. -/

namespace Obj.BuildW
open Obj Obj.Build Obj.BuildR Obj.Spec
open Obj.Spec.MachoF (Each num)
open Obj.Spec.BuildW (live Place ScopeSame SubSubSame SubSame)
open Obj.Spec.BuildR (ulebBytes scopeBytes subSubBytes subBytes ScopeOk AttributesOf)

theorem ulebLoop_eq (buf : List UInt8) (len v : Nat) : (writeUlebLoop buf len v).1 = buf ++ ulebBytes v := by
  induction v using Nat.strongRecOn generalizing buf len with
  | _ v ih =>
    rw [writeUlebLoop, ulebBytes]
    have h7 : v >>> 7 = v / 128 := by simp [Nat.shiftRight_eq_div_pow]
    have h127 : v &&& 0x7f = v % 128 := by
      have := Nat.and_two_pow_sub_one_eq_mod v 7
      simpa using this
    by_cases h : v < 128
    · rw [if_pos h, dif_pos (by rw [h7]; omega), h127, Nat.mod_eq_of_lt h]
    · rw [if_neg h, dif_neg (by rw [h7]; omega), h7, ih (v / 128) (by omega), h127]
      have hb : UInt8.ofNat (v % 128) ||| 0x80 = UInt8.ofNat (v % 128 + 128) := by
        have : ∀ n : Fin 128, UInt8.ofNat n.val ||| 0x80 = UInt8.ofNat (n.val + 128) := by decide
        exact this ⟨v % 128, by omega⟩
      rw [hb, List.append_assoc]; rfl

theorem uleb_eq (v : Nat) : (writeUleb [] v).1 = ulebBytes v := by
  unfold writeUleb; rw [ulebLoop_eq]; rfl

/-- A writer after more bytes. -/
def more (w : Attr.Writer) (b : List UInt8) : Attr.Writer := { w with data := w.data ++ b }

theorem more_nil (w : Attr.Writer) : more w [] = w := by cases w; simp [more]
theorem more_more (w : Attr.Writer) (a b : List UInt8) : more (more w a) b = more w (a ++ b) := by simp [more]

section
variable {α : Type} [Item α] {xs : List α} {idx : List Nat}

theorem writeIndex_ok (hi : IndexOk idx (xs.map Item.id)) {w w' : Attr.Writer} (hw : Attr.InSS w) {i : Nat} (h : writeIndex idx w i = .ok w') :
    (i ∉ xs.map Item.id ∧ w' = w) ∨ (i ∈ xs.map Item.id ∧ ∃ j, Place xs i j ∧ w' = more w (ulebBytes (j + 1))) := by
  unfold writeIndex look at h
  cases hv : idx[i]? with
  | none => simp only [hv] at h; cases h
  | some m =>
    simp only [hv, Res.ok_bind] at h
    by_cases h0 : m = 0
    · subst h0
      rw [if_neg (by simp)] at h
      cases h
      rcases hi i 0 hv with h | h
      · exact .inl ⟨h.2, rfl⟩
      · omega
    · rw [if_pos h0] at h
      obtain ⟨j, hj, hp⟩ := index_place hi hv h0
      refine .inr ⟨?_, j, hp, ?_⟩
      · obtain ⟨y, hy, he⟩ := hp
        rw [← he]; exact List.mem_map_of_mem (List.mem_of_getElem? hy)
      · unfold Attr.Writer.index at h
        rw [Attr.append_ok w hw, uleb_eq, hj] at h
        cases h; rfl

theorem writeIndices_ok (hi : IndexOk idx (xs.map Item.id)) {l : List Nat} {w w' : Attr.Writer} (hw : Attr.InSS w)
    (h : foldR (writeIndex idx) w l = .ok w') :
    ∃ l', Each (Place xs) (l.filter fun i => decide (i ∈ xs.map Item.id)) l' ∧ w' = more w (l'.flatMap fun j => ulebBytes (j + 1)) := by
  induction l generalizing w with
  | nil => cases h; exact ⟨[], .nil, (more_nil _).symm⟩
  | cons i l ih =>
    obtain ⟨u, h1, h2⟩ := foldR_cons.1 h
    rcases writeIndex_ok hi hw h1 with ⟨a1, a2⟩ | ⟨a1, j, a2, a3⟩
    · subst a2
      obtain ⟨l', b1, b2⟩ := ih hw h2
      refine ⟨l', ?_, b2⟩
      rw [List.filter_cons_of_neg (by simpa using a1)]; exact b1
    · subst a3
      obtain ⟨l', b1, b2⟩ := ih (w := more w (ulebBytes (j + 1))) hw h2
      refine ⟨j :: l', ?_, ?_⟩
      · rw [List.filter_cons_of_pos (by simpa using a1)]; exact .cons a2 b1
      · rw [b2, more_more]; rfl
end

section
variable {secs : List Sec} {syms : List Build.Sym} {secIdx symIdx : List Nat}

theorem place_each_lt {α : Type} [Item α] {xs : List α} {l l' : List Nat} (h : Each (Place xs) l l') : ∀ j ∈ l', j < xs.length := by
  intro j hj
  obtain ⟨i, -, hp⟩ := each_mem h hj
  exact place_lt hp

theorem writeScope_ok (hs : IndexOk secIdx (secs.map (·.id))) (hy : IndexOk symIdx (syms.map (·.id))) {w w' : Attr.Writer} (hw : Attr.InSS w) {x : AttrScope}
    (h : writeScope secIdx symIdx w x = .ok w') (n1 : 1 + secs.length < 2 ^ 32) (n2 : syms ≠ [] → 1 + syms.length < 2 ^ 32) :
    ∃ x', ScopeSame secs syms x x' ∧ w' = more w (scopeBytes x') ∧ scopeTag x = Spec.BuildR.scopeTag x' ∧
      ScopeOk (1 + secs.length) (if syms = [] then 0 else 1 + syms.length) x' := by
  have h0 : ulebBytes 0 = [0] := by rw [ulebBytes]; rfl
  cases x with
  | file => cases h; exact ⟨.file, .file, (more_nil _).symm, rfl, trivial⟩
  | sections l =>
    unfold writeScope at h
    rw [Res.bind_eq_ok] at h
    obtain ⟨u, h1, h2⟩ := h
    obtain ⟨l', a1, a2⟩ := writeIndices_ok hs hw h1
    subst a2
    unfold Attr.Writer.index at h2
    rw [Attr.append_ok _ (show Attr.InSS (more w _) from hw), uleb_eq, h0] at h2
    cases h2
    refine ⟨.sections l', .sections a1, more_more _ _ _, rfl, ?_⟩
    intro i hi
    have := place_each_lt a1 i hi
    omega
  | symbols l =>
    unfold writeScope at h
    rw [Res.bind_eq_ok] at h
    obtain ⟨u, h1, h2⟩ := h
    obtain ⟨l', a1, a2⟩ := writeIndices_ok hy hw h1
    subst a2
    unfold Attr.Writer.index at h2
    rw [Attr.append_ok _ (show Attr.InSS (more w _) from hw), uleb_eq, h0] at h2
    cases h2
    refine ⟨.symbols l', .symbols a1, more_more _ _ _, rfl, ?_⟩
    intro i hi
    have := place_each_lt a1 i hi
    have hne : syms ≠ [] := by rintro rfl; cases this
    have := n2 hne
    rw [if_neg hne]
    omega

/-- Inside a subsection. -/
def InSub (w : Attr.Writer) : Prop := w.subsection ≠ 0 ∧ w.subsubsection = 0 ∧ w.data ≠ []
/-- Outside of subsections. -/
def OutSub (w : Attr.Writer) : Prop := w.subsection = 0 ∧ w.subsubsection = 0 ∧ w.data ≠ []

theorem patch_length {d d' b : List UInt8} {o : Nat} (h : Attr.patch d o b = .ok d') : d'.length = d.length := by
  unfold Attr.patch at h
  split at h
  · cases h
  · cases h; simp; omega

/-- The data does not get shorter. -/
theorem append_len {w w' : Attr.Writer} {b : List UInt8} (h : w.append b = .ok w') : w.data.length ≤ w'.data.length := by
  unfold Attr.Writer.append at h
  split at h
  · cases h
  · split at h
    · cases h
    · cases h; simp

theorem fold_len {β : Type} {f : Attr.Writer → β → Res Attr.Writer} (hf : ∀ w x w', f w x = .ok w' → w.data.length ≤ w'.data.length)
    {l : List β} {w w' : Attr.Writer} (h : foldR f w l = .ok w') : w.data.length ≤ w'.data.length := by
  induction l generalizing w with
  | nil => cases h; exact Nat.le_refl _
  | cons x l ih =>
    obtain ⟨u, h1, h2⟩ := foldR_cons.1 h
    exact Nat.le_trans (hf _ _ _ h1) (ih h2)

theorem writeIndex_len {idx : List Nat} {w : Attr.Writer} {i : Nat} {w' : Attr.Writer} (h : writeIndex idx w i = .ok w') : w.data.length ≤ w'.data.length := by
  unfold writeIndex at h
  rw [Res.bind_eq_ok] at h
  obtain ⟨k, -, h⟩ := h
  split at h
  · exact append_len h
  · cases h; exact Nat.le_refl _

theorem writeSubSub_len {w w' : Attr.Writer} {x : AttrSubSub} (h : writeSubSub secIdx symIdx w x = .ok w') : w.data.length ≤ w'.data.length := by
  unfold writeSubSub at h
  simp only [Res.bind_eq_ok] at h
  obtain ⟨w1, h1, w2, h2, w3, h3, h4⟩ := h
  have l1 : w.data.length ≤ w1.data.length := by
    unfold Attr.Writer.startSubsubsection at h1
    split at h1
    · cases h1
    · split at h1
      · cases h1
      · cases h1; simp
  have l2 : w1.data.length ≤ w2.data.length := by
    unfold writeScope at h2
    split at h2
    · cases h2; exact Nat.le_refl _
    · rw [Res.bind_eq_ok] at h2
      obtain ⟨m, m1, m2⟩ := h2
      exact Nat.le_trans (fold_len (fun _ _ _ => writeIndex_len) m1) (append_len m2)
    · rw [Res.bind_eq_ok] at h2
      obtain ⟨m, m1, m2⟩ := h2
      exact Nat.le_trans (fold_len (fun _ _ _ => writeIndex_len) m1) (append_len m2)
  have l3 := append_len h3
  have l4 : w3.data.length ≤ w'.data.length := by
    unfold Attr.Writer.endSubsubsection at h4
    split at h4
    · cases h4
    · split at h4
      · cases h4
      · split at h4
        · cases h4
        · rw [Res.bind_eq_ok] at h4
          obtain ⟨d, e1, e2⟩ := h4
          cases e2
          exact Nat.le_of_eq (patch_length e1).symm
  omega

theorem writeSubSub_ok (hs : IndexOk secIdx (secs.map (·.id))) (hy : IndexOk symIdx (syms.map (·.id))) {w w' : Attr.Writer} (hw : InSub w) {x : AttrSubSub}
    (h : writeSubSub secIdx symIdx w x = .ok w') (hl : w'.data.length < U32) (n1 : 1 + secs.length < 2 ^ 32) (n2 : syms ≠ [] → 1 + syms.length < 2 ^ 32) :
    ∃ x', SubSubSame secs syms x x' ∧ w' = more w (subSubBytes w.endian x') ∧ ScopeOk (1 + secs.length) (if syms = [] then 0 else 1 + syms.length) x'.scope := by
  obtain ⟨h1, h2, h3⟩ := hw
  have hpos := List.length_pos_iff.2 h3
  have hlw0 := writeSubSub_len h
  have hoff0 : w.offset = w.data.length := Nat.mod_eq_of_lt (by omega)
  unfold writeSubSub at h
  unfold Attr.Writer.startSubsubsection at h
  rw [if_neg h1, if_neg (by simp [h2])] at h
  simp only [Res.ok_bind, Res.bind_eq_ok] at h
  obtain ⟨w2, e2, w3, e3, e4⟩ := h
  have hin0 : w.offset ≠ 0 := by rw [hoff0]; omega
  have hin : Attr.InSS { w with subsubsection := w.offset, data := w.data ++ [scopeTag x.scope] ++ [0, 0, 0, 0] } := ⟨h1, hin0⟩
  obtain ⟨s', a1, a2, a3, a4⟩ := writeScope_ok hs hy hin e2 n1 n2
  subst a2
  unfold Attr.Writer.attributes at e3
  rw [Attr.append_ok _ (show Attr.InSS (more { w with subsubsection := w.offset, data := w.data ++ [scopeTag x.scope] ++ [0, 0, 0, 0] } (scopeBytes s')) from hin)] at e3
  cases e3
  unfold Attr.Writer.endSubsubsection at e4
  split at e4
  · cases e4
  split at e4
  · cases e4
  split at e4
  · cases e4
  simp only [more] at e4
  · rw [Res.bind_eq_ok] at e4
    obtain ⟨d, e5, e6⟩ := e4
    cases e6
    have hlen := patch_length e5
    rw [hlen] at hl
    have hlw : w.data.length < U32 := by simp only [List.length_append] at hl; omega
    have hoff : w.offset = w.data.length := Nat.mod_eq_of_lt hlw
    have htot : (w.data ++ [scopeTag x.scope] ++ [0, 0, 0, 0] ++ scopeBytes s' ++ x.data).length = w.data.length + (5 + (scopeBytes s' ++ x.data).length) := by
      simp; omega
    have hoff2 : ∀ a b, Attr.Writer.offset ⟨w.endian, w.data ++ [scopeTag x.scope] ++ [0, 0, 0, 0] ++ scopeBytes s' ++ x.data, a, b⟩ =
        w.data.length + (5 + (scopeBytes s' ++ x.data).length) := by
      intro a b
      unfold Attr.Writer.offset
      simp only [htot]
      rw [htot] at hl
      exact Nat.mod_eq_of_lt hl
    rw [hoff2, hoff, Nat.add_sub_cancel_left] at e5
    have hp := Attr.patch_ok (w.data ++ [scopeTag x.scope]) [0, 0, 0, 0] (wr w.endian 4 (5 + (scopeBytes s' ++ x.data).length)) (scopeBytes s' ++ x.data) (by simp)
    rw [show (w.data ++ [scopeTag x.scope]).length = w.data.length + 1 by simp] at hp
    simp only [List.append_assoc] at hp e5
    rw [hp] at e5
    cases e5
    refine ⟨⟨s', x.data⟩, ⟨a1, rfl⟩, ?_, a4⟩
    unfold more subSubBytes
    simp only [a3, List.append_assoc, List.cons_append, List.nil_append]
    cases w
    simp only at h2
    subst h2
    rfl

theorem more_in {w : Attr.Writer} {b : List UInt8} (h : InSub w) : InSub (more w b) := ⟨h.1, h.2.1, by simp [more, h.2.2]⟩
theorem more_out {w : Attr.Writer} {b : List UInt8} (h : OutSub w) : OutSub (more w b) := ⟨h.1, h.2.1, by simp [more, h.2.2]⟩

theorem endSub_len {w w' : Attr.Writer} (h : w.endSubsection = .ok w') : w'.data.length = w.data.length := by
  unfold Attr.Writer.endSubsection at h
  split at h
  · cases h
  · split at h
    · cases h
    · split at h
      · cases h
      · rw [Res.bind_eq_ok] at h
        obtain ⟨d, e1, e2⟩ := h
        cases e2
        exact patch_length e1

theorem writeSub_len {w w' : Attr.Writer} {x : AttrSub} (h : writeSub secIdx symIdx w x = .ok w') : w.data.length ≤ w'.data.length := by
  unfold writeSub at h
  simp only [Res.bind_eq_ok] at h
  obtain ⟨w1, h1, w2, h2, h3⟩ := h
  have l1 : w.data.length ≤ w1.data.length := by
    unfold Attr.Writer.startSubsection at h1
    split at h1
    · cases h1
    · split at h1
      · cases h1
      · cases h1; simp
  have l2 := fold_len (fun _ _ _ => writeSubSub_len) h2
  have l3 := endSub_len h3
  omega

theorem writeSubSubs_ok (hs : IndexOk secIdx (secs.map (·.id))) (hy : IndexOk symIdx (syms.map (·.id))) (n1 : 1 + secs.length < 2 ^ 32)
    (n2 : syms ≠ [] → 1 + syms.length < 2 ^ 32) {l : List AttrSubSub} {w w' : Attr.Writer} (hw : InSub w)
    (h : foldR (writeSubSub secIdx symIdx) w l = .ok w') (hl : w'.data.length < U32) :
    ∃ l', Each (SubSubSame secs syms) l l' ∧ w' = more w (l'.flatMap (subSubBytes w.endian)) ∧
      ∀ x ∈ l', ScopeOk (1 + secs.length) (if syms = [] then 0 else 1 + syms.length) x.scope := by
  induction l generalizing w with
  | nil => cases h; exact ⟨[], .nil, (more_nil _).symm, by simp⟩
  | cons x l ih =>
    obtain ⟨u, h1, h2⟩ := foldR_cons.1 h
    have := fold_len (fun _ _ _ => writeSubSub_len) h2
    obtain ⟨x', a1, a2, a3⟩ := writeSubSub_ok hs hy hw h1 (by omega) n1 n2
    subst a2
    obtain ⟨l', b1, b2, b3⟩ := ih (more_in hw) h2
    refine ⟨x' :: l', .cons a1 b1, ?_, ?_⟩
    · rw [b2, more_more]; rfl
    · intro y hy
      rcases List.mem_cons.1 hy with rfl | hy
      · exact a3
      · exact b3 y hy

theorem writeSub_ok (hs : IndexOk secIdx (secs.map (·.id))) (hy : IndexOk symIdx (syms.map (·.id))) (n1 : 1 + secs.length < 2 ^ 32)
    (n2 : syms ≠ [] → 1 + syms.length < 2 ^ 32) {w w' : Attr.Writer} (hw : OutSub w) {x : AttrSub}
    (h : writeSub secIdx symIdx w x = .ok w') (hl : w'.data.length < U32) :
    ∃ x', SubSame secs syms x x' ∧ w' = more w (subBytes w.endian x') ∧
      ∀ y ∈ x'.subs, ScopeOk (1 + secs.length) (if syms = [] then 0 else 1 + syms.length) y.scope := by
  obtain ⟨h1, h2, h3⟩ := hw
  have hpos := List.length_pos_iff.2 h3
  have hlw := writeSub_len h
  have hoff : w.offset = w.data.length := Nat.mod_eq_of_lt (by omega)
  unfold writeSub at h
  unfold Attr.Writer.startSubsection at h
  rw [if_neg (by simp [h1]), if_neg (by simp [h2]), hoff] at h
  simp only [Res.ok_bind, Res.bind_eq_ok] at h
  obtain ⟨w2, e2, e3⟩ := h
  have hl2 := endSub_len e3
  obtain ⟨l', a1, a2, a3⟩ := writeSubSubs_ok hs hy n1 n2
    (w := { w with subsection := w.data.length, data := w.data ++ [0, 0, 0, 0] ++ x.vendor ++ [0] })
    ⟨by show w.data.length ≠ 0; omega, h2, by simp⟩ e2 (by omega)
  subst a2
  unfold Attr.Writer.endSubsection at e3
  split at e3
  · cases e3
  split at e3
  · cases e3
  split at e3
  · cases e3
  simp only [more] at e3 hl2
  · rw [Res.bind_eq_ok] at e3
    obtain ⟨d, e5, e6⟩ := e3
    cases e6
    simp only at hl hl2
    rw [hl2] at hl
    have htot : (w.data ++ [0, 0, 0, 0] ++ x.vendor ++ [0] ++ l'.flatMap (subSubBytes w.endian)).length =
        w.data.length + (4 + (x.vendor ++ [0] ++ l'.flatMap (subSubBytes w.endian)).length) := by
      simp; omega
    have hoff2 : ∀ a b, Attr.Writer.offset ⟨w.endian, w.data ++ [0, 0, 0, 0] ++ x.vendor ++ [0] ++ l'.flatMap (subSubBytes w.endian), a, b⟩ =
        w.data.length + (4 + (x.vendor ++ [0] ++ l'.flatMap (subSubBytes w.endian)).length) := by
      intro a b
      unfold Attr.Writer.offset
      simp only [htot]
      rw [htot] at hl
      exact Nat.mod_eq_of_lt hl
    rw [hoff2, Nat.add_sub_cancel_left] at e5
    have hp := Attr.patch_ok w.data [0, 0, 0, 0] (wr w.endian 4 (4 + (x.vendor ++ [0] ++ l'.flatMap (subSubBytes w.endian)).length))
      (x.vendor ++ ([0] ++ l'.flatMap (subSubBytes w.endian))) (by simp)
    simp only [List.append_assoc] at hp e5
    rw [hp] at e5
    cases e5
    refine ⟨⟨x.vendor, l'⟩, ⟨rfl, a1⟩, ?_, a3⟩
    unfold more subBytes
    simp only [List.append_assoc]
    cases w
    simp only at h1
    subst h1
    rfl

theorem writeSubs_ok (hs : IndexOk secIdx (secs.map (·.id))) (hy : IndexOk symIdx (syms.map (·.id))) (n1 : 1 + secs.length < 2 ^ 32)
    (n2 : syms ≠ [] → 1 + syms.length < 2 ^ 32) {l : List AttrSub} {w w' : Attr.Writer} (hw : OutSub w)
    (h : foldR (writeSub secIdx symIdx) w l = .ok w') (hl : w'.data.length < U32) :
    ∃ l', Each (SubSame secs syms) l l' ∧ w' = more w (l'.flatMap (subBytes w.endian)) ∧
      ∀ x ∈ l', (subBytes w.endian x).length < 2 ^ 32 ∧ ∀ y ∈ x.subs, ScopeOk (1 + secs.length) (if syms = [] then 0 else 1 + syms.length) y.scope := by
  induction l generalizing w with
  | nil => cases h; exact ⟨[], .nil, (more_nil _).symm, by simp⟩
  | cons x l ih =>
    obtain ⟨u, h1, h2⟩ := foldR_cons.1 h
    have hlu := fold_len (fun _ _ _ => writeSub_len) h2
    obtain ⟨x', a1, a2, a3⟩ := writeSub_ok hs hy n1 n2 hw h1 (by omega)
    subst a2
    obtain ⟨l', b1, b2, b3⟩ := ih (more_out hw) h2
    refine ⟨x' :: l', .cons a1 b1, ?_, ?_⟩
    · rw [b2, more_more]; rfl
    · intro y hy
      rcases List.mem_cons.1 hy with rfl | hy
      · refine ⟨?_, a3⟩
        simp only [more, List.length_append] at hlu
        omega
      · exact b3 y hy

/-- The attributes of a section. -/
theorem attributes_ok (hs : IndexOk secIdx (secs.map (·.id))) (hy : IndexOk symIdx (syms.map (·.id))) (n1 : 1 + secs.length < 2 ^ 32)
    (n2 : syms ≠ [] → 1 + syms.length < 2 ^ 32) {en : Endianness} {s : Sec} {l : List AttrSub} (hd : s.data = .attributes l) {d : List UInt8}
    (h : attributesOf en secIdx symIdx s = .ok d) (hv : ∀ a ∈ l, (0 : UInt8) ∉ a.vendor) {n : Nat} (hn : syms ≠ [] → n = 1 + syms.length) :
    ∃ l', Each (SubSame secs syms) l l' ∧ AttributesOf en (1 + secs.length) n d l' := by
  unfold attributesOf at h
  simp only [hd] at h
  by_cases h0 : l = []
  · rw [if_pos h0] at h
    cases h; subst h0
    exact ⟨[], .nil, by simp, .inr ⟨rfl, rfl⟩⟩
  · rw [if_neg h0, Res.bind_eq_ok] at h
    obtain ⟨w, h1, h2⟩ := h
    unfold Attr.Writer.finish at h2
    split at h2
    · cases h2
    · split at h2
      · cases h2
      · split at h2
        · cases h2
        · next hlt =>
          cases h2
          obtain ⟨l', a1, a2, a3⟩ := writeSubs_ok hs hy n1 n2 (w := Attr.Writer.new en) ⟨rfl, rfl, by simp [Attr.Writer.new]⟩ h1 (by omega)
          refine ⟨l', a1, ?_, .inl ?_⟩
          · intro x hx
            obtain ⟨y, hy1, hy2⟩ := each_mem a1 hx
            obtain ⟨b1, b2⟩ := a3 x hx
            refine ⟨by rw [hy2.1]; exact hv y hy1, b1, fun z hz => ?_⟩
            have := b2 z hz
            cases hsc : z.scope with
            | file => trivial
            | sections q => rw [hsc] at this; exact this
            | symbols q =>
              rw [hsc] at this
              intro i hi
              have := this i hi
              by_cases hne : syms = []
              · rw [if_pos hne] at this; omega
              · rw [if_neg hne] at this; rw [hn hne]; exact this
          · rw [a2]; rfl
end
end Obj.BuildW

import Verif.Spec.ElfAttr
import Verif.Proof.Iter
import Verif.Proof.Endian

/-! # Helper lemmas for attributes -/

namespace Obj.Attr
open Obj Obj.Spec Obj.Spec.AttrS

theorem writeUlebLoop_shape (buf : List UInt8) (len v : Nat) :
    ∃ g, writeUlebLoop buf len v = (buf ++ g, len + g.length) ∧ g.length = ulebSize v ∧ (v ≠ 0 → (0 : UInt8) ∉ g) := by
  induction v using Nat.strongRecOn generalizing buf len with
  | _ v ih =>
    rw [writeUlebLoop, ulebSize]
    have h7 : v >>> 7 = v / 128 := by simp [Nat.shiftRight_eq_div_pow]
    have h127 : v &&& 0x7f = v % 128 := by
      have := Nat.and_two_pow_sub_one_eq_mod v 7
      simpa using this
    by_cases h : v < 128
    · rw [if_pos h, dif_pos (by rw [h7]; omega)]
      refine ⟨[UInt8.ofNat (v &&& 0x7f)], by simp, by simp, ?_⟩
      intro hv hm
      simp only [List.mem_singleton] at hm
      have := congrArg UInt8.toNat hm
      rw [UInt8.toNat_ofNat', h127] at this
      simp at this
      omega
    · rw [if_neg h, dif_neg (by rw [h7]; omega)]
      obtain ⟨g, h1, h2, h3⟩ := ih (v / 128) (by omega) (buf ++ [UInt8.ofNat (v &&& 0x7f) ||| 0x80]) (len + 1)
      refine ⟨(UInt8.ofNat (v &&& 0x7f) ||| 0x80) :: g, ?_, ?_, ?_⟩
      · rw [h7, h1]; simp; omega
      · simp [h2]; omega
      · intro _ hm
        rw [List.mem_cons] at hm
        rcases hm with hm | hm
        · have hb : ∀ b : UInt8, b ||| 0x80 ≠ 0 := by
            intro b hb
            have := congrArg UInt8.toNat hb
            rw [UInt8.toNat_or] at this
            have h1 : (b.toNat ||| 128) = 0 := this
            have := Nat.right_le_or (n := b.toNat) (m := 128)
            omega
          exact hb _ hm.symm
        · exact h3 (by omega) hm

theorem uleb_shape (v : Nat) : (uleb v).length = ulebSize v ∧ (v ≠ 0 → (0 : UInt8) ∉ uleb v) := by
  obtain ⟨g, h1, h2, h3⟩ := writeUlebLoop_shape [] 0 v
  have : uleb v = g := by simp [uleb, writeUleb, h1]
  rw [this]; exact ⟨h2, h3⟩

/-! ## Encodings -/

def valEnc : Value → List UInt8
  | .int v => uleb v
  | .str s => s ++ [0]

def attrEnc (a : Attribute) : List UInt8 := uleb a.tag ++ a.values.flatMap valEnc

def idxEnc (s : SubSub) : List UInt8 := if s.tag = 1 then [] else s.indices.flatMap uleb ++ [0]

def ssBody (s : SubSub) : List UInt8 := idxEnc s ++ s.attributes.flatMap attrEnc

def ssEnc (e : Endianness) (s : SubSub) : List UInt8 := [s.tag] ++ wr e 4 (5 + (ssBody s).length) ++ ssBody s

def subBody (e : Endianness) (s : Sub) : List UInt8 := s.vendor ++ [0] ++ s.subs.flatMap (ssEnc e)

def subEnc (e : Endianness) (s : Sub) : List UInt8 := wr e 4 (4 + (subBody e s).length) ++ subBody e s

theorem length_flatMap {α : Type} (f : α → List UInt8) (n : α → Nat) (xs : List α) (h : ∀ x ∈ xs, (f x).length = n x) :
    (xs.flatMap f).length = (xs.map n).sum := by
  induction xs with
  | nil => rfl
  | cons x xs ih =>
    rw [List.flatMap_cons, List.length_append, h x (by simp), ih (fun y hy => h y (by simp [hy]))]
    simp

theorem length_valEnc (v : Value) : (valEnc v).length = v.size := by
  cases v with
  | int v => exact (uleb_shape v).1
  | str s => simp [valEnc, Value.size]

theorem length_attrEnc (a : Attribute) : (attrEnc a).length = a.size := by
  rw [attrEnc, List.length_append, (uleb_shape _).1, length_flatMap _ Value.size _ fun v _ => length_valEnc v]; rfl

theorem length_ssEnc (e : Endianness) (s : SubSub) : (ssEnc e s).length = s.size := by
  have hi : (idxEnc s).length = if s.tag = 1 then 0 else (s.indices.map ulebSize).sum + 1 := by
    unfold idxEnc
    split
    · rfl
    · rw [List.length_append, length_flatMap _ ulebSize _ fun v _ => (uleb_shape v).1]; rfl
  simp only [ssEnc, ssBody, SubSub.size, List.length_append, length_wr, hi, length_flatMap _ Attribute.size _ fun a _ => length_attrEnc a]
  simp; omega

theorem length_subEnc (e : Endianness) (s : Sub) : (subEnc e s).length = s.size := by
  simp only [subEnc, subBody, Sub.size, List.length_append, length_wr, length_flatMap _ SubSub.size _ fun x _ => length_ssEnc e x]
  simp; omega

/-! ## Writing -/

theorem each_spec {α : Type} (f : Writer → α → Res Writer) (enc : α → List UInt8) (P : Writer → Prop)
    (hP : ∀ w b, P w → P { w with data := w.data ++ b }) (xs : List α)
    (hf : ∀ w x, x ∈ xs → P w → w.data.length + (enc x).length < U32 → f w x = .ok { w with data := w.data ++ enc x })
    (w : Writer) (hw : P w) (hl : w.data.length + (xs.flatMap enc).length < U32) :
    each f w xs = .ok { w with data := w.data ++ xs.flatMap enc } := by
  induction xs generalizing w with
  | nil => simp [each]
  | cons x xs ih =>
    rw [List.flatMap_cons, List.length_append] at hl
    rw [each, hf w x (by simp) hw (by omega)]
    simp only [Res.ok_bind]
    rw [ih (fun w y hy => hf w y (by simp [hy])) _ (hP _ _ hw) (by simp only [List.length_append]; omega)]
    simp

/-- In a sub-subsection. -/
def InSS (w : Writer) : Prop := w.subsection ≠ 0 ∧ w.subsubsection ≠ 0

theorem append_ok (w : Writer) (h : InSS w) (b : List UInt8) : w.append b = .ok { w with data := w.data ++ b } := by
  unfold Writer.append; rw [if_neg h.1, if_neg h.2]

theorem value_write (w : Writer) (h : InSS w) (v : Value) : Value.write w v = .ok { w with data := w.data ++ valEnc v } := by
  cases v with
  | int v => exact append_ok w h _
  | str s => exact append_ok w h _

theorem attribute_write (w : Writer) (h : InSS w) (a : Attribute) (hl : w.data.length + (attrEnc a).length < U32) :
    Attribute.write w a = .ok { w with data := w.data ++ attrEnc a } := by
  unfold Attribute.write
  rw [show w.integer a.tag = .ok { w with data := w.data ++ uleb a.tag } from append_ok w h _]
  simp only [Res.ok_bind]
  rw [attrEnc, List.length_append] at hl
  rw [each_spec Value.write valEnc InSS (fun w b h => h) _ (fun w x _ hw _ => value_write w hw x) { w with data := w.data ++ uleb a.tag } h (by simp only [List.length_append]; omega)]
  simp [attrEnc]

theorem patch_ok (pre old new tl : List UInt8) (h : old.length = new.length) :
    patch (pre ++ (old ++ tl)) pre.length new = .ok (pre ++ (new ++ tl)) := by
  unfold patch
  rw [if_neg (by simp; omega)]
  simp only [List.take_left, Res.ok.injEq]
  rw [← List.drop_drop, List.drop_left, ← h, List.drop_left, List.append_assoc]

theorem subsub_write (w : Writer) (h : w.subsection ≠ 0 ∧ w.subsubsection = 0 ∧ w.data ≠ []) (s : SubSub)
    (hl : w.data.length + (ssEnc w.endian s).length < U32) :
    SubSub.write w s = .ok { w with data := w.data ++ ssEnc w.endian s } := by
  obtain ⟨h1, h2, h3⟩ := h
  have hpos := List.length_pos_iff.2 h3
  have hlen : (ssEnc w.endian s).length = 5 + (ssBody s).length := by simp [ssEnc]; omega
  rw [hlen] at hl
  have hbody : (ssBody s).length = (idxEnc s).length + (s.attributes.flatMap attrEnc).length := by simp [ssBody]
  have hoff : w.offset = w.data.length := Nat.mod_eq_of_lt (by omega)
  unfold SubSub.write Writer.startSubsubsection
  rw [if_neg h1, if_neg (by simp [h2]), hoff]
  simp only [Res.ok_bind]
  have hin : ∀ d, InSS { w with subsubsection := w.data.length, data := d } := fun d => ⟨h1, by show w.data.length ≠ 0; omega⟩
  have hidx : (if s.tag = 1 then Res.ok { w with subsubsection := w.data.length, data := w.data ++ [s.tag] ++ [0, 0, 0, 0] } else
      (each Writer.index { w with subsubsection := w.data.length, data := w.data ++ [s.tag] ++ [0, 0, 0, 0] } s.indices).bind fun w => w.index 0) =
      .ok { w with subsubsection := w.data.length, data := w.data ++ [s.tag] ++ [0, 0, 0, 0] ++ idxEnc s } := by
    by_cases ht : s.tag = 1
    · rw [if_pos ht]; simp [idxEnc, ht]
    · rw [if_neg ht]
      have hi : (idxEnc s).length = (s.indices.flatMap uleb).length + 1 := by simp [idxEnc, ht]
      rw [each_spec Writer.index uleb InSS (fun w b h => h) _ (fun w x _ hw _ => append_ok w hw _) _ (hin _) (by simp only [List.length_append, List.length_cons, List.length_nil]; omega)]
      simp only [Res.ok_bind]
      have h0 : (writeUleb [] 0).1 = [0] := by simp [writeUleb, writeUlebLoop]
      rw [Writer.index, append_ok _ (hin _), h0]
      simp [idxEnc, ht]
  rw [hidx]
  simp only [Res.ok_bind]
  rw [each_spec Attribute.write attrEnc InSS (fun w b h => h) _ (fun w x _ hw hb => attribute_write w hw x hb) _ (hin _) (by simp only [List.length_append, List.length_cons, List.length_nil]; omega)]
  simp only [Res.ok_bind]
  unfold Writer.endSubsubsection
  have hl1 : (w.data ++ [s.tag] ++ [0, 0, 0, 0] ++ idxEnc s ++ s.attributes.flatMap attrEnc).length = w.data.length + (5 + (ssBody s).length) := by
    simp [hbody]; omega
  have hoff2 : Writer.offset { w with subsubsection := w.data.length, data := w.data ++ [s.tag] ++ [0, 0, 0, 0] ++ idxEnc s ++ s.attributes.flatMap attrEnc } =
      w.data.length + (5 + (ssBody s).length) := by
    unfold Writer.offset
    simp only [hl1]
    exact Nat.mod_eq_of_lt (by omega)
  rw [hoff2]
  simp only
  rw [if_neg h1, if_neg (by omega), if_neg (by omega), Nat.add_sub_cancel_left]
  have hp := patch_ok (w.data ++ [s.tag]) [0, 0, 0, 0] (wr w.endian 4 (5 + (ssBody s).length)) (idxEnc s ++ s.attributes.flatMap attrEnc) (by simp)
  rw [show (w.data ++ [s.tag]).length = w.data.length + 1 by simp] at hp
  simp only [List.append_assoc] at hp ⊢
  rw [hp]
  simp only [Res.ok_bind, ssEnc, ssBody, List.append_assoc]
  cases w
  simp only at h2
  subst h2
  rfl

theorem sub_write (w : Writer) (h : w.subsection = 0 ∧ w.subsubsection = 0 ∧ w.data ≠ []) (s : Sub)
    (hl : w.data.length + (subEnc w.endian s).length < U32) :
    Sub.write w s = .ok { w with data := w.data ++ subEnc w.endian s } := by
  obtain ⟨h1, h2, h3⟩ := h
  have hpos := List.length_pos_iff.2 h3
  have hlen : (subEnc w.endian s).length = 4 + (subBody w.endian s).length := by simp [subEnc]
  rw [hlen] at hl
  have hbody : (subBody w.endian s).length = s.vendor.length + 1 + (s.subs.flatMap (ssEnc w.endian)).length := by simp [subBody]; omega
  have hoff : w.offset = w.data.length := Nat.mod_eq_of_lt (by omega)
  unfold Sub.write Writer.startSubsection
  rw [if_neg (by simp [h1]), if_neg (by simp [h2]), hoff]
  simp only [Res.ok_bind]
  rw [each_spec SubSub.write (ssEnc w.endian) (fun v => v.endian = w.endian ∧ v.subsection ≠ 0 ∧ v.subsubsection = 0 ∧ v.data ≠ [])
    (fun v b h => ⟨h.1, h.2.1, h.2.2.1, by simp [h.2.2.2]⟩) _
    (fun v x _ hv hb => by
      have := subsub_write v hv.2 x (by rw [hv.1]; exact hb)
      simp only [hv.1] at this ⊢
      exact this)
    { w with subsection := w.data.length, data := w.data ++ [0, 0, 0, 0] ++ s.vendor ++ [0] }
    ⟨rfl, by show w.data.length ≠ 0; omega, h2, by simp⟩ (by simp only [List.length_append, List.length_cons, List.length_nil]; omega)]
  simp only [Res.ok_bind]
  unfold Writer.endSubsection
  have hl1 : (w.data ++ [0, 0, 0, 0] ++ s.vendor ++ [0] ++ s.subs.flatMap (ssEnc w.endian)).length = w.data.length + (4 + (subBody w.endian s).length) := by
    simp [hbody]; omega
  have hoff2 : Writer.offset { w with subsection := w.data.length, data := w.data ++ [0, 0, 0, 0] ++ s.vendor ++ [0] ++ s.subs.flatMap (ssEnc w.endian) } =
      w.data.length + (4 + (subBody w.endian s).length) := by
    unfold Writer.offset
    simp only [hl1]
    exact Nat.mod_eq_of_lt (by omega)
  rw [hoff2]
  simp only
  rw [if_neg (by omega), if_neg (by simp [h2]), if_neg (by omega), Nat.add_sub_cancel_left]
  have hp := patch_ok w.data [0, 0, 0, 0] (wr w.endian 4 (4 + (subBody w.endian s).length)) (s.vendor ++ ([0] ++ s.subs.flatMap (ssEnc w.endian))) (by simp)
  simp only [List.append_assoc] at hp ⊢
  rw [hp]
  simp only [Res.ok_bind, subEnc, subBody, List.append_assoc]
  cases w
  simp only at h1
  subst h1
  rfl

theorem writeAll_ok (e : Endianness) (subs : List Sub) (h : sizeAll subs < U32 - 1) :
    writeAll e subs = .ok (0x41 :: subs.flatMap (subEnc e)) ∧ (0x41 :: subs.flatMap (subEnc e)).length = sizeAll subs := by
  have hl : (0x41 :: subs.flatMap (subEnc e)).length = sizeAll subs := by
    simp only [List.length_cons, length_flatMap _ Sub.size _ fun x _ => length_subEnc e x, sizeAll]; omega
  refine ⟨?_, hl⟩
  unfold writeAll
  rw [each_spec Sub.write (subEnc e) (fun v => v.endian = e ∧ v.subsection = 0 ∧ v.subsubsection = 0 ∧ v.data ≠ [])
    (fun v b h => ⟨h.1, h.2.1, h.2.2.1, by simp [h.2.2.2]⟩) _
    (fun v x _ hv hb => by
      have := sub_write v hv.2 x (by rw [hv.1]; exact hb)
      simp only [hv.1] at this ⊢
      exact this) _ ⟨rfl, rfl, rfl, by simp [Writer.new]⟩ (by simp [Writer.new] at hl ⊢; omega)]
  simp only [Res.ok_bind]
  unfold Writer.finish Writer.new
  simp only [List.singleton_append, hl]
  rw [if_neg (by simp), if_neg (by simp), if_neg (by omega)]

end Obj.Attr

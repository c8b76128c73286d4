import Verif.Spec.MachoBuildLayout
import Verif.Proof.MachoBW11
import Verif.Proof.BuildSegment

/-! The layout of files that the Mach-O builder writes: the order of the parts. -/

namespace Obj.MachoB
open Obj Obj.MachoR
open Obj.Reserve (addU64)
open Obj.BuildW (foldR mapR put Puts put_ok Blk foldR_cons mapR_each)
open Obj.Spec.MachoF (Each num headerSize)
open Obj.Spec.MachoB

/-! ## Parts in order -/

theorem _root_.Obj.Spec.MachoB.InOrder.le {lo hi : Nat} {ps : List (Nat × Nat)} (h : InOrder lo ps hi) : lo ≤ hi := by
  induction ps generalizing lo with
  | nil => exact h
  | cons p ps ih => have := ih h.2; have := h.1; omega

theorem _root_.Obj.Spec.MachoB.InOrder.weaken {lo lo' hi : Nat} {ps : List (Nat × Nat)} (hl : lo' ≤ lo) (h : InOrder lo ps hi) : InOrder lo' ps hi := by
  cases ps with
  | nil => exact Nat.le_trans hl h
  | cons p ps => exact ⟨Nat.le_trans hl h.1, h.2⟩

theorem _root_.Obj.Spec.MachoB.InOrder.raise {lo hi hi' : Nat} {ps : List (Nat × Nat)} (hl : hi ≤ hi') (h : InOrder lo ps hi) : InOrder lo ps hi' := by
  induction ps generalizing lo with
  | nil => exact Nat.le_trans h hl
  | cons p ps ih => exact ⟨h.1, ih h.2⟩

theorem _root_.Obj.Spec.MachoB.InOrder.append {lo mid hi : Nat} {ps qs : List (Nat × Nat)} (h : InOrder lo ps mid) (h' : InOrder mid qs hi) : InOrder lo (ps ++ qs) hi := by
  induction ps generalizing lo with
  | nil => exact h'.weaken h
  | cons p ps ih => exact ⟨h.1, ih h.2⟩

theorem _root_.Obj.Spec.MachoB.InOrder.sublist {ps qs : List (Nat × Nat)} (hs : qs.Sublist ps) {lo hi : Nat} (h : InOrder lo ps hi) : InOrder lo qs hi := by
  induction hs generalizing lo with
  | slnil => exact h
  | cons p _ ih =>
    have := ih h.2
    exact this.weaken (by have := h.1; omega)
  | cons_cons p _ ih => exact ⟨h.1, ih h.2⟩

theorem _root_.Obj.Spec.MachoB.InOrder.mem {lo hi : Nat} {ps : List (Nat × Nat)} (h : InOrder lo ps hi) {p : Nat × Nat} (hp : p ∈ ps) : lo ≤ p.1 ∧ p.1 + p.2 ≤ hi := by
  induction ps generalizing lo with
  | nil => cases hp
  | cons q ps ih =>
    rcases List.mem_cons.1 hp with rfl | hp
    · exact ⟨h.1, h.2.le⟩
    · have := ih h.2 hp
      have := h.1
      omega

theorem Puts.inOrder {bs : List (Nat × List UInt8)} {x y : List UInt8} (h : Puts bs x y) : InOrder x.length (bs.map fun p => (p.1, p.2.length)) y.length := by
  induction h with
  | nil => exact Nat.le_refl _
  | @cons o d out out' bs h1 h2 ih =>
    refine ⟨h1, ih.weaken ?_⟩
    simp only [List.length_append, List.length_replicate]
    omega

theorem fold_inOrder {α : Type} {f : List UInt8 → α → Res (List UInt8)} (g : α → List (Nat × Nat)) {xs : List α} {out out' : List UInt8}
    (hf : ∀ out x out', f out x = .ok out' → InOrder out.length (g x) out'.length) (h : foldR f out xs = .ok out') :
    InOrder out.length (xs.flatMap g) out'.length := by
  induction xs generalizing out with
  | nil => cases h; exact Nat.le_refl _
  | cons x xs ih =>
    obtain ⟨u, h1, h2⟩ := foldR_cons.1 h
    rw [List.flatMap_cons]
    exact (hf _ _ _ h1).append (ih h2)

/-! ## The parts that are written -/

def dataPart (x : Sec × Nat) : List (Nat × Nat) := match x.1.data with | .data d => [(x.2, d.length)] | .uninit _ => []
def relPart (x : Sec × Nat) : List (Nat × Nat) := if x.1.relocs = [] then [] else [(x.2, 8 * x.1.relocs.length)]
def blobPart (x : Cmd × List Nat) : List (Nat × Nat) := ((blobs x.1).zip x.2).map fun p => (p.2, p.1.length)

/-- The tables. -/
def tailParts (c : Cfg) (b : Builder) (o : Order) (l : Layout) : List (Nat × Nat) :=
  (b.commands.zip l.link).flatMap blobPart ++ ([(l.symoff, o.syms.length * nlistSize c)] ++ ((if l.indoff ≠ 0 then [(l.indoff, 4 * indCount o.secs)] else []) ++
    ([(l.stroff, l.strings.length)] ++ (b.commands.filterMap signature).map fun d => (l.sig, d.length))))

theorem length_rels (en : Endianness) (rs : List RelInfo) : (rs.flatMap (RelInfo.bytes en)).length = 8 * rs.length := by
  induction rs with
  | nil => rfl
  | cons r rs ih =>
    have : (RelInfo.bytes en r).length = 8 := by
      unfold RelInfo.bytes
      rw [List.length_append, length_wr, length_wr]
    rw [List.flatMap_cons, List.length_append, ih, List.length_cons, this]; omega

theorem length_nlists (c : Cfg) (ys : List Nlist) : (ys.flatMap (Nlist.encode c)).length = ys.length * nlistSize c := by
  induction ys with
  | nil => simp
  | cons y ys ih => rw [List.flatMap_cons, List.length_append, ih, List.length_cons, MachoW.length_nlist, Nat.succ_mul]; omega

theorem length_wrs (en : Endianness) (vs : List Nat) : (vs.flatMap fun v => wr en 4 v).length = 4 * vs.length := by
  induction vs with
  | nil => rfl
  | cons y ys ih => rw [List.flatMap_cons, List.length_append, ih, List.length_cons, length_wr]; omega

theorem zip_length {α β : Type} {xs : List α} {ys : List β} (h : ys.length = xs.length) : (xs.zip ys).length = xs.length := by
  rw [List.length_zip]; omega

theorem emit_order {c : Cfg} {b : Builder} {o : Order} {l : Layout} {out : List UInt8} (hn : o.names.length = o.syms.length) (h : emit c b o l = .ok out) :
    ∃ ks, mapR (fun x : Cmd × List Nat => cmdBytes c b o l x.1 x.2) (b.commands.zip l.link) = .ok ks ∧
      InOrder (hdrSize c + ks.flatten.length) ((o.secs.zip l.offs).flatMap dataPart ++ ((o.secs.zip l.rels).flatMap relPart ++ tailParts c b o l)) out.length ∧
      ∃ rest, out = Mhdr.encode c ⟨b.cputype, b.cpusubtype, b.filetype, b.commands.length, l.sizeofcmds, b.flags⟩ ++ ks.flatten ++ rest := by
  obtain ⟨ks', rest, hk, hrest⟩ := (emit_ok h).head
  unfold emit at h
  simp only [Res.bind_eq_ok] at h
  obtain ⟨ks, h0, o1, h1, o2, h2, o3, h3, ys, h4, o5, h5, o6, h6, h7⟩ := h
  rw [h0] at hk
  injection hk with hk
  subst hk
  refine ⟨ks, h0, ?_, rest, hrest⟩
  have p1 := fold_inOrder dataPart (fun _ _ _ e => by
    unfold putData at e
    unfold dataPart
    split at e
    · next d hd => rw [hd]; exact Puts.inOrder (put_ok e)
    · next hd => rw [hd]; cases e; exact Nat.le_refl _) h1
  have p2 := fold_inOrder relPart (fun _ x _ e => by
    unfold putRelocs at e
    unfold relPart
    split at e
    · next hd => rw [if_pos hd]; cases e; exact Nat.le_refl _
    · next hd =>
      rw [if_neg hd]
      rw [Res.bind_eq_ok] at e
      obtain ⟨rs, e1, e2⟩ := e
      have := Puts.inOrder (put_ok e2)
      rw [List.map_singleton, length_rels, BuildR.each_length ((mapR_each _ _ _).1 e1)] at this
      exact this) h2
  have p3 := fold_inOrder blobPart (fun _ x _ e => by
    unfold putBlobs at e
    unfold blobPart
    split at e
    · have := fold_inOrder (fun p : List UInt8 × Nat => [(p.2, p.1.length)]) (fun _ _ _ e => Puts.inOrder (put_ok e)) e
      rwa [← List.map_eq_flatMap] at this
    · cases e) h3
  have p5 := Puts.inOrder (put_ok h5)
  rw [List.map_singleton, length_nlists, BuildR.each_length ((mapR_each _ _ _).1 h4), zip_length hn] at p5
  have p6 : InOrder o5.length (if l.indoff ≠ 0 then [(l.indoff, 4 * indCount o.secs)] else []) o6.length := by
    split at h6
    · next hi =>
      rw [if_pos hi]
      rw [Res.bind_eq_ok] at h6
      obtain ⟨vs, e1, e2⟩ := h6
      have := Puts.inOrder (put_ok e2)
      rwa [List.map_singleton, length_wrs, BuildR.each_length ((mapR_each _ _ _).1 e1)] at this
    · next hi => rw [if_neg hi]; cases h6; exact Nat.le_refl _
  split at h7
  · cases h7
  next hl =>
  have hl : o6.length = l.stroff := by simpa using hl
  rw [Res.bind_eq_ok] at h7
  obtain ⟨o8, h8, h9⟩ := h7
  have p7 : InOrder o6.length [(l.stroff, l.strings.length)] (o6 ++ l.strings).length := ⟨by omega, by show _ ≤ _; rw [List.length_append]; simp only; omega⟩
  have p8 := fold_inOrder (fun d : List UInt8 => [(l.sig, d.length)]) (fun _ _ _ e => Puts.inOrder (put_ok e)) h8
  rw [← List.map_eq_flatMap] at p8
  split at h9
  · cases h9
  cases h9
  have P := p1.append (p2.append (p3.append (p5.append (p6.append (p7.append p8)))))
  rw [List.length_append, MachoW.length_mhdr] at P
  exact P

/-- The steps of writing. -/
theorem write_written {b : Builder} {out : List UInt8} (hs : Sound (cleaned b)) (h : write b = .ok out) :
    ∃ o l, order (cleaned b) = .ok o ∧ layout (cleaned b).cfg (cleaned b) o = .ok l ∧ emit (cleaned b).cfg (cleaned b) o l = .ok out ∧ Written (cleaned b) o l out := by
  have hr := (write_steps h).1
  unfold write at h
  rw [(deleteOrphans_ok b).1 hr] at h
  unfold writeClean at h
  simp only [Res.bind_eq_ok] at h
  obtain ⟨b', hb, o, ho, l, hl, h⟩ := h
  cases hb
  have hord := order_ok ho
  exact ⟨o, l, ho, hl, h, hs, cleaned_noOrphans b, hord, layout_ok hord.secs hl, emit_ok h⟩

end Obj.MachoB

import Verif.Spec.MachoBuildWrite
import Verif.Proof.BuildW2
import Verif.Proof.MachoW5
import Verif.Proof.MachoBuildR6

/-! Writing with the Mach-O builder: what is written where. -/

namespace Obj.MachoB
open Obj Obj.MachoR
open Obj.BuildW (foldR mapR put Puts put_ok fold_puts Blk foldR_cons mapR_each)
open Obj.Spec.MachoF (Each num)

/-- What `emit` writes. -/
structure Emitted (c : Cfg) (b : Builder) (o : Order) (l : Layout) (out : List UInt8) : Prop where
  head : ∃ ks rest, mapR (fun x : Cmd × List Nat => cmdBytes c b o l x.1 x.2) (b.commands.zip l.link) = .ok ks ∧
    out = Mhdr.encode c ⟨b.cputype, b.cpusubtype, b.filetype, b.commands.length, l.sizeofcmds, b.flags⟩ ++ ks.flatten ++ rest
  data : ∀ x ∈ o.secs.zip l.offs, ∀ d, x.1.data = .data d → Blk out x.2 d
  relocs : ∀ x ∈ o.secs.zip l.rels, x.1.relocs ≠ [] →
    ∃ rs, mapR (relOf b o) x.1.relocs = .ok rs ∧ Blk out x.2 (rs.flatMap (RelInfo.bytes c.en))
  blobs : ∀ x ∈ b.commands.zip l.link, (blobs x.1).length = x.2.length ∧ ∀ p ∈ (blobs x.1).zip x.2, Blk out p.2 p.1
  symbols : ∃ ys, mapR (fun x : Sym × Option Nat => nlistOf b o l.tab x.1 x.2) (o.syms.zip o.names) = .ok ys ∧
    Blk out l.symoff (ys.flatMap (Nlist.encode c))
  pos : 0 < l.symoff
  indirect : l.indoff ≠ 0 → ∃ vs, mapR (indOf b o) (o.secs.flatMap (·.indirect)) = .ok vs ∧ Blk out l.indoff (vs.flatMap fun v => wr c.en 4 v)
  strings : Blk out l.stroff l.strings
  sig : ∀ d ∈ b.commands.filterMap signature, Blk out l.sig d
  len : out.length = l.len

theorem Puts.len {bs : List (Nat × List UInt8)} {x y : List UInt8} (h : Puts bs x y) {o : Nat} {d : List UInt8} (hm : (o, d) ∈ bs) : x.length ≤ o := by
  induction h with
  | nil => cases hm
  | @cons o' d' out out' bs h1 h2 ih =>
    rcases List.mem_cons.1 hm with he | hm
    · cases he; exact h1
    · have := ih hm
      simp only [List.length_append, List.length_replicate] at this
      omega

theorem putData_ok {out out' : List UInt8} {x : Sec × Nat} (h : putData out x = .ok out') :
    ∃ bs, Puts bs out out' ∧ ∀ d, x.1.data = .data d → (x.2, d) ∈ bs := by
  unfold putData at h
  split at h
  · next d hd => exact ⟨_, put_ok h, fun d' e => by rw [hd] at e; cases e; simp⟩
  · next hd => cases h; exact ⟨[], .nil, fun d' e => by rw [hd] at e; cases e⟩

theorem putRelocs_ok {c : Cfg} {b : Builder} {o : Order} {out out' : List UInt8} {x : Sec × Nat} (h : putRelocs c b o out x = .ok out') :
    ∃ bs, Puts bs out out' ∧ (x.1.relocs ≠ [] → ∃ rs, mapR (relOf b o) x.1.relocs = .ok rs ∧ (x.2, rs.flatMap (RelInfo.bytes c.en)) ∈ bs) := by
  unfold putRelocs at h
  split at h
  · next hd => cases h; exact ⟨[], .nil, fun e => absurd hd e⟩
  · rw [Res.bind_eq_ok] at h
    obtain ⟨rs, h1, h2⟩ := h
    exact ⟨_, put_ok h2, fun _ => ⟨rs, h1, by simp⟩⟩

theorem putBlobs_ok {out out' : List UInt8} {x : Cmd × List Nat} (h : putBlobs out x = .ok out') :
    ∃ bs, Puts bs out out' ∧ (blobs x.1).length = x.2.length ∧ ∀ p ∈ (blobs x.1).zip x.2, (p.2, p.1) ∈ bs := by
  unfold putBlobs at h
  split at h
  · next hl =>
    obtain ⟨bs, hp, hq⟩ := fold_puts (P := fun (p : List UInt8 × Nat) bs => (p.2, p.1) ∈ bs) (fun _ _ _ e => ⟨_, put_ok e, by simp⟩)
      (by intro x bs cs ds hx; simp [hx]) h
    exact ⟨bs, hp, hl, hq⟩
  · cases h

theorem emit_ok {c : Cfg} {b : Builder} {o : Order} {l : Layout} {out : List UInt8} (h : emit c b o l = .ok out) : Emitted c b o l out := by
  unfold emit at h
  simp only [Res.bind_eq_ok] at h
  obtain ⟨ks, h0, o1, h1, o2, h2, o3, h3, ys, h4, o5, h5, o6, h6, h7⟩ := h
  obtain ⟨b1, p1, q1⟩ := fold_puts (P := fun (x : Sec × Nat) bs => ∀ d, x.1.data = .data d → (x.2, d) ∈ bs) (fun _ _ _ e => putData_ok e)
    (by intro x bs cs ds hx d hd; simp [hx d hd]) h1
  obtain ⟨b2, p2, q2⟩ := fold_puts (P := fun (x : Sec × Nat) bs => x.1.relocs ≠ [] → ∃ rs, mapR (relOf b o) x.1.relocs = .ok rs ∧
    (x.2, rs.flatMap (RelInfo.bytes c.en)) ∈ bs) (fun _ _ _ e => putRelocs_ok e) (by
      intro x bs cs ds hx hn
      obtain ⟨rs, e1, e2⟩ := hx hn
      exact ⟨rs, e1, by simp [e2]⟩) h2
  obtain ⟨b3, p3, q3⟩ := fold_puts (P := fun (x : Cmd × List Nat) bs => (blobs x.1).length = x.2.length ∧ ∀ p ∈ (blobs x.1).zip x.2, (p.2, p.1) ∈ bs)
    (fun _ _ _ e => putBlobs_ok e) (by
      intro x bs cs ds hx
      exact ⟨hx.1, fun p hp => by simp [hx.2 p hp]⟩) h3
  have p5 := put_ok h5
  obtain ⟨b6, p6, q6⟩ : ∃ bs, Puts bs o5 o6 ∧ (l.indoff ≠ 0 → ∃ vs, mapR (indOf b o) (o.secs.flatMap (·.indirect)) = .ok vs ∧
      (l.indoff, vs.flatMap fun v => wr c.en 4 v) ∈ bs) := by
    split at h6
    · rw [Res.bind_eq_ok] at h6
      obtain ⟨vs, e1, e2⟩ := h6
      exact ⟨_, put_ok e2, fun _ => ⟨vs, e1, by simp⟩⟩
    · next hn => cases h6; exact ⟨[], .nil, fun e => absurd e hn⟩
  split at h7
  · cases h7
  next hl =>
  have hl : o6.length = l.stroff := by simpa using hl
  have p7 : Puts [(l.stroff, l.strings)] o6 (o6 ++ l.strings) := by
    refine .cons (by omega) ?_
    rw [← hl, Nat.sub_self]
    simpa using Puts.nil
  rw [Res.bind_eq_ok] at h7
  obtain ⟨o8, h8, h9⟩ := h7
  obtain ⟨b8, p8, q8⟩ := fold_puts (P := fun (d : List UInt8) bs => (l.sig, d) ∈ bs) (fun _ _ _ e => ⟨_, put_ok e, by simp⟩)
    (by intro x bs cs ds hx; simp [hx]) h8
  split at h9
  · cases h9
  next hlen =>
  cases h9
  have Q := (((((p1.append p2).append p3).append p5).append p6).append p7).append p8
  have P := (Puts.cons (o := 0) (d := Mhdr.encode c ⟨b.cputype, b.cpusubtype, b.filetype, b.commands.length, l.sizeofcmds, b.flags⟩ ++ ks.flatten)
    (out := []) (by simp) (by simpa using Q))
  obtain ⟨rest, hrest⟩ := Q.keeps
  refine ⟨⟨ks, rest, h0, hrest⟩, ?_, ?_, ?_, ⟨ys, h4, P.mem (by simp)⟩, ?_, ?_, P.mem (by simp), ?_, by simpa using hlen⟩
  · intro x hx d hd
    have := q1 x hx d hd
    exact P.mem (by simp [this])
  · intro x hx hn
    obtain ⟨rs, e1, e2⟩ := q2 x hx hn
    exact ⟨rs, e1, P.mem (by simp [e2])⟩
  · intro x hx
    obtain ⟨e1, e2⟩ := q3 x hx
    exact ⟨e1, fun p hp => P.mem (by simp [e2 p hp])⟩
  · have h1 := Puts.len Q (o := l.symoff) (d := ys.flatMap (Nlist.encode c)) (by simp)
    have h2 := MachoW.hdrSize_le c
    rw [List.length_append, MachoW.length_mhdr] at h1
    omega
  · intro hn
    obtain ⟨vs, e1, e2⟩ := q6 hn
    exact ⟨vs, e1, P.mem (by simp [e2])⟩
  · intro d hd
    have := q8 d hd
    exact P.mem (by simp [this])

end Obj.MachoB

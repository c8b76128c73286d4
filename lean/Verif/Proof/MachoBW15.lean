import Verif.Proof.MachoBW14

/-! The layout of files that the Mach-O builder writes: the tables. -/

namespace Obj.MachoB
open Obj Obj.MachoR
open Obj.BuildW (foldR mapR mapR_each Blk)
open Obj.Spec.MachoF (Each num headerSize segmentIn sectionsIn Zerofill width)
open Obj.Spec.MachoB

theorem parts_filter {xs : List (List UInt8)} {os : List Nat} {ps : List (Nat × Nat)} (h : partsOf xs os = .ok ps)
    (hl : (xs.filter fun x => x ≠ []).length = os.length) :
    ps.filter (fun p => p.2 ≠ 0) = ((xs.filter fun x => x ≠ []).zip os).map (fun p => (p.2, p.1.length)) ∧ ps.length = xs.length := by
  induction xs generalizing os ps with
  | nil => cases h; exact ⟨rfl, rfl⟩
  | cons x xs ih =>
    unfold partsOf at h
    split at h
    · next hx =>
      rw [Res.bind_eq_ok] at h
      obtain ⟨r, h1, h2⟩ := h
      cases h2
      subst hx
      obtain ⟨e1, e2⟩ := ih h1 (by simpa using hl)
      exact ⟨by simpa using e1, by simp [e2]⟩
    · next hx =>
      split at h
      · rw [Res.bind_eq_ok] at h
        obtain ⟨r, h1, h2⟩ := h
        cases h2
        obtain ⟨e1, e2⟩ := ih h1 (by simpa [hx] using hl)
        have hn : x.length ≠ 0 := fun e => hx (List.length_eq_zero_iff.1 e)
        refine ⟨?_, by simp [e2]⟩
        rw [List.filter_cons, List.filter_cons]
        simp only [ne_eq, hn, hx, not_false_eq_true, decide_true, if_true, List.zip_cons_cons, List.map_cons]
        simp only [ne_eq] at e1
        rw [e1]
      · cases h

section
variable {b : Builder} {o : Order} {l : Layout} {out : List UInt8} {ks : List (List UInt8)}

/-- A load command with its blobs. -/
def BlobOut (b : Builder) (o : Order) (l : Layout) (out : List UInt8) (p : Cmd × List Nat) (bs : List UInt8) : Prop :=
  cmdBytes b.cfg b o l p.1 p.2 = .ok bs ∧ CmdOut b o l out p.1 bs ∧ p ∈ b.commands.zip l.link

theorem Written.blobs_at (x : Written b o l out) {p : Cmd × List Nat} {bs : List UInt8} (h : BlobOut b o l out p bs) :
    linkeditParts b.endian bs = blobPart p := by
  obtain ⟨h1, h2, h3⟩ := h
  obtain ⟨k, lk⟩ := p
  obtain ⟨hb1, hb2⟩ := x.em.blobs _ h3
  have hk := x.sound.commands k h2.1
  have hkind := h2.kind
  have hout := x.lt
  simp only at h1 hkind hb1 hb2
  have hother (hc : cmdKind k ≠ 4) (hc' : cmdKind k ≠ 5) (hnil : blobs k = []) : linkeditParts b.endian bs = blobPart (k, lk) := by
    unfold linkeditParts blobPart
    rw [hnil]
    have n1 : number b.endian bs ∉ linkeditNumbers := fun e => hc (by rw [← hkind, kind_link e])
    have n2 : number b.endian bs ≠ 0x80000022 := fun e => hc' (by rw [← hkind, e]; rfl)
    have n3 : number b.endian bs ≠ 0x1d := fun e => n1 (by rw [e]; decide)
    rw [if_neg n3, if_neg n1, if_neg n2]
    rfl
  cases k with
  | linkedit cmd data =>
    rw [cmdBytes, Res.bind_eq_ok] at h1
    obtain ⟨off, h4, h5⟩ := h1
    cases h5
    have hn (i v : Nat) (hi : [cmd, 16, off, data.length][i]? = some v) := num_words b.endian [cmd, 16, off, data.length] i v hi
    have he : Obj.encode b.endian [(4, cmd), (4, 16), (4, off), (4, data.length)] = Obj.encode b.endian ([cmd, 16, off, data.length].map fun v => (4, v)) := rfl
    have h0 : number b.endian (Obj.encode b.endian [(4, cmd), (4, 16), (4, off), (4, data.length)]) = cmd := (hn 0 cmd rfl).trans (mod_lt4 (link_lt hk))
    unfold linkeditParts
    rw [h0]
    by_cases hc : cmd = 0x1d
    · rw [if_pos hc]
      simp [blobPart, blobs, hc]
    · rw [if_neg hc, if_pos (show cmd ∈ linkeditNumbers from hk)]
      have hbl : blobs (.linkedit cmd data) = [data] := by simp [blobs, hc]
      rw [if_neg hc] at h4
      have h4 := fetch_ok h4
      rw [hbl] at hb1 hb2
      cases lk with
      | nil => cases h4
      | cons off' lk =>
        cases h4
        obtain ⟨b1, b2⟩ := blk_lt (hb2 (data, off) (by simp)) hout
        unfold blobPart partAt
        simp only [hbl]
        have e1 := (hn 2 off rfl).trans (mod_lt4 b1)
        have e2 := (hn 3 data.length rfl).trans (mod_lt4 b2)
        show [(num b.endian (Obj.encode b.endian ([cmd, 16, off, data.length].map fun v => (4, v))) (4 * 2) 4,
          num b.endian (Obj.encode b.endian ([cmd, 16, off, data.length].map fun v => (4, v))) (4 * 3) 4)] = _
        rw [e1, e2]; rfl
  | dyldInfo x1 x2 x3 x4 x5 =>
    rw [cmdBytes, Res.bind_eq_ok] at h1
    obtain ⟨ps, h4, h5⟩ := h1
    cases h5
    unfold blobs at hb1 hb2
    obtain ⟨e1, e2⟩ := parts_filter h4 hb1
    obtain ⟨p1, p2, p3, p4, p5, rfl⟩ : ∃ p1 p2 p3 p4 p5, ps = [p1, p2, p3, p4, p5] := by
      match ps, e2 with
      | [p1, p2, p3, p4, p5], _ => exact ⟨p1, p2, p3, p4, p5, rfl⟩
    have hsm : ∀ p ∈ [p1, p2, p3, p4, p5], p.2 ≠ 0 → p.1 < 2 ^ 32 ∧ p.2 < 2 ^ 32 := by
      intro p hp hz
      have : p ∈ [p1, p2, p3, p4, p5].filter fun p => p.2 ≠ 0 := List.mem_filter.2 ⟨hp, by simpa using hz⟩
      rw [e1] at this
      obtain ⟨q, hq, rfl⟩ := List.mem_map.1 this
      exact blk_lt (hb2 q hq) hout
    have hn (i v : Nat) (hi : [0x80000022, 48, p1.1, p1.2, p2.1, p2.2, p3.1, p3.2, p4.1, p4.2, p5.1, p5.2][i]? = some v) :=
      num_words b.endian [0x80000022, 48, p1.1, p1.2, p2.1, p2.2, p3.1, p3.2, p4.1, p4.2, p5.1, p5.2] i v hi
    have h0 : number b.endian (Obj.encode b.endian ([(4, 0x80000022), (4, 48)] ++ [p1, p2, p3, p4, p5].flatMap fun p => [(4, p.1), (4, p.2)])) = 0x80000022 := hn 0 _ rfl
    have hz : (p1.2 < 2 ^ 32 ∧ p2.2 < 2 ^ 32 ∧ p3.2 < 2 ^ 32 ∧ p4.2 < 2 ^ 32 ∧ p5.2 < 2 ^ 32) := by
      have (p : Nat × Nat) (hp : p ∈ [p1, p2, p3, p4, p5]) : p.2 < 2 ^ 32 := by
        by_cases hz : p.2 = 0
        · omega
        · exact (hsm p hp hz).2
      exact ⟨this _ (by simp), this _ (by simp), this _ (by simp), this _ (by simp), this _ (by simp)⟩
    unfold linkeditParts
    rw [h0, if_neg (by decide), if_neg (by decide), if_pos rfl]
    unfold blobPart blobs
    refine Eq.trans ?_ e1
    have f (i : Nat) (p : Nat × Nat) (hp : p ∈ [p1, p2, p3, p4, p5])
        (i1 : [0x80000022, 48, p1.1, p1.2, p2.1, p2.2, p3.1, p3.2, p4.1, p4.2, p5.1, p5.2][2 * i]? = some p.1)
        (i2 : [0x80000022, 48, p1.1, p1.2, p2.1, p2.2, p3.1, p3.2, p4.1, p4.2, p5.1, p5.2][2 * i + 1]? = some p.2) :
        [partAt b.endian (Obj.encode b.endian ([(4, 0x80000022), (4, 48)] ++ [p1, p2, p3, p4, p5].flatMap fun p => [(4, p.1), (4, p.2)])) (8 * i)].filter (fun p => p.2 ≠ 0) =
          [p].filter fun p => p.2 ≠ 0 := by
      have a1 := hn _ _ i1
      have a2 := hn _ _ i2
      have hp2 : p.2 < 2 ^ 32 := by
        by_cases hz : p.2 = 0
        · omega
        · exact (hsm p hp hz).2
      rw [mod_lt4 hp2] at a2
      unfold partAt
      have a1' : num b.endian (Obj.encode b.endian ([(4, 0x80000022), (4, 48)] ++ [p1, p2, p3, p4, p5].flatMap fun p => [(4, p.1), (4, p.2)])) (8 * i) 4 = p.1 % 256 ^ 4 := by
        rw [show 8 * i = 4 * (2 * i) by omega]; exact a1
      have a2' : num b.endian (Obj.encode b.endian ([(4, 0x80000022), (4, 48)] ++ [p1, p2, p3, p4, p5].flatMap fun p => [(4, p.1), (4, p.2)])) (8 * i + 4) 4 = p.2 := by
        rw [show 8 * i + 4 = 4 * (2 * i + 1) by omega]; exact a2
      rw [a1', a2']
      by_cases hz : p.2 = 0
      · simp [hz]
      · rw [mod_lt4 (hsm p hp hz).1]
    have g1 := f 1 p1 (by simp) rfl rfl
    have g2 := f 2 p2 (by simp) rfl rfl
    have g3 := f 3 p3 (by simp) rfl rfl
    have g4 := f 4 p4 (by simp) rfl rfl
    have g5 := f 5 p5 (by simp) rfl rfl
    generalize Obj.encode b.endian _ = enc at g1 g2 g3 g4 g5
    have split (a1 a2 a3 a4 a5 : Nat × Nat) : [a1, a2, a3, a4, a5].filter (fun p => p.2 ≠ 0) = [a1].filter (fun p => p.2 ≠ 0) ++ ([a2].filter (fun p => p.2 ≠ 0) ++
        ([a3].filter (fun p => p.2 ≠ 0) ++ ([a4].filter (fun p => p.2 ≠ 0) ++ [a5].filter (fun p => p.2 ≠ 0)))) := by
      simp only [← List.filter_append]
      rfl
    rw [split p1, ← g1, ← g2, ← g3, ← g4, ← g5, ← split]
    rfl
  | segment i => exact hother (by simp [cmdKind]) (by simp [cmdKind]) rfl
  | symtab => exact hother (by simp [cmdKind]) (by simp [cmdKind]) rfl
  | dysymtab => exact hother (by simp [cmdKind]) (by simp [cmdKind]) rfl
  | dylib i => exact hother (by simp [cmdKind]) (by simp [cmdKind]) rfl
  | idDylib i => exact hother (by simp [cmdKind]) (by simp [cmdKind]) rfl
  | buildVersion _ _ _ _ => exact hother (by simp [cmdKind]) (by simp [cmdKind]) rfl
  | other _ _ => exact hother (by simp [cmdKind]) (by simp [cmdKind]) rfl

/-- A code signature. -/
def sigPart (l : Layout) (k : Cmd) : List (Nat × Nat) := match signature k with | some d => [(l.sig, d.length)] | none => []

theorem Written.sig_at (x : Written b o l out) {k : Cmd} {bs : List UInt8} (h : CmdOut b o l out k bs) :
    (if decide (number b.endian bs = 0x1d) = true then [partAt b.endian bs 8] else []) = sigPart l k := by
  have hkind := h.kind
  obtain ⟨hm, ⟨lk, h1⟩, -⟩ := h
  have hk := x.sound.commands k hm
  have hout := x.lt
  have hother (hc : cmdKind k ≠ 4) (hnil : signature k = none) :
      (if decide (number b.endian bs = 0x1d) = true then [partAt b.endian bs 8] else []) = sigPart l k := by
    have : number b.endian bs ≠ 0x1d := fun e => hc (by rw [← hkind, e]; rfl)
    simp [this, sigPart, hnil]
  cases k with
  | linkedit cmd data =>
    rw [cmdBytes, Res.bind_eq_ok] at h1
    obtain ⟨off, h4, h5⟩ := h1
    cases h5
    have hn (i v : Nat) (hi : [cmd, 16, off, data.length][i]? = some v) := num_words b.endian [cmd, 16, off, data.length] i v hi
    have h0 : number b.endian (Obj.encode b.endian [(4, cmd), (4, 16), (4, off), (4, data.length)]) = cmd := (hn 0 cmd rfl).trans (mod_lt4 (link_lt hk))
    rw [h0]
    by_cases hc : cmd = 0x1d
    · rw [if_pos hc] at h4
      cases h4
      have hb := x.em.sig data (List.mem_filterMap.2 ⟨_, hm, by simp [signature, hc]⟩)
      obtain ⟨b1, b2⟩ := blk_lt hb hout
      have e1 := (hn 2 l.sig rfl).trans (mod_lt4 b1)
      have e2 := (hn 3 data.length rfl).trans (mod_lt4 b2)
      simp only [hc, decide_true, if_true, sigPart, signature, partAt]
      have e1 : num b.endian (Obj.encode b.endian [(4, cmd), (4, 16), (4, l.sig), (4, data.length)]) 8 4 = l.sig := e1
      have e2 : num b.endian (Obj.encode b.endian [(4, cmd), (4, 16), (4, l.sig), (4, data.length)]) 12 4 = data.length := e2
      rw [hc] at e1 e2
      rw [e1, e2]
    · simp [hc, sigPart, signature]
  | segment i => exact hother (by simp [cmdKind]) rfl
  | symtab => exact hother (by simp [cmdKind]) rfl
  | dysymtab => exact hother (by simp [cmdKind]) rfl
  | dylib i => exact hother (by simp [cmdKind]) rfl
  | idDylib i => exact hother (by simp [cmdKind]) rfl
  | buildVersion _ _ _ _ => exact hother (by simp [cmdKind]) rfl
  | dyldInfo _ _ _ _ _ => exact hother (by simp [cmdKind]) rfl
  | other _ _ => exact hother (by simp [cmdKind]) rfl

theorem sig_parts (l : Layout) (ks : List Cmd) : ((ks.filterMap signature).map fun d => (l.sig, d.length)) = ks.flatMap (sigPart l) := by
  induction ks with
  | nil => rfl
  | cons k ks ih =>
    rw [List.filterMap_cons, List.flatMap_cons, ← ih]
    unfold sigPart
    split
    · next h => rw [h]; rfl
    · next d h => rw [h]; rfl

theorem Written.signatureParts (x : Written b o l out) (h : Each (CmdOut b o l out) b.commands ks) :
    signatureParts b.endian ks = (b.commands.filterMap signature).map fun d => (l.sig, d.length) := by
  unfold Spec.MachoB.signatureParts
  rw [sig_parts, filter_map_flat _ _ (fun k => if decide (number b.endian k = 0x1d) = true then [partAt b.endian k 8] else []) _ fun _ _ => rfl]
  exact BuildW.each_flatMap_eq _ _ h fun k _ bs hk => x.sig_at hk

/-- The symbol table and the strings: if there is no symbol table, both are not in the list. -/
theorem Written.symbolParts (x : Written b o l out) (h : Each (CmdOut b o l out) b.commands ks) :
    (symbolParts b.cfg ks).Sublist [(l.symoff, o.syms.length * nlistSize b.cfg)] ∧ (stringParts b.endian ks).Sublist [(l.stroff, l.strings.length)] := by
  unfold Spec.MachoB.symbolParts stringParts
  rcases x.symtab_shape h with ⟨h1, -⟩ | h1
  · rw [show b.cfg.en = b.endian from rfl, h1]
    exact ⟨List.nil_sublist _, List.nil_sublist _⟩
  · rw [show b.cfg.en = b.endian from rfl, h1]
    have hn (i v : Nat) (hi : [2, 24, l.symoff, o.syms.length, l.stroff, l.strsize][i]? = some v) :=
      num_words b.endian [2, 24, l.symoff, o.syms.length, l.stroff, l.strsize] i v hi
    obtain ⟨s1, s2, -⟩ := strings_ok x.ord.built x.laid.strtab
    obtain ⟨ys, y1, y2⟩ := x.em.symbols
    obtain ⟨b1, b2⟩ := blk_lt y2 x.lt
    obtain ⟨b3, b4⟩ := blk_lt x.em.strings x.lt
    have hle := x.ord.syms_le
    have e1 : num b.endian (SymtabCmd.encode b.cfg ⟨l.symoff, o.syms.length, l.stroff, l.strsize⟩) 8 4 = l.symoff := (hn 2 _ rfl).trans (mod_lt4 b1)
    have e2 : num b.endian (SymtabCmd.encode b.cfg ⟨l.symoff, o.syms.length, l.stroff, l.strsize⟩) 12 4 = o.syms.length := (hn 3 _ rfl).trans (mod_lt4 (by omega))
    have e3 : num b.endian (SymtabCmd.encode b.cfg ⟨l.symoff, o.syms.length, l.stroff, l.strsize⟩) 16 4 = l.stroff := (hn 4 _ rfl).trans (mod_lt4 b3)
    have e4 : num b.endian (SymtabCmd.encode b.cfg ⟨l.symoff, o.syms.length, l.stroff, l.strsize⟩) 20 4 = l.strsize := (hn 5 _ rfl).trans (mod_lt4 s2)
    have hw : 8 + width b.is64 = nlistSize b.cfg := by
      unfold width nlistSize Builder.cfg
      cases b.is64 <;> rfl
    refine ⟨?_, ?_⟩
    · rw [List.map_singleton, e1, e2, hw, Nat.mul_comm]
      exact List.Sublist.refl _
    · unfold partAt
      rw [List.map_singleton, e3, e4, s1]
      exact List.Sublist.refl _

theorem Written.indirectParts (x : Written b o l out) (h : Each (CmdOut b o l out) b.commands ks) :
    (indirectParts b.endian ks).Sublist (if l.indoff ≠ 0 then [(l.indoff, 4 * indCount o.secs)] else []) := by
  have hs := each_filter (p := fun k => decide (k = Cmd.dysymtab)) (q := isDysymtab b.endian) h fun _ _ => CmdOut.isDys
  unfold Spec.MachoB.indirectParts
  cases hf : ks.filter (isDysymtab b.endian) with
  | nil => exact List.nil_sublist _
  | cons k rest =>
    obtain ⟨c, hc, -, ⟨lk, e⟩, -⟩ := BuildR.each_mem hs (y := k) (by rw [hf]; simp)
    have : c = .dysymtab := by simpa using (List.mem_filter.1 hc).2
    subst this
    cases e
    obtain ⟨t1, t2, t3⟩ := x.table_ok
    have hlt := x.lt
    have hpos := x.em.pos
    obtain ⟨-, -, -, f1, f2⟩ := dysym_fields b.cfg 0 (localSyms b.symbols).length (localSyms b.symbols).length (extSyms b.symbols).length
      ((localSyms b.symbols).length + (extSyms b.symbols).length) (undefSyms b.symbols).length l.indoff (indCount o.secs)
    rw [mod_lt4 (by omega)] at f2
    rw [List.map_cons, List.take_succ_cons, List.take_zero, show num b.endian _ 60 4 = indCount o.secs from f2,
      show num b.endian _ 56 4 = l.indoff % 256 ^ 4 from f1]
    by_cases hi : indCount o.secs = 0
    · rw [hi]
      exact List.nil_sublist _
    · have hne := x.laid.indoff hpos hi
      rcases t2 with t2 | ⟨t2, -⟩
      · exact absurd t2 hi
      · rw [mod_lt4 t2, if_pos hne]
        exact List.filter_sublist

/-- All tables. -/
theorem Written.tableParts (x : Written b o l out) (h : Each (BlobOut b o l out) (b.commands.zip l.link) ks) (h' : Each (CmdOut b o l out) b.commands ks) :
    (tableParts b.cfg ks).Sublist (tailParts b.cfg b o l) := by
  unfold Spec.MachoB.tableParts tailParts
  have e1 : ks.flatMap (linkeditParts b.endian) = (b.commands.zip l.link).flatMap blobPart := BuildW.each_flatMap_eq _ _ h fun k _ bs hk => x.blobs_at hk
  obtain ⟨e2, e3⟩ := x.symbolParts h'
  rw [show b.cfg.en = b.endian from rfl, e1, x.signatureParts h']
  exact (List.Sublist.refl _).append (e2.append ((x.indirectParts h').append (e3.append (List.Sublist.refl _))))

end

end Obj.MachoB

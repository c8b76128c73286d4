import Verif.Proof.BuildW4
import Verif.Props.ElfHeader

/-! Writing with the ELF builder: the header tables of the file. -/

namespace Obj.BuildW
open Obj Obj.Build Obj.BuildR Obj.Spec
open Obj.Spec.MachoF (Each num)
open Obj.Spec.ElfF (word headerSize segmentSize sectionSize symbolSize headerIn segmentAt sectionAt symbolAt SegmentsOf SectionsOf NamesIndex NamesOf SegmentCount SectionCount RecordsOf StringsOf)
open Obj.Spec.BuildW (live Place Ref localSym symbolOrder DynOrder IdsOk Sound KindOk SecOk tableHeader wordLimit phdrOf)
open Obj.Spec.ElfS (wordMax ShdrFits PhdrFits SymFits HeaderFits)
open Obj.Elf (Shdr Phdr Ehdr)

/-! ## Blocks -/

theorem blk_at {out d : List UInt8} {o : Nat} (h : Blk out o d) : At out o d := h.1

theorem blk_append {out a b : List UInt8} {o : Nat} : Blk out o (a ++ b) ↔ Blk out o a ∧ Blk out (o + a.length) b := by
  have h := Elf.at_append (d := out) (a := a) (b := b) (o := o)
  unfold Blk
  simp only [List.length_append]
  constructor
  · rintro ⟨h1, h2⟩
    obtain ⟨a1, a2⟩ := h.1 (by unfold At; simpa using h1)
    exact ⟨⟨a1, by omega⟩, a2, by omega⟩
  · rintro ⟨⟨h1, h2⟩, h3, h4⟩
    have := h.2 ⟨h1, h3⟩
    exact ⟨by simpa [At] using this, by omega⟩

theorem blk_get {α : Type} {out : List UInt8} {enc : α → List UInt8} {record : Nat → α} {dec : List UInt8 → α} {size : Nat}
    (hr : ∀ o, o + size ≤ out.length → record o = dec (slice out o size)) {xs : List α} (hl : ∀ x ∈ xs, (enc x).length = size)
    (hd : ∀ x ∈ xs, dec (enc x) = x) {o : Nat} (h : Blk out o (xs.flatMap enc)) {i : Nat} {x : α} (hx : xs[i]? = some x) :
    record (o + size * i) = x ∧ o + size * i + size ≤ out.length := by
  induction xs generalizing o i with
  | nil => simp at hx
  | cons y ys ih =>
    rw [List.flatMap_cons, blk_append] at h
    have hly := hl y (by simp)
    cases i with
    | zero =>
      simp only [List.getElem?_cons_zero, Option.some.injEq] at hx
      subst hx
      obtain ⟨⟨h1, h2⟩, -⟩ := h
      rw [hly] at h1 h2
      refine ⟨?_, by simpa using h2⟩
      rw [Nat.mul_zero, Nat.add_zero, hr o h2, h1]
      exact hd y (by simp)
    | succ i =>
      obtain ⟨-, h2⟩ := h
      rw [hly] at h2
      have := ih (fun x hx => hl x (by simp [hx])) (fun x hx => hd x (by simp [hx])) h2 (by simpa using hx)
      have e : o + size * (i + 1) = o + size + size * i := by rw [Nat.mul_add]; omega
      rw [e]; exact this

theorem blk_range {α : Type} {out : List UInt8} {enc : α → List UInt8} {record : Nat → α} {dec : List UInt8 → α} {size : Nat}
    (hr : ∀ o, o + size ≤ out.length → record o = dec (slice out o size)) {xs : List α} (hl : ∀ x ∈ xs, (enc x).length = size)
    (hd : ∀ x ∈ xs, dec (enc x) = x) {o : Nat} (h : Blk out o (xs.flatMap enc)) :
    xs = (List.range xs.length).map fun i => record (o + size * i) := by
  apply List.ext_getElem?
  intro i
  rw [List.getElem?_map]
  by_cases hi : i < xs.length
  · rw [List.getElem?_eq_getElem hi, List.getElem?_range hi]
    have := (blk_get hr hl hd h (List.getElem?_eq_getElem hi)).1
    simp [this]
  · rw [List.getElem?_eq_none (by omega)]
    simp [hi]


theorem strAt_blk {out : List UInt8} {off : Nat} {o : TabOut} (h : Blk out off o.data) {x : Nat} {s : List UInt8} (hs : StrIn o x s) :
    Spec.BuildR.StrAt out (some (off, off + o.data.length)) x s := by
  obtain ⟨⟨a, b, e, el⟩, -, h0⟩ := hs
  rw [e, List.append_assoc] at h
  have h1 := (blk_append.1 h).2
  rw [el] at h1
  have h2 : Blk out (off + x) (s ++ [0]) := by
    have e2 : s ++ 0 :: b = (s ++ [0]) ++ b := by simp
    rw [e2] at h1
    exact (blk_append.1 h1).1
  have hl : o.data.length = x + s.length + 1 + b.length := by rw [e]; simp [el]; omega
  refine ⟨_, _, rfl, ?_, by omega, h2.1, h0⟩
  have := h.2
  rw [← List.append_assoc, ← e] at this
  exact this

/-! ## The context -/

/-- A range is inside of the first `n` bytes; sections without data only begin there, or at the offset of a loaded section. -/
def RangeIn (n : Nat) (s : Sec) (r : Nat × Nat) : Prop :=
  r.1 + r.2 ≤ n ∨ ∃ len, s.data = .uninit len ∧ r.2 = len ∧ (r.1 ≤ n ∨ r.1 = s.shOffset)

def Ranges (p : Plan) (l : Lay) : Prop := ∀ (i : Nat) s r, p.secs[i]? = some s → l.ranges[i]? = some r → RangeIn l.offset s r

theorem rangeIn_mono {n m : Nat} {s : Sec} {r : Nat × Nat} (h : RangeIn n s r) (hm : n ≤ m) : RangeIn m s r := by
  rcases h with h | ⟨len, h1, h2, h3⟩
  · exact .inl (by omega)
  · exact .inr ⟨len, h1, h2, by omega⟩

theorem ranges_set {p : Plan} {l l' : Lay} {i : Nat} {r : Nat × Nat} (h : Ranges p l) (hm : l.offset ≤ l'.offset) (he : l'.ranges = l.ranges.set i r)
    (hr : ∀ s, p.secs[i]? = some s → RangeIn l'.offset s r) : Ranges p l' := by
  intro j s r' hs hj
  rw [he] at hj
  by_cases hij : j = i
  · subst hij
    rw [List.getElem?_set] at hj
    simp only [if_true] at hj
    split at hj
    · cases hj; exact hr s hs
    · cases hj
  · rw [List.getElem?_set_ne (Ne.symm hij)] at hj
    exact rangeIn_mono (h j s r' hs hj) hm

theorem ranges_fold {α : Type} {p : Plan} {f : Lay → α → Res Lay} {xs : List α} (hf : ∀ x ∈ xs, ∀ l l', f l x = .ok l' → Ranges p l → Ranges p l')
    {l l' : Lay} (h : foldR f l xs = .ok l') (h0 : Ranges p l) : Ranges p l' := by
  induction xs generalizing l with
  | nil => cases h; exact h0
  | cons y ys ih =>
    obtain ⟨u, h1, h2⟩ := foldR_cons.1 h
    exact ih (fun x hx => hf x (by simp [hx])) h2 (hf y (by simp) _ _ h1 h0)

theorem layout_off {b : Full} {p : Plan} {l : Layout} (h : layout b p = .ok l) :
    ∀ (i : Nat) s, p.secs[i]? = some s → RangeIn l.len s (l.lay.at i) := by
  unfold layout at h
  simp only [Res.bind_eq_ok] at h
  obtain ⟨g, hg, l1, h1, l2, h2, l3, h3, l4, h4, l5, h5, l6, h6, l7, h7, hh, h8, h9⟩ := h
  have res : ∀ {l l' : Lay} {o size al i : Nat} {r : (Nat × Nat) × Nat}, reserve o size al = .ok r → l.offset ≤ o → l'.offset = r.2 →
      l'.ranges = l.ranges.set i r.1 → Ranges p l → Ranges p l' := by
    intro l l' o size al i r hr ho e1 e2 hh
    obtain ⟨q1, q2, q3, q4⟩ := reserve_ok hr
    exact ranges_set hh (by omega) e2 (fun s _ => .inl (by omega))
  have r0 : Ranges p ⟨List.replicate p.secs.length (0, 0), g.2.2, fun _ => none⟩ := by
    intro i s r _ hr
    simp only [List.getElem?_replicate] at hr
    split at hr
    · cases hr; exact .inl (by simp)
    · cases hr
  have r1 : Ranges p l1 := by
    split at h1
    · cases h1; exact r0
    · refine ranges_fold (fun x hx l l' e hl => ?_) h1 r0
      have hx2 := (allocOrder_mem.1 hx).1
      unfold allocStep at e
      split at e
      · next len hd =>
        cases e
        refine ranges_set hl (Nat.le_refl _) rfl fun s hs => ?_
        rw [hx2] at hs; cases hs
        exact .inr ⟨len, hd, rfl, .inr rfl⟩
      · split at e
        · cases e
        · next hlt =>
          simp only [Res.bind_eq_ok] at e
          obtain ⟨sa, -, r, q2, q3⟩ := e
          split at q3
          · cases q3
          · cases q3
            exact res (i := x.2) q2 (by omega) rfl (by show ((l.setAddr x.1).ranges).set x.2 r.1 = _; rw [(setAddr_eq l x.1).1]) hl
  have r2 : Ranges p l2 := by
    refine ranges_fold (fun x hx l l' e hl => ?_) h2 r1
    have hx2 : p.secs[x.2]? = some x.1.1 := by
      have := List.mem_zipIdx_iff_getElem?.1 (show (x.1, x.2) ∈ _ from hx)
      exact (List.getElem?_zip_eq_some.1 this).1
    unfold otherStep at e
    split at e
    · cases e; exact hl
    · split at e
      any_goals
        rw [Res.bind_eq_ok] at e
        obtain ⟨r, q1, q2⟩ := e
        cases q2
        exact res q1 (Nat.le_refl _) rfl rfl hl
      · next len hd =>
        cases e
        refine ranges_set hl (Nat.le_refl _) rfl fun s hs => ?_
        rw [hx2] at hs; cases hs
        exact .inr ⟨len, hd, rfl, .inl (Nat.le_refl _)⟩
      all_goals first | (cases e; exact hl) | cases e
  have meta_ : ∀ {k : SecData} {size al : Nat} {l l' : Lay}, metaStep p k size al l = .ok l' → Ranges p l → Ranges p l' := by
    intro k size al l l' e hl
    unfold metaStep at e
    split at e
    · cases e; exact hl
    · rw [Res.bind_eq_ok] at e
      obtain ⟨r, q1, q2⟩ := e
      cases q2
      exact res q1 (Nat.le_refl _) rfl rfl hl
  have r5 := meta_ h5 (meta_ h4 (meta_ h3 r2))
  have r6 : Ranges p l6 := by
    refine ranges_fold (fun x hx l l' e hl => ?_) h6 r5
    unfold relocStep at e
    split at e
    · cases e; exact hl
    · split at e
      · rw [Res.bind_eq_ok] at e
        obtain ⟨r, q1, q2⟩ := e
        cases q2
        exact res q1 (Nat.le_refl _) rfl rfl hl
      · cases e; exact hl
  have r7 := meta_ h7 r6
  have h10 := (headersAt_ok h8).1
  split at h9
  · cases h9
  · cases h9
    intro i s hs
    unfold Lay.at
    rw [List.getD_eq_getElem?_getD]
    cases hr : l7.ranges[i]? with
    | none => exact .inl (by simp)
    | some r => exact rangeIn_mono (r7 i s r hs hr) h10

/-- A file that was written. -/
structure Ctx (c : Full) (p : Plan) (l : Layout) (out : List UInt8) : Prop where
  plan : PlanOk c p
  lay : LayoutOk c p l
  em : Emitted c p l out
  sound : Sound c
  off : ∀ (i : Nat) s, p.secs[i]? = some s → RangeIn l.len s (l.lay.at i)

theorem wordLimit_eq (b : Bool) : wordLimit b = wordMax b := rfl

/-- The file header. -/
def headOf (c : Full) (p : Plan) (l : Layout) : Ehdr :=
  ⟨c.header.osAbi, c.header.abiVersion, c.header.eType, c.header.eMachine, 1, c.header.eEntry, l.phoff, l.shoff, c.header.eFlags,
    p.cfg.ehdrSize, if l.segNum = 0 then 0 else p.cfg.phdrSize, if 0xffff ≤ l.segNum then 0xffff else l.segNum,
    if p.secNum = 0 then 0 else p.cfg.shdrSize, if 0xff00 ≤ p.secNum then 0 else p.secNum, Elf.symbolSectionNew (p.idx .sectionString)⟩

/-- The null section header. -/
def nullOf (p : Plan) (l : Layout) : Shdr :=
  ⟨0, 0, 0, 0, 0, if 0xff00 ≤ p.secNum then p.secNum else 0, if 0xff00 ≤ p.idx .sectionString then p.idx .sectionString else 0,
    if 0xffff ≤ l.segNum then l.segNum else 0, 0, 0⟩

section
variable {c : Full} {p : Plan} {l : Layout} {out : List UInt8}

theorem Ctx.secs (x : Ctx c p l out) : p.secs = live c.tables.sections := by rw [x.plan.secs, iter_eq]; rfl
theorem Ctx.nonempty (x : Ctx c p l out) : p.secs ≠ [] := by rw [x.secs]; exact x.sound.sections
theorem Ctx.secNum (x : Ctx c p l out) : p.secNum = 1 + p.secs.length ∧ p.secNum < 2 ^ 32 := by
  rcases x.plan.secNum with h | h
  · exact absurd h.1 x.nonempty
  · exact h.2
theorem Ctx.is64 (x : Ctx c p l out) : p.cfg.is64 = c.is64 := by rw [x.plan.cfg]
theorem Ctx.en (x : Ctx c p l out) : p.cfg.en = c.endian := by rw [x.plan.cfg]
theorem Ctx.shoff (x : Ctx c p l out) : p.cfg.ehdrSize ≤ l.shoff ∧ l.len = l.shoff + p.secNum * p.cfg.shdrSize ∧ l.len < 2 ^ 64 := by
  have := x.secNum.1
  rcases x.lay.shoff with h | h
  · omega
  · exact h.2
theorem Ctx.ehdr_pos (_ : Ctx c p l out) : 52 ≤ p.cfg.ehdrSize := by unfold Elf.Cfg.ehdrSize; split <;> omega
theorem Ctx.len (x : Ctx c p l out) : l.len < wordMax p.cfg.is64 := by
  unfold wordMax
  split
  · exact x.shoff.2.2
  · next h => exact x.lay.small (by simpa using h)
theorem Ctx.outLen (x : Ctx c p l out) : out.length < wordMax p.cfg.is64 := by rw [x.em.len]; exact x.len
theorem wordMax_le (b : Bool) : wordMax b ≤ 2 ^ 64 ∧ 2 ^ 32 ≤ wordMax b := by unfold wordMax; split <;> decide
theorem Ctx.out64 (x : Ctx c p l out) : out.length < 2 ^ 64 := Nat.lt_of_lt_of_le x.outLen (wordMax_le _).1

theorem Ctx.nameIdx (x : Ctx c p l out) : p.idx .sectionString ≠ 0 ∧ p.idx .sectionString < p.secNum := by
  have h := x.plan.sectionString x.nonempty
  refine ⟨h, ?_⟩
  obtain ⟨-, s, hs, -⟩ := x.plan.idx.at_ _ h
  have := (List.getElem?_eq_some_iff.1 hs).1
  have := x.secNum.1
  omega

theorem Ctx.fits (x : Ctx c p l out) : HeaderFits p.cfg.is64
    ⟨c.header.osAbi, c.header.abiVersion, c.header.eType, c.header.eMachine, c.header.eEntry, c.header.eFlags⟩ (fileLayout p l) := by
  obtain ⟨h1, h2, h3, h4⟩ := x.sound.header
  have hl := x.len
  have hs := x.shoff
  have hn := x.secNum
  have hi := x.nameIdx
  have hsz : 0 < p.cfg.shdrSize := by unfold Elf.Cfg.shdrSize; split <;> omega
  refine ⟨h1, h2, by rw [x.is64]; exact h3, h4, ?_, ?_, x.lay.segNum.2, hn.2, ?_⟩ <;> simp only [fileLayout]
  · rcases x.lay.phoff with ⟨-, h⟩ | ⟨h0, h, -⟩
    · rw [h]; exact Nat.lt_of_lt_of_le (by decide) (wordMax_le _).2
    · have hne : Build.isEmpty c.tables.segments = false := by
        cases he : Build.isEmpty c.tables.segments with
        | false => rfl
        | true =>
          have := (isEmpty_iff _).1 he
          rw [x.lay.segNum.1, count_le, this] at h0
          exact absurd rfl h0
      have := (x.em.segments hne).2
      rw [x.em.len] at this
      omega
  · omega
  · omega

theorem fileHeader_eq {cfg : Elf.Cfg} {h : Elf.WEhdr} {L : Elf.Layout} {d : List UInt8} (e : Elf.fileHeader cfg h L = .ok d) :
    d = Ehdr.encode cfg ⟨h.osAbi, h.abiVersion, h.type, h.machine, 1, h.entry, L.phoff, L.shoff, h.flags, cfg.ehdrSize,
      if L.segmentNum = 0 then 0 else cfg.phdrSize, if 0xffff ≤ L.segmentNum then 0xffff else L.segmentNum,
      if L.sectionNum = 0 then 0 else cfg.shdrSize, if 0xff00 ≤ L.sectionNum then 0 else L.sectionNum, Elf.symbolSectionNew L.shstrtabIndex⟩ := by
  unfold Elf.fileHeader at e
  by_cases hseg : 0xffff ≤ L.segmentNum
  · simp only [hseg, if_true] at e ⊢
    by_cases hs : L.sectionNum = 0
    · rw [if_pos hs] at e; cases e
    · rw [if_neg hs] at e; injection e with e; exact e.symm
  · simp only [hseg, if_false] at e ⊢
    injection e with e; exact e.symm

theorem Ctx.headEq (x : Ctx c p l out) : Blk out 0 ((headOf c p l).encode p.cfg) := by
  obtain ⟨d, h1, h2⟩ := x.em.head
  rw [fileHeader_eq h1] at h2
  exact h2

theorem Ctx.headersEq (x : Ctx c p l out) : ∃ hs, mapR (sectionHeader p l.lay) (p.secs.zip p.names).zipIdx = .ok hs ∧ hs.length = p.secs.length ∧
    Blk out l.shoff ((nullOf p l :: hs).flatMap (Elf.Shdr.encode p.cfg)) := by
  obtain ⟨hs, h1, h2⟩ := x.em.headers
  have h0 := x.shoff.1
  have := x.ehdr_pos
  refine ⟨hs, h1, ?_, ?_⟩
  · have := each_length ((mapR_each _ _ _).1 h1)
    rw [this, List.length_zipIdx, List.length_zip, each_length x.plan.names]
    omega
  · exact h2 (by omega)

theorem Ctx.nullFits (x : Ctx c p l out) : ShdrFits p.cfg.is64 (nullOf p l) := by
  have hw := (wordMax_le p.cfg.is64).2
  have := x.secNum; have := x.lay.segNum; have := x.nameIdx
  refine ⟨by simp [nullOf], by simp [nullOf], ?_, ?_, ?_, ?_, ?_, ?_, ?_, ?_⟩ <;> simp only [nullOf]
  all_goals first | omega | (split <;> omega)

theorem Ctx.counts (x : Ctx c p l out) : headerIn p.cfg out = headOf c p l ∧ headerSize p.cfg.is64 ≤ out.length ∧
    slice out 0 7 = [0x7f, 0x45, 0x4c, 0x46, if p.cfg.is64 then 2 else 1, if p.cfg.en = .big then 2 else 1, 1] ∧
    SegmentCount p.cfg (headOf c p l) out l.segNum ∧ SectionCount p.cfg (headOf c p l) out p.secNum ∧
    NamesIndex p.cfg (headOf c p l) out (p.idx .sectionString) := by
  obtain ⟨d, h1, h2⟩ := x.em.head
  obtain ⟨hs, g1, g2, g3⟩ := x.headersEq
  have h0 := x.shoff.1
  have hp := x.ehdr_pos
  have hn := x.secNum.1
  have hnull : At out l.shoff (Elf.nullSectionHeader p.cfg (fileLayout p l)) := by
    rw [List.flatMap_cons] at g3
    exact (blk_append.1 g3).1.1
  obtain ⟨e, k0, k1, k2, k3, k4, k5, k6, k7, k8, k9, k10, k11, k12, -⟩ := Obj.Props.C33_counts_round_trip p.cfg _ (fileLayout p l) x.fits d out h1 h2.1
    (fun h => (by simp only [fileLayout] at h; omega)) (fun _ => ⟨(by simp only [fileLayout]; omega), hnull⟩)
  obtain ⟨-, m1, m2, m3⟩ := (ElfF.parseHeader_iff _ _ _ _).1 k0
  have he : e = headOf c p l := by
    have hfit : Elf.EhdrFits p.cfg (headOf c p l) := by
      obtain ⟨f1, f2, f3, f4, f5, f6, f7, f8, f9⟩ := x.fits
      have := x.lay.segNum.2; have := x.nameIdx
      refine ⟨f1, f2, by simp [headOf], f3, f5, f6, f4, ?_, ?_, ?_, ?_, ?_, ?_⟩ <;> simp only [headOf]
      · unfold Elf.Cfg.ehdrSize; split <;> decide
      · unfold Elf.Cfg.phdrSize; repeat' split
        all_goals decide
      · split <;> omega
      · unfold Elf.Cfg.shdrSize; repeat' split
        all_goals decide
      · split <;> omega
      · unfold Elf.symbolSectionNew; split <;> omega
    have hb := x.headEq
    have hd := Elf.Ehdr.decode_encode p.cfg (headOf c p l) hfit []
    rw [List.append_nil] at hd
    have hsl := hb.1
    rw [Elf.Ehdr.length_encode] at hsl
    rw [m3, ← ElfF.ehdr_decode, show headerSize p.cfg.is64 = p.cfg.ehdrSize from rfl, hsl, hd]
  subst he
  have hb1 : (headOf c p l).phnum < 65536 := by rw [m3]; exact MachoF.num_lt _ _ _ 2
  refine ⟨m3.symm, m1, m2, (ElfF.phnum_iff _ _ _ hb1 _).1 k10, (ElfF.shnum_iff _ _ _ ?_ _).1 k11, (ElfF.shstrndx_iff _ _ _ _).1 (k12 x.nameIdx.1)⟩
  simp only [headOf]; omega

theorem Ctx.segs (x : Ctx c p l out) : SegmentsOf p.cfg (headOf c p l) out ((live c.tables.segments).map phdrOf) := by
  obtain ⟨-, -, -, h4, -⟩ := x.counts
  have hlen : ((live c.tables.segments).map phdrOf).length = l.segNum := by
    rw [x.lay.segNum.1, count_le, iter_eq]; simp [live]
  unfold SegmentsOf
  have hpo : (headOf c p l).phoff = l.phoff := rfl
  rw [hpo]
  rcases x.lay.phoff with ⟨e0, h⟩ | ⟨h0, h, hge⟩
  · rw [if_pos h]
    rw [e0] at hlen
    exact List.length_eq_zero_iff.1 hlen
  · have := x.ehdr_pos
    rw [if_neg (by omega)]
    have hne : Build.isEmpty c.tables.segments = false := by
      cases he : Build.isEmpty c.tables.segments with
      | false => rfl
      | true =>
        have := (isEmpty_iff _).1 he
        rw [x.lay.segNum.1, count_le, this] at h0
        exact absurd rfl h0
    have hb : Blk out l.phoff (((live c.tables.segments).map phdrOf).flatMap (Elf.Phdr.encode p.cfg)) := by
      have := x.em.segments hne
      rw [iter_eq] at this
      rw [List.flatMap_map]
      exact this
    have hfit : ∀ g ∈ (live c.tables.segments).map phdrOf, PhdrFits p.cfg.is64 g := by
      intro g hg
      obtain ⟨s, hs, rfl⟩ := List.mem_map.1 hg
      obtain ⟨a1, a2, a3, a4, a5, a6, a7, a8⟩ := x.sound.segments s hs
      rw [x.is64]
      exact ⟨a1, a2, a3, a4, a5, a6, a7, a8⟩
    have hl : ∀ g ∈ (live c.tables.segments).map phdrOf, (Elf.Phdr.encode p.cfg g).length = segmentSize p.cfg.is64 := fun g _ => Elf.Phdr.length_encode _ _
    refine ⟨_, h4, .inr ⟨?_, ?_⟩, ?_⟩
    · simp only [headOf]; rw [if_neg h0]; rfl
    · have := hb.2
      rw [Elf.length_flatMap_const _ _ _ hl, hlen, Nat.mul_comm] at this
      exact this
    · rw [← hlen]
      exact blk_range (dec := Phdr.decode p.cfg) (fun o _ => (ElfF.phdr_decode p.cfg out o).symm) hl
        (fun g hg => (by have := Elf.Phdr.decode_encode p.cfg g (hfit g hg) []; rwa [List.append_nil] at this)) hb

end
end Obj.BuildW

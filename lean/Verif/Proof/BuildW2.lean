import Verif.Proof.BuildW1

/-! Writing with the ELF builder: what is written where, and the file ranges of the sections. -/

namespace Obj.BuildW
open Obj Obj.Build Obj.BuildR Obj.Spec
open Obj.Spec.MachoF (Each)

/-- A block of the output. -/
def Blk (out : List UInt8) (o : Nat) (d : List UInt8) : Prop := slice out o d.length = d ∧ o + d.length ≤ out.length

theorem blk_of_mem {bs : List (Nat × List UInt8)} {out : List UInt8} (h : Puts bs [] out) {o : Nat} {d : List UInt8} (hm : (o, d) ∈ bs) : Blk out o d :=
  h.mem hm

/-- The block that `putAlloc` writes. -/
def AllocBlk (b : Full) (p : Plan) (l : Lay) (x : Sec × Nat) (bs : List (Nat × List UInt8)) : Prop :=
  x.1.shType ≠ 8 → ∃ d, allocBytes b p l.addr x.1 = .ok d ∧ ((l.at x.2).1, d) ∈ bs

theorem putAlloc_ok {b : Full} {p : Plan} {l : Lay} {out out' : List UInt8} {x : Sec × Nat} (h : putAlloc b p l out x = .ok out') :
    ∃ bs, Puts bs out out' ∧ AllocBlk b p l x bs := by
  unfold putAlloc at h
  by_cases h8 : x.1.shType = 8
  · rw [if_pos h8] at h; cases h; exact ⟨[], .nil, fun hn => absurd h8 hn⟩
  · rw [if_neg h8] at h
    split at h
    · cases h
    · rw [Res.bind_eq_ok] at h
      obtain ⟨d, h1, h2⟩ := h
      exact ⟨_, put_ok h2, fun _ => ⟨d, h1, by simp⟩⟩

/-- The bytes of a section that is not loaded, as far as it is written with the other sections. -/
def otherBytes (x : Sec × List UInt8) : Option (List UInt8) :=
  match x.1.data with
  | .data d => some d
  | .note d => some d
  | .attributes _ => some x.2
  | _ => none

def OtherBlk (b : Full) (l : Lay) (x : (Sec × List UInt8) × Nat) (bs : List (Nat × List UInt8)) : Prop :=
  keepsOffset b x.1.1 = false → ∀ d, otherBytes x.1 = some d → ((l.at x.2).1, d) ∈ bs

theorem putOther_ok {b : Full} {l : Lay} {out out' : List UInt8} {x : (Sec × List UInt8) × Nat} (h : putOther b l out x = .ok out') :
    ∃ bs, Puts bs out out' ∧ OtherBlk b l x bs := by
  unfold putOther at h
  by_cases hk : keepsOffset b x.1.1 = true
  · rw [if_pos hk] at h; cases h; exact ⟨[], .nil, fun hn => by rw [hk] at hn; cases hn⟩
  · rw [if_neg hk] at h
    unfold OtherBlk otherBytes
    cases hd : x.1.1.data <;> simp only [hd] at h ⊢ <;>
      first
      | (cases h; done)
      | (refine ⟨_, put_ok h, fun _ d e => ?_⟩; cases e; simp; done)
      | (cases h; exact ⟨[], .nil, fun _ d e => by cases e⟩)

/-- The blocks of the relocations. -/
def RelocBlk (b : Full) (p : Plan) (l : Lay) (x : Sec × Nat) (bs : List (Nat × List UInt8)) : Prop :=
  keepsOffset b x.1 = false → ∀ rs, x.1.data = .relocs rs → ∃ d, relBytes p p.symIdx x.1 rs = .ok d ∧ ((l.at x.2).1, d) ∈ bs

theorem putReloc_ok {b : Full} {p : Plan} {l : Lay} {out out' : List UInt8} {x : Sec × Nat} (h : putReloc b p l out x = .ok out') :
    ∃ bs, Puts bs out out' ∧ RelocBlk b p l x bs := by
  unfold putReloc at h
  by_cases hk : keepsOffset b x.1 = true
  · rw [if_pos hk] at h; cases h; exact ⟨[], .nil, fun hn => by rw [hk] at hn; cases hn⟩
  · rw [if_neg hk] at h
    unfold RelocBlk
    cases hd : x.1.data with
    | relocs rs =>
      simp only [hd] at h
      split at h
      · cases h
      · rw [Res.bind_eq_ok] at h
        obtain ⟨d, h1, h2⟩ := h
        exact ⟨_, put_ok h2, fun _ rs' e => by cases e; exact ⟨d, h1, by simp⟩⟩
    | _ =>
      simp only [hd] at h
      cases h
      exact ⟨[], .nil, fun _ rs' e => by cases e⟩

theorem putMeta_ok {p : Plan} {l : Lay} {k : SecData} {d out out' : List UInt8} (h : putMeta p l k d out = .ok out') :
    ∃ bs, Puts bs out out' ∧ (p.idx k ≠ 0 → ((l.at (p.idx k - 1)).1, d) ∈ bs) := by
  unfold putMeta at h
  by_cases hk : p.idx k = 0
  · rw [if_pos hk] at h; cases h; exact ⟨[], .nil, fun hn => absurd hk hn⟩
  · rw [if_neg hk] at h; exact ⟨_, put_ok h, fun _ => by simp⟩

/-- The symbol table. -/
def symBytes (p : Plan) (ss : List Elf.WSym) : List UInt8 :=
  Elf.Sym.encode p.cfg ⟨0, 0, 0, 0, 0, 0⟩ ++ ss.flatMap fun s => (Elf.writeSymbol p.cfg s).1
/-- The extended section indices. -/
def shndxBytes (p : Plan) (ss : List Elf.WSym) : List UInt8 :=
  if p.needShndx then wr p.cfg.en 4 0 ++ ss.flatMap fun s => wr p.cfg.en 4 ((Elf.writeSymbol p.cfg s).2.getD 0) else []

/-- What `emit` writes. -/
structure Emitted (b : Full) (p : Plan) (l : Layout) (out : List UInt8) : Prop where
  head : ∃ d, Elf.fileHeader p.cfg ⟨b.header.osAbi, b.header.abiVersion, b.header.eType, b.header.eMachine, b.header.eEntry, b.header.eFlags⟩
    (fileLayout p l) = .ok d ∧ Blk out 0 d
  segments : Build.isEmpty b.tables.segments = false → Blk out l.phoff ((iter b.tables.segments).flatMap fun g =>
    Elf.Phdr.encode p.cfg ⟨g.pType, g.pFlags, g.pOffset, g.pVaddr, g.pPaddr, g.pFilesz, g.pMemsz, g.pAlign⟩)
  alloc : Build.isEmpty b.tables.segments = false → ∀ x ∈ allocOrder p.secs, x.1.shType ≠ 8 →
    ∃ d, allocBytes b p l.lay.addr x.1 = .ok d ∧ Blk out (l.lay.at x.2).1 d
  other : ∀ x ∈ (p.secs.zip p.attrs).zipIdx, keepsOffset b x.1.1 = false → ∀ d, otherBytes x.1 = some d → Blk out (l.lay.at x.2).1 d
  symbols : ∃ ss, mapR (fun x : Sym × Option Nat => symOut p.secIdx p.strtab.tab x.1 x.2) (p.syms.zip p.symNames) = .ok ss ∧
    (p.idx .symbol ≠ 0 → Blk out (l.lay.at (p.idx .symbol - 1)).1 (symBytes p ss)) ∧
    (p.idx .symbol ≠ 0 → p.idx .symbolSectionIndex ≠ 0 → Blk out (l.lay.at (p.idx .symbolSectionIndex - 1)).1 (shndxBytes p ss))
  string : p.idx .string ≠ 0 → Blk out (l.lay.at (p.idx .string - 1)).1 p.strtab.data
  relocs : ∀ x ∈ p.secs.zipIdx, keepsOffset b x.1 = false → ∀ rs, x.1.data = .relocs rs →
    ∃ d, relBytes p p.symIdx x.1 rs = .ok d ∧ Blk out (l.lay.at x.2).1 d
  names : p.idx .sectionString ≠ 0 → Blk out (l.lay.at (p.idx .sectionString - 1)).1 p.shstrtab.data
  headers : ∃ hs, mapR (sectionHeader p l.lay) (p.secs.zip p.names).zipIdx = .ok hs ∧
    (l.shoff ≠ 0 → Blk out l.shoff (Elf.nullSectionHeader p.cfg (fileLayout p l) ++ hs.flatMap (Elf.Shdr.encode p.cfg)))
  len : out.length = l.len

theorem putSymbols_ok {p : Plan} {l : Lay} {out : List UInt8} {r : List UInt8 × List UInt8} (h : putSymbols p l out = .ok r)
    (hs : p.idx .symbol = 0 → p.syms = []) :
    ∃ ss bs, mapR (fun x : Sym × Option Nat => symOut p.secIdx p.strtab.tab x.1 x.2) (p.syms.zip p.symNames) = .ok ss ∧ Puts bs out r.1 ∧
      (p.idx .symbol ≠ 0 → r.2 = shndxBytes p ss ∧ ((l.at (p.idx .symbol - 1)).1, symBytes p ss) ∈ bs) := by
  unfold putSymbols at h
  rw [Res.bind_eq_ok] at h
  obtain ⟨ss, h1, h2⟩ := h
  simp only at h2
  by_cases hk : p.idx .symbol = 0
  · rw [if_pos hk] at h2
    rw [hs hk] at h1
    cases h1
    cases h2
    exact ⟨[], [], by rw [hs hk]; rfl, by simpa using Puts.nil, fun hn => absurd hk hn⟩
  · rw [if_neg hk, Res.bind_eq_ok] at h2
    obtain ⟨o, h2, h3⟩ := h2
    cases h3
    exact ⟨ss, _, h1, put_ok h2, fun _ => ⟨rfl, by simp [symBytes]⟩⟩

theorem putHeaders_ok {p : Plan} {l : Layout} {lay : Elf.Layout} {out out' : List UInt8} (h : putHeaders p l lay out = .ok out')
    (hz : l.shoff = 0 → p.secs = []) :
    ∃ hs bs, mapR (sectionHeader p l.lay) (p.secs.zip p.names).zipIdx = .ok hs ∧ Puts bs out out' ∧
      (l.shoff ≠ 0 → (l.shoff, Elf.nullSectionHeader p.cfg lay ++ hs.flatMap (Elf.Shdr.encode p.cfg)) ∈ bs) := by
  unfold putHeaders at h
  rw [Res.bind_eq_ok] at h
  obtain ⟨o, h1, h2⟩ := h
  rw [Res.bind_eq_ok] at h2
  obtain ⟨hs, h2, h3⟩ := h2
  cases h3
  by_cases hk : l.shoff = 0
  · rw [if_neg (by simp [hk])] at h1
    cases h1
    rw [hz hk] at h2
    cases h2
    exact ⟨[], [], by rw [hz hk]; rfl, by simpa using Puts.nil, fun hn => absurd hk hn⟩
  · rw [if_pos hk] at h1
    refine ⟨hs, _, h2, ?_, fun _ => List.mem_singleton.2 rfl⟩
    unfold put at h1
    split at h1
    · cases h1
    · cases h1
      refine .cons (by omega) ?_
      rw [← List.append_assoc]
      exact .nil

theorem emit_ok {b : Full} {p : Plan} {l : Layout} {out : List UInt8} (h : emit b p l = .ok out) (hs : p.idx .symbol = 0 → p.syms = [])
    (hz : l.shoff = 0 → p.secs = []) : Emitted b p l out := by
  unfold emit at h
  simp only [Res.bind_eq_ok] at h
  obtain ⟨o0, h0, o1, h1, o2, h2, o3, h3, r4, h4, o5, h5, o6, h6, o7, h7, o8, h8, o9, h9, h10⟩ := h
  have p0 : Puts [(0, o0)] [] o0 := .cons (by simp) (by simpa using Puts.nil)
  obtain ⟨b1, p1, q1⟩ : ∃ bs, Puts bs o0 o1 ∧ (Build.isEmpty b.tables.segments = false → (l.phoff, (iter b.tables.segments).flatMap fun g =>
      Elf.Phdr.encode p.cfg ⟨g.pType, g.pFlags, g.pOffset, g.pVaddr, g.pPaddr, g.pFilesz, g.pMemsz, g.pAlign⟩) ∈ bs) := by
    unfold putSegments at h1
    by_cases hk : Build.isEmpty b.tables.segments = true
    · rw [if_pos hk] at h1; cases h1; exact ⟨[], .nil, fun hn => by rw [hk] at hn; cases hn⟩
    · rw [if_neg hk] at h1; exact ⟨_, put_ok h1, fun _ => by simp⟩
  obtain ⟨b2, p2, q2⟩ : ∃ bs, Puts bs o1 o2 ∧ (Build.isEmpty b.tables.segments = false → ∀ x ∈ allocOrder p.secs, AllocBlk b p l.lay x bs) := by
    by_cases hk : Build.isEmpty b.tables.segments = true
    · rw [if_pos hk] at h2; cases h2; exact ⟨[], .nil, fun hn => by rw [hk] at hn; cases hn⟩
    · rw [if_neg hk] at h2
      obtain ⟨bs, hp, hq⟩ := fold_puts (P := AllocBlk b p l.lay) (fun _ _ _ e => putAlloc_ok e) (by
        intro x bs cs ds hx hn
        obtain ⟨d, e1, e2⟩ := hx hn
        exact ⟨d, e1, by simp [e2]⟩) h2
      exact ⟨bs, hp, fun _ => hq⟩
  obtain ⟨b3, p3, q3⟩ := fold_puts (P := OtherBlk b l.lay) (fun _ _ _ e => putOther_ok e) (by
    intro x bs cs ds hx hn d hd
    have := hx hn d hd
    simp [this]) h3
  obtain ⟨ss, b4, e4, p4, q4⟩ := putSymbols_ok h4 hs
  obtain ⟨b5, p5, q5⟩ := putMeta_ok h5
  obtain ⟨b6, p6, q6⟩ := putMeta_ok h6
  obtain ⟨b7, p7, q7⟩ := fold_puts (P := RelocBlk b p l.lay) (fun _ _ _ e => putReloc_ok e) (by
    intro x bs cs ds hx hn rs hd
    obtain ⟨d, e1, e2⟩ := hx hn rs hd
    exact ⟨d, e1, by simp [e2]⟩) h7
  obtain ⟨b8, p8, q8⟩ := putMeta_ok h8
  obtain ⟨hs', b9, e9, p9, q9⟩ := putHeaders_ok h9 hz
  have hlen : o9 = out ∧ o9.length = l.len := by
    by_cases hl : o9.length = l.len
    · rw [if_pos hl] at h10; cases h10; exact ⟨rfl, hl⟩
    · rw [if_neg hl] at h10; cases h10
  obtain ⟨rfl, hlen⟩ := hlen
  have P := ((((((((p0.append p1).append p2).append p3).append p4).append p5).append p6).append p7).append p8).append p9
  refine ⟨⟨o0, h0, P.mem (by simp)⟩, fun hk => P.mem (by simp [q1 hk]), ?_, ?_, ⟨ss, e4, fun hk => P.mem (by simp [(q4 hk).2]), fun hk hk' => ?_⟩,
    fun hk => P.mem (by simp [q6 hk]), ?_, fun hk => P.mem (by simp [q8 hk]), ⟨hs', e9, fun hk => P.mem (by simp [q9 hk])⟩, hlen⟩
  · intro hk x hx hn
    obtain ⟨d, e1, e2⟩ := q2 hk x hx hn
    exact ⟨d, e1, P.mem (by simp [e2])⟩
  · intro x hx hn d hd
    have := q3 x hx hn d hd
    exact P.mem (by simp [this])
  · have := q5 hk'
    rw [(q4 hk).1] at this
    exact P.mem (by simp [this])
  · intro x hx hn rs hd
    obtain ⟨d, e1, e2⟩ := q7 x hx hn rs hd
    exact ⟨d, e1, P.mem (by simp [e2])⟩

/-! ## Layout -/

theorem and_bit (a b : Nat) : a &&& b = 2 * (a / 2 &&& b / 2) + (a % 2) * (b % 2) := by
  have h1 : (a &&& b) / 2 = a / 2 &&& b / 2 := Nat.and_div_two
  have h2 : (a &&& b) % 2 = (a % 2) * (b % 2) := by
    have e : (a &&& b).testBit 0 = (a.testBit 0 && b.testBit 0) := Nat.testBit_and ..
    simp only [Nat.testBit_eq_decide_div_mod_eq, Nat.pow_zero, Nat.div_one] at e
    rcases Nat.mod_two_eq_zero_or_one a with ha | ha <;> rcases Nat.mod_two_eq_zero_or_one b with hb | hb <;>
      rcases Nat.mod_two_eq_zero_or_one (a &&& b) with hc | hc <;> simp [ha, hb, hc] at e ⊢
  omega

theorem and_split (n x m : Nat) (hx : x < 2 ^ n) (hm : m < 2 ^ n) : (x &&& (2 ^ n - 1 - m)) + (x &&& m) = x := by
  induction n generalizing x m with
  | zero =>
    have h1 : x = 0 := by simpa using hx
    rw [h1]; simp
  | succ n ih =>
    rw [Nat.pow_succ] at hx hm
    have h := ih (x / 2) (m / 2) (by omega) (by omega)
    rw [and_bit x (2 ^ (n + 1) - 1 - m), and_bit x m]
    have e1 : (2 ^ (n + 1) - 1 - m) / 2 = 2 ^ n - 1 - m / 2 := by rw [Nat.pow_succ]; omega
    have e2 : (2 ^ (n + 1) - 1 - m) % 2 = 1 - m % 2 := by rw [Nat.pow_succ]; omega
    rw [e1, e2]
    rcases Nat.mod_two_eq_zero_or_one m with hm | hm <;> rw [hm] <;> omega

theorem align64_ge {o a r : Nat} (h : align64 o a = .ok r) : o ≤ r := by
  unfold align64 at h
  split at h
  · cases h
  · split at h
    · cases h
    · next h0 h1 =>
      injection h with h
      have := and_split 64 (o + (a - 1)) (a - 1) (by omega) (by omega)
      have h2 : (o + (a - 1)) &&& (a - 1) ≤ a - 1 := Nat.and_le_right
      have h3 : (o + (a - 1)) &&& (2 ^ 64 - 1 - (a - 1)) = r := h
      omega

theorem reserve_ok {offset size align : Nat} {r : (Nat × Nat) × Nat} (h : reserve offset size align = .ok r) :
    offset ≤ r.1.1 ∧ r.1.2 = size ∧ r.2 = r.1.1 + size ∧ r.2 < 2 ^ 64 := by
  unfold reserve at h
  simp only [Res.bind_eq_ok] at h
  obtain ⟨o, h1, e, h2, h3⟩ := h
  cases h3
  unfold add64 at h2
  split at h2
  · next hl => cases h2; exact ⟨align64_ge h1, rfl, rfl, hl⟩
  · cases h2

/-- A loop of layout steps, each of which sets the range at its position under the condition `C`. -/
theorem fold_lay {α : Type} {f : Lay → α × Nat → Res Lay} {C : α → Prop} {Q : α × Nat → Nat × Nat → Prop}
    (hf : ∀ l x l', f l x = .ok l' → l.offset ≤ l'.offset ∧ l'.ranges.length = l.ranges.length ∧ (∀ j, j ≠ x.2 ∨ ¬ C x.1 → l'.ranges[j]? = l.ranges[j]?) ∧
      (C x.1 → x.2 < l.ranges.length → ∃ r, l'.ranges[x.2]? = some r ∧ Q x r))
    {xs : List (α × Nat)} {l l' : Lay} (hd : (xs.map Prod.snd).Nodup) (h : foldR f l xs = .ok l') :
    l.offset ≤ l'.offset ∧ l'.ranges.length = l.ranges.length ∧ (∀ j, (∀ x ∈ xs, x.2 = j → ¬ C x.1) → l'.ranges[j]? = l.ranges[j]?) ∧
      ∀ x ∈ xs, C x.1 → x.2 < l.ranges.length → ∃ r, l'.ranges[x.2]? = some r ∧ Q x r := by
  induction xs generalizing l with
  | nil => cases h; exact ⟨Nat.le_refl _, rfl, fun _ _ => rfl, by simp⟩
  | cons x xs ih =>
    obtain ⟨u, h1, h2⟩ := foldR_cons.1 h
    rw [List.map_cons, List.nodup_cons] at hd
    obtain ⟨a1, a2, a3, a4⟩ := hf _ _ _ h1
    obtain ⟨b1, b2, b3, b4⟩ := ih hd.2 h2
    refine ⟨Nat.le_trans a1 b1, by omega, ?_, ?_⟩
    · intro j hj
      rw [b3 j fun y hy => hj y (List.mem_cons_of_mem _ hy), a3 j]
      by_cases hx : j = x.2
      · exact .inr (hj x List.mem_cons_self hx.symm)
      · exact .inl hx
    · intro y hy hc hl
      rcases List.mem_cons.1 hy with rfl | hy
      · obtain ⟨r, hr, hq⟩ := a4 hc hl
        refine ⟨r, ?_, hq⟩
        rw [b3 y.2 ?_, hr]
        intro z hz he
        exact absurd (List.mem_map.2 ⟨z, hz, he⟩) hd.1
      · exact b4 y hy hc (by omega)

theorem zipIdx_nodup {α : Type} (l : List α) : (l.zipIdx.map Prod.snd).Nodup := by
  rw [List.zipIdx_map_snd]; exact List.nodup_range' ..

/-- The size of a loaded section. -/
def AllocRange (b : Full) (p : Plan) (x : Sec × Nat) (r : Nat × Nat) : Prop :=
  r.1 = x.1.shOffset ∧ ((∃ len, x.1.data = .uninit len ∧ r.2 = len) ∨ ((∀ len, x.1.data ≠ .uninit len) ∧ ∃ a, allocSize b p x.1 = .ok (r.2, a)))

theorem set_get {l : List (Nat × Nat)} {i j : Nat} {r : Nat × Nat} (h : j ≠ i) : (l.set i r)[j]? = l[j]? :=
  List.getElem?_set_ne (Ne.symm h)

theorem setAddr_eq (l : Lay) (s : Sec) : (l.setAddr s).ranges = l.ranges ∧ (l.setAddr s).offset = l.offset := by
  unfold Lay.setAddr; split <;> exact ⟨rfl, rfl⟩

theorem allocStep_ok {b : Full} {p : Plan} {l l' : Lay} {x : Sec × Nat} (h : allocStep b p l x = .ok l') :
    l.offset ≤ l'.offset ∧ l'.ranges.length = l.ranges.length ∧ (∀ j, j ≠ x.2 ∨ ¬ True → l'.ranges[j]? = l.ranges[j]?) ∧
      (True → x.2 < l.ranges.length → ∃ r, l'.ranges[x.2]? = some r ∧ AllocRange b p x r) := by
  have main : ∀ (r : Nat × Nat) (o : Nat) (a), l.offset ≤ o → l' = { l with ranges := l.ranges.set x.2 r, offset := o, addr := a } → AllocRange b p x r →
      l.offset ≤ l'.offset ∧ l'.ranges.length = l.ranges.length ∧ (∀ j, j ≠ x.2 ∨ ¬ True → l'.ranges[j]? = l.ranges[j]?) ∧
      (True → x.2 < l.ranges.length → ∃ r, l'.ranges[x.2]? = some r ∧ AllocRange b p x r) := by
    rintro r o a ho rfl hr
    refine ⟨ho, by simp, ?_, fun _ hl => ⟨r, by simp [hl], hr⟩⟩
    rintro j (hj | hj)
    · exact set_get hj
    · exact absurd trivial hj
  by_cases hu : ∃ len, x.1.data = .uninit len
  · obtain ⟨len, hu⟩ := hu
    unfold allocStep at h
    simp only [hu] at h
    cases h
    exact main _ _ _ (Nat.le_refl _) rfl ⟨rfl, .inl ⟨len, hu, rfl⟩⟩
  · have e : allocStep b p l x = if x.1.shOffset < l.offset then .err
        else (allocSize b p x.1).bind fun sa => (reserve x.1.shOffset sa.1 sa.2).bind fun r =>
          if r.1.1 ≠ x.1.shOffset then .err else .ok ((l.setAddr x.1).set x.2 r) := by
      unfold allocStep
      cases hd : x.1.data <;> first | rfl | exact absurd ⟨_, hd⟩ hu
    rw [e] at h
    split at h
    · cases h
    · simp only [Res.bind_eq_ok] at h
      obtain ⟨⟨n, a⟩, h1, r, h2, h3⟩ := h
      simp only at h2
      split at h3
      · cases h3
      · obtain ⟨r1, r2, r3, -⟩ := reserve_ok h2
        next hlt hne =>
        injection h3 with h3
        have hne : r.1.1 = x.1.shOffset := by simpa using hne
        refine main r.1 r.2 (l.setAddr x.1).addr (by omega) ?_ ⟨hne, .inr ⟨fun len hl => hu ⟨len, hl⟩, a, by rw [r2]; exact h1⟩⟩
        rw [← h3]
        unfold Lay.set
        rw [(setAddr_eq l x.1).1]

/-- The size of a section that is laid out with the other sections. -/
def otherSize (x : Sec × List UInt8) : Option Nat :=
  match x.1.data with
  | .uninit len => some len
  | _ => (otherBytes x).map List.length

def OtherCond (b : Full) (x : Sec × List UInt8) : Prop := keepsOffset b x.1 = false ∧ (otherSize x).isSome = true

theorem otherStep_ok {b : Full} {l l' : Lay} {x : (Sec × List UInt8) × Nat} (h : otherStep b l x = .ok l') :
    l.offset ≤ l'.offset ∧ l'.ranges.length = l.ranges.length ∧ (∀ j, j ≠ x.2 ∨ ¬ OtherCond b x.1 → l'.ranges[j]? = l.ranges[j]?) ∧
      (OtherCond b x.1 → x.2 < l.ranges.length → ∃ r, l'.ranges[x.2]? = some r ∧ otherSize x.1 = some r.2) := by
  have main : ∀ (r : Nat × Nat) (o : Nat), l.offset ≤ o → l' = { l with ranges := l.ranges.set x.2 r, offset := o } → keepsOffset b x.1.1 = false →
      otherSize x.1 = some r.2 →
      l.offset ≤ l'.offset ∧ l'.ranges.length = l.ranges.length ∧ (∀ j, j ≠ x.2 ∨ ¬ OtherCond b x.1 → l'.ranges[j]? = l.ranges[j]?) ∧
      (OtherCond b x.1 → x.2 < l.ranges.length → ∃ r, l'.ranges[x.2]? = some r ∧ otherSize x.1 = some r.2) := by
    rintro r o ho rfl hk hr
    refine ⟨ho, by simp, ?_, fun _ hl => ⟨r, by simp [hl], hr⟩⟩
    rintro j (hj | hj)
    · exact set_get hj
    · exact absurd ⟨hk, by rw [hr]; rfl⟩ hj
  have triv : l' = l → ¬ OtherCond b x.1 → l.offset ≤ l'.offset ∧ l'.ranges.length = l.ranges.length ∧ (∀ j, j ≠ x.2 ∨ ¬ OtherCond b x.1 → l'.ranges[j]? = l.ranges[j]?) ∧
      (OtherCond b x.1 → x.2 < l.ranges.length → ∃ r, l'.ranges[x.2]? = some r ∧ otherSize x.1 = some r.2) := by
    rintro rfl hn
    exact ⟨Nat.le_refl _, rfl, fun _ _ => rfl, fun hc => absurd hc hn⟩
  unfold otherStep at h
  by_cases hk : keepsOffset b x.1.1 = true
  · rw [if_pos hk] at h; cases h
    exact triv rfl fun hc => by have := hc.1; rw [hk] at this; cases this
  · rw [if_neg hk] at h
    have hk : keepsOffset b x.1.1 = false := by simpa using hk
    cases hd : x.1.1.data <;> simp only [hd] at h <;>
      first
      | (cases h; done)
      | (rw [Res.bind_eq_ok] at h
         obtain ⟨r, h1, h2⟩ := h
         obtain ⟨r1, r2, r3, -⟩ := reserve_ok h1
         injection h2 with h2
         exact main r.1 r.2 (by omega) h2.symm hk (by simp [otherSize, otherBytes, hd, r2]))
      | (injection h with h
         exact main _ _ (Nat.le_refl _) h.symm hk (by simp [otherSize, hd]))
      | (injection h with h
         refine triv h.symm fun hc => ?_
         have := hc.2
         simp [otherSize, otherBytes, hd] at this)

theorem metaStep_ok {p : Plan} {k : SecData} {size align : Nat} {l l' : Lay} (h : metaStep p k size align l = .ok l') :
    l.offset ≤ l'.offset ∧ l'.ranges.length = l.ranges.length ∧ (∀ j, p.idx k = 0 ∨ j ≠ p.idx k - 1 → l'.ranges[j]? = l.ranges[j]?) ∧
      (p.idx k ≠ 0 → p.idx k - 1 < l.ranges.length → ∃ r, l'.ranges[p.idx k - 1]? = some r ∧ r.2 = size) := by
  unfold metaStep at h
  by_cases hk : p.idx k = 0
  · rw [if_pos hk] at h; cases h
    exact ⟨Nat.le_refl _, rfl, fun _ _ => rfl, fun hn => absurd hk hn⟩
  · rw [if_neg hk, Res.bind_eq_ok] at h
    obtain ⟨r, h1, h2⟩ := h
    obtain ⟨r1, r2, r3, -⟩ := reserve_ok h1
    cases h2
    refine ⟨?_, by simp [Lay.set], ?_, fun _ hl => ⟨r.1, by simp [Lay.set, hl], r2⟩⟩
    · show l.offset ≤ r.2; omega
    · rintro j (hj | hj)
      · exact absurd hj hk
      · exact set_get hj

def RelocCond (b : Full) (s : Sec) : Prop := keepsOffset b s = false ∧ ∃ rs, s.data = .relocs rs

theorem relocStep_ok {b : Full} {p : Plan} {l l' : Lay} {x : Sec × Nat} (h : relocStep b p l x = .ok l') :
    l.offset ≤ l'.offset ∧ l'.ranges.length = l.ranges.length ∧ (∀ j, j ≠ x.2 ∨ ¬ RelocCond b x.1 → l'.ranges[j]? = l.ranges[j]?) ∧
      (RelocCond b x.1 → x.2 < l.ranges.length → ∃ r, l'.ranges[x.2]? = some r ∧
        ∀ rs, x.1.data = .relocs rs → r.2 = rs.length * p.cfg.relSize (x.1.shType == 4)) := by
  unfold relocStep at h
  by_cases hk : keepsOffset b x.1 = true
  · rw [if_pos hk] at h; cases h
    exact ⟨Nat.le_refl _, rfl, fun _ _ => rfl, fun hc => by have := hc.1; rw [hk] at this; cases this⟩
  · rw [if_neg hk] at h
    have hk : keepsOffset b x.1 = false := by simpa using hk
    cases hd : x.1.data with
    | relocs rs =>
      simp only [hd, Res.bind_eq_ok] at h
      obtain ⟨r, h1, h2⟩ := h
      obtain ⟨r1, r2, r3, -⟩ := reserve_ok h1
      cases h2
      refine ⟨?_, by simp [Lay.set], ?_, fun _ hl => ⟨r.1, by simp [Lay.set, hl], fun rs' e => by cases e; exact r2⟩⟩
      · show l.offset ≤ r.2; omega
      · rintro j (hj | hj)
        · exact set_get hj
        · exact absurd ⟨hk, rs, hd⟩ hj
    | _ =>
      simp only [hd] at h
      injection h with h
      subst h
      exact ⟨Nat.le_refl _, rfl, fun _ _ => rfl, fun ⟨_, rs, e⟩ => by rw [hd] at e; cases e⟩

end Obj.BuildW

import Verif.Proof.BuildW2

/-! Writing with the ELF builder: indices of sections, and sizes of the file ranges. -/

namespace Obj.BuildW
open Obj Obj.Build Obj.BuildR Obj.Spec
open Obj.Spec.MachoF (Each)

/-! ## The loop over the sections -/

theorem addMeta_ok {m m' : Idx} {i : Nat} {d : SecData} (h : addMeta m i d = .ok m') :
    (isMeta d = true → m d = 0 ∧ m' d = i) ∧ ∀ k, k ≠ d ∨ isMeta k = false → m' k = m k := by
  unfold addMeta at h
  by_cases hd : isMeta d = true
  · rw [if_pos hd] at h
    by_cases h0 : m d = 0
    · rw [if_neg (by simp [h0])] at h
      cases h
      refine ⟨fun _ => ⟨h0, by simp⟩, ?_⟩
      rintro k (hk | hk)
      · simp [hk]
      · have : k ≠ d := by rintro rfl; rw [hk] at hd; cases hd
        simp [this]
    · rw [if_pos h0] at h; cases h
  · rw [if_neg hd] at h; cases h
    exact ⟨fun h => absurd h hd, fun _ _ => rfl⟩

theorem sectionLoop_ok {ss : List Sec} {i : Nat} {m m' : Idx} {t t' : StrTab} {ns : List (Option Nat)} (hi : 0 < i) (hb : Built t)
    (h : sectionLoop ss i m t = .ok (m', ns, t')) :
    Built t' ∧ t.strings <+: t'.strings ∧ Each (fun (s : Sec) n => NameId t' s.name n) ss ns ∧
    (∀ (j : Nat) s, ss[j]? = some s → isMeta s.data = true → m' s.data = i + j) ∧
    (∀ k, (∀ s ∈ ss, s.data ≠ k) ∨ isMeta k = false → m' k = m k) ∧
    (∀ k, isMeta k = true → m k ≠ 0 → ∀ s ∈ ss, s.data ≠ k) := by
  induction ss generalizing i m t ns with
  | nil => cases h; exact ⟨hb, List.prefix_refl _, .nil, by simp, fun _ _ => rfl, by simp⟩
  | cons s ss ih =>
    rw [sectionLoop] at h
    simp only [Res.bind_eq_ok] at h
    obtain ⟨u, h1, ⟨n, v⟩, h2, ⟨w, ns', t2⟩, h3, h4⟩ := h
    simp only at h3 h4
    cases h4
    obtain ⟨a1, a2, a3⟩ := addName_ok hb h2
    obtain ⟨b1, b2, b3, b4, b5, b6⟩ := ih (Nat.succ_pos i) a1 h3
    obtain ⟨c1, c2⟩ := addMeta_ok h1
    refine ⟨b1, a2.trans b2, .cons (nameId_mono a3 b2) b3, ?_, ?_, ?_⟩
    · intro j x hj hx
      cases j with
      | zero =>
        simp only [List.getElem?_cons_zero, Option.some.injEq] at hj
        subst hj
        have e := (c1 hx).2
        rw [b5 s.data (.inl (b6 s.data hx (by omega))), e]; rfl
      | succ j =>
        rw [b4 j x (by simpa using hj) hx]; omega
    · rintro k hk
      rw [b5 k (hk.imp_left fun hk x hx => hk x (List.mem_cons_of_mem _ hx)), c2 k]
      rcases hk with hk | hk
      · exact .inl fun e => hk s List.mem_cons_self e.symm
      · exact .inr hk
    · intro k hk hm x hx
      rcases List.mem_cons.1 hx with rfl | hx
      · intro e
        subst e
        exact hm (c1 hk).1
      · refine b6 k hk ?_ x hx
        by_cases e : k = s.data
        · subst e; rw [(c1 hk).2]; omega
        · rw [c2 k (.inl e)]; exact hm

/-- `idx` gives the index of the section of a kind, counting the null section. -/
structure IdxOk (secs : List Sec) (idx : Idx) : Prop where
  of : ∀ (j : Nat) s, secs[j]? = some s → isMeta s.data = true → idx s.data = j + 1
  at_ : ∀ k, idx k ≠ 0 → isMeta k = true ∧ ∃ s, secs[idx k - 1]? = some s ∧ s.data = k

theorem sectionLoop_idx {ss : List Sec} {m' : Idx} {t' : StrTab} {ns : List (Option Nat)}
    (h : sectionLoop ss 1 (fun _ => 0) StrTab.new = .ok (m', ns, t')) : IdxOk ss m' := by
  obtain ⟨-, -, -, h4, h5, -⟩ := sectionLoop_ok (Nat.one_pos) built_new h
  refine ⟨fun j s hj hs => by rw [h4 j s hj hs]; omega, ?_⟩
  intro k hk
  have hm : isMeta k = true := by
    cases e : isMeta k with
    | true => rfl
    | false => exact absurd (h5 k (.inr e)) hk
  refine ⟨hm, ?_⟩
  by_cases hx : ∃ s ∈ ss, s.data = k
  · obtain ⟨s, hs, rfl⟩ := hx
    obtain ⟨j, hj⟩ := List.getElem?_of_mem hs
    refine ⟨s, ?_, rfl⟩
    rw [h4 j s hj hm]
    have : 1 + j - 1 = j := by omega
    rw [this]; exact hj
  · refine absurd (h5 k (.inl fun s hs e => hx ⟨s, hs, e⟩)) hk

/-! ## Ranges -/

/-- The size of the file range of a section. -/
structure SizeOk (b : Full) (p : Plan) (s : Sec) (a : List UInt8) (r : Nat × Nat) : Prop where
  alloc : keepsOffset b s = true → r.1 = s.shOffset ∧ ((∃ len, s.data = .uninit len ∧ r.2 = len) ∨
    ((∀ len, s.data ≠ .uninit len) ∧ ∃ al, allocSize b p s = .ok (r.2, al)))
  other : keepsOffset b s = false → ∀ n, otherSize (s, a) = some n → r.2 = n
  relocs : keepsOffset b s = false → ∀ rs, s.data = .relocs rs → r.2 = rs.length * p.cfg.relSize (s.shType == 4)
  symbol : s.data = .symbol → r.2 = p.symNum * p.cfg.symSize
  shndx : s.data = .symbolSectionIndex → r.2 = p.symNum * 4
  string : s.data = .string → r.2 = p.strtab.len
  names : s.data = .sectionString → r.2 = p.shstrtab.len
  kind : keepsOffset b s = false → (otherSize (s, a)).isSome = true ∨ (∃ rs, s.data = .relocs rs) ∨
    s.data = .symbol ∨ s.data = .symbolSectionIndex ∨ s.data = .string ∨ s.data = .sectionString

theorem allocOrder_mem {secs : List Sec} {x : Sec × Nat} : x ∈ allocOrder secs ↔ secs[x.2]? = some x.1 ∧ isAlloc x.1 = true := by
  unfold allocOrder
  rw [List.mem_mergeSort, List.mem_filter, List.mem_zipIdx_iff_getElem?]

theorem allocOrder_nodup (secs : List Sec) : ((allocOrder secs).map Prod.snd).Nodup := by
  unfold allocOrder
  refine ((List.mergeSort_perm _ _).map Prod.snd).nodup_iff.2 ?_
  have h := zipIdx_nodup secs
  rw [List.Nodup, List.pairwise_map] at h ⊢
  exact h.filter _

theorem otherStep_kind {b : Full} {xs : List ((Sec × List UInt8) × Nat)} {l l' : Lay} (h : foldR (otherStep b) l xs = .ok l') :
    ∀ x ∈ xs, keepsOffset b x.1.1 = false → (otherSize x.1).isSome = true ∨ (∃ rs, x.1.1.data = .relocs rs) ∨
      x.1.1.data = .symbol ∨ x.1.1.data = .symbolSectionIndex ∨ x.1.1.data = .string ∨ x.1.1.data = .sectionString := by
  induction xs generalizing l with
  | nil => simp
  | cons y xs ih =>
    obtain ⟨u, h1, h2⟩ := foldR_cons.1 h
    intro x hx hk
    rcases List.mem_cons.1 hx with rfl | hx
    · unfold otherStep at h1
      rw [if_neg (by simp [hk])] at h1
      unfold otherSize otherBytes
      cases hd : x.1.1.data <;> simp only [hd] at h1 ⊢ <;> first | (cases h1; done) | simp
    · exact ih h2 x hx hk

theorem allocSize_meta {b : Full} {p : Plan} {s : Sec} {r : Nat × Nat} (h : allocSize b p s = .ok r) :
    s.data ≠ .symbol ∧ s.data ≠ .symbolSectionIndex ∧ s.data ≠ .string ∧ s.data ≠ .sectionString := by
  unfold allocSize at h
  refine ⟨?_, ?_, ?_, ?_⟩ <;> intro e <;> simp only [e] at h <;> cases h

theorem headersAt_ok {p : Plan} {offset : Nat} {r : Nat × Nat} (h : headersAt p offset = .ok r) :
    offset ≤ r.2 ∧ (p.secNum ≠ 0 → offset ≤ r.1 ∧ r.2 = r.1 + p.secNum * p.cfg.shdrSize ∧ r.2 < 2 ^ 64) ∧ (p.secNum = 0 → r.1 = 0) := by
  unfold headersAt at h
  by_cases h0 : p.secNum = 0
  · rw [if_pos h0] at h; cases h; exact ⟨Nat.le_refl _, fun hn => absurd h0 hn, fun _ => rfl⟩
  · rw [if_neg h0, Res.bind_eq_ok] at h
    obtain ⟨r', h1, h2⟩ := h
    cases h2
    obtain ⟨r1, r2, r3, r4⟩ := reserve_ok h1
    exact ⟨by simp only; omega, fun _ => ⟨r1, r3, r4⟩, fun hn => absurd hn h0⟩

theorem segmentsAt_ok {b : Full} {c : Elf.Cfg} {g : Nat × Nat × Nat} (h : segmentsAt b c = .ok g) :
    g.1 = Build.count b.tables.segments ∧ g.1 < 2 ^ 32 ∧ c.ehdrSize ≤ g.2.2 ∧ (g.1 = 0 → g.2.1 = 0) ∧
    (g.1 ≠ 0 → g.2.1 = b.header.ePhoff ∧ c.ehdrSize ≤ g.2.1) := by
  unfold segmentsAt at h
  simp only at h
  split at h
  · cases h
  · split at h
    · next h1 h2 => cases h; exact ⟨h2.symm, by simp, Nat.le_refl _, fun _ => rfl, fun hn => absurd rfl hn⟩
    · next h1 h2 =>
      rw [Res.bind_eq_ok] at h
      obtain ⟨r, h3, h4⟩ := h
      obtain ⟨r1, r2, r3, -⟩ := reserve_ok h3
      split at h4
      · cases h4
      · next h5 =>
        cases h4
        refine ⟨rfl, by show Build.count b.tables.segments < U32; omega, by simp only; omega, fun hz => absurd hz h2, fun _ => ⟨?_, r1⟩⟩
        have : b.header.ePhoff = r.1.1 := by simpa using h5
        exact this.symm

/-- What the layout says. -/
structure LayoutOk (b : Full) (p : Plan) (l : Layout) : Prop where
  segNum : l.segNum = Build.count b.tables.segments ∧ l.segNum < 2 ^ 32
  phoff : l.segNum = 0 ∧ l.phoff = 0 ∨ l.segNum ≠ 0 ∧ l.phoff = b.header.ePhoff ∧ p.cfg.ehdrSize ≤ l.phoff
  shoff : p.secNum = 0 ∧ l.shoff = 0 ∨ p.secNum ≠ 0 ∧ p.cfg.ehdrSize ≤ l.shoff ∧ l.len = l.shoff + p.secNum * p.cfg.shdrSize ∧ l.len < 2 ^ 64
  small : p.cfg.is64 = false → l.len < 2 ^ 32
  sizes : ∀ (i : Nat) s a, p.secs[i]? = some s → p.attrs[i]? = some a → SizeOk b p s a (l.lay.at i)

theorem layout_ok {b : Full} {p : Plan} {l : Layout} (hi : IdxOk p.secs p.idx) (h : layout b p = .ok l) : LayoutOk b p l := by
  unfold layout at h
  simp only [Res.bind_eq_ok] at h
  obtain ⟨g, hg, l1, h1, l2, h2, l3, h3, l4, h4, l5, h5, l6, h6, l7, h7, hh, h8, h9⟩ := h
  obtain ⟨g1, g2, g3, g4, g5⟩ := segmentsAt_ok hg
  obtain ⟨a1, a2, a4⟩ : g.2.2 ≤ l1.offset ∧ l1.ranges.length = p.secs.length ∧
      (∀ (i : Nat) s, p.secs[i]? = some s → keepsOffset b s = true → ∃ r, l1.ranges[i]? = some r ∧ AllocRange b p (s, i) r) := by
    by_cases hk : Build.isEmpty b.tables.segments = true
    · rw [if_pos hk] at h1; cases h1
      refine ⟨Nat.le_refl _, by simp, ?_⟩
      intro i s _ hs
      unfold keepsOffset at hs
      rw [hk] at hs; cases hs
    · rw [if_neg hk] at h1
      obtain ⟨c1, c2, -, c4⟩ := fold_lay (C := fun _ => True) (Q := AllocRange b p) (fun _ _ _ e => allocStep_ok e) (allocOrder_nodup p.secs) h1
      refine ⟨c1, by rw [c2]; simp, ?_⟩
      intro i s hs hk'
      have hal : isAlloc s = true := by
        unfold keepsOffset at hk'
        rw [Bool.and_eq_true] at hk'
        exact hk'.2
      exact c4 (s, i) (allocOrder_mem.2 ⟨hs, hal⟩) trivial (by simpa using ElfW.length_of_getElem? hs)
  obtain ⟨b1, b2, b3, b4⟩ := fold_lay (C := OtherCond b) (Q := fun x r => otherSize x.1 = some r.2) (fun _ _ _ e => otherStep_ok e) (zipIdx_nodup _) h2
  have b5 := otherStep_kind h2
  obtain ⟨c1, c2, c3, c4⟩ := metaStep_ok h3
  obtain ⟨d1, d2, d3, d4⟩ := metaStep_ok h4
  obtain ⟨e1, e2, e3, e4⟩ := metaStep_ok h5
  obtain ⟨f1, f2, f3, f4⟩ := fold_lay (C := RelocCond b)
    (Q := fun (x : Sec × Nat) r => ∀ rs, x.1.data = .relocs rs → r.2 = rs.length * p.cfg.relSize (x.1.shType == 4))
    (fun _ _ _ e => relocStep_ok e) (zipIdx_nodup _) h6
  obtain ⟨k1, k2, k3, k4⟩ := metaStep_ok h7
  obtain ⟨m1, m2, m3⟩ := headersAt_ok h8
  have hl : (p.cfg.is64 = false → hh.2 < 2 ^ 32) ∧ l = ⟨g.1, g.2.1, l7, hh.1, hh.2⟩ := by
    split at h9
    · cases h9
    · next hn =>
      cases h9
      refine ⟨fun e => ?_, rfl⟩
      have : ¬ U32 ≤ hh.2 := fun hu => hn ⟨e, hu⟩
      omega
  obtain ⟨hsm, rfl⟩ := hl
  refine ⟨⟨g1, g2⟩, ?_, ?_, hsm, ?_⟩
  · by_cases h0 : g.1 = 0
    · exact .inl ⟨h0, g4 h0⟩
    · exact .inr ⟨h0, g5 h0⟩
  · by_cases h0 : p.secNum = 0
    · exact .inl ⟨h0, m3 h0⟩
    · exact .inr ⟨h0, by simp only; have := (m2 h0).1; omega, (m2 h0).2⟩
  · intro i s a hs ha
    have hil := ElfW.length_of_getElem? hs
    have hzz : (p.secs.zip p.attrs)[i]? = some (s, a) := List.getElem?_zip_eq_some.2 ⟨hs, ha⟩
    have hz : ((p.secs.zip p.attrs).zipIdx)[i]? = some ((s, a), i) := by
      rw [List.getElem?_zipIdx, hzz]; simp
    have hzm := List.mem_of_getElem? hz
    have hz' : ∀ x ∈ (p.secs.zip p.attrs).zipIdx, x.2 = i → x = ((s, a), i) := by
      intro x hx hxi
      rw [List.mem_zipIdx_iff_getElem?] at hx
      rw [hxi, hzz] at hx
      cases x with | mk x1 x2 => simp only at hx hxi; cases hx; rw [hxi]
    have hy : ∀ x ∈ p.secs.zipIdx, x.2 = i → x = (s, i) := by
      intro x hx hxi
      rw [List.mem_zipIdx_iff_getElem?] at hx
      rw [hxi, hs] at hx
      cases x with | mk x1 x2 => simp only at hx hxi; cases hx; rw [hxi]
    have hym : (s, i) ∈ p.secs.zipIdx := List.mem_zipIdx_iff_getElem?.2 hs
    have hal : ∀ r, l7.ranges[i]? = some r → l7.at i = r := by
      intro r hr; unfold Lay.at; rw [List.getD_eq_getElem?_getD, hr]; rfl
    -- a metadata step sets another position, unless the section is of that kind
    have hmeta : ∀ k, s.data ≠ k → p.idx k = 0 ∨ i ≠ p.idx k - 1 := by
      intro k hk
      by_cases h0 : p.idx k = 0
      · exact .inl h0
      · refine .inr fun e => ?_
        obtain ⟨-, s', h', hk'⟩ := hi.at_ k h0
        rw [← e, hs] at h'
        cases h'
        exact hk hk'
    have hset : ∀ k, s.data = k → isMeta k = true → p.idx k - 1 = i ∧ p.idx k ≠ 0 := by
      rintro k rfl hm
      have := hi.of i s hs hm
      omega
    by_cases hk : keepsOffset b s = true
    · obtain ⟨r, hr, hq⟩ := a4 i s hs hk
      have n1 : ¬ OtherCond b (s, a) := fun hc => by have := hc.1; simp only at this; rw [hk] at this; cases this
      have n2 : ¬ RelocCond b s := fun hc => by have := hc.1; rw [hk] at this; cases this
      have hnm : s.data ≠ .symbol ∧ s.data ≠ .symbolSectionIndex ∧ s.data ≠ .string ∧ s.data ≠ .sectionString := by
        rcases hq.2 with ⟨len, hl, -⟩ | ⟨-, al, hl⟩
        · simp only at hl; rw [hl]; simp
        · exact allocSize_meta hl
      have : l7.ranges[i]? = some r := by
        rw [k3 i (hmeta _ hnm.2.2.2), f3 i (fun x hx hxi => by rw [hy x hx hxi]; exact n2), e3 i (hmeta _ hnm.2.2.1), d3 i (hmeta _ hnm.2.1),
          c3 i (hmeta _ hnm.1), b3 i (fun x hx hxi => by rw [hz' x hx hxi]; exact n1), hr]
      rw [hal r this]
      exact ⟨fun _ => hq, fun e => (by rw [hk] at e; cases e), fun e => (by rw [hk] at e; cases e), fun e => absurd e hnm.1, fun e => absurd e hnm.2.1,
        fun e => absurd e hnm.2.2.1, fun e => absurd e hnm.2.2.2, fun e => (by rw [hk] at e; cases e)⟩
    · have hk : keepsOffset b s = false := by simpa using hk
      have hkind := b5 _ hzm hk
      simp only at hkind
      have hne : ∀ e : keepsOffset b s = true, False := fun e => (by rw [hk] at e; cases e)
      rcases hkind with ho | ⟨rs, ho⟩ | ho | ho | ho | ho
      · obtain ⟨r, hr, hq⟩ := b4 _ hzm ⟨hk, ho⟩ (by simp only; omega)
        have hnm : s.data ≠ .symbol ∧ s.data ≠ .symbolSectionIndex ∧ s.data ≠ .string ∧ s.data ≠ .sectionString ∧ ∀ rs, s.data ≠ .relocs rs := by
          refine ⟨?_, ?_, ?_, ?_, fun rs => ?_⟩ <;> intro e <;> simp [otherSize, otherBytes, e] at ho
        have : l7.ranges[i]? = some r := by
          rw [k3 i (hmeta _ hnm.2.2.2.1), f3 i (fun x hx hxi => by rw [hy x hx hxi]; exact fun hc => hnm.2.2.2.2 _ hc.2.choose_spec), e3 i (hmeta _ hnm.2.2.1), d3 i (hmeta _ hnm.2.1),
            c3 i (hmeta _ hnm.1), hr]
        rw [hal r this]
        exact ⟨fun e => (hne e).elim, fun _ n hn => (by simp only at hq; rw [hq] at hn; cases hn; rfl), fun _ rs e => absurd e (hnm.2.2.2.2 rs), fun e => absurd e hnm.1, fun e => absurd e hnm.2.1,
          fun e => absurd e hnm.2.2.1, fun e => absurd e hnm.2.2.2.1, fun _ => .inl ho⟩
      · obtain ⟨r, hr, hq⟩ := f4 _ hym ⟨hk, rs, ho⟩ (by simp only; omega)
        have : l7.ranges[i]? = some r := by rw [k3 i (hmeta _ (by rw [ho]; simp)), hr]
        rw [hal r this]
        exact ⟨fun e => (hne e).elim, fun _ n hn => (by simp [otherSize, otherBytes, ho] at hn), fun _ => hq, fun e => (by rw [ho] at e; cases e),
          fun e => (by rw [ho] at e; cases e), fun e => (by rw [ho] at e; cases e), fun e => (by rw [ho] at e; cases e), fun _ => .inr (.inl ⟨rs, ho⟩)⟩
      all_goals
        have hno : otherSize (s, a) = none := by simp [otherSize, otherBytes, ho]
        have hnr : ¬ RelocCond b s := fun ⟨_, rs, e⟩ => by rw [ho] at e; cases e
        obtain ⟨hp, hp'⟩ := hset _ ho rfl
      · obtain ⟨r, hr, hq⟩ := c4 hp' (by omega)
        rw [hp] at hr
        have : l7.ranges[i]? = some r := by
          rw [k3 i (hmeta _ (by rw [ho]; simp)), f3 i (fun x hx hxi => by rw [hy x hx hxi]; exact hnr), e3 i (hmeta _ (by rw [ho]; simp)),
            d3 i (hmeta _ (by rw [ho]; simp)), hr]
        rw [hal r this]
        exact ⟨fun e => (hne e).elim, fun _ n hn => (by rw [hno] at hn; cases hn), fun hk rs e => absurd ⟨hk, rs, e⟩ hnr, fun _ => hq,
          fun e => (by rw [ho] at e; cases e), fun e => (by rw [ho] at e; cases e), fun e => (by rw [ho] at e; cases e), fun _ => .inr (.inr (.inl ho))⟩
      · obtain ⟨r, hr, hq⟩ := d4 hp' (by omega)
        rw [hp] at hr
        have : l7.ranges[i]? = some r := by
          rw [k3 i (hmeta _ (by rw [ho]; simp)), f3 i (fun x hx hxi => by rw [hy x hx hxi]; exact hnr), e3 i (hmeta _ (by rw [ho]; simp)), hr]
        rw [hal r this]
        exact ⟨fun e => (hne e).elim, fun _ n hn => (by rw [hno] at hn; cases hn), fun hk rs e => absurd ⟨hk, rs, e⟩ hnr, fun e => (by rw [ho] at e; cases e),
          fun _ => hq, fun e => (by rw [ho] at e; cases e), fun e => (by rw [ho] at e; cases e), fun _ => .inr (.inr (.inr (.inl ho)))⟩
      · obtain ⟨r, hr, hq⟩ := e4 hp' (by omega)
        rw [hp] at hr
        have : l7.ranges[i]? = some r := by
          rw [k3 i (hmeta _ (by rw [ho]; simp)), f3 i (fun x hx hxi => by rw [hy x hx hxi]; exact hnr), hr]
        rw [hal r this]
        exact ⟨fun e => (hne e).elim, fun _ n hn => (by rw [hno] at hn; cases hn), fun hk rs e => absurd ⟨hk, rs, e⟩ hnr, fun e => (by rw [ho] at e; cases e),
          fun e => (by rw [ho] at e; cases e), fun _ => hq, fun e => (by rw [ho] at e; cases e), fun _ => .inr (.inr (.inr (.inr (.inl ho))))⟩
      · obtain ⟨r, hr, hq⟩ := k4 hp' (by omega)
        rw [hp] at hr
        rw [hal r hr]
        exact ⟨fun e => (hne e).elim, fun _ n hn => (by rw [hno] at hn; cases hn), fun hk rs e => absurd ⟨hk, rs, e⟩ hnr, fun e => (by rw [ho] at e; cases e),
          fun e => (by rw [ho] at e; cases e), fun e => (by rw [ho] at e; cases e), fun _ => hq, fun _ => .inr (.inr (.inr (.inr (.inr ho))))⟩

end Obj.BuildW

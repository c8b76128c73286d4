import Verif.Proof.MachoBW6

/-! Writing with the Mach-O builder: positions, relocations and indirect symbols. -/

namespace Obj.MachoB
open Obj Obj.MachoR
open Obj.BuildW (mapR mapR_each Blk)
open Obj.Spec.MachoF (Each num headerSize headerIn IsCommand)
open Obj.Spec.MachoB

/-! ## Positions -/

/-- The position of an id. -/
def posIn (ids : List Nat) (i : Nat) : Nat := (lastIndex ids i).getD 0
def secPos (o : Order) (i : Nat) : Nat := posIn (o.secs.map (·.id)) i
def symPos (o : Order) (i : Nat) : Nat := posIn (o.syms.map (·.id)) i

section
variable {b : Builder} {o : Order} {l : Layout} {out : List UInt8}

theorem Written.secIds (x : Written b o l out) : o.secs.map (·.id) = sectionOrder b := sections_ids x.sound.numbered x.ord

theorem Written.secIds_nodup (x : Written b o l out) : (o.secs.map (·.id)).Nodup := by rw [x.secIds]; exact x.sound.nodup

theorem Written.sym_order (x : Written b o l out) : SymbolOrder b o.syms := by
  rw [x.ord.syms]
  exact symbolOrder_ok x.sound.numbered fun y h1 h2 => (x.sound.symbols y h1 h2).ntype

theorem Written.symIds_nodup (x : Written b o l out) : (o.syms.map (·.id)).Nodup := order_nodup x.sound.numbered x.sym_order

theorem Written.sec_index (x : Written b o l out) {k : Nat} {s : Sec} (h : o.secs[k]? = some s) : lastIndex (o.secs.map (·.id)) s.id = some k :=
  lastIndex_eq x.secIds_nodup (by rw [List.getElem?_map, h]; rfl)

theorem Written.sym_index (x : Written b o l out) {k : Nat} {y : Sym} (h : o.syms[k]? = some y) : lastIndex (o.syms.map (·.id)) y.id = some k :=
  lastIndex_eq x.symIds_nodup (by rw [List.getElem?_map, h]; rfl)

theorem Written.sec_live (x : Written b o l out) {i : Nat} {s : Sec} (h : b.sections[i]? = some s) (hd : s.delete = false) :
    ∃ k, Place (sectionOrder b) i k ∧ lastIndex (o.secs.map (·.id)) i = some k ∧ k < o.secs.length := by
  have hm := x.ord.allSections s (List.mem_of_getElem? h) hd
  rw [x.sound.numbered.sections i s h] at hm
  obtain ⟨k, hk⟩ := place_of_mem hm
  have := place_lt hk
  rw [List.length_map] at this
  exact ⟨k, by rw [← x.secIds]; exact hk, lastIndex_eq x.secIds_nodup hk, this⟩

theorem Written.sym_live (x : Written b o l out) {i : Nat} {y : Sym} (h : b.symbols[i]? = some y) (hd : y.delete = false) :
    ∃ k, Place (o.syms.map (·.id)) i k ∧ lastIndex (o.syms.map (·.id)) i = some k ∧ k < o.syms.length := by
  have hm : i ∈ o.syms.map (·.id) := by
    rw [List.mem_map]
    exact ⟨y, (x.sym_order.all y).2 ⟨List.mem_of_getElem? h, hd⟩, x.sound.numbered.symbols i y h⟩
  obtain ⟨k, hk⟩ := place_of_mem hm
  have := place_lt hk
  rw [List.length_map] at this
  exact ⟨k, hk, lastIndex_eq x.symIds_nodup hk, this⟩

/-- Sections are in a segment. -/
theorem Written.sec_mem (x : Written b o l out) {s : Sec} (hs : s ∈ o.secs) : s ∈ b.sections ∧ s.delete = false := by
  rw [x.ord.secs, List.mem_flatMap] at hs
  obtain ⟨g, hg, hs⟩ := hs
  obtain ⟨i, hi⟩ := List.mem_iff_getElem?.1 hg
  exact x.sec_of hi hs

/-! ## Relocations -/

/-- A relocation after reading. -/
def newTarget (o : Order) : Target → Target
  | .symbol i => .symbol (symPos o i)
  | .section_ i => .section_ (secPos o i)
def newRel (o : Order) (r : Rel) : Rel := ⟨newTarget o r.target, r.address, r.pcrel, r.length, r.typ⟩

/-- What references are checked against. -/
def totals (o : Order) (l : Layout) (table : List Nat) : Totals := ⟨o.secs.length, o.syms.length, table⟩

theorem Written.rel_ok (x : Written b o l out) {s : Sec} (hs : s ∈ o.secs) {r : Rel} (hr : r ∈ s.relocs) {q : RelInfo} (h : relOf b o r = .ok q) (table : List Nat) :
    RelIs .little (totals o l table) ((q.words .little).1 % 4294967296) (q.words .little).2 (newRel o r) ∧
      RelSame (sectionOrder b) (o.syms.map (·.id)) r (newRel o r) := by
  obtain ⟨m1, m2⟩ := x.sec_mem hs
  have so := x.sound.sections s m1 m2
  obtain ⟨ra, rl, rt⟩ := so.relocs r hr
  have hsy := x.ord.syms_le
  have hse := x.ord.secs_le
  have key (n : Nat) (e : Bool) (hn : n < 2 ^ 24) (tg : Target)
      (ht : (if e then n < o.syms.length ∧ tg = .symbol n else 0 < n ∧ n ≤ o.secs.length ∧ tg = .section_ (n - 1))) :
      RelIs .little (totals o l table) (((⟨r.address, n, r.pcrel, r.length, e, r.typ⟩ : RelInfo).words .little).1 % 4294967296)
        ((⟨r.address, n, r.pcrel, r.length, e, r.typ⟩ : RelInfo).words .little).2 ⟨tg, r.address, r.pcrel, r.length, r.typ⟩ := by
    have h2 := readRel_iff (st := ⟨o.secs.length, o.syms.length, table, 0⟩) (t := totals o l table) ⟨rfl, rfl, rfl⟩ .little
      (((⟨r.address, n, r.pcrel, r.length, e, r.typ⟩ : RelInfo).words .little).1 % 4294967296)
      ((⟨r.address, n, r.pcrel, r.length, e, r.typ⟩ : RelInfo).words .little).2 (word_lt .little _) ⟨tg, r.address, r.pcrel, r.length, r.typ⟩
    rw [← h2]
    have ea : ((⟨r.address, n, r.pcrel, r.length, e, r.typ⟩ : RelInfo).words .little).1 % 4294967296 = r.address := Nat.mod_eq_of_lt ra
    have eb := relInfo_words ⟨r.address, n, r.pcrel, r.length, e, r.typ⟩ rl rt
    have ec : ((⟨r.address, n, r.pcrel, r.length, e, r.typ⟩ : RelInfo).words .little) =
      (r.address, ((⟨r.address, n, r.pcrel, r.length, e, r.typ⟩ : RelInfo).words .little).2) := rfl
    rw [ec] at eb
    rw [ea, eb]
    unfold readRel
    simp only [Nat.mod_eq_of_lt (show n < 16777216 from hn)]
    cases e with
    | true =>
      obtain ⟨t1, t2⟩ := ht
      rw [if_pos rfl, if_neg (by omega), t2]
    | false =>
      obtain ⟨t1, t2, t3⟩ := ht
      rw [if_neg (by simp), if_neg (by omega), t3]
  unfold relOf at h
  split at h
  · next i hi =>
    rw [Res.bind_eq_ok] at h
    obtain ⟨n, h1, h2⟩ := h
    cases h2
    unfold symNum at h1
    split at h1
    · next hlt =>
      have hy := List.getElem?_eq_getElem hlt
      obtain ⟨k, k1, k2, k3⟩ := x.sym_live hy (x.clean.relocs s m1 m2 r hr i _ hi hy)
      rw [k2] at h1
      cases h1
      have hp : newTarget o r.target = .symbol k := by rw [hi, newTarget, symPos, posIn, k2]; rfl
      refine ⟨?_, ⟨?_, rfl, rfl, rfl, rfl⟩⟩
      · exact key k true (by omega) _ ⟨k3, hp⟩
      · unfold newRel; simp only; rw [hp, hi]; exact .symbol k1
    · cases h1
  · next i hi =>
    rw [Res.bind_eq_ok] at h
    obtain ⟨n, h1, h2⟩ := h
    cases h2
    unfold secNum at h1
    split at h1
    · next hlt =>
      obtain ⟨t, ht1, ht2⟩ := so.relSections r hr i hi
      obtain ⟨k, k1, k2, k3⟩ := x.sec_live ht1 ht2
      rw [k2] at h1
      cases h1
      have hp : newTarget o r.target = .section_ k := by rw [hi, newTarget, secPos, posIn, k2]; rfl
      refine ⟨?_, ⟨?_, rfl, rfl, rfl, rfl⟩⟩
      · exact key (k + 1) false (by omega) _ ⟨by omega, by omega, by rw [hp]; rfl⟩
      · unfold newRel; simp only; rw [hp, hi]; exact .section_ k1
    · cases h1

theorem num_two (en : Endianness) (out : List UInt8) (o : Nat) (bs : List UInt8) (h : slice out o 8 = bs) :
    num en out o 4 = rd en (bs.take 4) ∧ num en out (o + 4) 4 = rd en ((bs.drop 4).take 4) := by
  subst h
  constructor
  · have := MachoF.num_slice en out o 8 0 4 (by omega)
    rw [Nat.add_zero] at this
    rw [← this]; rfl
  · rw [← MachoF.num_slice en out o 8 4 4 (by omega)]; rfl

/-- The relocations of a section. -/
theorem Written.relocs_ok (x : Written b o l out) {k : Nat} {s : Sec} (hs : o.secs[k]? = some s) (h : Sect) (hn : h.nreloc = s.relocs.length)
    (hr : h.reloff = l.rels.getD k 0 % 2 ^ 32) (table : List Nat) :
    s.relocs.length < 2 ^ 32 ∧ RelocsAre b.endian out (totals o l table) h (s.relocs.map (newRel o)) ∧
      Each (RelSame (sectionOrder b) (o.syms.map (·.id))) s.relocs (s.relocs.map (newRel o)) := by
  have hm := List.mem_of_getElem? hs
  by_cases he : s.relocs = []
  · rw [he] at hn ⊢
    refine ⟨by simp, ⟨.inl hn, ?_⟩, .nil⟩
    rw [hn]
    exact .nil
  · have hk : k < l.rels.length := by rw [x.laid.rels]; exact (List.getElem?_eq_some_iff.1 hs).1
    have hz : (s, l.rels[k]) ∈ o.secs.zip l.rels := List.mem_of_getElem? (i := k) (by
      rw [List.getElem?_zip_eq_some]; exact ⟨hs, List.getElem?_eq_getElem hk⟩)
    obtain ⟨rs, h1, h2⟩ := x.em.relocs _ hz he
    have hg : l.rels.getD k 0 = l.rels[k] := by rw [List.getD_eq_getElem?_getD, List.getElem?_eq_getElem hk]; rfl
    rw [mapR_each] at h1
    have hlen := BuildR.each_length h1
    obtain ⟨m1, m2⟩ := x.sec_mem hm
    have hen := (x.sound.sections s m1 m2).endian he
    have hout := x.lt
    have hlt := blk_lt h2 hout
    have hfl := length_flat (RelInfo.bytes b.endian) 8 rs fun r _ => MachoW.length_bytes _ r
    have h2' := h2.2
    simp only at h2' hlt
    rw [hfl] at h2' hlt
    have hlen' : rs.length = s.relocs.length := hlen
    rw [hg, Nat.mod_eq_of_lt hlt.1] at hr
    refine ⟨by omega, ⟨.inr ?_, ?_⟩, ?_⟩
    · rw [hn, hr]; omega
    · refine BuildW.each_of_forall (by simp [hn]) fun i j r hi hr' => ?_
      have hil : i < h.nreloc := by
        have := (List.getElem?_eq_some_iff.1 hi).1
        simpa using this
      have hij : j = i := by
        obtain ⟨_, e⟩ := List.getElem?_eq_some_iff.1 hi
        simpa using e.symm
      subst hij
      rw [List.getElem?_map] at hr'
      obtain ⟨r0, e1, e2⟩ := Option.map_eq_some_iff.1 hr'
      obtain ⟨q, hq, e3⟩ := BuildW.each_get_left h1 e1
      have hb := (blk_item h2 (n := 8) (fun r _ => MachoW.length_bytes _ r) hq).1
      obtain ⟨f1, f2⟩ := num_two b.endian _ _ _ hb
      have hw := MachoW.words_of_bytes b.endian q
      rw [Prod.mk.injEq] at hw
      simp only at f1 f2
      rw [hr, f1, f2, hw.1, hw.2, hen, ← e2]
      exact (x.rel_ok hm (List.mem_of_getElem? e1) e3 table).1
    · refine BuildW.each_map_right _ (BuildW.each_self _ fun r hr => ?_)
      obtain ⟨i, hi⟩ := List.mem_iff_getElem?.1 hr
      obtain ⟨q, hq, e3⟩ := BuildW.each_get_left h1 hi
      exact (x.rel_ok hm hr e3 table).2

/-! ## Indirect symbols -/

def newInd (o : Order) : Ind → Ind
  | .flags v => .flags v
  | .symbol i => .symbol (symPos o i)
def indNum (o : Order) : Ind → Nat
  | .flags v => v
  | .symbol i => symPos o i

/-- The table of indirect symbols. -/
def indTable (o : Order) : List Nat := (o.secs.flatMap (·.indirect)).map (indNum o)

theorem Written.ind_ok (x : Written b o l out) {s : Sec} (hs : s ∈ o.secs) {v : Ind} (hv : v ∈ s.indirect) (table : List Nat) :
    indNum o v < 2 ^ 32 ∧ indOf b o v = .ok (indNum o v) ∧ IndIs (totals o l table) (indNum o v) (newInd o v) ∧ IndSame (o.syms.map (·.id)) v (newInd o v) := by
  obtain ⟨m1, m2⟩ := x.sec_mem hs
  have so := x.sound.sections s m1 m2
  have hsy := x.ord.syms_le
  cases v with
  | flags v =>
    obtain ⟨h1, h2⟩ := so.indFlags v hv
    refine ⟨h1, rfl, ?_, .flags⟩
    unfold IndIs
    rw [indNum, if_pos h2]
    rfl
  | symbol i =>
    obtain ⟨y, hy, hd⟩ := so.indSymbols i hv
    obtain ⟨k, k1, k2, k3⟩ := x.sym_live hy hd
    have hp : symPos o i = k := by rw [symPos, posIn, k2]; rfl
    rw [indNum, newInd, hp]
    refine ⟨by omega, ?_, ?_, .symbol k1⟩
    · rw [indOf, symNum, if_pos (List.getElem?_eq_some_iff.1 hy).1, k2]; rfl
    · unfold IndIs
      have hb : ¬ (k.testBit 31 = true ∨ k.testBit 30 = true) := by
        rw [Nat.testBit_lt_two_pow (by omega), Nat.testBit_lt_two_pow (by omega)]; simp
      rw [if_neg hb]
      exact ⟨k3, rfl⟩

theorem indStarts_get : ∀ (n : Nat) (ss : List Sec) (k : Nat) (s : Sec), ss[k]? = some s → s.indirect ≠ [] →
    (indStarts n ss).getD k 0 = n + ((ss.take k).flatMap (·.indirect)).length
  | n, [], k, s, h, _ => by simp at h
  | n, t :: ss, 0, s, h, hi => by
    have h : t = s := by simpa using h
    subst h
    rw [indStarts, if_neg hi]
    simp
  | n, t :: ss, k + 1, s, h, hi => by
    have h : ss[k]? = some s := by simpa using h
    have := indStarts_get (n + t.indirect.length) ss k s h hi
    rw [indStarts, List.getD_cons_succ, this, List.take_succ_cons, List.flatMap_cons, List.length_append]
    omega

theorem indStarts_nil : ∀ (n : Nat) (ss : List Sec) (k : Nat) (s : Sec), ss[k]? = some s → s.indirect = [] → (indStarts n ss).getD k 0 = 0
  | n, [], k, s, h, _ => by simp at h
  | n, t :: ss, 0, s, h, hi => by
    have h : t = s := by simpa using h
    subst h
    rw [indStarts, if_pos hi]
    rfl
  | n, t :: ss, k + 1, s, h, hi => by
    have h : ss[k]? = some s := by simpa using h
    rw [indStarts, List.getD_cons_succ]
    exact indStarts_nil _ ss k s h hi

theorem flat_split {ss : List Sec} {k : Nat} {s : Sec} (h : ss[k]? = some s) :
    ss.flatMap (·.indirect) = (ss.take k).flatMap (·.indirect) ++ s.indirect ++ (ss.drop (k + 1)).flatMap (·.indirect) := by
  obtain ⟨hk, e⟩ := List.getElem?_eq_some_iff.1 h
  have : ss = ss.take k ++ s :: ss.drop (k + 1) := by
    rw [← e, ← List.drop_eq_getElem_cons hk, List.take_append_drop]
  conv => lhs; rw [this]
  rw [List.flatMap_append, List.flatMap_cons, List.append_assoc]

/-- The table in the file. -/
theorem Written.table_ok (x : Written b o l out) : 4 * indCount o.secs ≤ out.length ∧
    (indCount o.secs = 0 ∨ l.indoff < 2 ^ 32 ∧ l.indoff + 4 * indCount o.secs ≤ out.length) ∧
    ((List.range (indCount o.secs)).map fun i => num b.endian out (l.indoff + 4 * i) 4) = indTable o := by
  have hmem : ∀ v ∈ o.secs.flatMap (·.indirect), ∃ s ∈ o.secs, v ∈ s.indirect := fun v hv => by simpa using hv
  by_cases h0 : indCount o.secs = 0
  · refine ⟨by omega, .inl h0, ?_⟩
    unfold indTable
    rw [h0]
    unfold indCount at h0
    rw [List.length_eq_zero_iff.1 h0]
    rfl
  · have hi := x.laid.indoff x.em.pos h0
    obtain ⟨vs, h1, h2⟩ := x.em.indirect hi
    rw [mapR_each] at h1
    have hvs : vs = indTable o := by
      unfold indTable
      have := BuildW.each_map_eq (indNum o) id h1 fun v hv n hn => by
        obtain ⟨s, hs, hv⟩ := hmem v hv
        have := (x.ind_ok hs hv []).2.1
        rw [this] at hn
        cases hn
        rfl
      simpa using this
    have hlen : vs.length = indCount o.secs := BuildR.each_length h1
    have hfl := length_flat (fun v => wr b.endian 4 v) 4 vs fun v _ => length_wr _ _ _
    have hout := x.lt
    have hlt := (blk_lt h2 hout).1
    have hb := h2.2
    simp only at hb
    rw [hfl, hlen] at hb
    refine ⟨by omega, .inr ⟨hlt, hb⟩, ?_⟩
    rw [← hvs]
    apply List.ext_getElem?
    intro i
    rw [List.getElem?_map]
    by_cases hil : i < vs.length
    · rw [List.getElem?_eq_getElem (by simpa [← hlen] using hil), List.getElem?_eq_getElem hil, List.getElem_range]
      have hg := List.getElem?_eq_getElem hil
      have hs := (blk_item h2 (n := 4) (fun v _ => length_wr _ _ _) hg).1
      have hv : vs[i] < 2 ^ 32 := by
        have hmm : vs[i] ∈ indTable o := by rw [← hvs]; exact List.getElem_mem hil
        unfold indTable at hmm
        rw [List.mem_map] at hmm
        obtain ⟨v, hv, e⟩ := hmm
        obtain ⟨s, hs, hv⟩ := hmem v hv
        rw [← e]
        exact (x.ind_ok hs hv []).1
      rw [Option.map_some, Option.some.injEq]
      unfold num
      rw [hs, rd_wr_mod]
      exact mod_lt4 hv
    · rw [List.getElem?_eq_none (by simpa [← hlen] using hil), List.getElem?_eq_none (by omega)]
      rfl

theorem Written.indirect_ok (x : Written b o l out) {k : Nat} {s : Sec} (hs : o.secs[k]? = some s) (h : Sect) (hf : h.flags = s.flags) (h2 : h.reserved2 = s.stubSize)
    (hz : h.size = s.data.size) (h1 : h.reserved1 = (indStarts 0 o.secs).getD k 0) :
    (indStarts 0 o.secs).getD k 0 < 2 ^ 32 ∧
    (∃ vs, Spec.MachoF.IndirectOf b.is64 h (indTable o) vs ∧ Each (IndIs (totals o l (indTable o))) vs (s.indirect.map (newInd o))) ∧
      Each (IndSame (o.syms.map (·.id))) s.indirect (s.indirect.map (newInd o)) := by
  have hm := List.mem_of_getElem? hs
  obtain ⟨m1, m2⟩ := x.sec_mem hm
  have so := x.sound.sections s m1 m2
  have hsplit := flat_split hs
  have hvs : Each (IndIs (totals o l (indTable o))) (s.indirect.map (indNum o)) (s.indirect.map (newInd o)) := by
    rw [BuildR.each_map_left]
    exact BuildW.each_map_right _ (BuildW.each_self _ fun v hv => (x.ind_ok hm hv _).2.2.1)
  have hsame : Each (IndSame (o.syms.map (·.id))) s.indirect (s.indirect.map (newInd o)) :=
    BuildW.each_map_right _ (BuildW.each_self _ fun v hv => (x.ind_ok hm hv []).2.2.2)
  have hlt : (indStarts 0 o.secs).getD k 0 < 2 ^ 32 := by
    by_cases he : s.indirect = []
    · rw [indStarts_nil _ _ _ _ hs he]; decide
    · rw [indStarts_get _ _ _ _ hs he]
      have := x.table_ok.1
      have hout := x.lt
      unfold indCount at this
      rw [hsplit] at this
      simp only [List.length_append] at this
      omega
  refine ⟨hlt, ?_, hsame⟩
  have part (n : Nat) (hn : Spec.MachoF.EntrySize b.is64 h n) (hl : s.indirect.length = s.data.size / n) :
      ∃ vs, Spec.MachoF.IndirectOf b.is64 h (indTable o) vs ∧ Each (IndIs (totals o l (indTable o))) vs (s.indirect.map (newInd o)) := by
    refine ⟨_, ?_, hvs⟩
    by_cases he : s.indirect = []
    · have h1' : h.reserved1 = 0 := by rw [h1, indStarts_nil _ _ _ _ hs he]
      refine .part (pre := []) (post := indTable o) hn (by rw [he]; rfl) (by rw [h1']; rfl) ?_
      rw [List.length_map, hz, hl]
    · refine .part (pre := ((o.secs.take k).flatMap (·.indirect)).map (indNum o)) (post := ((o.secs.drop (k + 1)).flatMap (·.indirect)).map (indNum o)) hn ?_ ?_ ?_
      · unfold indTable
        rw [hsplit, List.map_append, List.map_append]
      · rw [h1, indStarts_get _ _ _ _ hs he, List.length_map]; omega
      · rw [List.length_map, hz, hl]
  have hc := so.indirect
  unfold IndirectCount at hc
  split at hc
  · next hf' => exact part _ (.pointers (by rw [hf]; exact hf')) hc
  · next hf1 =>
    split at hc
    · next hf2 => exact part _ (by rw [← h2]; exact .stubs (by rw [hf]; exact hf2) (by rw [h2]; exact hc.1)) hc.2
    · next hf2 =>
      refine ⟨[], .other ?_, by rw [hc]; exact .nil⟩
      rw [hf]
      simp only [List.mem_cons, List.not_mem_nil, or_false, not_or] at hf1 ⊢
      exact ⟨hf1.1, hf1.2.1, hf1.2.2.1, hf1.2.2.2, hf2⟩

end

end Obj.MachoB

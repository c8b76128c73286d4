import Verif.Proof.BuildW3
import Verif.Proof.Build
import Verif.Spec.BuildWrite

/-! Writing with the ELF builder: what is known before the layout. -/

namespace Obj.BuildW
open Obj Obj.Build Obj.BuildR Obj.Spec
open Obj.Spec.MachoF (Each)
open Obj.Spec.BuildW (live Place Ref localSym symbolOrder DynOrder IdsOk)

/-! ## Indices -/

/-- The vector maps each id to its position counted from 1, and other ids to 0. -/
def IndexOk (v : List Nat) (ids : List Nat) : Prop :=
  (∀ id m : Nat, v[id]? = some m → (m = 0 ∧ id ∉ ids) ∨ (0 < m ∧ ids[m - 1]? = some id))

theorem indexVec_len {v v' : List Nat} {i : Nat} {ids : List Nat} (h : indexVec v i ids = .ok v') : v'.length = v.length := by
  induction ids generalizing v i with
  | nil => cases h; rfl
  | cons x ids ih =>
    unfold indexVec at h
    split at h
    · rw [ih h]; simp
    · cases h

theorem indexVec_gen {v v' : List Nat} {i : Nat} {ids : List Nat} (hd : ids.Nodup) (h : indexVec v i ids = .ok v') :
    (∀ id : Nat, id ∉ ids → v'[id]? = v[id]?) ∧ ∀ (k id : Nat), ids[k]? = some id → v'[id]? = some (i + k) := by
  induction ids generalizing v i with
  | nil => cases h; exact ⟨fun _ _ => rfl, by simp⟩
  | cons x ids ih =>
    unfold indexVec at h
    split at h
    · next hx =>
      obtain ⟨hx1, hd⟩ := List.nodup_cons.1 hd
      obtain ⟨a, b⟩ := ih hd h
      refine ⟨?_, ?_⟩
      · intro id hid
        simp only [List.mem_cons, not_or] at hid
        rw [a id hid.2, List.getElem?_set_ne (Ne.symm hid.1)]
      · intro k id hk
        cases k with
        | zero =>
          simp only [List.getElem?_cons_zero, Option.some.injEq] at hk
          subst hk
          rw [a x hx1]; simp [hx]
        | succ k =>
          rw [b k id (by simpa using hk)]
          congr 1; omega
    · cases h

theorem indexVec_ok {n : Nat} {v' : List Nat} {ids : List Nat} (hd : ids.Nodup) (h : indexVec (List.replicate n 0) 1 ids = .ok v') : IndexOk v' ids := by
  obtain ⟨a, b⟩ := indexVec_gen hd h
  intro id m hm
  by_cases hid : id ∈ ids
  · obtain ⟨k, hk⟩ := List.getElem?_of_mem hid
    rw [b k id hk] at hm
    cases hm
    exact .inr ⟨by omega, by rw [Nat.add_sub_cancel_left]; exact hk⟩
  · rw [a id hid, List.getElem?_replicate] at hm
    split at hm
    · cases hm; exact .inl ⟨rfl, hid⟩
    · cases hm

theorem ids_nodup {α : Type} [Item α] {t : List α} (h : IdsOk t) : ((iter t).map Item.id).Nodup := by
  have key : ∀ (l : List α) (k : Nat), (∀ (i : Nat) x, l[i]? = some x → Item.id x = k + i) →
      ((l.filter fun x => !Item.deleted x).map Item.id).Nodup ∧ ∀ x ∈ l, k ≤ Item.id x := by
    intro l
    induction l with
    | nil => intro k _; simp
    | cons y ys ih =>
      intro k hk
      obtain ⟨a, b⟩ := ih (k + 1) (fun i x hx => by rw [hk (i + 1) x (by simpa using hx)]; omega)
      have hy : Item.id y = k := by have := hk 0 y rfl; omega
      refine ⟨?_, ?_⟩
      · rw [List.filter_cons]
        split
        · rw [List.map_cons, List.nodup_cons]
          refine ⟨?_, a⟩
          intro hm
          obtain ⟨x, hx, he⟩ := List.mem_map.1 hm
          have := b x (List.mem_filter.1 hx).1
          omega
        · exact a
      · intro x hx
        rcases List.mem_cons.1 hx with rfl | hx
        · omega
        · have := b x hx; omega
  rw [iter_eq]
  exact (key t 0 (fun i x hx => by rw [h i x hx]; omega)).1

/-! ## Symbols -/

theorem local_eq (s : Sym) : isLocal s = localSym s := rfl

theorem ordered_eq (t : List Sym) : ordered t = symbolOrder t := by
  unfold ordered symbolOrder live
  rw [iter_eq]; rfl

theorem filter_perm {α : Type} (p : α → Bool) (l : List α) : (l.filter p ++ l.filter fun x => !p x).Perm l := by
  exact List.filter_append_perm p l

theorem ordered_perm (t : List Sym) : (ordered t).Perm (iter t) := filter_perm isLocal (iter t)

theorem takeWhile_split {α : Type} (p : α → Bool) (a b : List α) (ha : ∀ x ∈ a, p x = true) (hb : ∀ x ∈ b, p x = false) :
    (a ++ b).takeWhile p = a := by
  rw [List.takeWhile_append_of_pos ha]
  cases b with
  | nil => simp
  | cons y ys => rw [List.takeWhile_cons, hb y (by simp)]; simp

theorem dynOuts_ok {m : Idx} {ss : List Sym} {t t' : StrTab} {ds : List DynOut} (hb : Built t) (h : dynOuts m t ss = .ok (ds, t')) :
    Built t' ∧ t.strings <+: t'.strings ∧ ds.map (·.sym) = ss ∧ ∀ d ∈ ds, NameId t' d.sym.name d.name := by
  induction ss generalizing t ds with
  | nil => cases h; exact ⟨hb, List.prefix_refl _, rfl, by simp⟩
  | cons s ss ih =>
    unfold dynOuts at h
    rw [Res.bind_eq_ok] at h
    obtain ⟨⟨d, u⟩, h1, h⟩ := h
    rw [Res.bind_eq_ok] at h
    obtain ⟨⟨ds', u'⟩, h2, h⟩ := h
    cases h
    have key : Built u ∧ t.strings <+: u.strings ∧ d.sym = s ∧ NameId u d.sym.name d.name := by
      unfold dynOut at h1
      by_cases hs : s.name = []
      · rw [if_pos hs] at h1; cases h1; exact ⟨hb, List.prefix_refl _, rfl, .inl ⟨rfl, hs⟩⟩
      · rw [if_neg hs, Res.bind_eq_ok] at h1
        obtain ⟨⟨id, u2⟩, h3, h4⟩ := h1
        cases h4
        obtain ⟨a, b, _, d'⟩ := tabAdd_ok hb h3
        exact ⟨a, b, rfl, .inr ⟨id, rfl, d'⟩⟩
    obtain ⟨k1, k2, k3, k4⟩ := key
    obtain ⟨a, b, c, e⟩ := ih k1 h2
    refine ⟨a, k2.trans b, by simp [k3, c], ?_⟩
    intro x hx
    rcases List.mem_cons.1 hx with rfl | hx
    · exact nameId_mono k4 b
    · exact e x hx

theorem gnuOrder_ok {m : Idx} {buckets n : Nat} {l : List DynOut} {r : List DynOut × Nat} (h : gnuOrder m buckets n l = .ok r) :
    ∃ B, r.1 = l.take n ++ B ∧ B.Perm (l.drop n) := by
  unfold gnuOrder at h
  by_cases h0 : m .gnuHash = 0
  · rw [if_pos h0] at h; cases h; exact ⟨l.drop n, by simp, List.Perm.refl _⟩
  · rw [if_neg h0] at h
    split at h
    · cases h
    · cases h; exact ⟨_, rfl, List.mergeSort_perm _ _⟩

theorem countOf_ok {a : Bool} {n r : Nat} (h : countOf a n = .ok r) : (a = true ∧ r = 0) ∨ (a = false ∧ r = 1 + n ∧ r < 2 ^ 32) := by
  unfold countOf at h
  by_cases ha : a = true
  · rw [if_pos ha] at h; cases h; exact .inl ⟨ha, rfl⟩
  · rw [if_neg ha] at h
    split at h
    · cases h
    · next hlt => cases h; exact .inr ⟨by simpa using ha, rfl, by simpa using hlt⟩

theorem isEmpty_iff {α : Type} [Item α] (t : List α) : Build.isEmpty t = true ↔ iter t = [] := by
  unfold Build.isEmpty
  rcases iterNext_eq t with ⟨h1, h2⟩ | h
  · rw [h1, iter_eq, h2]; simp
  · obtain ⟨x, r, h1, h2⟩ := h
    rw [h1, iter_eq, h2]
    simp

/-! ## The plan -/

/-- Names in a string table. -/
def NameAt (o : TabOut) (name : List UInt8) (id : Option Nat) : Prop := ∀ off, ElfW.nameOffset o.tab id = .ok off → StrIn o off name

/-- A string table. -/
structure TabOk (o : TabOut) : Prop where
  len : o.len = o.data.length
  small : o.data.length < 2 ^ 32
  pos : 0 < o.data.length
  empty : StrIn o 0 []

/-- What is known before the layout. -/
structure PlanOk (c : Full) (p : Plan) : Prop where
  cfg : p.cfg = ⟨c.is64, c.endian⟩
  mips : p.mips = Elf.isMips64el p.cfg c.header.eMachine
  secs : p.secs = iter c.tables.sections
  secNum : (p.secs = [] ∧ p.secNum = 0) ∨ (p.secs ≠ [] ∧ p.secNum = 1 + p.secs.length ∧ p.secNum < 2 ^ 32)
  idx : IdxOk p.secs p.idx
  names : Each (fun (s : Sec) n => NameAt p.shstrtab s.name n) p.secs p.names
  shstrtab : TabOk p.shstrtab
  strtab : TabOk p.strtab
  dynstr : TabOk p.dynstr
  secIdx : IndexOk p.secIdx (p.secs.map (·.id))
  attrs : Each (fun s a => attributesOf c.endian p.secIdx p.symIdx s = .ok a) p.secs p.attrs
  dyns : DynOrder c.tables.dynamicSymbols (p.dyns.map (·.sym))
  dynNames : ∀ d ∈ p.dyns, NameAt p.dynstr d.sym.name d.name
  numLocalDyn : p.numLocalDyn = ((iter c.tables.dynamicSymbols).filter isLocal).length
  dynIdx : IndexOk p.dynIdx (p.dyns.map (·.sym.id))
  dynNum : (p.idx .dynamicSymbol = 0 ∧ p.dyns = [] ∧ p.dynNum = 0) ∨ (p.idx .dynamicSymbol ≠ 0 ∧ p.dynNum = 1 + p.dyns.length ∧ p.dynNum < 2 ^ 32)
  syms : p.syms = ordered c.tables.symbols
  symNames : Each (fun (s : Sym) n => NameAt p.strtab s.name n) p.syms p.symNames
  numLocal : p.numLocal = ((iter c.tables.symbols).filter isLocal).length
  symIdx : IndexOk p.symIdx (p.syms.map (·.id))
  symNum : (p.idx .symbol = 0 ∧ p.syms = [] ∧ p.symNum = 0) ∨ (p.idx .symbol ≠ 0 ∧ p.symNum = 1 + p.syms.length ∧ p.symNum < 2 ^ 32)
  needShndx : p.idx .symbolSectionIndex ≠ 0 → p.needShndx = true
  large : ∀ s ∈ p.syms, ∀ i n, s.section_ = some i → p.secIdx[i]? = some n → 0xff00 ≤ n → p.idx .symbolSectionIndex ≠ 0
  dynStrings : ∀ s ∈ dynStrings p.secs, ∀ off, strOffset p.dynstr.tab s = .ok off → StrIn p.dynstr off s
  ver : ∃ t, Built t ∧ versions c t = .ok p.ver ∧ ∀ s ∈ p.ver.tab.strings, ∀ off, strOffset p.dynstr.tab s = .ok off → StrIn p.dynstr off s
  verneeds : p.verneeds = (iter c.tables.versionFiles).length
  sectionString : p.secs ≠ [] → p.idx .sectionString ≠ 0
  verdef : p.idx .gnuVerdef = 0 → p.ver.defs = 0
  verneed : p.idx .gnuVerneed = 0 → p.verneeds = 0

theorem verStep_tab {base : Option (List UInt8)} {o o' : VerOut} {v : Ver} (hb : Built o.tab) (h : verStep base o v = .ok o') :
    Built o'.tab ∧ o.tab.strings <+: o'.tab.strings := by
  unfold verStep at h
  split at h
  · split at h
    · cases h; exact ⟨hb, List.prefix_refl _⟩
    · rw [Res.bind_eq_ok] at h
      obtain ⟨t, h1, h2⟩ := h
      cases h2
      obtain ⟨a, b, _⟩ := addAll_ok hb h1
      exact ⟨a, b⟩
  · rw [Res.bind_eq_ok] at h
    obtain ⟨⟨id, t⟩, h1, h2⟩ := h
    obtain ⟨a, b, _⟩ := tabAdd_ok hb h1
    split at h2
    · cases h2
    · cases h2; exact ⟨a, b⟩

theorem verFold_tab {base : Option (List UInt8)} {vs : List Ver} {o o' : VerOut} (hb : Built o.tab) (h : foldR (verStep base) o vs = .ok o') :
    Built o'.tab ∧ o.tab.strings <+: o'.tab.strings := by
  induction vs generalizing o with
  | nil => cases h; exact ⟨hb, List.prefix_refl _⟩
  | cons v vs ih =>
    obtain ⟨u, h1, h2⟩ := foldR_cons.1 h
    obtain ⟨a, b⟩ := verStep_tab hb h1
    obtain ⟨c, d⟩ := ih a h2
    exact ⟨c, b.trans d⟩

theorem versions_tab {b : Full} {t : StrTab} {o : VerOut} (hb : Built t) (h : versions b t = .ok o) : Built o.tab ∧ t.strings <+: o.tab.strings := by
  unfold versions at h
  split at h
  · cases h
  · simp only [Res.bind_eq_ok] at h
    obtain ⟨o1, h1, o2, h2, t3, h3, h4⟩ := h
    split at h4
    · cases h4
    cases h4
    have k1 : Built o1.tab ∧ t.strings <+: o1.tab.strings := by
      unfold verBase at h1
      split at h1
      · cases h1; exact ⟨hb, List.prefix_refl _⟩
      · rw [Res.bind_eq_ok] at h1
        obtain ⟨⟨id, u⟩, h5, h6⟩ := h1
        cases h6
        obtain ⟨a, b, _⟩ := tabAdd_ok hb h5
        exact ⟨a, b⟩
    obtain ⟨k2, k3⟩ := verFold_tab k1.1 h2
    obtain ⟨k4, k5, _⟩ := addAll_ok k2 h3
    exact ⟨k4, (k1.2.trans k3).trans k5⟩

theorem tabOk {t : StrTab} {o : TabOut} (hb : Built t) (h : tabOut t = .ok o) : TabOk o := by
  obtain ⟨a, b, c, d, _⟩ := tabOut_ok hb h
  exact ⟨a, b, c, d⟩

theorem count_le {α : Type} [Item α] (t : List α) : Build.count t = (iter t).length := rfl

theorem plan_ok {c : Full} {p : Plan} (hids : IdsOk c.tables.sections ∧ IdsOk c.tables.symbols ∧ IdsOk c.tables.dynamicSymbols)
    (h : plan c = .ok p) : PlanOk c p := by
  unfold plan at h
  simp only [Res.bind_eq_ok] at h
  obtain ⟨secNum, h1, ⟨m, ns, st⟩, h2, secIdx, h3, dt, h4, ⟨dn, ds, nl, gc, di, dt2⟩, h5, ⟨sn, ss, sns, nsh, nls, si, stt⟩, h6, ver, h7, attrs, h8, h⟩ := h
  split at h
  · cases h
  · next hmiss =>
    simp only [Res.bind_eq_ok] at h
    obtain ⟨o1, g1, o2, g2, o3, g3, h⟩ := h
    cases h
    simp only [] at h2 h5 h6 h7 h8 g1 g2 g3 hmiss ⊢
    have hidx := sectionLoop_idx h2
    obtain ⟨b1, _, b3, _⟩ := sectionLoop_ok (by decide) built_new h2
    obtain ⟨d1, d2, d3⟩ := addAll_ok built_new h4
    -- dynamic symbols
    unfold planDyns at h5
    simp only [Res.bind_eq_ok] at h5
    obtain ⟨num, e1, ⟨os, dt3⟩, e2, ⟨gl, gn⟩, e3, v, e4, e5⟩ := h5
    cases e5
    obtain ⟨f1, f2, f3, f4⟩ := dynOuts_ok d1 e2
    -- symbols
    unfold planSyms at h6
    simp only [Res.bind_eq_ok] at h6
    obtain ⟨num2, i1, ⟨ids, stt2⟩, i2, large, i3, v2, i4, i5⟩ := h6
    cases i5
    obtain ⟨j1, _, j3⟩ := addNames_ok built_new i2
    obtain ⟨t1, t2⟩ := versions_tab f1 h7
    simp only [missing, Bool.or_eq_true, decide_eq_true_eq, not_or, Classical.not_and_iff_not_or_not, Classical.not_not] at hmiss
    obtain ⟨⟨⟨⟨⟨⟨⟨m1, m2⟩, m3⟩, m4⟩, m5⟩, m6⟩, m7⟩, m8⟩ := hmiss
    obtain ⟨B, q1, q2⟩ := gnuOrder_ok e3
    simp only [] at q1 q2
    have hn : ∀ A : List Sym, A = (iter c.tables.dynamicSymbols).filter isLocal → (os.takeWhile fun d => isLocal d.sym).length = A.length ∧
        (os.take (os.takeWhile fun d => isLocal d.sym).length).map (·.sym) = A ∧
        (os.drop (os.takeWhile fun d => isLocal d.sym).length).map (·.sym) = (iter c.tables.dynamicSymbols).filter fun s => !isLocal s := by
      intro A hA
      have e : (os.takeWhile fun d => isLocal d.sym).map (·.sym) = A := by
        have : (os.takeWhile fun d => isLocal d.sym).map (·.sym) = (os.map (·.sym)).takeWhile isLocal := by
          rw [List.takeWhile_map]; rfl
        rw [this, f3, hA]
        unfold ordered
        exact takeWhile_split _ _ _ (fun x hx => (List.mem_filter.1 hx).2) (fun x hx => by simpa using (List.mem_filter.1 hx).2)
      have el : (os.takeWhile fun d => isLocal d.sym).length = A.length := by rw [← e]; simp
      refine ⟨el, ?_, ?_⟩
      · rw [List.map_take, f3, el]; unfold ordered; rw [← hA]; simp
      · rw [List.map_drop, f3, el]; unfold ordered; rw [← hA]; simp
    obtain ⟨n1, n2, n3⟩ := hn _ rfl
    have hperm : (gl.map (·.sym)).Perm (ordered c.tables.dynamicSymbols) := by
      rw [q1, List.map_append, n2]
      unfold ordered
      refine List.Perm.append_left _ ?_
      rw [← n3]
      exact q2.map _
    have hpm : gl.Perm os := by
      rw [q1]
      have := List.Perm.append_left (os.take (os.takeWhile fun d => isLocal d.sym).length) q2
      rwa [List.take_append_drop] at this
    have hdy : DynOrder c.tables.dynamicSymbols (gl.map (·.sym)) := by
      refine ⟨?_, ?_⟩
      · refine (hperm.trans (ordered_perm _)).trans ?_
        unfold live; rw [iter_eq]
      · rw [q1, List.map_append, List.pairwise_append]
        rw [n2]
        have hB : ∀ x ∈ B.map (·.sym), localSym x = false := by
          intro x hx
          have := (q2.map (·.sym)).mem_iff.1 hx
          rw [n3] at this
          simpa [local_eq] using (List.mem_filter.1 this).2
        have hA : ∀ x ∈ (iter c.tables.dynamicSymbols).filter isLocal, localSym x = true := fun x hx => (List.mem_filter.1 hx).2
        refine ⟨?_, ?_, fun a ha _ _ _ => hA a ha⟩
        · rw [List.pairwise_iff_getElem]
          intro i j hi hj _ _
          exact hA _ (List.getElem_mem _)
        · rw [List.pairwise_iff_getElem]
          intro i j hi hj _ hh
          rw [hB _ (List.getElem_mem _)] at hh; cases hh
    have hl : (iter c.tables.dynamicSymbols).length = gl.length := by
      have := (hperm.trans (ordered_perm _)).length_eq
      simpa using this.symm
    have hl2 : (iter c.tables.symbols).length = (ordered c.tables.symbols).length := (ordered_perm _).length_eq.symm
    have hts := tabOut_ok t1 g3
    refine ⟨rfl, rfl, rfl, ?_, hidx, ?_, tabOk b1 g1, tabOk j1 g2, tabOk t1 g3, ?_, (mapR_each _ _ _).1 h8, hdy, ?_, n1, ?_, ?_, rfl, ?_, ?_, ?_, ?_, ?_, ?_, ?_,
      ⟨_, f1, h7, ?_⟩, rfl, ?_, ?_, ?_⟩
    · rcases countOf_ok h1 with ⟨a, r⟩ | ⟨a, r, s⟩
      · exact .inl ⟨(isEmpty_iff _).1 a, r⟩
      · refine .inr ⟨fun e => ?_, r, s⟩
        rw [(isEmpty_iff _).2 e] at a; cases a
    · exact each_imp b3 fun s _ n hn off ho => nameOffset_ok b1 g1 hn ho
    · exact indexVec_ok (ids_nodup hids.1) h3
    · intro d hd off ho
      exact nameOffset_ok t1 g3 (nameId_mono (f4 d (hpm.mem_iff.1 hd)) t2) ho
    · refine indexVec_ok ?_ e4
      have e : gl.map (·.sym.id) = (gl.map (·.sym)).map (·.id) := by simp
      rw [e, ((hperm.trans (ordered_perm _)).map _).nodup_iff]
      exact ids_nodup hids.2.2
    · rcases countOf_ok e1 with ⟨a, r⟩ | ⟨a, r, s⟩
      · simp only [decide_eq_true_eq] at a
        refine .inl ⟨a.1, ?_, r⟩
        have := (isEmpty_iff _).1 a.2
        rw [this] at hl
        exact List.length_eq_zero_iff.1 hl.symm
      · rw [count_le, hl] at r
        refine .inr ⟨?_, r, s⟩
        rcases m5 with m5 | m5
        · exact m5
        · omega
    · exact each_map_left (fun s : Sym => s.name) |>.1 (each_imp j3 fun s _ n hn off ho => nameOffset_ok j1 g2 hn ho)
    · unfold ordered
      rw [takeWhile_split _ _ _ (fun x hx => (List.mem_filter.1 hx).2) (fun x hx => by simpa using (List.mem_filter.1 hx).2)]
    · refine indexVec_ok ?_ i4
      rw [((ordered_perm _).map _).nodup_iff]
      exact ids_nodup hids.2.1
    · rcases countOf_ok i1 with ⟨a, r⟩ | ⟨a, r, s⟩
      · simp only [decide_eq_true_eq] at a
        refine .inl ⟨a.1, ?_, r⟩
        have := (isEmpty_iff _).1 a.2
        rw [this] at hl2
        exact List.length_eq_zero_iff.1 hl2.symm
      · rw [count_le, hl2] at r
        refine .inr ⟨?_, r, s⟩
        rcases m2 with m2 | m2
        · exact m2
        · omega
    · intro hs; simp [hs]
    · intro s hs i n hi hn hlg
      rcases m3 with m3 | m3
      · exact m3
      · exfalso
        apply m3.2
        rw [List.any_eq_true]
        obtain ⟨k, hk⟩ := List.getElem?_of_mem hs
        obtain ⟨y, hy, hy2⟩ := each_get_left ((mapR_each _ _ _).1 i3) hk
        refine ⟨y, List.mem_of_getElem? hy, ?_⟩
        unfold needsShndx look at hy2
        simp only [hi, hn, Res.ok_bind] at hy2
        cases hy2
        simpa using hlg
    · intro s hs off ho
      exact hts.2.2.2.2.2 s off (t2.subset (f2.subset (d3 s hs))) ho
    · intro s hs off ho
      exact hts.2.2.2.2.2 s off hs ho
    · intro hsec
      rcases m1 with m1 | m1
      · exact m1
      · rcases countOf_ok h1 with ⟨a, r⟩ | ⟨a, r, s⟩
        · exact absurd ((isEmpty_iff _).1 a) hsec
        · omega
    · intro hv
      rcases m7 with m7 | m7
      · exact absurd hv m7
      · exact m7
    · intro hv
      rcases m8 with m8 | m8
      · exact absurd hv m8
      · exact m8

end Obj.BuildW

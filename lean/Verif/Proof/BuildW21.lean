import Verif.Proof.BuildW20
import Verif.Props.ElfHash

/-! Writing with the ELF builder: lookups in the hash tables. -/

namespace Obj.BuildW
open Obj Obj.Build Obj.BuildR Obj.Spec
open Obj.Spec.MachoF (Each num)
open Obj.Spec.ElfF (word SectionsOf headerIn DataOf SymbolsOf)
open Obj.Spec.ElfHashS (Hit SortedByBucket)
open Obj.Spec.BuildW (live Sound HeaderFor Place GnuHit)
open Obj.Elf (Shdr SymTab VersionTable Version sysvHash HashTable GnuHashTable)

/-! ## Sizes -/

theorem hash_length {en : Endianness} {bc cc : Nat} {f : Nat → Option Nat} {d : List UInt8} (h : Elf.hashTable en bc cc f = .ok d) : d.length = 8 + bc * 4 + cc * 4 := by
  unfold Elf.hashTable at h
  split at h
  · cases h
  · have hf : ∀ (l : List Nat) (st : List Nat × List Nat), (l.foldl (Elf.hashStep bc f) st).1.length = st.1.length ∧ (l.foldl (Elf.hashStep bc f) st).2.length = st.2.length := by
      intro l
      induction l with
      | nil => intro st; exact ⟨rfl, rfl⟩
      | cons x xs ih =>
        intro st
        rw [List.foldl_cons]
        obtain ⟨a, b⟩ := ih (Elf.hashStep bc f st x)
        rw [a, b]
        unfold Elf.hashStep
        split <;> simp
    injection h with h
    obtain ⟨a, b⟩ := hf (List.range cc) (List.replicate bc 0, List.replicate cc 0)
    rw [← h]
    simp only [List.length_append, Elf.length_words, a, b, List.length_replicate, List.length_cons, List.length_nil]
    omega

theorem gnuBuckets_length {bc sb : Nat} {f : Nat → Nat} (hbc : 0 < bc) : ∀ (l : List Nat) (b : Nat) (r : List Nat), b ≤ bc → Elf.gnuBuckets bc sb f l b = .ok r → r.length = bc - b := by
  intro l
  induction l with
  | nil => intro b r _ h; cases h; simp
  | cons i is ih =>
    intro b r hb h
    unfold Elf.gnuBuckets at h
    simp only at h
    have hm : f i % bc < bc := Nat.mod_lt _ hbc
    split at h
    · split at h
      · cases h
      · rw [Res.bind_eq_ok] at h
        obtain ⟨rest, h1, h2⟩ := h
        cases h2
        have := ih _ _ (by omega) h1
        simp only [List.length_append, List.length_replicate, List.length_cons]
        omega
    · rw [Res.bind_eq_ok] at h
      obtain ⟨rest, h1, h2⟩ := h
      cases h2
      have := ih _ _ (by omega) h1
      simp only [List.length_append, List.length_replicate]
      omega

theorem gnu_length {c : Elf.Cfg} {t : Elf.WGnuHash} {f : Nat → Nat} {d : List UInt8} (hbc : 0 < t.bucketCount) (h : Elf.gnuHashTable c t f = .ok d) :
    d.length = 16 + t.bloomCount * c.w + t.bucketCount * 4 + t.symbolCount * 4 := by
  unfold Elf.gnuHashTable at h
  split at h
  · cases h
  · obtain ⟨bs, h1, h2⟩ := Res.bind_eq_ok.1 h
    injection h2 with h2
    have hb := gnuBuckets_length hbc _ _ _ (by omega) h1
    have hf : ∀ (l : List Nat) (st : List Nat), (l.foldl (Elf.bloomStep (8 * c.w) t.bloomCount t.bloomShift f) st).length = st.length := by
      intro l
      induction l with
      | nil => intro st; rfl
      | cons x xs ih =>
        intro st
        rw [List.foldl_cons, ih]
        unfold Elf.bloomStep
        simp
    have hw : ∀ l : List Nat, (l.flatMap (wr c.en c.w)).length = l.length * c.w := by
      intro l
      induction l with
      | nil => simp
      | cons x xs ih => rw [List.flatMap_cons, List.length_append, ih, length_wr, List.length_cons, Nat.add_mul]; omega
    rw [← h2]
    simp only [List.length_append, Elf.length_words, hw, hf, hb, List.length_replicate, List.length_cons, List.length_nil, List.length_map, List.length_range]
    omega

/-! ## The plan -/

/-- The hashes of a dynamic symbol. -/
structure HashOk (m : Idx) (d : DynOut) : Prop where
  hash : m .hash ≠ 0 → d.hash = if d.sym.name = [] then none else some (Elf.sysvHash d.sym.name)
  gnu : m .gnuHash ≠ 0 → d.gnu = if d.sym.name ≠ [] ∧ (d.sym.section_.isSome = true ∨ d.sym.shndx ≠ 0) then some (Elf.gnuHash d.sym.name) else none

theorem dynOuts_hash {m : Idx} : ∀ (ss : List Sym) {t t' : StrTab} {ds : List DynOut}, dynOuts m t ss = .ok (ds, t') → ds.map (·.sym) = ss ∧ ∀ d ∈ ds, HashOk m d := by
  intro ss
  induction ss with
  | nil => intro t t' ds h; cases h; exact ⟨rfl, by simp⟩
  | cons s ss ih =>
    intro t t' ds h
    unfold dynOuts at h
    rw [Res.bind_eq_ok] at h
    obtain ⟨⟨d, u⟩, h1, h⟩ := h
    rw [Res.bind_eq_ok] at h
    obtain ⟨⟨ds', u'⟩, h2, h⟩ := h
    cases h
    obtain ⟨i1, i2⟩ := ih h2
    have key : d.sym = s ∧ HashOk m d := by
      unfold dynOut at h1
      by_cases hs : s.name = []
      · rw [if_pos hs] at h1; cases h1
        exact ⟨rfl, fun _ => by simp [hs], fun _ => by simp [hs]⟩
      · rw [if_neg hs, Res.bind_eq_ok] at h1
        obtain ⟨⟨id, u2⟩, h3, h4⟩ := h1
        cases h4
        refine ⟨rfl, fun h0 => ?_, fun h0 => ?_⟩
        · simp only [if_pos h0, if_neg hs]
        · simp only [ne_eq, h0, not_false_eq_true, true_and, hs]
    refine ⟨by simp [key.1, i1], ?_⟩
    intro x hx
    rcases List.mem_cons.1 hx with rfl | hx
    · exact key.2
    · exact i2 x hx

/-- The dynamic symbols: those that are local, those without a hash in the GNU table, and those with one, by bucket. -/
structure DynsOk (c : Full) (p : Plan) : Prop where
  each : ∀ d ∈ p.dyns, HashOk p.idx d
  parts : p.idx .gnuHash ≠ 0 → c.gnuBuckets ≠ 0 ∧ ∃ A B C, p.dyns = A ++ B ++ C ∧ p.gnuCount = C.length ∧ (∀ d ∈ A, isLocal d.sym = true) ∧
    (∀ d ∈ B, isLocal d.sym = false ∧ d.gnu = none) ∧ (∀ d ∈ C, isLocal d.sym = false ∧ d.gnu ≠ none) ∧ C.Pairwise fun a b => gnuKey c.gnuBuckets a ≤ gnuKey c.gnuBuckets b

theorem dropWhile_sorted {k : Nat} {l : List DynOut} (h : l.Pairwise fun a b => gnuKey k a ≤ gnuKey k b) :
    (∀ d ∈ l.takeWhile fun d => d.gnu.isNone, d.gnu = none) ∧ ∀ d ∈ l.dropWhile fun d => d.gnu.isNone, d.gnu ≠ none := by
  induction l with
  | nil => simp
  | cons x xs ih =>
    obtain ⟨h1, h2⟩ := List.pairwise_cons.1 h
    obtain ⟨i1, i2⟩ := ih h2
    cases hx : x.gnu with
    | none =>
      rw [List.takeWhile_cons_of_pos (by simp [hx]), List.dropWhile_cons_of_pos (by simp [hx])]
      refine ⟨fun d hd => ?_, i2⟩
      rcases List.mem_cons.1 hd with rfl | hd
      · exact hx
      · exact i1 d hd
    | some g =>
      rw [List.takeWhile_cons_of_neg (by simp [hx]), List.dropWhile_cons_of_neg (by simp [hx])]
      refine ⟨by simp, fun d hd => ?_⟩
      rcases List.mem_cons.1 hd with rfl | hd
      · rw [hx]; simp
      · intro hn
        have := h1 d hd
        unfold gnuKey at this
        rw [hx, hn] at this
        simp only at this
        omega

theorem plan_dyns {c : Full} {p : Plan} (h : plan c = .ok p) : DynsOk c p := by
  unfold plan at h
  simp only [Res.bind_eq_ok] at h
  obtain ⟨secNum, h1, ⟨m, ns, st⟩, h2, secIdx, h3, dt, h4, ⟨dn, ds, nl, gc, di, dt2⟩, h5, ⟨sn, ss, sns, nsh, nls, si, stt⟩, h6, ver, h7, attrs, h8, h⟩ := h
  split at h
  · cases h
  · simp only [Res.bind_eq_ok] at h
    obtain ⟨o1, g1, o2, g2, o3, g3, h⟩ := h
    cases h
    simp only [] at h5 ⊢
    unfold planDyns at h5
    simp only [Res.bind_eq_ok] at h5
    obtain ⟨num, e1, ⟨os, dt3⟩, e2, ⟨gl, gn⟩, e3, v, e4, e5⟩ := h5
    cases e5
    obtain ⟨f1, f2⟩ := dynOuts_hash _ e2
    simp only [] at e3
    have htw : ∀ d ∈ os.take (os.takeWhile fun d => isLocal d.sym).length, isLocal d.sym = true := by
      intro d hd
      rw [← List.takeWhile_append_dropWhile (p := fun d : DynOut => isLocal d.sym) (l := os), List.take_left'] at hd
      · have := List.all_takeWhile (p := fun d : DynOut => isLocal d.sym) (l := os)
        exact List.all_eq_true.1 this d hd
      · rw [List.takeWhile_append_dropWhile]
    have hdw : ∀ d ∈ os.drop (os.takeWhile fun d => isLocal d.sym).length, isLocal d.sym = false := by
      intro d hd
      have e : (os.takeWhile fun d => isLocal d.sym).length = ((iter c.tables.dynamicSymbols).filter isLocal).length := by
        have : (os.takeWhile fun d => isLocal d.sym).map (·.sym) = (os.map (·.sym)).takeWhile isLocal := by
          rw [List.takeWhile_map]; rfl
        rw [f1] at this
        unfold ordered at this
        rw [takeWhile_split _ _ _ (fun x hx => (List.mem_filter.1 hx).2) (fun x hx => by simpa using (List.mem_filter.1 hx).2)] at this
        rw [← this, List.length_map]
      have hm : d.sym ∈ (os.drop (os.takeWhile fun d => isLocal d.sym).length).map (·.sym) := List.mem_map_of_mem hd
      rw [List.map_drop, f1, e] at hm
      unfold ordered at hm
      rw [List.drop_left] at hm
      simpa using (List.mem_filter.1 hm).2
    unfold gnuOrder at e3
    by_cases h0 : m .gnuHash = 0
    · rw [if_pos h0] at e3
      cases e3
      exact ⟨f2, fun h => absurd h0 h⟩
    · rw [if_neg h0] at e3
      split at e3
      · cases e3
      · next hb =>
        cases e3
        have hperm := List.mergeSort_perm (os.drop (os.takeWhile fun d => isLocal d.sym).length) fun a b => decide (gnuKey c.gnuBuckets a ≤ gnuKey c.gnuBuckets b)
        have hsort : ((os.drop (os.takeWhile fun d => isLocal d.sym).length).mergeSort fun a b => decide (gnuKey c.gnuBuckets a ≤ gnuKey c.gnuBuckets b)).Pairwise
            fun a b => gnuKey c.gnuBuckets a ≤ gnuKey c.gnuBuckets b := by
          have := List.pairwise_mergeSort (le := fun a b : DynOut => decide (gnuKey c.gnuBuckets a ≤ gnuKey c.gnuBuckets b))
            (by intro a b e h1 h2; simp only [decide_eq_true_eq] at *; omega) (by intro a b; simp only [Bool.or_eq_true, decide_eq_true_eq]; omega)
            (os.drop (os.takeWhile fun d => isLocal d.sym).length)
          exact this.imp (by intro a b h; simpa using h)
        have hsplit : ∀ d, d ∈ gnuSort c.gnuBuckets (os.takeWhile fun d => isLocal d.sym).length os → d ∈ os := by
          intro d hd
          unfold gnuSort at hd
          rcases List.mem_append.1 hd with hd | hd
          · exact List.mem_of_mem_take hd
          · exact List.mem_of_mem_drop (hperm.mem_iff.1 hd)
        refine ⟨fun d hd => f2 d (hsplit d hd), fun _ => ⟨hb, ?_⟩⟩
        have hlen : (os.take (os.takeWhile fun d => isLocal d.sym).length).length = (os.takeWhile fun d => isLocal d.sym).length := by
          rw [List.length_take]
          have := (List.takeWhile_sublist (fun d : DynOut => isLocal d.sym) (l := os)).length_le
          omega
        have hdrop : (gnuSort c.gnuBuckets (os.takeWhile fun d => isLocal d.sym).length os).drop (os.takeWhile fun d => isLocal d.sym).length =
            (os.drop (os.takeWhile fun d => isLocal d.sym).length).mergeSort fun a b => decide (gnuKey c.gnuBuckets a ≤ gnuKey c.gnuBuckets b) := by
          unfold gnuSort
          exact List.drop_left' hlen
        generalize hM : ((os.drop (os.takeWhile fun d => isLocal d.sym).length).mergeSort fun a b => decide (gnuKey c.gnuBuckets a ≤ gnuKey c.gnuBuckets b)) = M at *
        have hloc : ∀ d ∈ M, isLocal d.sym = false := fun d hd => hdw d (hperm.mem_iff.1 hd)
        obtain ⟨w1, w2⟩ := dropWhile_sorted hsort
        refine ⟨_, M.takeWhile (fun d => d.gnu.isNone), M.dropWhile (fun d => d.gnu.isNone), ?_, ?_, htw, ?_, ?_, hsort.sublist (List.dropWhile_sublist _)⟩
        · rw [List.append_assoc, List.takeWhile_append_dropWhile, ← hM]; rfl
        · rw [hdrop]
        · exact fun d hd => ⟨hloc d ((List.takeWhile_sublist _).subset hd), w1 d hd⟩
        · exact fun d hd => ⟨hloc d ((List.dropWhile_sublist _).subset hd), w2 d hd⟩

section
variable {c : Full} {p : Plan} {l : Layout} {out : List UInt8} {ss : List Shdr}

/-- A symbol of the file and the symbol it was written from. -/
theorem Tab.hit (t : Tab c p l out ss) {st : SymTab} {ws : List Elf.WSym} (hw : TabSym p out p.dynstr .dynamicSymbol .dynamicString 0 (p.dyns.map (·.sym)) st ws)
    {name : List UInt8} {j : Nat} {s : Elf.Sym} (h1 : 1 ≤ j) (h2 : st.symbols[j]? = some s) (h3 : st.strings.get out s.name = .ok name) :
    ∃ d, p.dyns[j - 1]? = some d ∧ j - 1 < p.dyns.length ∧ 1 ≤ j ∧ p.idx .dynamicSymbol ≠ 0 ∧ d.sym.name = name ∧ s.info = d.sym.info ∧
      (s.shndx ≠ 0 ↔ d.sym.section_.isSome = true ∨ d.sym.shndx ≠ 0) := by
  rw [hw.symbols] at h2
  split at h2
  · simp at h2
  · next h0 =>
    obtain ⟨k, rfl⟩ : ∃ k, j = k + 1 := ⟨j - 1, by omega⟩
    rw [List.getElem?_cons_succ, List.getElem?_map] at h2
    cases hwk : ws[k]? with
    | none => rw [hwk] at h2; cases h2
    | some w =>
      rw [hwk] at h2
      cases h2
      obtain ⟨sy, e1, e2⟩ := each_get hw.each hwk
      have e1' := e1
      rw [List.getElem?_map] at e1
      cases hd : p.dyns[k]? with
      | none => rw [hd] at e1; cases e1
      | some d =>
        rw [hd] at e1
        cases e1
        obtain ⟨off, o1, o2⟩ := hw.strings h0
        have hn := strAt_blk o2 e2.name
        rw [← o1, ← str_iff out t.ctx.out64] at hn
        have hname : d.sym.name = name := by
          have h3' : st.strings.get out w.name = .ok name := h3
          rw [hn] at h3'
          exact Res.ok.inj h3'
        obtain ⟨m1, m2, -⟩ := t.dyn_mem (List.mem_of_getElem? e1')
        refine ⟨d, hd, (List.getElem?_eq_some_iff.1 hd).1, by omega, h0, hname, e2.info, ?_⟩
        rcases (t.symW e2 m1 m2).2 with ⟨q1, q2, -⟩ | ⟨i, j, q1, -, -, q2, -⟩
        · rw [q1, q2]; simp
        · rw [q1, q2]
          simp only [Option.isSome_some, true_or, iff_true]
          split <;> omega

/-- Lookups in the hash table. -/
theorem Tab.hashLookup (t : Tab c p l out ss) (hdo : DynsOk c p) {st : SymTab} {ws : List Elf.WSym}
    (hw : TabSym p out p.dynstr .dynamicSymbol .dynamicString 0 (p.dyns.map (·.sym)) st ws) {i : Nat} {s : Sec} {h : Shdr} (hs : p.secs[i]? = some s)
    (hh : HdrAt c p l i s h) (hd : s.data = .hash) :
    ∃ d tb, DataOf out h d ∧ HashTable.parse p.cfg.en d = .ok tb ∧ ∀ (vs : VersionTable) (name : List UInt8) (ver : Option Version), name ≠ [] →
      (∀ k y, Hit st vs out name ver k y → ∃ j y', tb.find out name (sysvHash name) ver st vs = some (j, y') ∧ Hit st vs out name ver j y' ∧ k ≤ j) ∧
      ((∀ k y, ¬ Hit st vs out name ver k y) → tb.find out name (sysvHash name) ver st vs = none) := by
  have x := t.ctx
  obtain ⟨d, al, k1, k2, k3⟩ := t.allocOnly hs (by rw [hd]; simp) (by simp [otherBytes, hd]) (by rw [hd]; simp) (by rw [hd]; simp) (by rw [hd]; simp) (by rw [hd]; simp) (by rw [hd]; simp)
  unfold allocBytes at k1
  unfold allocSize at k3
  simp only [hd] at k1 k3
  injection k3 with k3
  have hz := (Prod.mk.inj k3).1
  unfold hashBytes at k1
  split at k1
  · cases k1
  · next hb0 =>
    have hlen := hash_length k1
    rw [← hh.offset] at k2
    have hdat : DataOf out h d := dataOf_blk k2 (by
      rw [(hh.hd.table _ _ _ _ _ (by rw [hd]; rfl)).1]; decide) (by rw [hh.size, ← hz, hlen])
    have hidx : p.idx .hash ≠ 0 := (t.idx_has rfl).2 ⟨s, by rw [← x.secs]; exact List.mem_of_getElem? hs, hd⟩
    have hdl : d.length < U64 := by
      have := k2.2
      have := x.out64
      show d.length < 2 ^ 64
      omega
    have hdn : p.dynNum < U32 := by
      rcases x.plan.dynNum with ⟨-, -, h⟩ | ⟨-, -, h⟩
      · rw [h]; decide
      · exact h
    -- The hash of each symbol is that of its name.
    have hname : ∀ (k : Nat) y n hv, st.symbols[k]? = some y → st.strings.get out y.name = .ok n →
        (if k = 0 then none else (p.dyns[k - 1]?).bind (·.hash)) = some hv → hv = sysvHash n := by
      intro k y n hv e1 e2 e3
      split at e3
      · cases e3
      · next hk0 =>
        obtain ⟨d', f1, -, -, -, f2, -⟩ := t.hit hw (j := k) (by omega) e1 e2
        rw [f1] at e3
        have := (hdo.each d' (List.mem_of_getElem? f1)).hash hidx
        rw [f2] at this
        simp only [Option.bind_some] at e3
        rw [this] at e3
        split at e3
        · cases e3
        · exact (Option.some.inj e3).symm
    have key := fun vs => Obj.Props.C17_lookup_by_name p.cfg.en c.hashBuckets p.dynNum _ [] d (by omega) x.sound.params.1 hdn (by simp) k1
      (by rw [List.append_nil]; exact hdl) st vs out hname
    simp only [List.append_nil] at key
    obtain ⟨tb, t1, -⟩ := key ⟨[], []⟩
    refine ⟨d, tb, hdat, t1, fun vs name ver hne => ?_⟩
    obtain ⟨tb', t1', t2⟩ := key vs
    rw [t1] at t1'
    cases t1'
    obtain ⟨a1, a2⟩ := t2 name ver
    refine ⟨fun k y hk => ?_, fun hn => a2 fun k y _ _ hk => hn k y hk⟩
    obtain ⟨d', f1, f2, f3, f4, f5, -⟩ := t.hit hw hk.1 hk.2.1 hk.2.2.1
    obtain ⟨j, y', g1, g2, -, -, g3⟩ := a1 k y (by
      rcases x.plan.dynNum with ⟨h, -⟩ | ⟨-, h, -⟩
      · exact absurd h f4
      · omega) (by
      rw [if_neg (by omega), f1]
      simp only [Option.bind_some]
      rw [(hdo.each d' (List.mem_of_getElem? f1)).hash hidx, f5, if_neg hne]
      simp) hk
    exact ⟨j, y', g1, g2, g3⟩

/-- Lookups in the GNU hash table. -/
theorem Tab.gnuLookup (t : Tab c p l out ss) (hdo : DynsOk c p) {st : SymTab} {ws : List Elf.WSym}
    (hw : TabSym p out p.dynstr .dynamicSymbol .dynamicString 0 (p.dyns.map (·.sym)) st ws) {i : Nat} {s : Sec} {h : Shdr} (hs : p.secs[i]? = some s)
    (hh : HdrAt c p l i s h) (hd : s.data = .gnuHash) (hbl : 0 < c.bloomCount) (hsh : c.bloomShift < 32) :
    ∃ d tb, DataOf out h d ∧ GnuHashTable.parse p.cfg d = .ok tb ∧ ∀ (vs : VersionTable) (name : List UInt8) (ver : Option Version), name ≠ [] →
      (∀ j y, tb.find p.cfg out name (Elf.gnuHash name) ver st vs = .ok (some (j, y)) ↔ GnuHit st vs out name ver j y ∧ ∀ k y', k < j → ¬ GnuHit st vs out name ver k y') ∧
      (tb.find p.cfg out name (Elf.gnuHash name) ver st vs = .ok none ↔ ∀ k y, ¬ GnuHit st vs out name ver k y) := by
  have x := t.ctx
  obtain ⟨d, al, k1, k2, k3⟩ := t.allocOnly hs (by rw [hd]; simp) (by simp [otherBytes, hd]) (by rw [hd]; simp) (by rw [hd]; simp) (by rw [hd]; simp) (by rw [hd]; simp) (by rw [hd]; simp)
  unfold allocBytes at k1
  unfold allocSize at k3
  simp only [hd] at k1 k3
  injection k3 with k3
  have hz := (Prod.mk.inj k3).1
  have hidx : p.idx .gnuHash ≠ 0 := (t.idx_has rfl).2 ⟨s, by rw [← x.secs]; exact List.mem_of_getElem? hs, hd⟩
  obtain ⟨hb0, A, B, C, hABC, hcnt, hA, hB, hC, hsort⟩ := hdo.parts hidx
  unfold gnuHashBytes at k1
  rw [if_neg hb0] at k1
  split at k1
  · cases k1
  rw [Res.bind_eq_ok] at k1
  obtain ⟨hs', m1, k1⟩ := k1
  have hlen := gnu_length (by show 0 < c.gnuBuckets; omega) k1
  rw [← hh.offset] at k2
  have hdat : DataOf out h d := dataOf_blk k2 (by
    rw [(hh.hd.table _ _ _ _ _ (by rw [hd]; rfl)).1]; decide) (by rw [hh.size, ← hz, hlen])
  have hdl : d.length < U64 := by
    have := k2.2
    have := x.out64
    show d.length < 2 ^ 64
    omega
  have hgnu : ∀ d' ∈ C, d'.gnu = some (Elf.gnuHash d'.sym.name) ∧ d'.sym.name ≠ [] ∧ (d'.sym.section_.isSome = true ∨ d'.sym.shndx ≠ 0) := by
    intro d' hd'
    have h1 := (hdo.each d' (by rw [hABC]; simp [hd'])).gnu hidx
    have h2 := (hC d' hd').2
    split at h1
    · next hc => exact ⟨h1, hc.1, hc.2⟩
    · exact absurd h1 h2
  have hdn : C ≠ [] → p.dynNum = 1 + p.dyns.length ∧ p.dynNum < 2 ^ 32 := by
    intro hne
    rcases x.plan.dynNum with ⟨-, h, -⟩ | ⟨-, h, h'⟩
    · rw [hABC] at h; simp at h; exact absurd h.2.2 hne
    · exact ⟨h, h'⟩
  have hl3 : p.dyns.length = A.length + B.length + C.length := by rw [hABC]; simp; omega
  have hbase : C ≠ [] → gnuBase p = A.length + B.length := by
    intro hne
    have h1 := (hdn hne).1
    have : C.length ≠ 0 := by rwa [ne_eq, List.length_eq_zero_iff]
    unfold gnuBase
    rw [if_neg (by omega)]
    omega
  -- The symbols in the table.
  have hCi : ∀ i d', C[i]? = some d' → p.dyns[gnuBase p + i]? = some d' ∧ hs'.getD i 0 = Elf.gnuHash d'.sym.name := by
    intro i d' hi
    have hne : C ≠ [] := by rintro rfl; simp at hi
    have hb := hbase hne
    have hlt := (List.getElem?_eq_some_iff.1 hi).1
    have h1 : p.dyns[gnuBase p + i]? = some d' := by
      rw [hABC, hb, List.getElem?_append_right (by simp), List.length_append, Nat.add_sub_cancel_left]; exact hi
    refine ⟨h1, ?_⟩
    have he := (mapR_each _ _ _).1 m1
    have h2 : ((p.dyns.drop (gnuBase p)).take p.gnuCount)[i]? = some d' := by
      rw [List.getElem?_take_of_lt (by omega), List.getElem?_drop]; exact h1
    obtain ⟨v, v1, v2⟩ := each_get_left he h2
    rw [List.getD_eq_getElem?_getD, v1]
    unfold gnuHashOf at v2
    rw [(hgnu d' (List.mem_of_getElem? hi)).1] at v2
    cases v2
    rfl
  have hhash : ∀ i, i < p.gnuCount → ∃ d', C[i]? = some d' ∧ hs'.getD i 0 = Elf.gnuHash d'.sym.name := by
    intro i hi
    refine ⟨C[i]'(by omega), List.getElem?_eq_getElem _, ?_⟩
    exact (hCi i _ (List.getElem?_eq_getElem (by omega))).2
  have hsorted : SortedByBucket c.gnuBuckets p.gnuCount fun i => hs'.getD i 0 := by
    intro i j hij hj
    obtain ⟨d1, e1, f1⟩ := hhash i (by omega)
    obtain ⟨d2, e2, f2⟩ := hhash j hj
    simp only [f1, f2]
    rcases Nat.lt_or_eq_of_le hij with h | h
    · have := List.pairwise_iff_getElem.1 hsort i j (by omega) (by omega) h
      rw [(List.getElem?_eq_some_iff.1 e1).2, (List.getElem?_eq_some_iff.1 e2).2] at this
      unfold gnuKey at this
      rw [(hgnu d1 (List.mem_of_getElem? e1)).1, (hgnu d2 (List.mem_of_getElem? e2)).1] at this
      simp only at this
      omega
    · subst h
      rw [e1] at e2; cases e2; exact Nat.le_refl _
  have hfit : gnuBase p + 1 + p.gnuCount ≤ U32 := by
    show _ ≤ 2 ^ 32
    by_cases hne : C = []
    · have : p.gnuCount = 0 := by rw [hcnt, hne]; rfl
      unfold gnuBase; rw [if_pos this, this]; decide
    · have := hbase hne
      have := hdn hne
      omega
  obtain ⟨bytes, b1, b2⟩ := Obj.Props.C18_gnu_lookup p.cfg ⟨c.gnuBuckets, c.bloomCount, c.bloomShift, gnuBase p + 1, p.gnuCount⟩ (fun i => hs'.getD i 0) []
    (by show 0 < c.gnuBuckets; omega) x.sound.params.2.1 hbl x.sound.params.2.2.1 hsh (by show 1 ≤ gnuBase p + 1; omega)
    (by show gnuBase p + 1 < U32
        by_cases hne : C = []
        · have : p.gnuCount = 0 := by rw [hcnt, hne]; rfl
          unfold gnuBase; rw [if_pos this]; decide
        · have : C.length ≠ 0 := by rwa [ne_eq, List.length_eq_zero_iff]
          omega) hfit
    (by
      intro i hi
      obtain ⟨d', -, f⟩ := hhash i hi
      simp only [f]
      rw [(Obj.Props.C52_hash_functions d'.sym.name).2]
      exact UInt32.toNat_lt _) hsorted
  rw [k1] at b1
  cases b1
  rw [List.append_nil] at b2
  obtain ⟨tb, t1, -, t2⟩ := b2 hdl
  refine ⟨d, tb, hdat, t1, fun vs name ver hne => ?_⟩
  -- Hits are those in the table.
  have hit1 : ∀ i y, i < p.gnuCount → Hit st vs out name ver (gnuBase p + 1 + i) y → GnuHit st vs out name ver (gnuBase p + 1 + i) y ∧ hs'.getD i 0 = Elf.gnuHash name := by
    intro i y hi hk
    obtain ⟨d', e1, e2⟩ := hhash i hi
    obtain ⟨d2, f1, f2, f3, f4, f5, f6, f7⟩ := t.hit hw hk.1 hk.2.1 hk.2.2.1
    rw [show gnuBase p + 1 + i - 1 = gnuBase p + i by omega, (hCi i d' e1).1] at f1
    cases f1
    have hm := List.mem_of_getElem? e1
    refine ⟨⟨hk, ?_, f7.2 (hgnu _ hm).2.2⟩, by rw [e2, f5]⟩
    rw [f6]
    have := (hC _ hm).1
    unfold isLocal at this
    simpa using this
  have hit2 : ∀ j y, GnuHit st vs out name ver j y → ∃ i, j = gnuBase p + 1 + i ∧ i < p.gnuCount := by
    intro j y ⟨hk, hk2, hk3⟩
    obtain ⟨d', f1, f2, f3, f4, f5, f6, f7⟩ := t.hit hw hk.1 hk.2.1 hk.2.2.1
    have hm := List.mem_of_getElem? f1
    have hg := (hdo.each d' hm).gnu hidx
    rw [if_pos ⟨by rw [f5]; exact hne, f7.1 hk3⟩] at hg
    have hnl : isLocal d'.sym = false := by
      unfold isLocal
      rw [f6] at hk2
      simpa using hk2
    have hge : A.length + B.length ≤ j - 1 := by
      apply Classical.byContradiction
      intro hlt
      rw [hABC, List.getElem?_append_left (by simp; omega)] at f1
      rcases List.mem_append.1 (List.mem_of_getElem? f1) with h | h
      · rw [hA d' h] at hnl; cases hnl
      · rw [(hB d' h).2] at hg; cases hg
    have hcne : C ≠ [] := by rintro rfl; simp at hl3; omega
    have := hbase hcne
    exact ⟨j - 1 - gnuBase p, by omega, by omega⟩
  obtain ⟨a1, a2⟩ := t2 st vs out name ver (Elf.gnuHash name) (fun i y hi hk => (hit1 i y hi hk).2)
  refine ⟨fun j y => ?_, ?_⟩
  · rw [a1]
    constructor
    · rintro ⟨i, rfl, hi, hk, hmin⟩
      refine ⟨(hit1 i y hi hk).1, fun k y' hlt hk' => ?_⟩
      obtain ⟨i', rfl, hi'⟩ := hit2 k y' hk'
      exact hmin i' y' (by simp only at hlt; omega) hk'.1
    · rintro ⟨hk, hmin⟩
      obtain ⟨i, rfl, hi⟩ := hit2 j y hk
      exact ⟨i, rfl, hi, hk.1, fun k y' hlt hk' => hmin _ y' (by omega) (hit1 k y' (by omega) hk').1⟩
  · rw [a2]
    constructor
    · intro hn k y hk
      obtain ⟨i, rfl, hi⟩ := hit2 k y hk
      exact hn i y hi hk.1
    · intro hn i y hi hk
      exact hn _ y (hit1 i y hi hk).1

end

/-- Lookups in the file. -/
theorem writeClean_hash {c : Full} {out : List UInt8} (h : writeClean c = .ok out) (hs : Sound c) :
    ∃ ss st, SectionsOf ⟨c.is64, c.endian⟩ (headerIn ⟨c.is64, c.endian⟩ out) out ss ∧ SymbolsOf ⟨c.is64, c.endian⟩ out ss 11 st ∧
      (Spec.BuildW.has c .hash → ∃ h d tb, HeaderFor (live c.tables.sections) ss .hash h ∧ DataOf out h d ∧ HashTable.parse c.endian d = .ok tb ∧
        ∀ (vs : VersionTable) (name : List UInt8) (ver : Option Version), name ≠ [] →
          (∀ k y, Hit st vs out name ver k y → ∃ j y', tb.find out name (sysvHash name) ver st vs = some (j, y') ∧ Hit st vs out name ver j y' ∧ k ≤ j) ∧
          ((∀ k y, ¬ Hit st vs out name ver k y) → tb.find out name (sysvHash name) ver st vs = none)) ∧
      (Spec.BuildW.has c .gnuHash → 0 < c.bloomCount → c.bloomShift < 32 → ∃ h d tb, HeaderFor (live c.tables.sections) ss .gnuHash h ∧ DataOf out h d ∧
        GnuHashTable.parse ⟨c.is64, c.endian⟩ d = .ok tb ∧ ∀ (vs : VersionTable) (name : List UInt8) (ver : Option Version), name ≠ [] →
          (∀ j y, tb.find ⟨c.is64, c.endian⟩ out name (Elf.gnuHash name) ver st vs = .ok (some (j, y)) ↔
            GnuHit st vs out name ver j y ∧ ∀ k y', k < j → ¬ GnuHit st vs out name ver k y') ∧
          (tb.find ⟨c.is64, c.endian⟩ out name (Elf.gnuHash name) ver st vs = .ok none ↔ ∀ k y, ¬ GnuHit st vs out name ver k y)) := by
  obtain ⟨p, l, x, hl, hpl⟩ := writeClean_ctx h hs
  obtain ⟨ss, t⟩ := x.tab
  obtain ⟨st, ws, d1, d2⟩ := t.dynsymtab
  have hdo := plan_dyns hpl
  have hc := x.plan.cfg
  have hen : p.cfg.en = c.endian := by rw [hc]
  rw [← hc, ← hen]
  refine ⟨ss, st, ?_, d1, ?_, ?_⟩
  · have := t.of
    rw [← x.counts.1] at this
    exact this
  · intro hh
    obtain ⟨i, s, h, e1, e2, e3, e4, e5⟩ := t.kind ((t.idx_has rfl).2 hh)
    obtain ⟨d, tb, a1, a2, a3⟩ := t.hashLookup hdo d2 e2 e5 e3
    exact ⟨h, d, tb, ⟨i, s, by rw [← x.secs]; exact e2, e3, e4⟩, a1, a2, a3⟩
  · intro hh hbl hsh
    obtain ⟨i, s, h, e1, e2, e3, e4, e5⟩ := t.kind ((t.idx_has rfl).2 hh)
    obtain ⟨d, tb, a1, a2, a3⟩ := t.gnuLookup hdo d2 e2 e5 e3 hbl hsh
    exact ⟨h, d, tb, ⟨i, s, by rw [← x.secs]; exact e2, e3, e4⟩, a1, a2, a3⟩

end Obj.BuildW

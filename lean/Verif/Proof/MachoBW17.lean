import Verif.Proof.MachoBW16

/-! The groups of symbols of a written file. -/

namespace Obj.MachoB
open Obj Obj.MachoR Obj.Spec.MachoB
open Obj.Spec.MachoF (num Each headerIn)
variable {b : Builder} {o : Order} {l : Layout} {out : List UInt8} {ks : List (List UInt8)}

theorem before_asymm {y z : Sym} (h : Before y z) (h' : Before z y) : False := by
  rcases h with h | ⟨h1, h2⟩ <;> rcases h' with h' | ⟨h1', h2'⟩
  · omega
  · omega
  · omega
  · rw [h1'] at h2'
    by_cases e : symGroup y = 0
    · rw [if_pos e] at h2 h2'
      omega
    · rw [if_neg e] at h2 h2'
      rcases h2 with a | ⟨a1, a2⟩ <;> rcases h2' with c | ⟨c1, c2⟩
      · exact List.lt_irrefl _ (List.lt_trans a c)
      · rw [c1] at a; exact List.lt_irrefl _ a
      · rw [a1] at c; exact List.lt_irrefl _ c
      · omega

theorem sorted_unique {xs ys : List Sym} (h1 : xs.Pairwise Before) (h2 : ys.Pairwise Before) (h : ∀ y, y ∈ xs ↔ y ∈ ys) : xs = ys := by
  induction xs generalizing ys with
  | nil =>
    cases ys with
    | nil => rfl
    | cons y ys => have := (h y).2 (by simp); cases this
  | cons x xs ih =>
    cases ys with
    | nil => have := (h x).1 (by simp); cases this
    | cons y ys =>
      rw [List.pairwise_cons] at h1 h2
      have e : x = y := by
        rcases List.mem_cons.1 ((h x).1 (by simp)) with e | hx
        · exact e
        rcases List.mem_cons.1 ((h y).2 (by simp)) with e | hy
        · exact e.symm
        exact (before_asymm (h1.1 y hy) (h2.1 x hx)).elim
      subst e
      congr 1
      refine ih h1.2 h2.2 fun z => ⟨fun hz => ?_, fun hz => ?_⟩
      · rcases List.mem_cons.1 ((h z).1 (by simp [hz])) with e | hx
        · subst e; exact (before_asymm (h1.1 z hz) (h1.1 z hz)).elim
        · exact hx
      · rcases List.mem_cons.1 ((h z).2 (by simp [hz])) with e | hx
        · subst e; exact (before_asymm (h2.1 z hz) (h2.1 z hz)).elim
        · exact hx

theorem group_mem {l : List Sym} (h : ∀ y ∈ l, y.delete = false → y.ntype < 256) :
    (∀ y ∈ localSyms l, symGroup y = 0) ∧ (∀ y ∈ extSyms l, symGroup y = 1) ∧ ∀ y ∈ undefSyms l, symGroup y = 2 := by
  have hlt : ∀ y ∈ Build.iter l, y.ntype < 256 := by
    intro y hy
    rw [Build.iter_eq, List.mem_filter] at hy
    exact h y hy.1 (by simpa [Build.Item.deleted] using hy.2)
  refine ⟨fun y hy => ?_, fun y hy => ?_, fun y hy => ?_⟩
  · unfold localSyms at hy
    rw [List.mem_filter] at hy
    exact (local_iff (hlt y hy.1)).1 hy.2
  · unfold extSyms at hy
    rw [mem_sortSyms, List.mem_filter] at hy
    exact (ext_iff (hlt y hy.1)).1 hy.2
  · unfold undefSyms at hy
    rw [mem_sortSyms, List.mem_filter] at hy
    exact (undef_iff (hlt y hy.1)).1 hy.2

theorem Written.groups (x : Written b o l out) (hc : CommandsAll b.cfg (headerIn b.endian out) out ks) {z : Builder} (hz : Same b z) {k : List UInt8}
    (hk : k ∈ ks) (hd : isDysymtab b.endian k = true) : GroupsAre b.endian k z.symbols := by
  obtain ⟨ks', h, hc'⟩ := x.commands
  have : ks = ks' := commandsAll_unique hc hc'.1
  subst this
  have hs := each_filter (p := fun k => decide (k = Cmd.dysymtab)) (q := isDysymtab b.endian) h fun _ _ => CmdOut.isDys
  obtain ⟨c, hcc, -, ⟨lk, e⟩, -⟩ := BuildR.each_mem hs (y := k) (List.mem_filter.2 ⟨hk, hd⟩)
  have : c = .dysymtab := by simpa using (List.mem_filter.1 hcc).2
  subst this
  cases e
  obtain ⟨syms, so, se, -⟩ := hz.body
  have hy : ∀ y ∈ b.symbols, y.delete = false → y.ntype < 256 := fun y h1 h2 => (x.sound.symbols y h1 h2).ntype
  have so' := symbolOrder_ok x.sound.numbered hy
  have : syms = localSyms b.symbols ++ (extSyms b.symbols ++ undefSyms b.symbols) :=
    sorted_unique so.sorted so'.sorted fun y => (so.all y).trans (so'.all y).symm
  have hle := x.ord.syms_le
  rw [x.ord.syms] at hle
  obtain ⟨g0, g1, g2⟩ := group_mem hy
  rw [List.length_append, List.length_append] at hle
  have hlen := BuildR.each_length se
  rw [this, List.length_append, List.length_append] at hlen
  have hn := fun i v => num_words b.endian [11, 80, 0, (localSyms b.symbols).length, (localSyms b.symbols).length, (extSyms b.symbols).length,
    (localSyms b.symbols).length + (extSyms b.symbols).length, (undefSyms b.symbols).length, 0, 0, 0, 0, 0, 0, l.indoff, indCount o.secs, 0, 0, 0, 0] i v
  have e8 := hn 2 _ rfl
  have e12 := (hn 3 _ rfl).trans (mod_lt4 (by omega))
  have e16 := (hn 4 _ rfl).trans (mod_lt4 (by omega))
  have e20 := (hn 5 _ rfl).trans (mod_lt4 (by omega))
  have e24 := (hn 6 _ rfl).trans (mod_lt4 (by omega))
  have e28 := (hn 7 _ rfl).trans (mod_lt4 (by omega))
  have he : ∀ bs, bs = DysymtabCmd.encode b.cfg ⟨0, (localSyms b.symbols).length, (localSyms b.symbols).length, (extSyms b.symbols).length,
      (localSyms b.symbols).length + (extSyms b.symbols).length, (undefSyms b.symbols).length, [0, 0, 0, 0, 0, 0, l.indoff, indCount o.secs, 0, 0, 0, 0]⟩ →
      GroupsAre b.endian bs z.symbols := by
    intro bs hbs
    have hb : bs = Obj.encode b.endian ([11, 80, 0, (localSyms b.symbols).length, (localSyms b.symbols).length, (extSyms b.symbols).length,
      (localSyms b.symbols).length + (extSyms b.symbols).length, (undefSyms b.symbols).length, 0, 0, 0, 0, 0, 0, l.indoff, indCount o.secs, 0, 0, 0, 0].map
      fun v => (4, v)) := hbs
    rw [← hb] at e8 e12 e16 e20 e24 e28
    change num b.endian bs 8 4 = 0 at e8
    change num b.endian bs 12 4 = _ at e12
    change num b.endian bs 16 4 = _ at e16
    change num b.endian bs 20 4 = _ at e20
    change num b.endian bs 24 4 = _ at e24
    change num b.endian bs 28 4 = _ at e28
    refine ⟨e8, by omega, by omega, by omega, fun i y hi => ?_⟩
    obtain ⟨y0, h0, hsame⟩ := BuildR.each_get se hi
    have hg : symGroup y = symGroup y0 := by unfold symGroup; rw [hsame.ntype]
    rw [hg, e16, e24]
    rw [this] at h0
    by_cases hi1 : i < (localSyms b.symbols).length
    · rw [List.getElem?_append_left hi1] at h0
      rw [if_pos hi1]
      exact g0 _ (List.mem_of_getElem? h0)
    · rw [List.getElem?_append_right (by omega)] at h0
      rw [if_neg hi1]
      by_cases hi2 : i < (localSyms b.symbols).length + (extSyms b.symbols).length
      · rw [List.getElem?_append_left (by omega)] at h0
        rw [if_pos hi2]
        exact g1 _ (List.mem_of_getElem? h0)
      · rw [List.getElem?_append_right (by omega)] at h0
        rw [if_neg hi2]
        exact g2 _ (List.mem_of_getElem? h0)
  exact he _ rfl

end Obj.MachoB

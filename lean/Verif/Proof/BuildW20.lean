import Verif.Proof.BuildW19

/-! Writing with the ELF builder: the values of generated dynamic entries. -/

namespace Obj.BuildW
open Obj Obj.Build Obj.BuildR Obj.Spec
open Obj.Spec.MachoF (Each num)
open Obj.Spec.ElfF (word SectionsOf headerIn)
open Obj.Spec.BuildW (live Sound AutoIs HeaderFor addressTags tableHeader KindOk wordLimit tableInfo)
open Obj.Spec.BuildR (dynAt)
open Obj.Elf (Shdr)

/-- The addresses are those of sections. -/
def AddrOk (p : Plan) (l : Lay) : Prop := ∀ k a, l.addr k = some a → isMeta k = true ∧ ∃ s ∈ p.secs, s.data = k ∧ s.shAddr = a

theorem addr_fold {α : Type} {p : Plan} {f : Lay → α → Res Lay} (hf : ∀ l x l', f l x = .ok l' → AddrOk p l → AddrOk p l') :
    ∀ (xs : List α) {l l' : Lay}, foldR f l xs = .ok l' → AddrOk p l → AddrOk p l' := by
  intro xs
  induction xs with
  | nil => intro l l' h ha; cases h; exact ha
  | cons x xs ih =>
    intro l l' h ha
    obtain ⟨u, h1, h2⟩ := foldR_cons.1 h
    exact ih h2 (hf _ _ _ h1 ha)

theorem foldR_mem {σ α : Type} {f : σ → α → Res σ} {P : σ → Prop} : ∀ (xs : List α) {s t : σ}, (∀ x ∈ xs, ∀ s t, f s x = .ok t → P s → P t) →
    foldR f s xs = .ok t → P s → P t := by
  intro xs
  induction xs with
  | nil => intro s t _ h hp; cases h; exact hp
  | cons x xs ih =>
    intro s t hf h hp
    obtain ⟨u, h1, h2⟩ := foldR_cons.1 h
    exact ih (fun y hy => hf y (by simp [hy])) h2 (hf x (by simp) _ _ h1 hp)

theorem set_addr (l : Lay) (i : Nat) (r : (Nat × Nat) × Nat) : (l.set i r).addr = l.addr := rfl

theorem layout_addr {b : Full} {p : Plan} {l : Layout} (h : layout b p = .ok l) : AddrOk p l.lay := by
  unfold layout at h
  simp only [Res.bind_eq_ok] at h
  obtain ⟨g, hg, l1, h1, l2, h2, l3, h3, l4, h4, l5, h5, l6, h6, l7, h7, hh, h8, h9⟩ := h
  have a0 : AddrOk p ⟨List.replicate p.secs.length (0, 0), g.2.2, fun _ => none⟩ := by intro k a e; cases e
  have same : ∀ {l l' : Lay}, l'.addr = l.addr → AddrOk p l → AddrOk p l' := by
    intro l l' e ha; unfold AddrOk; rw [e]; exact ha
  have hmeta : ∀ {k size al} {l l' : Lay}, metaStep p k size al l = .ok l' → AddrOk p l → AddrOk p l' := by
    intro k size al l l' e ha
    unfold metaStep at e
    split at e
    · cases e; exact ha
    · obtain ⟨r, -, e⟩ := Res.bind_eq_ok.1 e
      cases e; exact same rfl ha
  have a1 : AddrOk p l1 := by
    split at h1
    · cases h1; exact a0
    · refine foldR_mem (P := AddrOk p) _ ?_ h1 a0
      intro x hx l l' e ha
      have hm : x.1 ∈ p.secs := List.mem_of_getElem? (allocOrder_mem (x := x) |>.1 hx).1
      unfold allocStep at e
      split at e
      · cases e; exact same rfl ha
      · split at e
        · cases e
        · simp only [Res.bind_eq_ok] at e
          obtain ⟨sa, -, r, -, e⟩ := e
          split at e
          · cases e
          · cases e
            refine same (set_addr _ _ _) ?_
            unfold Lay.setAddr
            split
            · next hmk =>
              intro k a e2
              simp only at e2
              split at e2
              · next hk => cases e2; exact ⟨by rw [hk]; exact hmk, x.1, hm, hk.symm, rfl⟩
              · exact ha k a e2
            · exact ha
  have a2 : AddrOk p l2 := by
    refine foldR_mem (P := AddrOk p) _ ?_ h2 a1
    intro x _ l l' e ha
    unfold otherStep at e
    split at e
    · cases e; exact ha
    · split at e
      all_goals first
        | (cases e; exact ha)
        | (obtain ⟨r, -, e⟩ := Res.bind_eq_ok.1 e
           cases e; exact same rfl ha)
        | (cases e; exact same rfl ha)
        | (cases e; done)
  have a5 := hmeta h5 (hmeta h4 (hmeta h3 a2))
  have a6 : AddrOk p l6 := by
    refine foldR_mem (P := AddrOk p) _ ?_ h6 a5
    intro x _ l l' e ha
    unfold relocStep at e
    split at e
    · cases e; exact ha
    · split at e
      · obtain ⟨r, -, e⟩ := Res.bind_eq_ok.1 e
        cases e; exact same rfl ha
      · cases e; exact ha
  have a7 := hmeta h7 a6
  split at h9
  · cases h9
  · cases h9; exact a7

section
variable {c : Full} {p : Plan} {l : Layout} {out : List UInt8} {ss : List Shdr}

/-- The value of a generated entry. -/
theorem Tab.autoVal (t : Tab c p l out ss) (ha : AddrOk p l.lay) {i : Nat} {s : Sec} {ds : List Build.Dyn} (hs : p.secs[i]? = some s) (hd : s.data = .dynamic ds)
    {tag : Int} (hm : Build.Dyn.auto tag ∈ ds) {v : Nat} (h : BuildW.autoVal p l.lay.addr tag = .ok v) : AutoIs p.secs ss tag v ∧ v < 2 ^ 64 := by
  have x := t.ctx
  have hw : wordLimit c.is64 ≤ 2 ^ 64 := (wordMax_le c.is64).1
  have addr : ∀ k, (tag, k) ∈ addressTags → (∃ T A E K, tableHeader c.is64 k = some (T, 2, A, E, K)) → need (l.lay.addr k) = .ok v → AutoIs p.secs ss tag v ∧ v < 2 ^ 64 := by
    intro k hk ⟨T, A, E, K, hT⟩ hn
    unfold need at hn
    split at hn
    · next a e =>
      cases hn
      obtain ⟨hme, s', hs', e1, e2⟩ := ha k v e
      obtain ⟨j, hj⟩ := List.getElem?_of_mem hs'
      obtain ⟨h', q1, q2⟩ := t.at_ j s' hj
      have hf := (q2.hd.table T 2 A E K (by rw [e1]; exact hT)).2.1
      have hadr : h'.addr = v := by rw [q2.addr, hf, ← e2]; rfl
      refine ⟨by rw [← hadr]; exact .address hk ⟨j, s', hj, e1, q1⟩, ?_⟩
      have := (x.sec_ok hj).1.addr
      omega
    · cases hn
  have kind : ∀ k, isMeta k = true → (tag, k) ∈ Build.Spec.autoNeeds → ∃ j s' h', p.secs[j]? = some s' ∧ s'.data = k ∧ ss[j + 1]? = some h' ∧ HdrAt c p l j s' h' := by
    intro k hmk hk
    have hsl : s ∈ live c.tables.sections := by rw [← x.secs]; exact List.mem_of_getElem? hs
    obtain ⟨m1, m2⟩ := List.mem_filter.1 hsl
    have hno := x.sound.noOrphans.dyns s m1 (by cases hdel : s.delete with
      | false => rfl
      | true => exact absurd (show (!s.delete) = true from m2) (by rw [hdel]; simp)) ds hd _ hm
    have hhas : Spec.BuildW.has c k := by
      apply Classical.byContradiction
      intro hn
      refine hno ⟨tag, k, rfl, hk, ?_⟩
      intro s' hs' e
      cases hdel : s'.delete with
      | true => rfl
      | false => exact absurd ⟨s', List.mem_filter.2 ⟨hs', by show (!s'.delete) = true; rw [hdel]; rfl⟩, e⟩ hn
    obtain ⟨j, s', h', -, e2, e3, e4, e5⟩ := t.kind ((t.idx_has hmk).2 hhas)
    exact ⟨j, s', h', e2, e3, e4, e5⟩
  unfold BuildW.autoVal at h
  split at h
  · next e => subst e; exact addr _ (by decide) ⟨_, _, _, _, rfl⟩ h
  split at h
  · next e => subst e; exact addr _ (by decide) ⟨_, _, _, _, rfl⟩ h
  split at h
  · next e =>
    subst e
    obtain ⟨j, s', h', e1, e2, e3, e4⟩ := kind .dynamicString rfl (by decide)
    cases h
    obtain ⟨d, al, k1, k2, k3⟩ := t.allocOnly e1 (by rw [e2]; simp) (by simp [otherBytes, e2]) (by rw [e2]; simp) (by rw [e2]; simp) (by rw [e2]; simp) (by rw [e2]; simp) (by rw [e2]; simp)
    unfold allocSize at k3
    simp only [e2] at k3
    injection k3 with k3
    have hz : (l.lay.at j).2 = p.dynstr.len := (Prod.mk.inj k3).1.symm
    have hsz : h'.size = p.dynstr.len := by rw [e4.size, hz]
    refine ⟨by rw [← hsz]; exact .size ⟨j, s', e1, e2, e3⟩, ?_⟩
    have := t.range e1 e4 (by rw [e2]; simp)
    have := x.out64
    omega
  split at h
  · next e => subst e; exact addr _ (by decide) ⟨_, _, _, _, rfl⟩ h
  split at h
  · next e => subst e; exact addr _ (by decide) ⟨_, _, _, _, rfl⟩ h
  split at h
  · next e => subst e; exact addr _ (by decide) ⟨_, _, _, _, rfl⟩ h
  split at h
  · next e => subst e; exact addr _ (by decide) ⟨_, _, _, _, rfl⟩ h
  split at h
  · next e =>
    subst e
    obtain ⟨j, s', h', e1, e2, e3, e4⟩ := kind .gnuVerdef rfl (by decide)
    cases h
    have hi := (e4.hd.table _ _ _ _ _ (by rw [e2]; rfl)).2.2.2.2.2
    have hver : p.ver.defs = tableInfo c .gnuVerdef := by
      obtain ⟨t, -, ht, -⟩ := x.plan.ver
      exact (versions_defs ht).1
    rw [e2, ← hver] at hi
    refine ⟨by rw [← hi]; exact .defs ⟨j, s', e1, e2, e3⟩, ?_⟩
    have := (x.hdFits e1 e4).info
    omega
  split at h
  · next e => subst e; exact addr _ (by decide) ⟨_, _, _, _, rfl⟩ h
  split at h
  · next e =>
    subst e
    obtain ⟨j, s', h', e1, e2, e3, e4⟩ := kind .gnuVerneed rfl (by decide)
    cases h
    have hi := (e4.hd.table _ _ _ _ _ (by rw [e2]; rfl)).2.2.2.2.2
    have hvn : p.verneeds = tableInfo c .gnuVerneed := by rw [x.plan.verneeds, iter_eq]; rfl
    rw [e2, ← hvn] at hi
    refine ⟨by rw [← hi]; exact .needs ⟨j, s', e1, e2, e3⟩, ?_⟩
    have := (x.hdFits e1 e4).info
    omega
  · cases h

theorem Tab.auto (t : Tab c p l out ss) (ha : AddrOk p l.lay) {i : Nat} {s : Sec} {ds : List Build.Dyn} (hs : p.secs[i]? = some s) (hd : s.data = .dynamic ds) :
    ∃ h, ss[i + 1]? = some h ∧ ∀ (k : Nat) tag, ds[k]? = some (Build.Dyn.auto tag) → h.offset + 2 * word p.cfg.is64 * k + 2 * word p.cfg.is64 ≤ out.length ∧
      ∃ v, dynAt p.cfg out (h.offset + 2 * word p.cfg.is64 * k) = (tag, v) ∧ AutoIs p.secs ss tag v := by
  obtain ⟨h, h1, h2⟩ := t.at_ i s hs
  refine ⟨h, h1, fun k tag hk => ?_⟩
  have hko := (t.ctx.sec_ok hs).2
  unfold KindOk at hko
  simp only [hd] at hko
  obtain ⟨d, al, k1, k2, k3⟩ := t.allocOnly hs (by rw [hd]; simp) (by simp [otherBytes, hd]) (by rw [hd]; simp) (by rw [hd]; simp) (by rw [hd]; simp) (by rw [hd]; simp) (by rw [hd]; simp)
  unfold allocBytes at k1
  simp only [hd] at k1
  unfold dynBytes at k1
  simp only [Res.bind_eq_ok] at k1
  obtain ⟨bs, e1, z, -, e3⟩ := k1
  cases e3
  rw [← h2.offset] at k2
  have he := (mapR_each _ _ _).1 e1
  obtain ⟨b, hb, hbe⟩ := each_get_left he hk
  unfold dynEntry at hbe
  rw [Res.bind_eq_ok] at hbe
  obtain ⟨v, v1, v2⟩ := hbe
  obtain ⟨r1, r2, r3⟩ := tag_range (.inr (autoVal_tag v1))
  obtain ⟨a1, a2⟩ := t.autoVal ha hs hd (List.mem_of_getElem? hk) v1
  obtain ⟨q1, q2, q3⟩ := writeDyn_read ⟨r1, r2⟩ v2
  have hlen : ∀ b' ∈ bs, b'.length = 2 * word p.cfg.is64 := by
    intro b' hb'
    obtain ⟨d', hd', e⟩ := each_mem he hb'
    cases d' with
    | auto tg =>
      unfold dynEntry at e
      rw [Res.bind_eq_ok] at e
      obtain ⟨w, w1, w2⟩ := e
      obtain ⟨r1, r2, r3⟩ := tag_range (.inr (autoVal_tag w1))
      exact (writeDyn_read ⟨r1, r2⟩ w2).1
    | integer tg val =>
      obtain ⟨o1, o2, o3, o4, o5, o6⟩ := hko.2.1 _ hd'
      have hw : wordLimit c.is64 ≤ 2 ^ 64 := (wordMax_le c.is64).1
      exact (writeDyn_read (val := val) ⟨by omega, by omega⟩ e).1
    | string tg val =>
      unfold dynEntry at e
      rw [Res.bind_eq_ok] at e
      obtain ⟨w, w1, w2⟩ := e
      obtain ⟨r1, r2, r3⟩ := tag_range (.inl (hko.2.1 _ hd'))
      exact (writeDyn_read ⟨r1, r2⟩ w2).1
  have hk' : Blk out (h.offset + 2 * word p.cfg.is64 * k) b := by
    have hspl : bs = bs.take k ++ b :: bs.drop (k + 1) := by
      have hlt := (List.getElem?_eq_some_iff.1 hb).1
      have hbb := (List.getElem?_eq_some_iff.1 hb).2
      rw [← hbb, ← List.drop_eq_getElem_cons hlt, List.take_append_drop]
    have hl1 : (bs.take k).flatten.length = 2 * word p.cfg.is64 * k := by
      have hlt := (List.getElem?_eq_some_iff.1 hb).1
      rw [List.length_flatten, List.map_congr_left (g := fun _ => 2 * word p.cfg.is64) (fun b' hb' => hlen b' (List.mem_of_mem_take hb'))]
      rw [List.map_const', List.sum_replicate_nat, List.length_take, Nat.min_eq_left (by omega), Nat.mul_comm]
    rw [hspl, List.flatten_append, List.flatten_cons, List.append_assoc, List.append_assoc] at k2
    have := (blk_append.1 (blk_append.1 k2).2).1
    rwa [hl1] at this
  have hin : h.offset + 2 * word p.cfg.is64 * k + 2 * word p.cfg.is64 ≤ out.length := by have := hk'.2; omega
  refine ⟨hin, v, ?_, a1⟩
  rw [← dyn_decode p.cfg out _ hin]
  have := hk'.1
  rw [q1] at this
  rw [this, q2, q3 a2]

end

theorem writeClean_auto {c : Full} {out : List UInt8} (h : writeClean c = .ok out) (hs : Sound c) :
    ∃ ss, SectionsOf ⟨c.is64, c.endian⟩ (headerIn ⟨c.is64, c.endian⟩ out) out ss ∧
      ∀ (i : Nat) s ds, (live c.tables.sections)[i]? = some s → s.data = .dynamic ds → ∃ h, ss[i + 1]? = some h ∧
        ∀ (k : Nat) tag, ds[k]? = some (Build.Dyn.auto tag) → h.offset + 2 * word c.is64 * k + 2 * word c.is64 ≤ out.length ∧
          ∃ v, dynAt ⟨c.is64, c.endian⟩ out (h.offset + 2 * word c.is64 * k) = (tag, v) ∧ AutoIs (live c.tables.sections) ss tag v := by
  obtain ⟨p, l, x, hl, -⟩ := writeClean_ctx h hs
  obtain ⟨ss, t⟩ := x.tab
  have ha := layout_addr hl
  have hc := x.plan.cfg
  refine ⟨ss, ?_, ?_⟩
  · have := t.of
    rw [← x.counts.1] at this
    rw [← hc]; exact this
  · intro i s ds h1 h2
    rw [← x.secs] at h1
    obtain ⟨h, k1, k2⟩ := t.auto ha h1 h2
    rw [← x.secs]
    rw [hc] at k2
    exact ⟨h, k1, k2⟩

end Obj.BuildW

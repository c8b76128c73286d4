import Verif.Proof.BuildW21
import Verif.Props.BuildRead

/-!
# C95, C96: what the ELF builder writes

See `Spec/BuildWrite.lean` for what reading the file again gives.  `write` first calls the public functions `delete_orphans` and
`delete_unused_versions`, which is `clean`; their effects are those of C65.
-/

namespace Obj.Props
open Obj Obj.Build Obj.BuildW Obj.BuildR Obj.Spec.BuildW
open Obj.Build.Spec (InRange VerInRange NoOrphans OrphanDyn Live Pointwise SegEffect SymEffect SecEffect VerUsed)
open Obj.Spec.BuildR (Image dynAt)
open Obj.Spec.ElfF (word SectionsOf headerIn SymbolsOf DataOf)
open Obj.Spec.ElfHashS (Hit)
open Obj.Elf (VersionTable Version sysvHash HashTable GnuHashTable)

private theorem pointwise_back {α : Type} {R : α → α → Prop} {l l' : List α} (h : Pointwise R l l') {i : Nat} {y : α} (hy : l'[i]? = some y) :
    ∃ x, l[i]? = some x ∧ R x y := by
  have hlt : i < l.length := by rw [← h.1]; exact (List.getElem?_eq_some_iff.1 hy).1
  obtain ⟨y', h1, h2⟩ := h.2 i _ (List.getElem?_eq_getElem hlt)
  rw [hy] at h1; cases h1
  exact ⟨_, List.getElem?_eq_getElem hlt, h2⟩

private theorem pointwise_mem {α : Type} {R : α → α → Prop} {l l' : List α} (h : Pointwise R l l') {y : α} (hy : y ∈ l') : ∃ x ∈ l, R x y := by
  obtain ⟨i, hi⟩ := List.getElem?_of_mem hy
  obtain ⟨x, h1, h2⟩ := pointwise_back h hi
  exact ⟨x, List.mem_of_getElem? h1, h2⟩

private theorem mem_live {α : Type} [Item α] {t : List α} {x : α} : x ∈ live t ↔ x ∈ t ∧ Item.deleted x = false := by
  unfold live
  rw [List.mem_filter, Bool.not_eq_true']

/-- C95: what is deleted before a builder is written.  If the references in the builder are to items that exist, then nothing that is left
refers to a deleted item, the ids do not change, and versions that are in use are kept. -/
theorem C95_clean (b : Full) (hb : Valid b.tables) :
    ∃ c, clean b = .ok c ∧ NoOrphans c.tables ∧ IdsOk c.tables.sections ∧ IdsOk c.tables.symbols ∧ IdsOk c.tables.dynamicSymbols ∧
      IdsOk c.tables.versions ∧ IdsOk c.tables.versionFiles ∧ (VersionsLive b.tables → VersionsLive c.tables) ∧
      c = { b with tables := c.tables } := by
  obtain ⟨t1, h1, p1, p2, p3, p4, e1, e2⟩ := C65_delete_orphans b.tables hb.refs
  have hn := C65_no_orphans b.tables t1 hb.refs h1
  have hv : VerInRange t1 := by
    refine ⟨?_, ?_, ?_, ?_⟩
    · intro s hs hd
      obtain ⟨x, hx, he, hdel⟩ := pointwise_mem p3 hs
      have hxd : x.delete = false := by
        cases hxd : x.delete with
        | false => rfl
        | true => rw [hdel.2 (.inl hxd)] at hd; cases hd
      have := hb.vers.syms x hx hxd
      rw [e1, he]; exact this
    · rw [e1, e2]; exact hb.vers.files
    · rw [e1]; exact hb.vers.verIds
    · rw [e2]; exact hb.vers.fileIds
  obtain ⟨t2, h2, q1, q2, q3⟩ := C65_unused_versions t1 hv
  have d1 : t2.segments = t1.segments := by rw [q3]
  have d2 : t2.sections = t1.sections := by rw [q3]
  have d3 : t2.symbols = t1.symbols := by rw [q3]
  have d4 : t2.dynamicSymbols = t1.dynamicSymbols := by rw [q3]
  refine ⟨{ b with tables := t2 }, ?_, ?_, ?_, ?_, ?_, ?_, ?_, ?_, rfl⟩
  · unfold clean
    rw [h1]; simp only [Res.ok_bind]; rw [h2]; rfl
  · exact ⟨by rw [d1, d2]; exact hn.segs, by rw [d3, d2]; exact hn.syms, by rw [d4, d2]; exact hn.dynSyms, by rw [d2, d3]; exact hn.rels,
      by rw [d2, d4]; exact hn.dynRels, by rw [d2]; exact hn.dyns⟩
  · intro i x hx
    simp only [d2] at hx
    obtain ⟨y, h, he⟩ := pointwise_back p4 hx
    have hi := hb.ids.1 i y h
    unfold SecEffect at he
    split at he
    · rw [he]; exact hi
    · rw [he]; exact hi
  · intro i x hx
    simp only [d3] at hx
    obtain ⟨y, h, he, -⟩ := pointwise_back p2 hx
    rw [he]; exact hb.ids.2.1 i y h
  · intro i x hx
    simp only [d4] at hx
    obtain ⟨y, h, he, -⟩ := pointwise_back p3 hx
    rw [he]; exact hb.ids.2.2 i y h
  · intro i x hx
    obtain ⟨y, h, he, -⟩ := pointwise_back q1 hx
    rw [he]; exact hv.verIds i y h
  · intro i x hx
    obtain ⟨y, h, he, -⟩ := pointwise_back q2 hx
    rw [he]; exact hv.fileIds i y h
  · rintro ⟨k1, k2⟩
    constructor
    · intro s hs h2
      obtain ⟨hs, hd⟩ := mem_live.1 hs
      simp only [d4] at hs
      obtain ⟨x, hx, he, hdel⟩ := pointwise_mem p3 hs
      have hxd : x.delete = false := by
        cases hxd : x.delete with
        | false => rfl
        | true => have := hdel.2 (.inl hxd); rw [show s.delete = false from hd] at this; cases this
      have hver : s.version = x.version := by rw [he]
      obtain ⟨v, g1, g2⟩ := k1 x (mem_live.2 ⟨hx, hxd⟩) (by omega)
      rw [← e1, ← hver] at g1
      obtain ⟨v', g3, g4, g5⟩ := q1.2 _ v g1
      refine ⟨v', g3, ?_⟩
      have hid := hv.verIds _ _ g1
      cases hvd : v'.delete with
      | false => exact hvd
      | true =>
        rcases g5.1 hvd with h | h
        · rw [show v.delete = false from g2] at h; cases h
        · exact absurd (.inl ⟨s, hs, hd, by omega⟩) h
    · intro v hv' file name flags hdata
      obtain ⟨hm, hd⟩ := mem_live.1 hv'
      obtain ⟨x, hx, he, hdel⟩ := pointwise_mem q1 hm
      have hxd : x.delete = false := by
        cases hxd : x.delete with
        | false => rfl
        | true => have := hdel.2 (.inl hxd); rw [show v.delete = false from hd] at this; cases this
      have hdata' : x.data = .need file name flags := by rw [← hdata, he]
      rw [e1] at hx
      obtain ⟨f, g1, g2⟩ := k2 x (mem_live.2 ⟨hx, hxd⟩) file name flags hdata'
      rw [← e2] at g1
      obtain ⟨f', g3, g4, g5⟩ := q2.2 _ f g1
      refine ⟨f', g3, ?_⟩
      have hid := hv.fileIds _ _ g1
      cases hfd : f'.delete with
      | false => exact hfd
      | true =>
        rcases g5.1 hfd with h | h
        · rw [show f.delete = false from g2] at h; cases h
        · exact absurd ⟨v, hm, hd, name, flags, by rw [hid]; exact hdata⟩ h

private theorem facts {b c : Full} {out : List UInt8} (hb : Valid b.tables) (hc : clean b = .ok c) (h : write b = .ok out) :
    ∃ p l, PlanOk c p ∧ LayoutOk c p l ∧ Emitted c p l out ∧ layout c p = .ok l := by
  unfold BuildW.write at h
  rw [hc] at h
  simp only [Res.ok_bind] at h
  obtain ⟨c', k1, -, k2, k3, k4, -⟩ := C95_clean b hb
  rw [hc] at k1; cases k1
  unfold writeClean at h
  simp only [Res.bind_eq_ok] at h
  obtain ⟨p, h1, l, h2, h3⟩ := h
  have hp := plan_ok ⟨k2, k3, k4⟩ h1
  have hl := layout_ok hp.idx h2
  refine ⟨p, l, hp, hl, emit_ok h3 ?_ ?_, h2⟩
  · intro h
    rcases hp.symNum with ⟨-, h, -⟩ | ⟨h', -⟩
    · exact h
    · exact absurd h h'
  · intro h
    rcases hl.shoff with ⟨h1, -⟩ | ⟨-, h1, -⟩
    · rcases hp.secNum with ⟨h, -⟩ | ⟨-, h, -⟩
      · exact h
      · omega
    · have : 52 ≤ p.cfg.ehdrSize := by unfold Elf.Cfg.ehdrSize; split <;> omega
      omega

private theorem secs_live {c : Full} {p : Plan} (hp : PlanOk c p) : p.secs = live c.tables.sections := by
  rw [hp.secs, iter_eq]; rfl

private theorem has_of {c : Full} {p : Plan} (hp : PlanOk c p) {k : SecData} (h : p.idx k ≠ 0) : has c k := by
  obtain ⟨-, s, h1, h2⟩ := hp.idx.at_ k h
  exact ⟨s, by rw [← secs_live hp]; exact List.mem_of_getElem? h1, h2⟩

/-- C95: `write` fails if a table that is needed has no section: a section needs `.shstrtab`, a symbol `.symtab`, a dynamic symbol
`.dynsym`, a version that is defined `.gnu.version_d`, a file that versions are needed from `.gnu.version_r`, and a symbol in a section
with a reserved index `.symtab_shndx`. -/
theorem C95_required (b c : Full) (out : List UInt8) (hb : Valid b.tables) (hc : clean b = .ok c) (h : write b = .ok out) :
    (live c.tables.sections ≠ [] → has c .sectionString) ∧
    (live c.tables.symbols ≠ [] → has c .symbol) ∧
    (live c.tables.dynamicSymbols ≠ [] → has c .dynamicSymbol) ∧
    (c.versionBase ≠ none ∨ (∃ v ∈ live c.tables.versions, isDef v = true) → has c .gnuVerdef) ∧
    (live c.tables.versionFiles ≠ [] → has c .gnuVerneed) ∧
    ∀ s ∈ live c.tables.symbols, ∀ i j, s.section_ = some i → Place (live c.tables.sections) i j → 0xff00 ≤ j + 1 → has c .symbolSectionIndex := by
  obtain ⟨p, l, hp, hl, he, ho⟩ := facts hb hc h
  have hmem : ∀ s, s ∈ p.syms ↔ s ∈ live c.tables.symbols := by
    intro s
    rw [hp.syms, ordered_eq]
    unfold symbolOrder
    simp only [List.mem_append, List.mem_filter, Bool.not_eq_true']
    cases localSym s <;> simp
  refine ⟨?_, ?_, ?_, ?_, ?_, ?_⟩
  · intro h
    rw [← secs_live hp] at h
    exact has_of hp (hp.sectionString h)
  · intro h
    rcases hp.symNum with ⟨-, h', -⟩ | ⟨h', -⟩
    · obtain ⟨s, hs⟩ := List.exists_mem_of_ne_nil _ h
      rw [← hmem, h'] at hs; cases hs
    · exact has_of hp h'
  · intro h
    rcases hp.dynNum with ⟨-, h', -⟩ | ⟨h', -⟩
    · have := hp.dyns.1
      rw [h'] at this
      exact absurd this.symm.eq_nil h
    · exact has_of hp h'
  · intro h
    refine has_of hp fun h' => ?_
    have h' := hp.verdef h'
    obtain ⟨t, -, ht, -⟩ := hp.ver
    have hd := (versions_defs ht).1
    rw [h'] at hd
    rcases h with h | ⟨v, hv, hv'⟩
    · cases hb : c.versionBase with
      | none => exact h hb
      | some n => rw [hb] at hd; simp at hd; omega
    · have : v ∈ (live c.tables.versions).filter isDef := List.mem_filter.2 ⟨hv, hv'⟩
      have := List.length_pos_of_mem this
      omega
  · intro h
    refine has_of hp fun h' => h ?_
    have h' := hp.verneed h'
    rw [hp.verneeds, iter_eq] at h'
    exact List.length_eq_zero_iff.1 h'
  · intro s hs i j hi hj hlarge
    obtain ⟨x, hx, hid⟩ := hj
    have hs' := (hmem s).2 hs
    obtain ⟨ss, e1, -⟩ := he.symbols
    obtain ⟨k, hk⟩ := List.getElem?_of_mem hs'
    obtain ⟨nm, hnm, -⟩ := each_get_left hp.symNames hk
    rw [mapR_each] at e1
    obtain ⟨w, -, e2⟩ := each_get_left e1 (List.getElem?_zip_eq_some (z := (s, nm)) |>.2 ⟨hk, hnm⟩)
    unfold symOut at e2
    simp only [hi] at e2
    rw [Res.bind_eq_ok] at e2
    obtain ⟨sec, e3, -⟩ := e2
    rw [Res.bind_eq_ok] at e3
    obtain ⟨n, e4, -⟩ := e3
    unfold look at e4
    split at e4
    · next m hm =>
      cases e4
      have hplace : (p.secs.map (·.id))[j]? = some i := by
        rw [List.getElem?_map, secs_live hp, hx]
        exact congrArg some hid
      refine has_of hp (hp.large s hs' i n hi hm ?_)
      rcases hp.secIdx i n hm with ⟨-, h⟩ | ⟨h0, h⟩
      · exact absurd (List.mem_of_getElem? hplace) h
      · obtain ⟨c', k1, -, k2, -⟩ := C95_clean b hb
        rw [hc] at k1; cases k1
        have hnd : (p.secs.map (·.id)).Nodup := by
          rw [secs_live hp]
          exact live_nodup k2
        have hlt := (List.getElem?_eq_some_iff.1 h).1
        have := (List.getElem?_inj hlt hnd).1 (h.trans hplace.symm)
        omega
    · cases e4

/-- C95: `write` fails if two sections hold the same table. -/
theorem C95_one_table (b c : Full) (out : List UInt8) (hb : Valid b.tables) (hc : clean b = .ok c) (h : write b = .ok out) (i j : Nat) (s s' : Sec)
    (hi : (live c.tables.sections)[i]? = some s) (hj : (live c.tables.sections)[j]? = some s') (hk : tableHeader c.is64 s.data ≠ none)
    (he : s'.data = s.data) : i = j := by
  obtain ⟨p, l, hp, -, -, -⟩ := facts hb hc h
  have hm : isMeta s.data = true := by
    cases hd : s.data <;> rw [hd] at hk <;> first | rfl | exact absurd rfl hk
  rw [← secs_live hp] at hi hj
  have h1 := hp.idx.of i s hi hm
  have h2 := hp.idx.of j s' hj (by rw [he]; exact hm)
  rw [he] at h2
  omega

/-- C95: a file of the 32-bit class has less than 4 GiB. -/
theorem C95_small (b c : Full) (out : List UInt8) (hb : Valid b.tables) (hc : clean b = .ok c) (h : write b = .ok out) (h32 : b.is64 = false) :
    out.length < 2 ^ 32 := by
  obtain ⟨p, l, hp, hl, he, -⟩ := facts hb hc h
  obtain ⟨c', k1, -, -, -, -, -, -, -, k2⟩ := C95_clean b hb
  rw [hc] at k1; cases k1
  rw [he.len]
  refine hl.small ?_
  rw [hp.cfg]
  show c.is64 = false
  rw [k2]; exact h32

/-- C95: if there are segments then the program headers directly follow the file header, so `write` fails for any other `e_phoff`. -/
theorem C95_phoff (b c : Full) (out : List UInt8) (hb : Valid b.tables) (hc : clean b = .ok c) (h : write b = .ok out)
    (hs : live c.tables.segments ≠ []) : c.header.ePhoff = if c.is64 then 64 else 52 := by
  obtain ⟨p, l, hp, -, -, hl⟩ := facts hb hc h
  unfold layout at hl
  rw [Res.bind_eq_ok] at hl
  obtain ⟨g, hg, -⟩ := hl
  have hn : Build.count c.tables.segments ≠ 0 := by
    rw [count_le, iter_eq]
    intro h
    exact hs (List.length_eq_zero_iff.1 h)
  unfold segmentsAt at hg
  rw [hp.cfg] at hg
  simp only at hg
  split at hg
  · cases hg
  · rw [Res.bind_eq_ok] at hg
    obtain ⟨r, h1, h2⟩ := hg
    split at h2
    · cases h2
    · next h3 =>
      unfold BuildW.reserve at h1
      rw [Res.bind_eq_ok] at h1
      obtain ⟨o, h4, h5⟩ := h1
      rw [Res.bind_eq_ok] at h5
      obtain ⟨e, h5, h6⟩ := h5
      cases h6
      have h3 : c.header.ePhoff = o := by by_cases e : c.header.ePhoff = o; exact e; exact absurd e h3
      rw [h3]
      cases hi : c.is64 <;> rw [hi] at h4
      · have : align64 52 4 = .ok 52 := by decide +kernel
        rw [show (Elf.Cfg.mk false c.endian).ehdrSize = 52 from rfl, show (Elf.Cfg.mk false c.endian).w = 4 from rfl, this] at h4
        cases h4; rfl
      · have : align64 64 8 = .ok 64 := by decide +kernel
        rw [show (Elf.Cfg.mk true c.endian).ehdrSize = 64 from rfl, show (Elf.Cfg.mk true c.endian).w = 8 from rfl, this] at h4
        cases h4; rfl

private theorem and_two (n : Nat) : n &&& 2 ≠ 0 ↔ n.testBit 1 = true := by
  rw [show (2 : Nat) = 2 ^ 1 from rfl]
  exact flag_test n 1

/-- C95: sections that are loaded (`SHF_ALLOC`) are written at their offset, if there are segments. -/
theorem C95_loaded (b c : Full) (out : List UInt8) (hb : Valid b.tables) (hc : clean b = .ok c) (h : write b = .ok out)
    (hg : live c.tables.segments ≠ []) (s : Sec) (hs : s ∈ live c.tables.sections) (ha : s.shFlags.testBit 1 = true) (ht : s.shType ≠ 8)
    (d : List UInt8) (hd : s.data = .data d ∨ s.data = .note d) : s.shOffset + d.length ≤ out.length ∧ slice out s.shOffset d.length = d := by
  obtain ⟨p, l, hp, hl, he, -⟩ := facts hb hc h
  have hge : Build.isEmpty c.tables.segments = false := by
    cases h : Build.isEmpty c.tables.segments with
    | false => rfl
    | true => exact absurd ((isEmpty_live _).1 h) hg
  rw [← secs_live hp] at hs
  obtain ⟨i, hi⟩ := List.getElem?_of_mem hs
  have hal : isAlloc s = true := by unfold isAlloc; rw [decide_eq_true_eq, and_two]; exact ha
  obtain ⟨d', h1, h2⟩ := he.alloc hge (s, i) (allocOrder_mem.2 ⟨hi, hal⟩) ht
  have hd' : d' = d := by
    unfold allocBytes at h1
    rcases hd with hd | hd <;> simp only [hd] at h1 <;> injection h1 with h1 <;> exact h1.symm
  subst hd'
  obtain ⟨a, hat, -⟩ := each_get_left hp.attrs hi
  have := ((hl.sizes i s a hi hat).alloc (by unfold keepsOffset; rw [hge, hal]; rfl)).1
  rw [show (l.lay.at (s, i).2).1 = s.shOffset from this] at h2
  exact ⟨h2.2, h2.1⟩

/-- The file bytes of a section that is laid out. -/
private def Apart (a b : Sec) : Prop := ∀ d, (a.data = .data d ∨ a.data = .note d) → (∀ len, b.data ≠ .uninit len) → a.shOffset + d.length ≤ b.shOffset

private theorem alloc_apart {c : Full} {p : Plan} : ∀ (xs : List (Sec × Nat)) (l l' : Lay), foldR (allocStep c p) l xs = .ok l' →
    (∀ x ∈ xs, (∀ len, x.1.data ≠ .uninit len) → l.offset ≤ x.1.shOffset) ∧ xs.Pairwise fun a b => Apart a.1 b.1 := by
  intro xs
  induction xs with
  | nil => intro l l' _; exact ⟨by simp, .nil⟩
  | cons x xs ih =>
    intro l l' h
    rw [foldR_cons] at h
    obtain ⟨l1, h1, h2⟩ := h
    obtain ⟨k1, k2⟩ := ih l1 l' h2
    unfold allocStep at h1
    by_cases hu : ∃ len, x.1.data = .uninit len
    · obtain ⟨len, hu⟩ := hu
      simp only [hu] at h1
      cases h1
      refine ⟨?_, List.pairwise_cons.2 ⟨?_, k2⟩⟩
      · intro y hy hn
        rcases List.mem_cons.1 hy with rfl | hy
        · exact absurd hu (hn len)
        · exact k1 y hy hn
      · intro y hy d hd
        rcases hd with hd | hd <;> rw [hu] at hd <;> cases hd
    · have h1 : (if x.1.shOffset < l.offset then .err else
          (allocSize c p x.1).bind fun sa => (BuildW.reserve x.1.shOffset sa.1 sa.2).bind fun r =>
          if r.1.1 ≠ x.1.shOffset then .err else .ok ((l.setAddr x.1).set x.2 r)) = .ok l1 := by
        revert h1
        cases hd : x.1.data <;> intro h1 <;> first | exact h1 | exact absurd ⟨_, hd⟩ hu
      split at h1
      · cases h1
      · next hge =>
        simp only [Res.bind_eq_ok] at h1
        obtain ⟨sa, h3, r, h4, h5⟩ := h1
        split at h5
        · cases h5
        · next h6 =>
          cases h5
          have h6 : r.1.1 = x.1.shOffset := by by_cases e : r.1.1 = x.1.shOffset; exact e; exact absurd e h6
          have hoff : r.2 = x.1.shOffset + sa.1 := by
            unfold BuildW.reserve at h4
            simp only [Res.bind_eq_ok] at h4
            obtain ⟨o, h7, e, h8, h9⟩ := h4
            cases h9
            unfold add64 at h8
            split at h8
            · cases h8
              simp only at h6 ⊢
              rw [h6]
            · cases h8
          have hk1 : ∀ y ∈ xs, (∀ len, y.1.data ≠ .uninit len) → x.1.shOffset + sa.1 ≤ y.1.shOffset := by
            intro y hy hn
            have := k1 y hy hn
            rw [← hoff]; exact this
          refine ⟨?_, List.pairwise_cons.2 ⟨?_, k2⟩⟩
          · intro y hy hn
            rcases List.mem_cons.1 hy with rfl | hy
            · omega
            · have := hk1 y hy hn; omega
          · intro y hy d hd hn
            have := hk1 y hy hn
            unfold allocSize at h3
            rcases hd with hd | hd <;> simp only [hd] at h3 <;> cases h3 <;> exact this

/-- C95: the bytes of sections that are loaded do not overlap each other, nor the headers. -/
theorem C95_disjoint (b c : Full) (out : List UInt8) (hb : Valid b.tables) (hc : clean b = .ok c) (h : write b = .ok out)
    (hg : live c.tables.segments ≠ []) :
    (∀ s ∈ live c.tables.sections, s.shFlags.testBit 1 = true → (∀ len, s.data ≠ .uninit len) →
      (if c.is64 then 64 + (live c.tables.segments).length * 56 else 52 + (live c.tables.segments).length * 32) ≤ s.shOffset) ∧
    ∀ (i j : Nat) s s' d d', i ≠ j → (live c.tables.sections)[i]? = some s → (live c.tables.sections)[j]? = some s' →
      s.shFlags.testBit 1 = true → s'.shFlags.testBit 1 = true →
      (s.data = .data d ∨ s.data = .note d) → (s'.data = .data d' ∨ s'.data = .note d') →
      s.shOffset + d.length ≤ s'.shOffset ∨ s'.shOffset + d'.length ≤ s.shOffset := by
  obtain ⟨p, l, hp, -, -, hl⟩ := facts hb hc h
  have hph := C95_phoff b c out hb hc h hg
  have hge : Build.isEmpty c.tables.segments = false := by
    cases h : Build.isEmpty c.tables.segments with
    | false => rfl
    | true => exact absurd ((isEmpty_live _).1 h) hg
  have hn : Build.count c.tables.segments = (live c.tables.segments).length := by rw [count_le, iter_eq]; rfl
  have hn0 : Build.count c.tables.segments ≠ 0 := by
    rw [hn]; intro h; exact hg (List.length_eq_zero_iff.1 h)
  unfold layout at hl
  simp only [Res.bind_eq_ok, hge] at hl
  obtain ⟨g, h1, l1, h2, -⟩ := hl
  have hoff : g.2.2 = if c.is64 then 64 + (live c.tables.segments).length * 56 else 52 + (live c.tables.segments).length * 32 := by
    unfold segmentsAt at h1
    rw [hp.cfg] at h1
    simp only at h1
    split at h1
    · cases h1
    · rw [Res.bind_eq_ok] at h1
      obtain ⟨r, h3, h4⟩ := h1
      split at h4
      · cases h4
      · next h5 =>
        cases h4
        have h5 : c.header.ePhoff = r.1.1 := by by_cases e : c.header.ePhoff = r.1.1; exact e; exact absurd e h5
        unfold BuildW.reserve at h3
        simp only [Res.bind_eq_ok] at h3
        obtain ⟨o, h7, e, h8, h9⟩ := h3
        cases h9
        unfold add64 at h8
        split at h8
        · cases h8
          simp only at h5 ⊢
          rw [← h5, hph, hn]
          unfold Elf.Cfg.phdrSize
          cases c.is64 <;> rfl
        · cases h8
  have h2 : foldR (allocStep c p) ⟨List.replicate p.secs.length (0, 0), g.2.2, fun _ => none⟩ (allocOrder p.secs) = .ok l1 := h2
  obtain ⟨k1, k2⟩ := alloc_apart _ _ _ h2
  have hal : ∀ {s : Sec}, s.shFlags.testBit 1 = true → isAlloc s = true := fun ha => by
    unfold isAlloc; rw [decide_eq_true_eq, and_two]; exact ha
  rw [← secs_live hp]
  constructor
  · intro s hs ha hu
    obtain ⟨i, hi⟩ := List.getElem?_of_mem hs
    have := k1 (s, i) (allocOrder_mem.2 ⟨hi, hal ha⟩) hu
    rw [← hoff]; exact this
  · intro i j s s' d d' hij hi hj ha ha' hd hd'
    have m1 := (allocOrder_mem (x := (s, i))).2 ⟨hi, hal ha⟩
    have m2 := (allocOrder_mem (x := (s', j))).2 ⟨hj, hal ha'⟩
    have nu : ∀ {x : Sec} {d : List UInt8}, x.data = .data d ∨ x.data = .note d → ∀ len, x.data ≠ .uninit len := by
      intro x d hd len h
      rcases hd with hd | hd <;> rw [hd] at h <;> cases h
    obtain ⟨n, hn⟩ := List.getElem?_of_mem m1
    obtain ⟨m, hm⟩ := List.getElem?_of_mem m2
    rw [List.pairwise_iff_getElem] at k2
    obtain ⟨ln, en⟩ := List.getElem?_eq_some_iff.1 hn
    obtain ⟨lm, em⟩ := List.getElem?_eq_some_iff.1 hm
    rcases Nat.lt_trichotomy n m with hnm | hnm | hnm
    · have := k2 n m ln lm hnm
      rw [en, em] at this
      exact .inl (this d hd (nu hd'))
    · subst hnm
      rw [hn] at hm
      cases hm
      exact absurd rfl hij
    · have := k2 m n lm ln hnm
      rw [en, em] at this
      exact .inr (this d' hd' (nu hd))

/-- C96: a builder that was read, from any file, is valid and can be cleaned; nothing is deleted except versions that are not in use, unless
the dynamic section has an entry that needs a kind of section of which there is none. -/
theorem C96_read (is64 : Bool) (data : List UInt8) (hlen : data.length < 2 ^ 64) (b : Full) (h : readFile is64 data = .ok b) :
    Valid b.tables ∧ VersionsLive b.tables ∧ ∃ c, clean b = .ok c ∧ VersionsLive c.tables ∧
      ((∀ s ∈ b.tables.sections, ∀ l, s.data = .dynamic l → ∀ d ∈ l, ¬ OrphanDyn b.tables.sections d) →
        c = { b with tables := { b.tables with versions := c.tables.versions, versionFiles := c.tables.versionFiles } }) := by
  obtain ⟨i1, i2, i3, i4, i5, i6⟩ := C94_ids is64 data hlen b h
  obtain ⟨r1, r2⟩ := C94_references is64 data hlen b h
  have hv : Valid b.tables := ⟨⟨fun i x hx => (i2 i x hx).1, fun i x hx => (i3 i x hx).1, fun i x hx => (i4 i x hx).1⟩, r1, r2⟩
  have hl : VersionsLive b.tables := by
    constructor
    · intro s hs h2
      obtain ⟨hs, hd⟩ := mem_live.1 hs
      have := r2.syms s hs hd
      have hlt : s.version - 2 < b.tables.versions.length := by omega
      exact ⟨_, List.getElem?_eq_getElem hlt, (i6 _ _ (List.getElem?_eq_getElem hlt)).2⟩
    · intro v hv file name flags he
      obtain ⟨hv, hd⟩ := mem_live.1 hv
      have hlt := r2.files v hv hd file name flags he
      exact ⟨_, List.getElem?_eq_getElem hlt, (i5 _ _ (List.getElem?_eq_getElem hlt)).2⟩
  obtain ⟨c, k1, -, -, -, -, -, -, k2, k3⟩ := C95_clean b hv
  refine ⟨hv, hl, c, k1, k2 hl, fun hd => ?_⟩
  obtain ⟨-, hno⟩ := C94_no_orphans is64 data hlen b h hd
  obtain ⟨t2, h2, q1, q2, q3⟩ := C65_unused_versions b.tables r2
  unfold clean at k1
  rw [hno] at k1
  simp only [Res.ok_bind] at k1
  rw [h2] at k1
  cases k1
  show ({ b with tables := t2 } : Full) = _
  rw [q3]

/-- C96: what was written can be read, and reading gives the same builder, up to the differences in `Same`. -/
theorem C96_round_trip (b c : Full) (out : List UInt8) (hc : clean b = .ok c) (h : write b = .ok out) (hs : Sound c) :
    ∃ b', readFile c.is64 out = .ok b' ∧ Same c b' := by
  unfold BuildW.write at h
  rw [hc] at h
  obtain ⟨b', h1, h2, h3⟩ := writeClean_image h hs
  exact ⟨b', (C94_exact _ _ h3 _).2 h1, h2⟩

/-- C95: the value of a generated entry of a dynamic section is the address or size in the header of the table it is for, or the number of versions in that header. -/
theorem C95_auto (b c : Full) (out : List UInt8) (hc : clean b = .ok c) (h : write b = .ok out) (hs : Sound c) :
    ∃ ss, SectionsOf ⟨c.is64, c.endian⟩ (headerIn ⟨c.is64, c.endian⟩ out) out ss ∧
      ∀ (i : Nat) s ds, (live c.tables.sections)[i]? = some s → s.data = .dynamic ds → ∃ h, ss[i + 1]? = some h ∧
        ∀ (k : Nat) tag, ds[k]? = some (Build.Dyn.auto tag) → h.offset + 2 * word c.is64 * k + 2 * word c.is64 ≤ out.length ∧
          ∃ v, dynAt ⟨c.is64, c.endian⟩ out (h.offset + 2 * word c.is64 * k) = (tag, v) ∧ AutoIs (live c.tables.sections) ss tag v := by
  unfold BuildW.write at h
  rw [hc] at h
  exact writeClean_auto h hs

/-- C95: looking up a non-empty name in the hash table of the file gives the last dynamic symbol with that name and version, if there is one; and in the GNU hash table
(with a filter and a shift that its format allows) the first one that is neither local nor undefined. -/
theorem C95_hash (b c : Full) (out : List UInt8) (hc : clean b = .ok c) (h : write b = .ok out) (hs : Sound c) :
    ∃ ss st, SectionsOf ⟨c.is64, c.endian⟩ (headerIn ⟨c.is64, c.endian⟩ out) out ss ∧ SymbolsOf ⟨c.is64, c.endian⟩ out ss 11 st ∧
      (has c .hash → ∃ h d tb, HeaderFor (live c.tables.sections) ss .hash h ∧ DataOf out h d ∧ HashTable.parse c.endian d = .ok tb ∧
        ∀ (vs : VersionTable) (name : List UInt8) (ver : Option Version), name ≠ [] →
          (∀ k y, Hit st vs out name ver k y → ∃ j y', tb.find out name (sysvHash name) ver st vs = some (j, y') ∧ Hit st vs out name ver j y' ∧ k ≤ j) ∧
          ((∀ k y, ¬ Hit st vs out name ver k y) → tb.find out name (sysvHash name) ver st vs = none)) ∧
      (has c .gnuHash → 0 < c.bloomCount → c.bloomShift < 32 → ∃ h d tb, HeaderFor (live c.tables.sections) ss .gnuHash h ∧ DataOf out h d ∧
        GnuHashTable.parse ⟨c.is64, c.endian⟩ d = .ok tb ∧ ∀ (vs : VersionTable) (name : List UInt8) (ver : Option Version), name ≠ [] →
          (∀ j y, tb.find ⟨c.is64, c.endian⟩ out name (Elf.gnuHash name) ver st vs = .ok (some (j, y)) ↔
            GnuHit st vs out name ver j y ∧ ∀ k y', k < j → ¬ GnuHit st vs out name ver k y') ∧
          (tb.find ⟨c.is64, c.endian⟩ out name (Elf.gnuHash name) ver st vs = .ok none ↔ ∀ k y, ¬ GnuHit st vs out name ver k y)) := by
  unfold BuildW.write at h
  rw [hc] at h
  exact writeClean_hash h hs

/-! ## An example: a 32-bit library with a relocation for `main` in `.text`, and a hidden dynamic symbol `puts` of version `GLIBC_2` of
`libc.so`, and a dynamic symbol `f`.  A section is deleted, with its symbol, for which there is another relocation, and there is a version that is not used. -/

private def str (s : String) : List UInt8 := s.toUTF8.toList

private def sec (id : Nat) (name : String) (t f addr off : Nat) (link : Option Nat) (data : SecData) (align : Nat := 1) : Sec :=
  ⟨id, false, str name, t, f, addr, off, 0, link, 0, none, align, 0, data⟩

def bwB : Full :=
  { endian := .little, is64 := false, loadAlign := 0x1000, header := ⟨0, 0, 3, 3, 0x1054, 0, 52⟩, versionBase := none,
    hashBuckets := 1, gnuBuckets := 1, bloomCount := 1, bloomShift := 5,
    tables :=
      { segments := [⟨0, false, 1, 5, 0, 0x1000, 0x1000, 284, 284, 0x1000, [0, 4, 5]⟩],
        sections := [sec 0 ".text" 1 6 0x1054 84 none (.data [0x90, 0x90, 0x90, 0xc3]) 4,
          { sec 1 ".rela.text" 4 0x40 0 0 (some 2) (.relocs [⟨2, some 0, 1, -4⟩, ⟨3, some 1, 1, 0⟩]) with infoSection := some 0, entsize := 12 },
          sec 2 ".symtab" 2 0 0 0 none .symbol, sec 3 ".strtab" 3 0 0 0 none .string,
          sec 4 ".dynsym" 11 2 0x1058 88 none .dynamicSymbol, sec 5 ".dynstr" 3 2 0x1088 136 none .dynamicString,
          sec 6 ".gnu.version" 0x6fffffff 2 0x10a0 160 none .gnuVersym, sec 7 ".gnu.version_r" 0x6ffffffe 2 0x10a8 168 none .gnuVerneed,
          sec 8 ".dynamic" 6 3 0x10c8 200 (some 5) (.dynamic [.string 1 (str "libc.so"), .auto 5, .integer 21 7]) 4,
          sec 9 ".hash" 5 2 0x10e8 232 none .hash, sec 10 ".shstrtab" 3 0 0 0 none .sectionString,
          { sec 11 ".old" 1 0 0 0 none (.data [1]) with delete := true },
          sec 12 ".comment" 1 0 0 0 none (.data [0x68, 0x69]), sec 13 ".gnu.hash" 0x6ffffff6 2 0x1100 256 none .gnuHash],
        symbols := [⟨0, false, str "main", some 0, 0x12, 0, 0, 0x1054, 4, 0, false⟩, ⟨1, false, str "old", some 11, 0x12, 0, 0, 0, 0, 0, false⟩,
          ⟨2, false, str "a.c", none, 0x04, 0, 0xfff1, 0, 0, 0, false⟩],
        dynamicSymbols := [⟨0, false, str "puts", none, 0x12, 0, 0, 0, 0, 2, true⟩, ⟨1, false, str "f", some 0, 0x12, 0, 0, 0x1054, 4, 1, false⟩],
        versionFiles := [⟨0, false, str "libc.so"⟩, ⟨1, false, str "libm.so"⟩],
        versions := [⟨0, .need 0 (str "GLIBC_2") 0, false⟩, ⟨1, .need 1 (str "GLIBC_3") 0, false⟩] } }

private theorem opt_all {o : Option Nat} {p : Nat → Bool} (h : o.all p = true) (i : Nat) (hi : o = some i) : p i = true := by
  rw [hi] at h; exact h

private theorem ids_of {α : Type} [Item α] {t : List α} (h : (t.zipIdx.all fun x => Item.id x.1 == x.2) = true) : IdsOk t := by
  intro i x hx
  have := List.all_eq_true.1 h (x, i) (List.mem_zipIdx_iff_getElem?.2 (by simpa using hx))
  simpa using this

private theorem exValid : Valid bwB.tables := by
  refine ⟨⟨ids_of (by decide +kernel), ids_of (by decide +kernel), ids_of (by decide +kernel)⟩, ⟨?_, ?_, ?_, ?_, ?_⟩, ⟨?_, ?_, ids_of (by decide +kernel), ids_of (by decide +kernel)⟩⟩
  · decide +kernel
  · intro s hs i hi
    have : ∀ s ∈ bwB.tables.symbols, s.section_.all (fun i => decide (i < bwB.tables.sections.length)) = true := by decide +kernel
    exact of_decide_eq_true (opt_all (this s hs) i hi)
  · intro s hs i hi
    have : ∀ s ∈ bwB.tables.dynamicSymbols, s.section_.all (fun i => decide (i < bwB.tables.sections.length)) = true := by decide +kernel
    exact of_decide_eq_true (opt_all (this s hs) i hi)
  · intro s hs l hl r hr i hi
    have : ∀ s ∈ bwB.tables.sections, (match s.data with | .relocs l => l.all fun r => r.symbol.all fun i => decide (i < bwB.tables.symbols.length) | _ => true) = true := by
      decide +kernel
    have := this s hs
    rw [hl] at this
    exact of_decide_eq_true (opt_all (List.all_eq_true.1 this r hr) i hi)
  · intro s hs l hl r hr i hi
    have : ∀ s ∈ bwB.tables.sections, (match s.data with | .dynRelocs l => false | _ => true) = true := by decide +kernel
    have := this s hs
    rw [hl] at this
    cases this
  · decide +kernel
  · intro v hv hd file name flags he
    have : ∀ v ∈ bwB.tables.versions, (match v.data with | .need file _ _ => decide (file < bwB.tables.versionFiles.length) | _ => true) = true := by decide +kernel
    have := this v hv
    rw [he] at this
    exact of_decide_eq_true this

/-- The builder that is written. -/
def bwC : Full :=
  { bwB with tables := { bwB.tables with
      sections := bwB.tables.sections.map fun s => if s.id = 1 then { s with data := .relocs [⟨2, some 0, 1, -4⟩] } else s,
      symbols := bwB.tables.symbols.map fun s => { s with delete := s.id = 1 },
      versionFiles := bwB.tables.versionFiles.map fun f => { f with delete := f.id = 1 },
      versions := bwB.tables.versions.map fun v => { v with delete := v.id = 1 } } }

theorem bwClean : clean bwB = .ok bwC := by
  have h : (match clean bwB with | .ok c => decide (c = bwC) | _ => false) = true := by decide +kernel
  split at h
  · next c hc => rw [hc, of_decide_eq_true h]
  · cases h

/-- The plan for symbols that are in the order of the GNU hash table. -/
private def gnuOrderIn (m : Idx) (buckets n : Nat) (l : List DynOut) : Res (List DynOut × Nat) :=
  if m .gnuHash = 0 then .ok (l, 0)
  else if buckets = 0 then .err
  else if (l.drop n).Pairwise (fun a b => decide (gnuKey buckets a ≤ gnuKey buckets b) = true) then .ok (l, ((l.drop n).dropWhile fun d => d.gnu.isNone).length)
  else .err

private theorem gnuOrderIn_ok {m : Idx} {buckets n : Nat} {l : List DynOut} {r : List DynOut × Nat} (h : gnuOrderIn m buckets n l = .ok r) : gnuOrder m buckets n l = .ok r := by
  unfold gnuOrderIn at h
  unfold gnuOrder
  split at h
  · next h0 => rw [if_pos h0]; exact h
  · next h0 =>
    rw [if_neg h0]
    split at h
    · cases h
    · next hb =>
      rw [if_neg hb]
      split at h
      · next hs =>
        have e : gnuSort buckets n l = l := by
          unfold gnuSort
          rw [List.mergeSort_of_pairwise hs, List.take_append_drop]
        rw [e]; exact h
      · cases h

private def planDynsIn (b : Full) (m : Idx) (t : StrTab) : Res (Nat × List DynOut × Nat × Nat × List Nat × StrTab) :=
  (countOf (m .dynamicSymbol = 0 ∧ Build.isEmpty b.tables.dynamicSymbols = true) (Build.count b.tables.dynamicSymbols)).bind fun num =>
  (dynOuts m t (ordered b.tables.dynamicSymbols)).bind fun r =>
  let n := (r.1.takeWhile fun d => isLocal d.sym).length
  (gnuOrderIn m b.gnuBuckets n r.1).bind fun g =>
  (indexVec (List.replicate b.tables.dynamicSymbols.length 0) 1 (g.1.map (·.sym.id))).bind fun v =>
  .ok (num, g.1, n, g.2, v, r.2)

private def planIn (b : Full) : Res Plan :=
  let c : Elf.Cfg := ⟨b.is64, b.endian⟩
  let secs := iter b.tables.sections
  (countOf (Build.isEmpty b.tables.sections) (Build.count b.tables.sections)).bind fun secNum =>
  (sectionLoop secs 1 (fun _ => 0) StrTab.new).bind fun s =>
  (indexVec (List.replicate b.tables.sections.length 0) 1 (secs.map (·.id))).bind fun secIdx =>
  (addAll StrTab.new (dynStrings secs)).bind fun dynstr =>
  (planDynsIn b s.1 dynstr).bind fun d =>
  (planSyms b s.1 secIdx).bind fun y =>
  (versions b d.2.2.2.2.2).bind fun ver =>
  let verneeds := (iter b.tables.versionFiles).length
  (mapR (attributesOf b.endian secIdx y.2.2.2.2.2.1) secs).bind fun attrs =>
  if missing s.1 secNum y.1 d.1 ver.defs verneeds y.2.2.2.1 y.2.2.2.2.2.2 ver.tab then .err
  else
    (tabOut s.2.2).bind fun shstrtab =>
    (tabOut y.2.2.2.2.2.2).bind fun strtab =>
    (tabOut ver.tab).bind fun dynstr =>
    .ok { cfg := c, mips := Elf.isMips64el c b.header.eMachine, secNum := secNum, secs := secs, names := s.2.1, attrs := attrs, idx := s.1,
          secIdx := secIdx, dynNum := d.1, dyns := d.2.1, numLocalDyn := d.2.2.1, gnuCount := d.2.2.2.1, dynIdx := d.2.2.2.2.1,
          symNum := y.1, syms := y.2.1, symNames := y.2.2.1, needShndx := y.2.2.2.1, numLocal := y.2.2.2.2.1, symIdx := y.2.2.2.2.2.1,
          ver := ver, verneeds := verneeds, shstrtab := shstrtab, strtab := strtab, dynstr := dynstr }

private theorem planIn_ok {b : Full} {p : Plan} (h : planIn b = .ok p) : plan b = .ok p := by
  unfold planIn at h
  unfold plan
  simp only [Res.bind_eq_ok] at h
  obtain ⟨secNum, h1, s, h2, secIdx, h3, dt, h4, d, h5, h⟩ := h
  have h5' : planDyns b s.1 dt = .ok d := by
    unfold planDynsIn at h5
    simp only [Res.bind_eq_ok] at h5
    obtain ⟨num, e1, os, e2, g, e3, v, e4, e5⟩ := h5
    unfold planDyns
    simp only [e1, e2, Res.ok_bind, gnuOrderIn_ok e3, e4, e5]
  obtain ⟨y, h6, ver, h7, at_, h8, h9⟩ := h
  simp only [h1, h2, h3, h4, h5', h6, h7, h8, Res.ok_bind]
  exact h9

/-- The layout and the writer with a given order of the sections. -/
private def layoutIn (o : List (Sec × Nat)) (b : Full) (p : Plan) : Res BuildW.Layout :=
  (segmentsAt b p.cfg).bind fun g =>
  let l : Lay := ⟨List.replicate p.secs.length (0, 0), g.2.2, fun _ => none⟩
  (if Build.isEmpty b.tables.segments then .ok l else foldR (allocStep b p) l o).bind fun l =>
  (foldR (otherStep b) l (p.secs.zip p.attrs).zipIdx).bind fun l =>
  (metaStep p .symbol (p.symNum * p.cfg.symSize) p.cfg.w l).bind fun l =>
  (metaStep p .symbolSectionIndex (p.symNum * 4) 4 l).bind fun l =>
  (metaStep p .string p.strtab.len 1 l).bind fun l =>
  (foldR (relocStep b p) l p.secs.zipIdx).bind fun l =>
  (metaStep p .sectionString p.shstrtab.len 1 l).bind fun l =>
  (headersAt p l.offset).bind fun h =>
  if p.cfg.is64 = false ∧ U32 ≤ h.2 then .err else .ok ⟨g.1, g.2.1, l, h.1, h.2⟩

private def emitIn (o : List (Sec × Nat)) (b : Full) (p : Plan) (l : BuildW.Layout) : Res (List UInt8) :=
  (Elf.fileHeader p.cfg ⟨b.header.osAbi, b.header.abiVersion, b.header.eType, b.header.eMachine, b.header.eEntry, b.header.eFlags⟩
    (fileLayout p l)).bind fun out =>
  (putSegments b p l out).bind fun out =>
  (if Build.isEmpty b.tables.segments then .ok out else foldR (putAlloc b p l.lay) out o).bind fun out =>
  (foldR (putOther b l.lay) out (p.secs.zip p.attrs).zipIdx).bind fun out =>
  (putSymbols p l.lay out).bind fun r =>
  (putMeta p l.lay .symbolSectionIndex r.2 r.1).bind fun out =>
  (putMeta p l.lay .string p.strtab.data out).bind fun out =>
  (foldR (putReloc b p l.lay) out p.secs.zipIdx).bind fun out =>
  (putMeta p l.lay .sectionString p.shstrtab.data out).bind fun out =>
  (putHeaders p l (fileLayout p l) out).bind fun out =>
  if out.length = l.len then .ok out else .panic

private def exCheck (f : List UInt8 → Bool) : Bool :=
  match planIn bwC with
  | .ok p => (match layoutIn (p.secs.zipIdx.filter fun x => isAlloc x.1) bwC p with
    | .ok l => (match emitIn (p.secs.zipIdx.filter fun x => isAlloc x.1) bwC p l with
      | .ok out => f out
      | _ => false)
    | _ => false)
  | _ => false

theorem bwWrite (f : List UInt8 → Bool) (h : exCheck f = true) : ∃ out, BuildW.write bwB = .ok out ∧ f out = true := by
  unfold exCheck at h
  split at h
  · next p hp' =>
    have hp := planIn_ok hp'
    have hsecs : p.secs = live bwC.tables.sections := by
      obtain ⟨c, h1, -, h2, h3, h4, -⟩ := C95_clean bwB exValid
      rw [bwClean] at h1; cases h1
      exact secs_live (plan_ok ⟨h2, h3, h4⟩ hp)
    have ho : allocOrder p.secs = p.secs.zipIdx.filter fun x => isAlloc x.1 := by
      unfold allocOrder
      rw [List.mergeSort_of_pairwise]
      rw [hsecs]
      decide +kernel
    rw [← ho] at h
    have e1 : layoutIn (allocOrder p.secs) bwC p = layout bwC p := rfl
    rw [e1] at h
    split at h
    · next l hl =>
      have e2 : emitIn (allocOrder p.secs) bwC p l = emit bwC p l := rfl
      rw [e2] at h
      split at h
      · next out hout =>
        refine ⟨out, ?_, h⟩
        unfold BuildW.write writeClean
        simp only [bwClean, Res.ok_bind, hp, hl, hout]
      · cases h
    · cases h
  · cases h

/-- The file is written, the code is at its offset, and the file can be read. -/
example : ∃ out, BuildW.write bwB = .ok out ∧ (out.length == 1032 && slice out 84 4 == [0x90, 0x90, 0x90, 0xc3] && (match readFile false out with
    | .ok b => b.tables.symbols.map (·.name) == [str "a.c", str "main"] && b.tables.versions.length == 1
    | _ => false)) = true := bwWrite _ (by decide +kernel)

private theorem place_lt {α : Type} [Item α] {l : List α} {i j : Nat} (h : Place l i j) : j < l.length := by
  obtain ⟨x, hx, -⟩ := h
  exact (List.getElem?_eq_some_iff.1 hx).1

private theorem secOk_of {s : Sec} (h : decide (s.shType < 2 ^ 32 ∧ s.shFlags < 2 ^ 32 ∧ s.shAddr < 2 ^ 32 ∧ s.shOffset < 2 ^ 32 ∧ s.shInfo < 2 ^ 32 ∧
    s.addralign < 2 ^ 32 ∧ s.entsize < 2 ^ 32) = true)
    (hi : (if s.shFlags.testBit 6 then s.infoSection.isSome || s.shInfo == 0 else s.infoSection.isNone) = true) : SecOk bwC s := by
  obtain ⟨h1, h2, h3, h4, h5, h6, h7⟩ := of_decide_eq_true h
  refine ⟨h1, h2, h3, h4, h5, h6, h7, fun _ => ?_⟩
  split at hi
  · next hb =>
    rw [if_pos hb]
    rw [Bool.or_eq_true] at hi
    rcases hi with hi | hi
    · exact .inl (fun e => by rw [e] at hi; cases hi)
    · exact .inr (by simpa using hi)
  · next hb =>
    rw [if_neg hb]
    cases hs : s.infoSection with
    | none => rfl
    | some i => rw [hs] at hi; cases hi

private theorem symOk_of {s : Build.Sym} (h : decide (s.info < 2 ^ 8 ∧ s.other < 2 ^ 8 ∧ s.value < 2 ^ 32 ∧ s.size < 2 ^ 32) = true)
    (hi : (s.section_.isSome || s.shndx == 0 || decide (0xff00 ≤ s.shndx ∧ s.shndx < 0xffff)) = true) : SymOk bwC s := by
  obtain ⟨h1, h2, h3, h4⟩ := of_decide_eq_true h
  refine ⟨h1, h2, h3, h4, fun hn => ?_⟩
  rw [hn] at hi
  simpa using hi

theorem bwSound : Sound bwC := by
  obtain ⟨c, k1, k2, i1, i2, i3, i4, i5, k3, -⟩ := C95_clean bwB exValid
  rw [bwClean] at k1; cases k1
  refine {
    ids := ⟨i1, i2, i3, i4, i5⟩, noOrphans := k2, versions := k3 ⟨?_, ?_⟩, sections := ?_, header := ?_, segments := ?_, secs := ?_, syms := ?_
    dynSyms := ?_, files := ⟨?_, ?_⟩, verOk := ?_, params := ?_, tables := ?_ }
  · intro s hs _
    have : ∀ s ∈ live bwB.tables.dynamicSymbols, s.version = 2 ∨ s.version = 1 := by decide +kernel
    rcases this s hs with h | h
    · rw [h]; exact ⟨_, rfl, rfl⟩
    · omega
  · intro v hv file name flags he
    have : ∀ v ∈ live bwB.tables.versions, (match v.data with | .need file _ _ => decide (file = 0) || decide (file = 1) | _ => true) = true := by decide +kernel
    have := this v hv
    rw [he] at this
    simp only [Bool.or_eq_true, decide_eq_true_eq] at this
    rcases this with rfl | rfl
    · exact ⟨_, rfl, rfl⟩
    · exact ⟨_, rfl, rfl⟩
  · intro h
    have : (live bwC.tables.sections).length = 0 := by rw [h]; rfl
    rw [show (live bwC.tables.sections).length = 13 from by decide +kernel] at this
    cases this
  · decide +kernel
  · intro g hg
    have : ∀ g ∈ live bwC.tables.segments, g.pType < 2 ^ 32 ∧ g.pFlags < 2 ^ 32 ∧ g.pOffset < 2 ^ 32 ∧ g.pVaddr < 2 ^ 32 ∧ g.pPaddr < 2 ^ 32 ∧
      g.pFilesz < 2 ^ 32 ∧ g.pMemsz < 2 ^ 32 ∧ g.pAlign < 2 ^ 32 := by decide +kernel
    obtain ⟨h1, h2, h3, h4, h5, h6, h7, h8⟩ := this g hg
    exact ⟨h1, h2, h3, h4, h5, h6, h7, h8⟩
  · intro s hs
    refine ⟨?_, ?_⟩
    · have h1 : ∀ s ∈ live bwC.tables.sections, decide (s.shType < 2 ^ 32 ∧ s.shFlags < 2 ^ 32 ∧ s.shAddr < 2 ^ 32 ∧ s.shOffset < 2 ^ 32 ∧ s.shInfo < 2 ^ 32 ∧
        s.addralign < 2 ^ 32 ∧ s.entsize < 2 ^ 32) = true := by decide +kernel
      have h2 : ∀ s ∈ live bwC.tables.sections, (if s.shFlags.testBit 6 then s.infoSection.isSome || s.shInfo == 0 else s.infoSection.isNone) = true := by decide +kernel
      exact secOk_of (h1 s hs) (h2 s hs)
    · have e : live bwC.tables.sections = [sec 0 ".text" 1 6 0x1054 84 none (.data [0x90, 0x90, 0x90, 0xc3]) 4,
          { sec 1 ".rela.text" 4 0x40 0 0 (some 2) (.relocs [⟨2, some 0, 1, -4⟩]) with infoSection := some 0, entsize := 12 },
          sec 2 ".symtab" 2 0 0 0 none .symbol, sec 3 ".strtab" 3 0 0 0 none .string,
          sec 4 ".dynsym" 11 2 0x1058 88 none .dynamicSymbol, sec 5 ".dynstr" 3 2 0x1088 136 none .dynamicString,
          sec 6 ".gnu.version" 0x6fffffff 2 0x10a0 160 none .gnuVersym, sec 7 ".gnu.version_r" 0x6ffffffe 2 0x10a8 168 none .gnuVerneed,
          sec 8 ".dynamic" 6 3 0x10c8 200 (some 5) (.dynamic [.string 1 (str "libc.so"), .auto 5, .integer 21 7]) 4,
          sec 9 ".hash" 5 2 0x10e8 232 none .hash, sec 10 ".shstrtab" 3 0 0 0 none .sectionString,
          sec 12 ".comment" 1 0 0 0 none (.data [0x68, 0x69]), sec 13 ".gnu.hash" 0x6ffffff6 2 0x1100 256 none .gnuHash] := by decide +kernel
      rw [e] at hs
      simp only [List.mem_cons, List.not_mem_nil, or_false] at hs
      rcases hs with rfl | rfl | rfl | rfl | rfl | rfl | rfl | rfl | rfl | rfl | rfl | rfl | rfl
      · exact .inl (by decide)
      · refine ⟨.inl rfl, rfl, ⟨sec 2 ".symtab" 2 0 0 0 none .symbol, by rw [e]; simp, rfl, rfl⟩, ?_, by decide +kernel⟩
        intro r hr
        rw [List.mem_singleton] at hr
        subst hr
        refine ⟨by decide +kernel, by decide +kernel, ?_, by decide +kernel⟩
        intro _ i j _ hp
        have := place_lt hp
        rw [show (symbolOrder bwC.tables.symbols).length = 2 from by decide +kernel] at this
        omega
      all_goals first | (show _ ≠ _; decide) | skip
      · refine ⟨rfl, ?_, .inl ⟨sec 5 ".dynstr" 3 2 0x1088 136 none .dynamicString, by rw [e]; simp, rfl, rfl⟩⟩
        intro d hd
        simp only [List.mem_cons, List.not_mem_nil, or_false] at hd
        rcases hd with rfl | rfl | rfl
        · show (1 : Int) ∈ Spec.BuildR.stringTags
          decide
        · trivial
        · show (21 : Int) ≠ 0 ∧ (21 : Int) ∉ Spec.BuildR.stringTags ∧ (21 : Int) ∉ Spec.BuildR.autoTags ∧ _
          decide +kernel
      · exact .inl (by decide)
  · intro s hs
    have h1 : ∀ s ∈ live bwC.tables.symbols, decide (s.info < 2 ^ 8 ∧ s.other < 2 ^ 8 ∧ s.value < 2 ^ 32 ∧ s.size < 2 ^ 32) = true := by decide +kernel
    have h2 : ∀ s ∈ live bwC.tables.symbols, (s.section_.isSome || s.shndx == 0 || decide (0xff00 ≤ s.shndx ∧ s.shndx < 0xffff)) = true := by decide +kernel
    exact symOk_of (h1 s hs) (h2 s hs)
  · intro s hs
    have h1 : ∀ s ∈ live bwC.tables.dynamicSymbols, decide (s.info < 2 ^ 8 ∧ s.other < 2 ^ 8 ∧ s.value < 2 ^ 32 ∧ s.size < 2 ^ 32) = true := by decide +kernel
    have h2 : ∀ s ∈ live bwC.tables.dynamicSymbols, (s.section_.isSome || s.shndx == 0 || decide (0xff00 ≤ s.shndx ∧ s.shndx < 0xffff)) = true := by decide +kernel
    refine ⟨symOk_of (h1 s hs) (h2 s hs), ?_⟩
    intro i j _ hp
    have := place_lt hp
    rw [show (live bwC.tables.sections).length = 13 from by decide +kernel] at this
    omega
  · decide +kernel
  · have e : live bwC.tables.versionFiles = [⟨0, false, str "libc.so"⟩] := by decide +kernel
    rw [e]
    intro f hf
    rw [List.mem_singleton] at hf
    subst hf
    exact ⟨⟨0, .need 0 (str "GLIBC_2") 0, false⟩, by decide +kernel, str "GLIBC_2", 0, rfl⟩
  · have e : live bwC.tables.versions = [⟨0, .need 0 (str "GLIBC_2") 0, false⟩] := by decide +kernel
    rw [e]
    intro v hv
    rw [List.mem_singleton] at hv
    subst hv
    show 0 < 2 ^ 16
    decide
  · decide +kernel
  · have hh : ∀ k, has bwC k ↔ decide (k ∈ (live bwC.tables.sections).map (·.data)) = true := by
      intro k
      rw [decide_eq_true_eq, List.mem_map]
      exact ⟨fun ⟨s, h1, h2⟩ => ⟨s, h1, h2⟩, fun ⟨s, h1, h2⟩ => ⟨s, h1, h2⟩⟩
    simp only [hh]
    decide +kernel

/-- The hypotheses of the theorems are met. -/
example : ∃ out b', Valid bwB.tables ∧ Sound bwC ∧ live bwC.tables.segments ≠ [] ∧ clean bwB = .ok bwC ∧ BuildW.write bwB = .ok out ∧
    readFile false out = .ok b' ∧ Same bwC b' := by
  obtain ⟨out, h, -⟩ := bwWrite (fun _ => true) (by decide +kernel)
  obtain ⟨b', h1, h2⟩ := C96_round_trip bwB bwC out bwClean h bwSound
  exact ⟨out, b', exValid, bwSound, by decide +kernel, bwClean, h, h1, h2⟩

/-- There is a generated entry: `DT_STRTAB` in `.dynamic` at offset 200 is the address of `.dynstr`. -/
example : ∃ out, BuildW.write bwB = .ok out ∧ (∃ s ds, (live bwC.tables.sections)[8]? = some s ∧ s.data = .dynamic ds ∧ ds[1]? = some (Build.Dyn.auto 5)) ∧
    Spec.BuildR.dynAt ⟨false, .little⟩ out (200 + 8) = (5, 0x1088) := by
  obtain ⟨out, h, hv⟩ := bwWrite (fun out => decide (Spec.BuildR.dynAt ⟨false, .little⟩ out (200 + 8) = (5, 0x1088))) (by decide +kernel)
  exact ⟨out, h, ⟨_, _, rfl, rfl, rfl⟩, by simpa using hv⟩

/-- There are hash tables that allow lookups. -/
example : has bwC .hash ∧ has bwC .gnuHash ∧ 0 < bwC.bloomCount ∧ bwC.bloomShift < 32 :=
  ⟨⟨sec 9 ".hash" 5 2 0x10e8 232 none .hash, by decide +kernel, rfl⟩, ⟨sec 13 ".gnu.hash" 0x6ffffff6 2 0x1100 256 none .gnuHash, by decide +kernel, rfl⟩, by decide, by decide⟩

end Obj.Props

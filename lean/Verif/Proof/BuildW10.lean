import Verif.Proof.BuildW9
import Verif.Proof.MachoW5
import Verif.Proof.ElfW7
import Verif.Props.ElfMisc

/-! Writing with the ELF builder: relocations and dynamic entries. -/

namespace Obj.BuildW
open Obj Obj.Build Obj.BuildR Obj.Spec
open Obj.Spec.MachoF (Each num)
open Obj.Spec.ElfF (word headerSize segmentSize sectionSize symbolSize headerIn segmentAt sectionAt symbolAt SegmentsOf SectionsOf NamesIndex NamesOf SegmentCount SectionCount RecordsOf StringsOf Extends SymbolsOf DataOf)
open Obj.Spec.BuildW (live Place Ref localSym symbolOrder DynOrder IdsOk Sound KindOk SecOk SymOk RelOk DynOk LinksTo tableHeader tableInfo isDef wordLimit phdrOf SymSame RelSame)
open Obj.Spec.BuildR (StrAt LinkOf SymSection SymbolOf Tables RelocsOf RelocOf relocAt dynAt DynOf)
open Obj.Build.Spec (Live NoOrphans)
open Obj.Spec.ElfS (wordMax ShdrFits PhdrFits SymFits HeaderFits RelFits)
open Obj.Elf (Shdr Phdr Ehdr SymTab StrTable Crel)

theorem recordsOf_map {α β : Type} {size : Nat} {r : Nat → α} {r' : Nat → β} {f : α → β} {data : List UInt8} {s : Shdr} {xs : List α}
    (h : RecordsOf size r data s xs) (hf : ∀ o, o + size ≤ data.length → f (r o) = r' o) : RecordsOf size r' data s (xs.map f) := by
  unfold RecordsOf at *
  by_cases h0 : s.type = 8 ∨ s.size = 0
  · rw [if_pos h0] at h ⊢; rw [h]; rfl
  · rw [if_neg h0] at h ⊢
    obtain ⟨h1, n, h2, h3⟩ := h
    refine ⟨h1, n, h2, ?_⟩
    rw [h3, List.map_map]
    apply List.map_congr_left
    intro i hi
    rw [List.mem_range] at hi
    refine hf _ ?_
    have : size * (i + 1) ≤ size * n := Nat.mul_le_mul (Nat.le_refl _) hi
    rw [Nat.mul_add] at this
    omega

section
variable {c : Full} {p : Plan} {l : Layout} {out : List UInt8} {ss : List Shdr}

/-! ## Relocations -/

theorem relaEntry_read (cfg : Elf.Cfg) (mips rela : Bool) (h : rela = false → cfg.is64 = true → mips = false) (img : List UInt8) :
    relaEntry cfg mips rela img = Elf.readRel cfg mips rela img := by
  unfold relaEntry Elf.readRel
  cases hc : cfg.is64
  · simp
  · cases rela
    · rw [h rfl hc]; simp
    · simp

/-- A relocation that is written. -/
structure RelW {α : Type} [Item α] (xs : List α) (r : Build.Rel) (e : Elf.Rel) : Prop where
  offset : e.offset = r.offset
  type : e.type = r.typ
  addend : e.addend = r.addend
  sym : (r.symbol = none ∧ e.sym = 0) ∨ ∃ i j, r.symbol = some i ∧ e.sym = j + 1 ∧ Place xs i j

theorem relOut_ok {α : Type} [Item α] {xs : List α} {idx : List Nat} (hi : IndexOk idx (xs.map Item.id)) {r : Build.Rel}
    (hm : ∀ i, r.symbol = some i → i ∈ xs.map Item.id) {e : Elf.Rel} (h : relOut idx r = .ok e) : RelW xs r e := by
  unfold relOut at h
  cases hs : r.symbol with
  | none => simp only [hs] at h; cases h; exact ⟨rfl, rfl, rfl, .inl ⟨hs, rfl⟩⟩
  | some i =>
    simp only [hs, Res.bind_eq_ok] at h
    obtain ⟨n, h1, h2⟩ := h
    cases h2
    refine ⟨rfl, rfl, rfl, .inr ?_⟩
    unfold look at h1
    split at h1
    · next m e =>
      cases h1
      obtain ⟨j, hj, hp⟩ := index_place hi e (by
        rintro rfl
        rcases hi i 0 e with h | h
        · exact h.2 (hm i hs)
        · omega)
      exact ⟨i, j, hs, hj, hp⟩
    · cases h1

theorem relSize_eq (cfg : Elf.Cfg) (rela : Bool) : cfg.relSize rela = if rela then 3 * word cfg.is64 else 2 * word cfg.is64 := by
  unfold Elf.Cfg.relSize word Elf.Cfg.w
  cases rela <;> cases cfg.is64 <;> rfl

/-- The relocations of a section. -/
theorem Tab.relocs (t : Tab c p l out ss) {α : Type} [Item α] {xs : List α} {idx : List Nat} (hi : IndexOk idx (xs.map Item.id)) {s : Sec} {h : Shdr}
    {rs : List Build.Rel} {d : List UInt8} (hd : relBytes p idx s rs = .ok d) (hb : Blk out h.offset d) (hz : h.size = rs.length * p.cfg.relSize (s.shType == 4))
    (ht : h.type = s.shType) (h49 : s.shType = 4 ∨ s.shType = 9) (hm : ∀ r ∈ rs, ∀ i, r.symbol = some i → i ∈ xs.map Item.id)
    (hok : ∀ r ∈ rs, r.offset < wordLimit c.is64 ∧ (r.typ < if c.is64 then 2 ^ 32 else 2 ^ 8) ∧
      (c.is64 = false → ∀ i j, r.symbol = some i → Place xs i j → j + 1 < 2 ^ 24) ∧
      if decide (s.shType = 4) then -(wordLimit c.is64 / 2 : Nat) ≤ r.addend ∧ r.addend < (wordLimit c.is64 / 2 : Nat) else r.addend = 0)
    (hmips : ¬ (c.is64 = true ∧ c.endian = .little ∧ c.header.eMachine = 8 ∧ s.shType = 9)) (hlen : xs.length < 2 ^ 32 - 1)
    (T : Tables) (hT : T.cfg = p.cfg ∧ T.machine = c.header.eMachine) :
    ∃ es, Each (RelW xs) rs es ∧ ∀ count ys, Each (RelocOf count) (es.map ElfF.toCrel) ys → RelocsOf T out h count ys := by
  have x := t.ctx
  unfold relBytes at hd
  rw [Res.bind_eq_ok] at hd
  obtain ⟨es, h1, h2⟩ := hd
  cases h2
  have he : Each (RelW xs) rs es := each_imp ((mapR_each _ _ _).1 h1) (fun r hr e hre => relOut_ok hi (hm r hr) hre)
  refine ⟨es, he, fun count ys hy => ?_⟩
  have hlim : wordLimit c.is64 = wordMax p.cfg.is64 := by rw [x.is64]; rfl
  have hrela : (s.shType == 4) = decide (s.shType = 4) := rfl
  have hfit : ∀ e ∈ es, RelFits p.cfg.is64 (s.shType == 4) e := by
    intro e hm'
    obtain ⟨r, hr, hw⟩ := each_mem he hm'
    obtain ⟨a1, a2, a3, a4⟩ := hok r hr
    refine ⟨?_, ?_, ?_, ?_⟩
    · rw [hw.offset, ← hlim]; exact a1
    · rcases hw.sym with ⟨-, h⟩ | ⟨i, j, h3, h4, hp⟩
      · rw [h]; split <;> decide
      · have := place_lt hp
        rw [x.is64]
        cases hc : c.is64
        · have := a3 hc i j h3 hp
          simp only [Bool.false_eq_true, if_false]; omega
        · simp only [if_true]; omega
    · rw [hw.type, x.is64]; exact a2
    · rw [hw.addend, ← hlim, hrela]; exact a4
  obtain ⟨T1, T2⟩ := hT
  have hmip : (s.shType == 4) = false → p.cfg.is64 = true → Elf.isMips64el p.cfg c.header.eMachine = false := by
    intro h3 h4
    have h9 : s.shType = 9 := by
      rcases h49 with h | h
      · rw [h] at h3; cases h3
      · exact h
    unfold Elf.isMips64el
    rw [x.en, x.is64] at *
    cases hme : (c.is64 && c.endian == Endianness.little && c.header.eMachine == 8) with
    | false => simp_all
    | true =>
      simp only [Bool.and_eq_true, beq_iff_eq] at hme
      exact absurd ⟨hme.1.1, hme.1.2, hme.2, h9⟩ hmips
  refine ⟨(s.shType == 4), es.map ElfF.toCrel, ?_, ?_, hy⟩
  · rw [ht]
    rcases h49 with h | h <;> rw [h] <;> rfl
  · rw [T1, T2, ← relSize_eq]
    have hrec : RecordsOf (p.cfg.relSize (s.shType == 4)) (fun o => relaEntry p.cfg (Elf.isMips64el p.cfg c.header.eMachine) (s.shType == 4) (slice out o (p.cfg.relSize (s.shType == 4)))) out h es := by
      refine recordsOf_blk (enc := Elf.writeRel p.cfg p.mips (s.shType == 4)) (dec := relaEntry p.cfg (Elf.isMips64el p.cfg c.header.eMachine) (s.shType == 4)) ?_ (fun o _ => rfl)
        (fun r _ => ElfW.length_writeRel _ _ _ _) (fun r hr => ?_) hb ?_ ?_
      · rw [relSize_eq]; unfold word; cases (s.shType == 4) <;> cases p.cfg.is64 <;> decide
      · rw [relaEntry_read _ _ _ hmip, x.plan.mips]
        have := Obj.Props.C34_round_trip p.cfg (Elf.isMips64el p.cfg c.header.eMachine) (s.shType == 4) r (hfit r hr) []
        rwa [List.append_nil] at this
      · rw [ht]; omega
      · rw [hz, each_length he]
    refine recordsOf_map hrec (fun o ho => ?_)
    rw [relSize_eq] at ho ⊢
    exact relaEntry_eq p.cfg c.header.eMachine (s.shType == 4) out o ho

/-- The relocations that are read. -/
theorem relocs_read {xs : List Build.Sym} {rs : List Build.Rel} {es : List Elf.Rel} (he : Each (RelW xs) rs es) {count : Nat}
    (hc : ∀ r ∈ rs, ∀ i j, r.symbol = some i → Place xs i j → j + 1 < count) :
    ∃ ys, Each (RelocOf count) (es.map ElfF.toCrel) ys ∧ Each (RelSame xs) rs ys := by
  induction he with
  | nil => exact ⟨[], .nil, .nil⟩
  | @cons r e rs es h hr ih =>
    obtain ⟨ys, h1, h2⟩ := ih (fun r' hr' => hc r' (by simp [hr']))
    rcases h.sym with ⟨h3, h4⟩ | ⟨i, j, h3, h4, hp⟩
    · refine ⟨⟨r.offset, none, r.typ, r.addend⟩ :: ys, .cons ⟨h.offset.symm, h.type.symm, h.addend.symm, .inl ⟨h4, rfl⟩⟩ h1,
        .cons ⟨rfl, rfl, rfl, .inl ⟨h3, rfl⟩⟩ h2⟩
    · have := hc r (by simp) i j h3 hp
      refine ⟨⟨r.offset, some j, r.typ, r.addend⟩ :: ys, .cons ⟨h.offset.symm, h.type.symm, h.addend.symm, .inr ⟨?_, ?_, ?_⟩⟩ h1,
        .cons ⟨rfl, rfl, rfl, .inr ⟨i, j, h3, rfl, hp⟩⟩ h2⟩
      · show 0 < e.sym; omega
      · show e.sym < count; omega
      · show some j = some (e.sym - 1); rw [h4]; rfl

/-! ## Dynamic entries -/

theorem writeDyn_read {cfg : Elf.Cfg} {tag : Int} {val : Nat} {b : List UInt8} (htag : -(2 ^ 63 : Int) ≤ tag ∧ tag < 2 ^ 63)
    (h : Elf.writeDyn cfg ⟨tag, val⟩ = .ok b) : b.length = 2 * word cfg.is64 ∧ (Elf.readDyn cfg b).tag = tag ∧
      (val < 2 ^ 64 → (Elf.readDyn cfg b).val = val) := by
  have key : ∀ v, v < 2 ^ 64 → Elf.writeDyn cfg ⟨tag, v⟩ = .ok b → b.length = 2 * word cfg.is64 ∧ Elf.readDyn cfg b = ⟨tag, v⟩ := by
    intro v hv hw
    have := (Obj.Props.C49_dynamic_entry cfg ⟨tag, v⟩ htag hv).2.1 b [] hw
    rw [List.append_nil] at this
    exact this
  by_cases hv : val < 2 ^ 64
  · obtain ⟨h1, h2⟩ := key val hv h
    exact ⟨h1, by rw [h2], fun _ => by rw [h2]⟩
  · have h' : Elf.writeDyn cfg ⟨tag, val % 256 ^ 8⟩ = .ok b := by
      unfold Elf.writeDyn at h ⊢
      cases hc : cfg.is64
      · simp only [hc, Bool.false_eq_true, if_false] at h
        split at h
        · rw [if_neg (by omega)] at h; cases h
        · cases h
        · cases h
      · simp only [hc, if_true] at h ⊢
        rw [MachoW.wr_mod]; exact h
    obtain ⟨h1, h2⟩ := key _ (Nat.mod_lt _ (by decide)) h'
    exact ⟨h1, by rw [h2], fun h => absurd h hv⟩

theorem autoVal_tag {addr : SecData → Option Nat} {tag : Int} {v : Nat} (h : autoVal p addr tag = .ok v) : tag ∈ Spec.BuildR.autoTags := by
  rw [← isAuto_iff]
  unfold isAuto
  unfold autoVal at h
  simp only [Bool.or_eq_true, decide_eq_true_eq]
  repeat' split at h
  all_goals first | omega | (cases h)

/-- One entry. -/
def dynVal (cfg : Elf.Cfg) (b : List UInt8) : Int × Nat := ((Elf.readDyn cfg b).tag, (Elf.readDyn cfg b).val)

theorem flatten_map_id {α : Type} (l : List (List α)) : l.flatten = l.flatMap id := by simp [List.flatMap]

theorem tag_range {tag : Int} (h : tag ∈ Spec.BuildR.stringTags ∨ tag ∈ Spec.BuildR.autoTags) : -(2 ^ 63 : Int) ≤ tag ∧ tag < 2 ^ 63 ∧ tag ≠ 0 := by
  have hs : ∀ tag ∈ Spec.BuildR.stringTags ++ Spec.BuildR.autoTags, -(2 ^ 63 : Int) ≤ tag ∧ tag < 2 ^ 63 ∧ tag ≠ 0 := by decide +kernel
  refine hs tag (List.mem_append.2 h)

theorem Tab.dynEnt (t : Tab c p l out ss) {addr : SecData → Option Nat} {d : Build.Dyn} {b : List UInt8} (hok : DynOk c d) {strings : StrTable}
    (hstr : ∀ tag val, d = .string tag val → ∃ off, strings = some (off, off + p.dynstr.data.length) ∧ Blk out off p.dynstr.data ∧
      ∀ o, strOffset p.dynstr.tab val = .ok o → StrIn p.dynstr o val)
    (h : dynEntry p addr d = .ok b) : b.length = 2 * word p.cfg.is64 ∧ (dynVal p.cfg b).1 ≠ 0 ∧ DynOf out strings (dynVal p.cfg b) d := by
  have x := t.ctx
  cases d with
  | auto tag =>
    unfold dynEntry at h
    rw [Res.bind_eq_ok] at h
    obtain ⟨v, h1, h2⟩ := h
    have ht := autoVal_tag h1
    obtain ⟨r1, r2, r3⟩ := tag_range (.inr ht)
    obtain ⟨q1, q2, -⟩ := writeDyn_read ⟨r1, r2⟩ h2
    have e : (dynVal p.cfg b).1 = tag := q2
    exact ⟨q1, by rw [e]; exact r3, .inr (.inl ⟨by rw [e]; exact ht, by rw [e]⟩)⟩
  | integer tag val =>
    obtain ⟨o1, o2, o3, o4, o5, o6⟩ := hok
    have hw : wordLimit c.is64 ≤ 2 ^ 64 := (wordMax_le c.is64).1
    obtain ⟨q1, q2, q3⟩ := writeDyn_read (val := val) ⟨by omega, by omega⟩ h
    have e : (dynVal p.cfg b).1 = tag := q2
    have e2 : (dynVal p.cfg b).2 = val := q3 (by omega)
    exact ⟨q1, by rw [e]; exact o1, .inr (.inr ⟨by rw [e]; exact o2, by rw [e]; exact o3, by rw [e, e2]⟩)⟩
  | string tag val =>
    have hok' : tag ∈ Spec.BuildR.stringTags := hok
    unfold dynEntry at h
    rw [Res.bind_eq_ok] at h
    obtain ⟨o, h1, h2⟩ := h
    obtain ⟨off, g1, g2, g3⟩ := hstr tag val rfl
    have hsi := g3 o h1
    obtain ⟨r1, r2, r3⟩ := tag_range (.inl hok')
    have ho : o < 2 ^ 32 := hsi.2.1
    obtain ⟨q1, q2, q3⟩ := writeDyn_read ⟨r1, r2⟩ h2
    have e : (dynVal p.cfg b).1 = tag := q2
    have e2 : (dynVal p.cfg b).2 = o := q3 (by omega)
    exact ⟨q1, by rw [e]; exact r3, .inl ⟨by rw [e]; exact hok', by rw [e2]; exact ho, val, by rw [e2, g1]; exact strAt_blk g2 hsi, by rw [e]⟩⟩

/-- The entries of a dynamic section. -/
theorem Tab.dynamic (t : Tab c p l out ss) {addr : SecData → Option Nat} {ds : List Build.Dyn} {b : List UInt8} (hok : ∀ d ∈ ds, DynOk c d) {strings : StrTable}
    (hstr : ∀ tag val, Build.Dyn.string tag val ∈ ds → ∃ off, strings = some (off, off + p.dynstr.data.length) ∧ Blk out off p.dynstr.data ∧
      ∀ o, strOffset p.dynstr.tab val = .ok o → StrIn p.dynstr o val)
    (h : dynBytes p addr ds = .ok b) {hd : Shdr} (hb : Blk out hd.offset b) (ht : hd.type ≠ 8) (hz : hd.size = (1 + ds.length) * (2 * p.cfg.w)) :
    ∃ vs, RecordsOf (2 * word p.cfg.is64) (dynAt p.cfg out) out hd vs ∧ Each (DynOf out strings) (vs.takeWhile fun d => decide (d.1 ≠ 0)) ds := by
  unfold dynBytes at h
  simp only [Res.bind_eq_ok] at h
  obtain ⟨bs, h1, z, h2, h3⟩ := h
  cases h3
  have he := (mapR_each _ _ _).1 h1
  obtain ⟨z1, z2, z3⟩ := writeDyn_read (by decide) h2
  have hall : ∀ b' ∈ bs ++ [z], b'.length = 2 * word p.cfg.is64 := by
    intro b' hb'
    rcases List.mem_append.1 hb' with hb' | hb'
    · obtain ⟨d, hd', e⟩ := each_mem he hb'
      exact (t.dynEnt (hok d hd') (fun tag val e2 => hstr tag val (e2 ▸ hd')) e).1
    · simp at hb'; subst hb'; exact z1
  have hrec : RecordsOf (2 * word p.cfg.is64) (fun o => slice out o (2 * word p.cfg.is64)) out hd (bs ++ [z]) := by
    refine recordsOf_blk (enc := id) (dec := id) ?_ (fun o _ => rfl) hall (fun _ _ => rfl) ?_ ht ?_
    · unfold word; split <;> decide
    · rw [flatten_map_id] at hb
      rw [List.flatMap_append]
      simpa using hb
    · rw [hz, List.length_append, each_length he]
      show (1 + ds.length) * (2 * word p.cfg.is64) = (ds.length + 1) * _
      rw [Nat.add_comm]
  refine ⟨_, recordsOf_map (f := dynVal p.cfg) hrec (fun o ho => dyn_decode p.cfg out o ho), ?_⟩
  have hz0 : (dynVal p.cfg z).1 = 0 := z2
  have key : ∀ (ds : List Build.Dyn) (bs : List (List UInt8)), Each (fun d b => dynEntry p addr d = .ok b) ds bs → (∀ d ∈ ds, DynOk c d) →
      (∀ tag val, Build.Dyn.string tag val ∈ ds → ∃ off, strings = some (off, off + p.dynstr.data.length) ∧ Blk out off p.dynstr.data ∧
        ∀ o, strOffset p.dynstr.tab val = .ok o → StrIn p.dynstr o val) →
      Each (DynOf out strings) (((bs ++ [z]).map (dynVal p.cfg)).takeWhile fun d => decide (d.1 ≠ 0)) ds := by
    intro ds bs h
    induction h with
    | nil =>
      intro _ _
      simp only [List.nil_append, List.map_cons, List.map_nil]
      rw [List.takeWhile_cons_of_neg (by simp [hz0])]
      exact .nil
    | @cons d b ds bs h hr ih =>
      intro hok hstr
      obtain ⟨-, q2, q3⟩ := t.dynEnt (hok d (by simp)) (fun tag val e2 => hstr tag val (by rw [← e2]; simp)) h
      simp only [List.cons_append, List.map_cons]
      rw [List.takeWhile_cons_of_pos (by simp [q2])]
      exact .cons q3 (ih (fun d' hd' => hok d' (by simp [hd'])) (fun tag val hv => hstr tag val (by simp [hv])))
  exact key ds bs he hok hstr

end
end Obj.BuildW

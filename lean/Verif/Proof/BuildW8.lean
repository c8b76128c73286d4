import Verif.Proof.BuildW7

/-! Writing with the ELF builder: string tables and symbol tables. -/

namespace Obj.BuildW
open Obj Obj.Build Obj.BuildR Obj.Spec
open Obj.Spec.MachoF (Each num)
open Obj.Spec.ElfF (word headerSize segmentSize sectionSize symbolSize headerIn segmentAt sectionAt symbolAt SegmentsOf SectionsOf NamesIndex NamesOf SegmentCount SectionCount RecordsOf StringsOf Extends SymbolsOf DataOf)
open Obj.Spec.BuildW (live Place Ref localSym symbolOrder DynOrder IdsOk Sound KindOk SecOk SymOk tableHeader tableInfo isDef wordLimit phdrOf SymSame)
open Obj.Spec.BuildR (StrAt LinkOf SymSection SymbolOf)
open Obj.Build.Spec (Live NoOrphans)
open Obj.Spec.ElfS (wordMax ShdrFits PhdrFits SymFits HeaderFits)
open Obj.Elf (Shdr Phdr Ehdr SymTab StrTable)

theorem recordsOf_blk {α : Type} {out : List UInt8} {enc : α → List UInt8} {record : Nat → α} {dec : List UInt8 → α} {size : Nat} (hs0 : 0 < size)
    (hr : ∀ o, o + size ≤ out.length → record o = dec (slice out o size)) {xs : List α} (hl : ∀ x ∈ xs, (enc x).length = size)
    (hd : ∀ x ∈ xs, dec (enc x) = x) {h : Shdr} (hb : Blk out h.offset (xs.flatMap enc)) (ht : h.type ≠ 8) (hz : h.size = xs.length * size) :
    RecordsOf size record out h xs := by
  unfold RecordsOf
  have hlen := Elf.length_flatMap_const _ _ _ hl
  by_cases h0 : h.size = 0
  · rw [if_pos (.inr h0)]
    rw [hz] at h0
    rcases Nat.mul_eq_zero.1 h0 with h0 | h0
    · exact List.length_eq_zero_iff.1 h0
    · omega
  · rw [if_neg (by rintro (h | h); exact ht h; exact h0 h)]
    refine ⟨?_, xs.length, by rw [hz, Nat.mul_comm], blk_range hr hl hd hb⟩
    have := hb.2
    omega

theorem dataOf_blk {out d : List UInt8} {h : Shdr} (hb : Blk out h.offset d) (ht : h.type ≠ 8) (hz : h.size = d.length) : DataOf out h d := by
  unfold DataOf
  by_cases h0 : h.size = 0
  · rw [if_pos (.inr h0)]
    exact List.length_eq_zero_iff.1 (by omega)
  · rw [if_neg (by rintro (h | h); exact ht h; exact h0 h)]
    have := hb.2
    exact ⟨by omega, by rw [hz]; exact hb.1.symm⟩

/-- A list from its items. -/
theorem list_exists {α : Type} {P : Nat → α → Prop} (n : Nat) (h : ∀ i, i < n → ∃ y, P i y) : ∃ ys : List α, ys.length = n ∧ ∀ (i : Nat) y, ys[i]? = some y → P i y := by
  induction n with
  | zero => exact ⟨[], rfl, by simp⟩
  | succ n ih =>
    obtain ⟨ys, h1, h2⟩ := ih (fun i hi => h i (by omega))
    obtain ⟨y, hy⟩ := h n (by omega)
    refine ⟨ys ++ [y], by simp [h1], ?_⟩
    intro i z hz
    rw [List.getElem?_append] at hz
    split at hz
    · exact h2 i z hz
    · next hi =>
      have : i = n := by
        have := (List.getElem?_eq_some_iff.1 hz).1
        simp at this; omega
      subst this
      rw [h1, Nat.sub_self] at hz
      cases hz; exact hy

section
variable {c : Full} {p : Plan} {l : Layout} {out : List UInt8} {ss : List Shdr}

/-! ## String tables -/

theorem Tab.names (t : Tab c p l out ss) : ∃ off, NamesOf p.cfg (headOf c p l) out ss (some (off, off + p.shstrtab.data.length)) ∧
    Blk out off p.shstrtab.data := by
  have x := t.ctx
  obtain ⟨-, -, -, -, -, h6⟩ := x.counts
  have h0 := x.nameIdx.1
  obtain ⟨i, s, h, e1, e2, e3, e4, e5⟩ := t.kind h0
  obtain ⟨a, ha, -⟩ := t.attr e2
  have hz := (x.lay.sizes i s a e2 ha).names e3
  have hb := x.em.names h0
  have hi : p.idx .sectionString - 1 = i := by omega
  rw [hi] at hb
  refine ⟨h.offset, ?_, by rw [e5.offset]; exact hb⟩
  unfold NamesOf
  have hne : ss ≠ [] := by intro e; rw [e] at e4; simp at e4
  rw [if_neg hne]
  refine ⟨i + 1, h, by rw [← e1]; exact h6, e4, ?_⟩
  have ht : h.type = 3 := (e5.hd.table 3 0 1 0 none (by rw [e3]; rfl)).1
  have hsz : h.size = p.shstrtab.data.length := by rw [e5.size, hz, x.plan.shstrtab.len]
  rw [if_neg (by omega), hsz]
  have := hb.2
  have := x.out64
  exact ⟨by rw [e5.offset]; omega, rfl⟩

theorem Tab.string (t : Tab c p l out ss) (h0 : p.idx .string ≠ 0) :
    ∃ off, StringsOf ss (p.idx .string) (some (off, off + p.strtab.data.length)) ∧ Blk out off p.strtab.data := by
  have x := t.ctx
  obtain ⟨i, s, h, e1, e2, e3, e4, e5⟩ := t.kind h0
  obtain ⟨a, ha, -⟩ := t.attr e2
  have hz := (x.lay.sizes i s a e2 ha).string e3
  have hb := x.em.string h0
  have hi : p.idx .string - 1 = i := by omega
  rw [hi] at hb
  have ht : h.type = 3 := (e5.hd.table 3 0 1 0 none (by rw [e3]; rfl)).1
  have hsz : h.size = p.strtab.data.length := by rw [e5.size, hz, x.plan.strtab.len]
  have hb' : Blk out h.offset p.strtab.data := by rw [e5.offset]; exact hb
  refine ⟨h.offset, ?_, hb'⟩
  unfold StringsOf
  rw [if_neg h0]
  refine ⟨h, by rw [e1]; exact e4, ht, ?_, by rw [hsz]⟩
  have := hb'.2
  have := x.out64
  omega

/-- The bytes of a section that only exists as alloc section. -/
theorem Tab.allocOnly (t : Tab c p l out ss) {i : Nat} {s : Sec} (hs : p.secs[i]? = some s) (hu : ∀ len, s.data ≠ .uninit len)
    (ho : ∀ a, otherBytes (s, a) = none) (h1 : ∀ rs, s.data ≠ .relocs rs) (h2 : s.data ≠ .symbol) (h3 : s.data ≠ .symbolSectionIndex)
    (h4 : s.data ≠ .string) (h5 : s.data ≠ .sectionString) :
    ∃ d al, allocBytes c p l.lay.addr s = .ok d ∧ Blk out (l.lay.at i).1 d ∧ allocSize c p s = .ok ((l.lay.at i).2, al) := by
  obtain ⟨a, ha, -⟩ := t.attr hs
  rcases t.bytes hs ha hu with ⟨-, h⟩ | ⟨-, ⟨d, h, -⟩ | ⟨rs, d, h, -⟩ | h | h | h | h⟩
  · exact h
  · rw [ho a] at h; cases h
  · exact absurd h (h1 rs)
  · exact absurd h h2
  · exact absurd h h3
  · exact absurd h h4
  · exact absurd h h5

theorem Tab.dynamicString (t : Tab c p l out ss) (h0 : p.idx .dynamicString ≠ 0) :
    ∃ off, StringsOf ss (p.idx .dynamicString) (some (off, off + p.dynstr.data.length)) ∧ Blk out off p.dynstr.data := by
  have x := t.ctx
  obtain ⟨i, s, h, e1, e2, e3, e4, e5⟩ := t.kind h0
  obtain ⟨d, al, k1, k2, k3⟩ := t.allocOnly e2 (by rw [e3]; simp) (by simp [otherBytes, e3]) (by rw [e3]; simp) (by rw [e3]; simp) (by rw [e3]; simp) (by rw [e3]; simp) (by rw [e3]; simp)
  unfold allocBytes at k1
  unfold allocSize at k3
  simp only [e3] at k1 k3
  cases k1
  injection k3 with k3
  have hz : (l.lay.at i).2 = p.dynstr.len := (Prod.mk.inj k3).1.symm
  have ht : h.type = 3 := (e5.hd.table 3 2 1 0 none (by rw [e3]; rfl)).1
  have hsz : h.size = p.dynstr.data.length := by rw [e5.size, hz, x.plan.dynstr.len]
  have hb' : Blk out h.offset p.dynstr.data := by rw [e5.offset]; exact k2
  refine ⟨h.offset, ?_, hb'⟩
  unfold StringsOf
  rw [if_neg h0]
  refine ⟨h, by rw [e1]; exact e4, ht, ?_, by rw [hsz]⟩
  have := hb'.2
  have := x.out64
  omega

/-! ## Symbols -/

/-- The entry for a symbol. -/
def recOf (w : Elf.WSym) : Elf.Sym :=
  ⟨w.name, w.info, w.other, match w.sec with | some n => Elf.symbolSectionNew n | none => w.shndx, w.value, w.size⟩

theorem writeSymbol_eq (cfg : Elf.Cfg) (w : Elf.WSym) : (Elf.writeSymbol cfg w).1 = (recOf w).encode cfg := rfl

def nullSym : Elf.Sym := ⟨0, 0, 0, 0, 0, 0⟩

/-- The extended section index of a symbol. -/
def moreOf (cfg : Elf.Cfg) (w : Elf.WSym) : Nat := (Elf.writeSymbol cfg w).2.getD 0

/-- The symbol `s` as it is written. -/
structure SymW (p : Plan) (tab : TabOut) (s : Sym) (w : Elf.WSym) : Prop where
  name : StrIn tab w.name s.name
  info : w.info = s.info
  other : w.other = s.other
  shndx : w.shndx = s.shndx
  value : w.value = s.value
  size : w.size = s.size
  sec : (s.section_ = none ∧ w.sec = none) ∨ ∃ i n, s.section_ = some i ∧ p.secIdx[i]? = some n ∧ w.sec = some n

theorem symOut_ok {tab : TabOut} {s : Sym} {n : Option Nat} {w : Elf.WSym} (hn : NameAt tab s.name n) (h : symOut p.secIdx tab.tab s n = .ok w) :
    SymW p tab s w := by
  unfold symOut at h
  simp only [Res.bind_eq_ok] at h
  obtain ⟨sec, h1, o, h2, h3⟩ := h
  cases h3
  refine ⟨hn o h2, rfl, rfl, rfl, rfl, rfl, ?_⟩
  cases hs : s.section_ with
  | none => simp only [hs] at h1; cases h1; exact .inl ⟨rfl, rfl⟩
  | some i =>
    simp only [hs, Res.bind_eq_ok] at h1
    obtain ⟨m, h4, h5⟩ := h1
    cases h5
    unfold look at h4
    split at h4
    · next e => cases h4; exact .inr ⟨i, _, rfl, e, rfl⟩
    · cases h4

theorem live_mem {α : Type} [Item α] {t : List α} (hid : IdsOk t) {i : Nat} (h : Live t i) : i ∈ (live t).map Item.id := by
  obtain ⟨y, h1, h2⟩ := h
  rw [List.mem_map]
  exact ⟨y, List.mem_filter.2 ⟨List.mem_of_getElem? h1, by rw [h2]; rfl⟩, hid i y h1⟩

/-- Index of a section that exists. -/
theorem Tab.live_sec (t : Tab c p l out ss) {i n : Nat} (hl : Live c.tables.sections i) (hn : p.secIdx[i]? = some n) :
    ∃ j, n = j + 1 ∧ Place p.secs i j := by
  have x := t.ctx
  have hm : i ∈ p.secs.map (·.id) := by rw [x.secs]; exact live_mem x.sound.ids.1 hl
  refine index_place x.plan.secIdx hn ?_
  rintro rfl
  rcases x.plan.secIdx i 0 hn with h | h
  · exact h.2 hm
  · omega

theorem sec_new {n : Nat} : Elf.symbolSectionNew n = if n < 0xff00 then n else 0xffff := by
  unfold Elf.symbolSectionNew
  repeat' split
  all_goals omega

/-- What is known of a symbol that is written. -/
theorem Tab.symW (t : Tab c p l out ss) {tab : TabOut} {s : Sym} {w : Elf.WSym} (hw : SymW p tab s w) (hok : SymOk c s)
    (hlive : ∀ i, s.section_ = some i → Live c.tables.sections i) :
    SymFits p.cfg.is64 (recOf w) ∧
    ((s.section_ = none ∧ (recOf w).shndx = s.shndx ∧ (s.shndx = 0 ∨ 0xff00 ≤ s.shndx ∧ s.shndx < 0xffff) ∧ moreOf p.cfg w = 0) ∨
      ∃ i j, s.section_ = some i ∧ Place p.secs i j ∧ p.secIdx[i]? = some (j + 1) ∧ (recOf w).shndx = (if j + 1 < 0xff00 then j + 1 else 0xffff) ∧
        moreOf p.cfg w = if j + 1 < 0xff00 then 0 else j + 1) := by
  have x := t.ctx
  have hlim : wordLimit c.is64 = wordMax p.cfg.is64 := by rw [x.is64]; rfl
  have key : ((s.section_ = none ∧ (recOf w).shndx = s.shndx ∧ (s.shndx = 0 ∨ 0xff00 ≤ s.shndx ∧ s.shndx < 0xffff) ∧ moreOf p.cfg w = 0) ∨
      ∃ i j, s.section_ = some i ∧ Place p.secs i j ∧ p.secIdx[i]? = some (j + 1) ∧ (recOf w).shndx = (if j + 1 < 0xff00 then j + 1 else 0xffff) ∧
        moreOf p.cfg w = if j + 1 < 0xff00 then 0 else j + 1) := by
    rcases hw.sec with ⟨h1, h2⟩ | ⟨i, n, h1, h2, h3⟩
    · left
      have hs := hok.shndx h1
      have hr : (recOf w).shndx = s.shndx := by simp only [recOf, h2]; exact hw.shndx
      refine ⟨h1, hr, hs, ?_⟩
      unfold moreOf Elf.writeSymbol
      simp only [h2]
      rw [hw.shndx, if_neg (by omega)]; rfl
    · right
      obtain ⟨j, rfl, hp⟩ := t.live_sec (hlive i h1) h2
      refine ⟨i, j, h1, hp, h2, ?_, ?_⟩
      · simp only [recOf, h3]; exact sec_new
      · unfold moreOf Elf.writeSymbol
        simp only [h3, sec_new]
        by_cases hlt : j + 1 < 0xff00
        · rw [if_pos hlt, if_neg (by omega), if_pos hlt]; rfl
        · rw [if_neg hlt, if_pos rfl, if_neg hlt]; rfl
  refine ⟨⟨hw.name.2.1, by rw [show (recOf w).info = s.info from hw.info]; exact hok.info, by rw [show (recOf w).other = s.other from hw.other]; exact hok.other, ?_, ?_, ?_⟩, key⟩
  · rcases key with ⟨-, h, h2, -⟩ | ⟨i, j, -, -, -, h, -⟩
    · omega
    · rw [h]; split <;> omega
  · rw [show (recOf w).value = s.value from hw.value, ← hlim]; exact hok.value
  · rw [show (recOf w).size = s.size from hw.size, ← hlim]; exact hok.size

/-- A symbol that is read. -/
theorem Tab.symbolOf (t : Tab c p l out ss) {tab : TabOut} {st : SymTab} {off : Nat} {s : Sym} {w : Elf.WSym} {i : Nat} (hw : SymW p tab s w) (hok : SymOk c s)
    (hlive : ∀ i, s.section_ = some i → Live c.tables.sections i) (hstr : st.strings = some (off, off + tab.data.length)) (hb : Blk out off tab.data)
    (hlarge : ∀ j k, s.section_ = some k → Place p.secs k j → ¬ j + 1 < 0xff00 → st.shndx[i + 1]? = some (moreOf p.cfg w)) (v : Nat) (hid : Bool) :
    ∃ y, SymbolOf out st ss.length (recOf w, i + 1) y ∧ SymSame p.secs s y ∧ y.version = v ∧ y.versionHidden = hid ∧ y.id = i ∧ y.delete = false := by
  obtain ⟨-, key⟩ := t.symW hw hok hlive
  have hname : StrAt out st.strings (recOf w).name s.name := by rw [hstr]; exact strAt_blk hb hw.name
  rcases key with ⟨h1, h2, h3, -⟩ | ⟨k, j, h1, hp, -, h2, h3⟩
  · refine ⟨⟨i, false, s.name, none, s.info, s.other, s.shndx, s.value, s.size, v, hid⟩,
      ⟨rfl, rfl, hname, ⟨0, ?_, .inl ⟨rfl, rfl⟩⟩, hw.info.symm, hw.other.symm, h2.symm, hw.value.symm, hw.size.symm⟩,
      ⟨rfl, .inl ⟨h1, rfl⟩, ⟨fun _ => rfl, fun i h => (by rw [h1] at h; cases h)⟩, rfl, rfl, rfl, rfl⟩, rfl, rfl, rfl, rfl⟩
    unfold SymSection
    show if (recOf w).shndx = 0xffff then _ else _
    rw [h2, if_neg (by omega)]
    split <;> omega
  · have hj := place_lt hp
    have hlen := t.len
    refine ⟨⟨i, false, s.name, some j, s.info, s.other, if j + 1 < 0xff00 then j + 1 else 0xffff, s.value, s.size, v, hid⟩,
      ⟨rfl, rfl, hname, ⟨j + 1, ?_, .inr ⟨by omega, by omega, rfl⟩⟩, hw.info.symm, hw.other.symm, h2.symm, hw.value.symm, hw.size.symm⟩,
      ⟨rfl, .inr ⟨k, j, h1, rfl, hp⟩, ⟨fun h => (by rw [h1] at h; cases h), fun i h => (by rw [h1] at h; cases h; exact ⟨j, hp, rfl⟩)⟩, rfl, rfl, rfl, rfl⟩, rfl, rfl, rfl, rfl⟩
    unfold SymSection
    show if (recOf w).shndx = 0xffff then _ else j + 1 = if (recOf w).shndx < 0xff00 then (recOf w).shndx else 0
    rw [h2]
    by_cases hlt : j + 1 < 0xff00
    · rw [if_pos hlt, if_neg (by omega), if_pos hlt]
    · rw [if_neg hlt, if_pos rfl, hlarge j k h1 hp hlt, h3, if_neg hlt]

/-- The records of a symbol table. -/
theorem Tab.symRecords (t : Tab c p l out ss) {ws : List Elf.WSym} (hf : ∀ w ∈ ws, SymFits p.cfg.is64 (recOf w)) {h : Shdr}
    (hb : Blk out h.offset (Elf.symtabBytes p.cfg ws)) (ht : h.type ≠ 8) (hz : h.size = (1 + ws.length) * p.cfg.symSize) :
    RecordsOf (symbolSize p.cfg.is64) (symbolAt p.cfg out) out h (nullSym :: ws.map recOf) := by
  have hfit : ∀ r ∈ nullSym :: ws.map recOf, SymFits p.cfg.is64 r := by
    intro r hr
    rcases List.mem_cons.1 hr with rfl | hr
    · have := (wordMax_le p.cfg.is64).2
      exact ⟨by decide, by decide, by decide, by decide, by simp only [nullSym]; omega, by simp only [nullSym]; omega⟩
    · obtain ⟨w, hw, rfl⟩ := List.mem_map.1 hr
      exact hf w hw
  refine recordsOf_blk (enc := Elf.Sym.encode p.cfg) (dec := Elf.Sym.decode p.cfg) ?_ (fun o _ => (ElfF.sym_decode p.cfg out o).symm)
    (fun r _ => Elf.Sym.length_encode _ _) (fun r hr => (by have := Elf.Sym.decode_encode p.cfg r (hfit r hr) []; rwa [List.append_nil] at this)) ?_ ht ?_
  · unfold symbolSize; split <;> decide
  · rw [List.flatMap_cons, List.flatMap_map]; exact hb
  · rw [hz, List.length_cons, List.length_map, Nat.add_comm 1]; rfl

end
end Obj.BuildW

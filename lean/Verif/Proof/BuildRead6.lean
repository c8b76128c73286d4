import Verif.Proof.BuildRead5
import Verif.Proof.BuildRead3
import Verif.Proof.BuildRead2
import Verif.Props.ElfVersion

/-! Sections of a builder that is read. -/

namespace Obj.BuildR
open Obj Obj.Build Obj.Spec Obj.Spec.BuildR Obj.Props
open Obj.Elf (StrTable Shdr SymTab SectionTable)
open Obj.Spec.MachoF (num Each)
open Obj.Spec.ElfF (RecordsOf DataOf)

/-- The context that the tables are for the model. -/
def ctxOf (t : Tables) : ReadCtx := ⟨t.cfg, t.machine, t.names, ⟨t.sections, t.strings⟩, t.symbols, t.dynSymbols⟩

theorem hashHeader_iff (type size : Nat) (hs : 0 < size) (s : Shdr) (data : List UInt8) (h : Option (List UInt8)) :
    hashHeader type size s data = .ok h ↔
      (s.type ≠ type ∧ h = none) ∨ (s.type = type ∧ ∃ d, DataOf data s d ∧ size ≤ d.length ∧ h = some (d.take size)) := by
  unfold hashHeader
  by_cases ht : s.type = type
  · rw [if_neg (by simp [ht])]
    simp only [Res.bind_eq_ok, data_iff, ht, ne_eq, not_true_eq_false, false_and, false_or, true_and, Res.ok.injEq]
    constructor
    · rintro ⟨d, h1, img, h2, rfl⟩
      rw [readRef_readBytesAt_eq] at h2
      split at h2
      · rename_i h3
        injection h2 with h2
        subst h2
        refine ⟨d, h1, by omega, by simp [slice]⟩
      · cases h2
    · rintro ⟨d, h1, h2, rfl⟩
      refine ⟨d, h1, d.take size, ?_, rfl⟩
      rw [readRef_readBytesAt_eq, if_pos (by omega)]
      simp [slice]
  · rw [if_pos ht]
    simp [ht, eq_comm]

theorem hashHeader_np (type size : Nat) (s : Shdr) (data : List UInt8) : hashHeader type size s data ≠ .panic := by
  unfold hashHeader
  split
  · simp
  · exact Res.bind_no_panic (data_np _ _) fun _ _ => Res.bind_no_panic (readRef_readBytesAt_no_panic _ _ _) fun _ _ => by simp

/-- The numbers of a header are at the start of the section. -/
theorem head_num (en : Endianness) (s : Shdr) (data d : List UInt8) (hd : DataOf data s d) (size o : Nat) (hs : size ≤ d.length) (ho : o + 4 ≤ size) :
    field en (d.take size) o 4 = num en data (s.offset + o) 4 := by
  unfold DataOf at hd
  split at hd
  · subst hd; simp at hs; omega
  · obtain ⟨h1, rfl⟩ := hd
    rw [length_slice_of (.inr h1)] at hs
    have : List.take size (slice data s.offset s.size) = slice data s.offset size := by
      unfold slice; rw [List.take_take, Nat.min_eq_left hs]
    rw [this, ElfF.field_num, MachoF.num_slice _ _ _ _ _ _ ho]

theorem set_upd (en : Endianness) (data : List UInt8) (s : Shdr) (p : HashParams) (h g : Option (List UInt8))
    (hh : hashHeader 5 8 s data = .ok h) (hg : hashHeader 0x6ffffff6 16 s data = .ok g) : p.set en h g = upd en data p s := by
  rw [hashHeader_iff _ _ (by decide)] at hh hg
  unfold HashParams.set upd
  rcases hh with ⟨a, rfl⟩ | ⟨a, d, b, c, rfl⟩
  · rw [if_neg a]
    rcases hg with ⟨a', rfl⟩ | ⟨a', d, b, c, rfl⟩
    · rw [if_neg a']; rfl
    · rw [if_pos a']
      simp only [HashParams.setHash, HashParams.setGnu]
      rw [head_num en s data d b 16 12 c (by decide), head_num en s data d b 16 8 c (by decide), head_num en s data d b 16 0 c (by decide)]
      rfl
  · rw [if_pos a]
    rcases hg with ⟨a', rfl⟩ | ⟨a', -⟩
    · simp only [HashParams.setHash, HashParams.setGnu]
      rw [head_num en s data d b 8 0 c (by decide)]
      rfl
    · omega

theorem link_iff (n : Nat) (used : Bool) (link : Nat) (x : Option Nat) : readLink n used link = .ok x ↔ LinkOf n (if used then link else 0) x := by
  unfold readLink LinkOf
  cases used
  · simp [eq_comm]
  · by_cases h0 : link = 0
    · simp [h0, eq_comm]
    · by_cases h1 : n ≤ link
      · simp [h0, h1]
      · simp only [h0, h1, false_or, if_false, if_true, Bool.true_eq_false, Res.ok.injEq, false_and]; constructor
        · rintro rfl; exact ⟨by omega, by omega, rfl⟩
        · rintro ⟨-, -, rfl⟩; rfl

theorem link_np (n : Nat) (used : Bool) (link : Nat) : readLink n used link ≠ .panic := by
  unfold readLink; (repeat' split) <;> simp

theorem annobin_eq : annobinName = Spec.MachoF.ascii ".annobin.notes" := by decide +kernel

theorem contents_iff (t : Tables) (data : List UInt8) (hlen : data.length < 2 ^ 64) (i : Nat) (s : Shdr) (name : List UInt8) (x : SecData) :
    (∃ rel h g, readSectionRelocations t.cfg (Elf.isMips64el t.cfg t.machine) data t.symbols t.dynSymbols s = .ok rel ∧
      hashHeader 5 8 s data = .ok h ∧ hashHeader 0x6ffffff6 16 s data = .ok g ∧ readContents (ctxOf t) data i s name rel = .ok x) ↔
    Contents t data i s name x := by
  simp only [hashHeader_iff 5 8 (by decide), hashHeader_iff 0x6ffffff6 16 (by decide)]
  constructor
  · rintro ⟨rel, h, g, h1, h2, h3, h4⟩
    unfold readContents at h4
    dsimp only at h4
    by_cases c1 : s.type = 8
    · rw [if_pos c1] at h4; injection h4 with h4; subst h4; exact .uninit c1
    rw [if_neg c1] at h4
    by_cases c2 : s.type = 1 ∨ s.type = 14 ∨ s.type = 15 ∨ s.type = 16 ∨ s.type = 19 ∨ s.type = 0x40000014 ∨ s.type = 0x6fff4c04
    · rw [if_pos c2] at h4
      simp only [Res.bind_eq_ok, data_iff, Res.ok.injEq] at h4
      obtain ⟨d, h4, rfl⟩ := h4
      exact .plain (.inl (by simpa [plainTypes] using c2)) h4
    rw [if_neg c2] at h4
    by_cases c3 : s.type = 9 ∨ s.type = 4
    · rw [if_pos c3] at h4; injection h4 with h4; subst h4
      rcases (sectionRelocs_iff t data hlen s c3 _).1 h1 with ⟨count, l, k1, k2, rfl⟩ | ⟨l, k1, k2, rfl⟩
      · exact .dynRelocs k1 k2
      · exact .relocs k1 k2
    rw [if_neg c3] at h4
    by_cases c4 : s.type = 2
    · rw [if_pos c4] at h4
      split at h4
      · injection h4 with h4; subst h4; rename_i k; exact .symbol c4 k
      · cases h4
    rw [if_neg c4] at h4
    by_cases c5 : s.type = 18
    · rw [if_pos c5] at h4
      split at h4
      · injection h4 with h4; subst h4; rename_i k; exact .symbolSectionIndex c5 k
      · cases h4
    rw [if_neg c5] at h4
    by_cases c6 : s.type = 11
    · rw [if_pos c6] at h4
      split at h4
      · injection h4 with h4; subst h4; rename_i k; exact .dynamicSymbol c6 k
      · cases h4
    rw [if_neg c6] at h4
    by_cases c7 : s.type = 3
    · rw [if_pos c7] at h4
      by_cases k1 : i = (ctxOf t).symbols.stringSection
      · rw [if_pos k1] at h4; injection h4 with h4; subst h4; exact .string c7 k1
      rw [if_neg k1] at h4
      by_cases k2 : i = (ctxOf t).dynSymbols.stringSection
      · rw [if_pos k2] at h4; injection h4 with h4; subst h4; exact .dynamicString c7 k1 k2
      rw [if_neg k2] at h4
      by_cases k3 : i = (ctxOf t).shstrndx
      · rw [if_pos k3] at h4; injection h4 with h4; subst h4; exact .sectionString c7 k1 k2 k3
      rw [if_neg k3] at h4
      by_cases k4 : name = annobinName
      · rw [if_pos k4] at h4
        simp only [Res.bind_eq_ok, data_iff, Res.ok.injEq] at h4
        obtain ⟨d, h4, rfl⟩ := h4
        exact .annobin c7 k1 k2 k3 (by rw [k4, annobin_eq]) h4
      · rw [if_neg k4] at h4; cases h4
    rw [if_neg c7] at h4
    by_cases c8 : s.type = 7
    · rw [if_pos c8] at h4
      simp only [Res.bind_eq_ok, data_iff, Res.ok.injEq] at h4
      obtain ⟨d, h4, rfl⟩ := h4
      exact .note c8 h4
    rw [if_neg c8] at h4
    by_cases c9 : s.type = 6
    · rw [if_pos c9] at h4
      obtain ⟨strings, ds, l, k1, k2, k3, rfl⟩ := (dynamics_iff _ _ data hlen s c9 _).1 h4
      exact .dynamic c9 k1 k2 k3
    rw [if_neg c9] at h4
    by_cases c10 : s.type = 0x6ffffff5
    · rw [if_pos c10] at h4
      obtain ⟨d, l, k1, k2, rfl⟩ := (attributes_iff _ data _ _ s _).1 h4
      exact .attributes (.inl c10) k1 k2
    rw [if_neg c10] at h4
    by_cases c11 : s.type = 5
    · rw [if_pos c11] at h4; injection h4 with h4; subst h4
      rcases h2 with ⟨k, -⟩ | ⟨-, d, k1, k2, -⟩
      · omega
      · exact .hash c11 k1 k2
    rw [if_neg c11] at h4
    by_cases c12 : s.type = 0x6ffffff6
    · rw [if_pos c12] at h4; injection h4 with h4; subst h4
      rcases h3 with ⟨k, -⟩ | ⟨-, d, k1, k2, -⟩
      · omega
      · exact .gnuHash c12 k1 k2
    rw [if_neg c12] at h4
    by_cases c13 : s.type = 0x6fffffff
    · rw [if_pos c13] at h4; injection h4 with h4; subst h4; exact .gnuVersym c13
    rw [if_neg c13] at h4
    by_cases c14 : s.type = 0x6ffffffd
    · rw [if_pos c14] at h4; injection h4 with h4; subst h4; exact .gnuVerdef c14
    rw [if_neg c14] at h4
    by_cases c15 : s.type = 0x6ffffffe
    · rw [if_pos c15] at h4; injection h4 with h4; subst h4; exact .gnuVerneed c15
    rw [if_neg c15] at h4
    by_cases c16 : ((ctxOf t).machine, s.type) ∈ attributeTypes
    · rw [if_pos c16] at h4
      obtain ⟨d, l, k1, k2, rfl⟩ := (attributes_iff _ data _ _ s _).1 h4
      exact .attributes (.inr c16) k1 k2
    rw [if_neg c16] at h4
    by_cases c17 : ((ctxOf t).machine, s.type) ∈ copiedTypes
    · rw [if_pos c17] at h4
      simp only [Res.bind_eq_ok, data_iff, Res.ok.injEq] at h4
      obtain ⟨d, h4, rfl⟩ := h4
      exact .plain (.inr c17) h4
    rw [if_neg c17] at h4
    cases h4
  · have plain : ∀ (h9 : s.type ≠ 9) (h4 : s.type ≠ 4) (h5 : s.type ≠ 5) (h6 : s.type ≠ 0x6ffffff6), readContents (ctxOf t) data i s name (.data []) = .ok x →
        (∃ rel h g, readSectionRelocations t.cfg (Elf.isMips64el t.cfg t.machine) data t.symbols t.dynSymbols s = .ok rel ∧
          ((s.type ≠ 5 ∧ h = none) ∨ (s.type = 5 ∧ ∃ d, DataOf data s d ∧ 8 ≤ d.length ∧ h = some (d.take 8))) ∧
          ((s.type ≠ 0x6ffffff6 ∧ g = none) ∨ (s.type = 0x6ffffff6 ∧ ∃ d, DataOf data s d ∧ 16 ≤ d.length ∧ g = some (d.take 16))) ∧
          readContents (ctxOf t) data i s name rel = .ok x) := by
      intro h9 h4 h5 h6 h
      exact ⟨_, none, none, sectionRelocs_none t data s h9 h4, .inl ⟨h5, rfl⟩, .inl ⟨h6, rfl⟩, h⟩
    intro h
    cases h with
    | uninit a => exact plain (by omega) (by omega) (by omega) (by omega) (by simp [readContents, a])
    | plain a b =>
      rcases a with a | a
      · have hc : s.type = 1 ∨ s.type = 14 ∨ s.type = 15 ∨ s.type = 16 ∨ s.type = 19 ∨ s.type = 0x40000014 ∨ s.type = 0x6fff4c04 := by
          simpa [plainTypes] using a
        refine plain (by omega) (by omega) (by omega) (by omega) ?_
        unfold readContents
        simp only []
        rw [if_neg (by omega), if_pos hc]
        simpa [Res.bind_eq_ok, data_iff] using b
      · have hm := a
        simp only [machineTypes, List.mem_cons, Prod.mk.injEq, List.not_mem_nil, or_false] at a
        refine plain (by omega) (by omega) (by omega) (by omega) ?_
        unfold readContents
        have hna : (t.machine, s.type) ∉ attributeTypes := by
          simp only [attributeTypes, List.mem_cons, Prod.mk.injEq, List.not_mem_nil, or_false]; omega
        dsimp only
        rw [if_neg (by omega), if_neg (by omega), if_neg (by omega), if_neg (by omega), if_neg (by omega), if_neg (by omega), if_neg (by omega),
          if_neg (by omega), if_neg (by omega), if_neg (by omega), if_neg (by omega), if_neg (by omega), if_neg (by omega), if_neg (by omega),
          if_neg (by omega), if_neg (show ((ctxOf t).machine, s.type) ∉ attributeTypes from hna), if_pos (show ((ctxOf t).machine, s.type) ∈ copiedTypes from hm)]
        simpa [Res.bind_eq_ok, data_iff] using b
    | dynRelocs a b =>
      have ht : s.type = 9 ∨ s.type = 4 := by obtain ⟨rela, _, k, -⟩ := b; cases rela <;> simp at k <;> simp [k]
      refine ⟨_, none, none, (sectionRelocs_iff t data hlen s ht _).2 (.inl ⟨_, _, a, b, rfl⟩), .inl ⟨by omega, rfl⟩, .inl ⟨by omega, rfl⟩, ?_⟩
      unfold readContents
      simp only []
      rw [if_neg (by omega), if_neg (by omega), if_pos ht]
    | relocs a b =>
      have ht : s.type = 9 ∨ s.type = 4 := by obtain ⟨rela, _, k, -⟩ := b; cases rela <;> simp at k <;> simp [k]
      refine ⟨_, none, none, (sectionRelocs_iff t data hlen s ht _).2 (.inr ⟨_, a, b, rfl⟩), .inl ⟨by omega, rfl⟩, .inl ⟨by omega, rfl⟩, ?_⟩
      unfold readContents
      simp only []
      rw [if_neg (by omega), if_neg (by omega), if_pos ht]
    | symbol a b => exact plain (by omega) (by omega) (by omega) (by omega) (by simp [readContents, ctxOf, a, b])
    | symbolSectionIndex a b => exact plain (by omega) (by omega) (by omega) (by omega) (by simp [readContents, ctxOf, a, b])
    | dynamicSymbol a b => exact plain (by omega) (by omega) (by omega) (by omega) (by simp [readContents, ctxOf, a, b])
    | string a b => exact plain (by omega) (by omega) (by omega) (by omega) (by simp [readContents, ctxOf, a, b])
    | dynamicString a b b2 =>
      refine plain (by omega) (by omega) (by omega) (by omega) ?_
      simp only [readContents, a, Nat.reduceEqDiff, or_self, if_false, if_true]
      rw [if_neg (show i ≠ (ctxOf t).symbols.stringSection from b), if_pos (show i = (ctxOf t).dynSymbols.stringSection from b2)]
    | sectionString a b b2 b3 =>
      refine plain (by omega) (by omega) (by omega) (by omega) ?_
      simp only [readContents, a, Nat.reduceEqDiff, or_self, if_false, if_true]
      rw [if_neg (show i ≠ (ctxOf t).symbols.stringSection from b), if_neg (show i ≠ (ctxOf t).dynSymbols.stringSection from b2), if_pos (show i = (ctxOf t).shstrndx from b3)]
    | annobin a b b2 b3 b4 b5 =>
      refine plain (by omega) (by omega) (by omega) (by omega) ?_
      simp only [readContents, a, Nat.reduceEqDiff, or_self, if_false, if_true]
      rw [if_neg (show i ≠ (ctxOf t).symbols.stringSection from b), if_neg (show i ≠ (ctxOf t).dynSymbols.stringSection from b2), if_neg (show i ≠ (ctxOf t).shstrndx from b3), if_pos (by rw [b4, annobin_eq])]
      simpa [Res.bind_eq_ok, data_iff] using b5
    | note a b =>
      refine plain (by omega) (by omega) (by omega) (by omega) ?_
      have := (data_iff _ _ _).2 b
      simp [readContents, a, this, Res.ok_bind]
    | dynamic a b b2 b3 =>
      refine plain (by omega) (by omega) (by omega) (by omega) ?_
      have := (dynamics_iff t.cfg ⟨t.sections, t.strings⟩ data hlen s a _).2 ⟨_, _, _, b, b2, b3, rfl⟩
      simp [readContents, ctxOf, a, this]
    | attributes a b b2 =>
      have hr := (attributes_iff t.cfg.en data t.sections.length t.symbols.symbols.length s _).2 ⟨_, _, b, b2, rfl⟩
      rcases a with a | a
      · refine plain (by omega) (by omega) (by omega) (by omega) ?_
        simp [readContents, ctxOf, a, hr]
      · have hm := a
        simp only [attributesTypes, List.mem_cons, Prod.mk.injEq, List.not_mem_nil, or_false] at a
        refine plain (by omega) (by omega) (by omega) (by omega) ?_
        unfold readContents
        dsimp only
        rw [if_neg (by omega), if_neg (by omega), if_neg (by omega), if_neg (by omega), if_neg (by omega), if_neg (by omega), if_neg (by omega),
          if_neg (by omega), if_neg (by omega), if_neg (by omega), if_neg (by omega), if_neg (by omega), if_neg (by omega), if_neg (by omega),
          if_neg (by omega), if_pos (show ((ctxOf t).machine, s.type) ∈ attributeTypes from hm)]; exact hr
    | hash a b b2 =>
      refine ⟨_, _, none, sectionRelocs_none t data s (by omega) (by omega), .inr ⟨a, _, b, b2, rfl⟩, .inl ⟨by omega, rfl⟩, ?_⟩
      simp [readContents, a]
    | gnuHash a b b2 =>
      refine ⟨_, none, _, sectionRelocs_none t data s (by omega) (by omega), .inl ⟨by omega, rfl⟩, .inr ⟨a, _, b, b2, rfl⟩, ?_⟩
      simp [readContents, a]
    | gnuVersym a => exact plain (by omega) (by omega) (by omega) (by omega) (by simp [readContents, a])
    | gnuVerdef a => exact plain (by omega) (by omega) (by omega) (by omega) (by simp [readContents, a])
    | gnuVerneed a => exact plain (by omega) (by omega) (by omega) (by omega) (by simp [readContents, a])

theorem np_ite {α : Type} {c : Prop} [Decidable c] {a b : Res α} (ha : a ≠ .panic) (hb : b ≠ .panic) : (if c then a else b) ≠ .panic := by
  split <;> assumption

theorem contents_np (x : ReadCtx) (data : List UInt8) (hlen : data.length < 2 ^ 64) (i : Nat) (s : Shdr) (name : List UInt8) (rel : SecData) :
    readContents x data i s name rel ≠ .panic := by
  unfold readContents
  have hc : ∀ f : List UInt8 → SecData, ((s.data data).bind fun d => Res.ok (f d)) ≠ .panic := fun f => Res.bind_no_panic (data_np _ _) fun _ _ => by simp
  have ha := attributes_np x.cfg.en data x.table.sections.length x.symbols.symbols.length s
  dsimp only
  have hd : ∀ e : Res SecData, e ≠ .panic → (if s.type = 6 then readDynamics x.cfg x.table data s else e) ≠ .panic := by
    intro e he
    split
    · rename_i c9; exact dynamics_np x.cfg x.table data hlen s c9
    · exact he
  refine np_ite (by simp) (np_ite (hc _) (np_ite (by simp) (np_ite (np_ite (by simp) (by simp)) (np_ite (np_ite (by simp) (by simp))
    (np_ite (np_ite (by simp) (by simp)) (np_ite (np_ite (by simp) (np_ite (by simp) (np_ite (by simp) (np_ite (hc _) (by simp)))))
    (np_ite (hc _) (hd _ (np_ite ha (np_ite (by simp) (np_ite (by simp) (np_ite (by simp) (np_ite (by simp) (np_ite (by simp) (np_ite ha
    (np_ite (hc _) (by simp)))))))))))))))))

theorem section_iff (t : Tables) (data : List UInt8) (hlen : data.length < 2 ^ 64) (i : Nat) (s : Shdr) (p : HashParams) (y : Sec × HashParams) :
    readSection (ctxOf t) data i s p = .ok y ↔ SectionOf t data (s, i) y.1 ∧ y.2 = upd t.cfg.en data p s := by
  unfold readSection SectionOf
  have hn : ∀ n, (ctxOf t).table.sectionName data s = .ok n ↔ StrAt data t.strings s.name n := fun n => str_iff data hlen _ _ _
  have hf : (decide (s.flags &&& 0x40 ≠ 0)) = s.flags.testBit 6 := by
    rw [Bool.eq_iff_iff, decide_eq_true_iff]; exact flag_test s.flags 6
  simp only [Res.bind_eq_ok, hn, link_iff, hf, if_true, Res.ok.injEq]
  obtain ⟨y1, y2⟩ := y
  constructor
  · rintro ⟨rel, h1, h, h2, g, h3, name, h4, x, h5, link, h6, info, h7, h8⟩
    simp only [Prod.mk.injEq] at h8
    obtain ⟨rfl, rfl⟩ := h8
    exact ⟨⟨rfl, rfl, h4, rfl, rfl, rfl, rfl, rfl, h6, rfl, h7, rfl, rfl, (contents_iff t data hlen i s name x).1 ⟨rel, h, g, h1, h2, h3, h5⟩⟩,
      set_upd _ _ _ _ _ _ h2 h3⟩
  · rintro ⟨⟨k1, k2, k3, k4, k5, k6, k7, k8, k9, k10, k11, k12, k13, k14⟩, k15⟩
    obtain ⟨rel, h, g, h1, h2, h3, h4⟩ := (contents_iff t data hlen i s _ _).2 k14
    refine ⟨rel, h1, h, h2, g, h3, _, k3, _, h4, _, k9, _, k11, ?_⟩
    have := set_upd t.cfg.en data s p h g h2 h3
    cases y1
    simp only [] at k1 k2 k4 k5 k6 k7 k8 k10 k12 k13 k15
    simp only [Prod.mk.injEq]
    refine ⟨?_, by rw [k15]; exact this⟩
    rw [k1, k2, k4, k5, k6, k7, k8, k10, k12, k13]

theorem section_np (x : ReadCtx) (data : List UInt8) (hlen : data.length < 2 ^ 64) (i : Nat) (s : Shdr) (p : HashParams) : readSection x data i s p ≠ .panic := by
  unfold readSection
  exact Res.bind_no_panic (sectionRelocs_np _ _ _ _ _ _) fun _ _ => Res.bind_no_panic (hashHeader_np _ _ _ _) fun _ _ =>
    Res.bind_no_panic (hashHeader_np _ _ _ _) fun _ _ => Res.bind_no_panic (str_no_panic data hlen _ _) fun _ _ =>
    Res.bind_no_panic (contents_np _ _ hlen _ _ _ _) fun _ _ => Res.bind_no_panic (link_np _ _ _) fun _ _ => Res.bind_no_panic (link_np _ _ _) fun _ _ => by simp

theorem sections_iff (t : Tables) (data : List UInt8) (hlen : data.length < 2 ^ 64) (l : List (Shdr × Nat)) (segs : List Seg) (p : HashParams) (secs : List Sec)
    (r : List Seg × HashParams × List Sec) :
    readSections (ctxOf t) data l (segs, p, secs) = .ok r ↔
      ∃ new, Each (SectionOf t data) l new ∧ r = (new.foldl assignSection segs, (l.map Prod.fst).foldl (upd t.cfg.en data) p, secs ++ new) := by
  induction l generalizing segs p secs with
  | nil =>
    rw [readSections]
    simp only [Res.ok.injEq, each_nil_left]
    constructor
    · rintro rfl; exact ⟨[], rfl, by simp⟩
    · rintro ⟨_, rfl, rfl⟩; simp
  | cons q l ih =>
    obtain ⟨s, i⟩ := q
    rw [readSections]
    simp only [Res.bind_eq_ok, section_iff t data hlen, ih, each_cons_left]
    constructor
    · rintro ⟨⟨y, p'⟩, ⟨h1, rfl⟩, new, h2, rfl⟩
      exact ⟨y :: new, ⟨y, new, rfl, h1, h2⟩, by simp [push]⟩
    · rintro ⟨_, ⟨y, new, rfl, h1, h2⟩, hr⟩
      exact ⟨(y, upd t.cfg.en data p s), ⟨h1, rfl⟩, new, h2, by rw [hr]; simp [push]⟩

theorem sections_np (x : ReadCtx) (data : List UInt8) (hlen : data.length < 2 ^ 64) (l : List (Shdr × Nat)) (st : List Seg × HashParams × List Sec) :
    readSections x data l st ≠ .panic := by
  induction l generalizing st with
  | nil => simp [readSections]
  | cons q l ih =>
    obtain ⟨s, i⟩ := q
    obtain ⟨a, b, c⟩ := st
    rw [readSections]
    exact Res.bind_no_panic (section_np _ _ hlen _ _ _) fun _ _ => ih _

/-! ## Versions -/

theorem verdef_drain_np (en : Endianness) (d : List UInt8) : Elf.drain (Elf.verdefNext en) (d.length + 1) d ≠ .panic := by
  obtain ⟨xs, e, h1, h2, h3⟩ := (C36_iterators_terminate en d ([], 0)).1
  exact Elf.drain_no_panic ⟨xs, e, h1, by omega, h3⟩
theorem verneed_drain_np (en : Endianness) (d : List UInt8) : Elf.drain (Elf.verneedNext en) (d.length + 1) d ≠ .panic := by
  obtain ⟨xs, e, h1, h2, h3⟩ := (C36_iterators_terminate en d ([], 0)).2.1
  exact Elf.drain_no_panic ⟨xs, e, h1, by omega, h3⟩

theorem first_some (ss : SectionTable) (ty : Nat) (s : Shdr) : ss.firstOfType ty = some s ↔
    ∃ i : Nat, ss.sections[i]? = some s ∧ s.type = ty ∧ ∀ (j : Nat) s', j < i → ss.sections[j]? = some s' → s'.type ≠ ty := by
  unfold SectionTable.firstOfType
  rw [List.find?_eq_some_iff_getElem]
  constructor
  · rintro ⟨h1, i, h2, h3, h4⟩
    refine ⟨i, by rw [List.getElem?_eq_getElem h2, h3], by simpa using h1, ?_⟩
    intro j s' hj hs'
    have hjl : j < ss.sections.length := by omega
    rw [List.getElem?_eq_getElem hjl] at hs'
    injection hs' with hs'
    have := h4 j hj
    rw [hs'] at this
    simpa using this
  · rintro ⟨i, h1, h2, h3⟩
    obtain ⟨hi, h1⟩ := List.getElem?_eq_some_iff.1 h1
    refine ⟨by simpa using h2, i, hi, h1, ?_⟩
    intro j hj
    have := h3 j ss.sections[j] hj (List.getElem?_eq_getElem (by omega))
    simpa using this

theorem first_none (ss : SectionTable) (ty : Nat) : ss.firstOfType ty = none ↔ ∀ s ∈ ss.sections, s.type ≠ ty := by
  unfold SectionTable.firstOfType
  rw [List.find?_eq_none]
  simp

theorem first_cases (ss : List Shdr) (strs : StrTable) (type str : Nat) (data : List UInt8) {α : Type} (P : List UInt8 → List α → Prop) (l : List α) :
    InFirst ss type str data P l ↔ match (⟨ss, strs⟩ : SectionTable).firstOfType type with
      | none => l = []
      | some s => ∃ d, DataOf data s d ∧ s.link = str ∧ P d l := by
  unfold InFirst
  cases h : (⟨ss, strs⟩ : SectionTable).firstOfType type with
  | none =>
    have hn := (first_none _ _).1 h
    simp only [] at hn ⊢
    constructor
    · rintro (⟨-, h⟩ | ⟨i, s, d, h1, h2, -⟩)
      · exact h
      · exact absurd h2 (hn s (List.mem_of_getElem? h1))
    · intro h; exact .inl ⟨hn, h⟩
  | some s =>
    obtain ⟨i, h1, h2, h3⟩ := (first_some _ _ _).1 h
    simp only []
    constructor
    · rintro (⟨hn, -⟩ | ⟨j, s', d, k1, k2, k3, k4, k5, k6⟩)
      · exact absurd h2 (hn s (List.mem_of_getElem? h1))
      · have : some s' = some s := by rw [← h, eq_comm, first_some]; exact ⟨j, k1, k2, k3⟩
        injection this with this
        subst this
        exact ⟨d, k4, k5, k6⟩
    · rintro ⟨d, k4, k5, k6⟩
      exact .inr ⟨i, s, d, h1, h2, h3, k4, k5, k6⟩

theorem verdef_iff (en : Endianness) (data : List UInt8) (hlen : data.length < 2 ^ 64) (t : SectionTable) (dyn : SymTab) (st : VerState) :
    readGnuVerdef en data t dyn ⟨[(0, 0), (1, 1)], none, [], []⟩ = .ok st ↔
      ∃ l base ds, InFirst t.sections 0x6ffffffd dyn.stringSection data (Defs en) l ∧ Good (defIdx l) ∧
        Each (DefOf data dyn.strings) (l.filter fun v => !isBase v) ds ∧ BaseOf data dyn.strings l base ∧ st = stOf (defIdx l) base ds [] := by
  unfold readGnuVerdef
  simp only [first_cases t.sections t.strings]
  have h0 : (⟨[(0, 0), (1, 1)], none, [], []⟩ : VerState) = stOf [] none [] [] := rfl
  have hbase : ∀ l b, BaseR data dyn.strings none l b ↔ BaseOf data dyn.strings l b := by
    intro l b
    unfold BaseR BaseOf
    simp
  cases h : t.firstOfType 0x6ffffffd with
  | none =>
    simp only [Res.ok.injEq]
    constructor
    · rintro rfl
      exact ⟨[], none, [], rfl, ⟨by simp [defIdx], by simp [defIdx], by simp [defIdx]⟩, .nil, .inl ⟨rfl, rfl⟩, rfl⟩
    · rintro ⟨_, b, ds, rfl, -, h1, h2, rfl⟩
      simp only [List.filter_nil, each_nil_left] at h1
      subst h1
      rcases h2 with ⟨-, rfl⟩ | ⟨v, a, str, h, -⟩
      · rfl
      · simp at h
  | some s =>
    simp only [Res.bind_eq_ok, data_iff]
    constructor
    · rintro ⟨d, h1, h2⟩
      split at h2
      · cases h2
      · rename_i hl
        simp only [Res.bind_eq_ok] at h2
        obtain ⟨vs, h2, h3⟩ := h2
        rw [h0, defs_fold en data hlen _ [] vs (ver_cnt _ _ _ _ _ _ _ _ h2) [] none [] rfl ⟨by simp, by simp, by simp⟩] at h3
        obtain ⟨l, b, ds, k1, k2, k3, k4, k5⟩ := h3
        exact ⟨l, b, ds, ⟨d, h1, by omega, (defs_iff en d l).1 ⟨vs, h2, k1⟩⟩, by simpa using k2, k3, (hbase _ _).1 k4, by simpa using k5⟩
    · rintro ⟨l, b, ds, ⟨d, h1, hl, h2⟩, k2, k3, k4, k5⟩
      refine ⟨d, h1, ?_⟩
      rw [if_neg (by omega)]
      obtain ⟨vs, h2, k1⟩ := (defs_iff en d l).2 h2
      rw [h2, Res.ok_bind, h0, defs_fold en data hlen _ [] vs (ver_cnt _ _ _ _ _ _ _ _ h2) [] none [] rfl ⟨by simp, by simp, by simp⟩]
      exact ⟨l, b, ds, k1, by simpa using k2, k3, (hbase _ _).2 k4, by simpa using k5⟩

theorem verdef_np (en : Endianness) (data : List UInt8) (hlen : data.length < 2 ^ 64) (t : SectionTable) (dyn : SymTab) (st : VerState) :
    readGnuVerdef en data t dyn st ≠ .panic := by
  unfold readGnuVerdef
  split
  · simp
  · refine Res.bind_no_panic (data_np _ _) fun d _ => ?_
    split
    · simp
    · exact Res.bind_no_panic (verdef_drain_np en d) fun _ _ => verdefs_np _ _ hlen _ _ _

theorem verneed_iff (en : Endianness) (data : List UInt8) (hlen : data.length < 2 ^ 64) (t : SectionTable) (dyn : SymTab) (ks : List Nat)
    (b : Option (List UInt8)) (ds : List VerData) (hl : ds.length = ks.length) (hg : Good ks) (st : VerState) :
    readGnuVerneed en data t dyn (stOf ks b ds []) = .ok st ↔
      ∃ l ns names, InFirst t.sections 0x6ffffffe dyn.stringSection data (Needs en) l ∧ Good (ks ++ l.flatMap fun n => n.2.map (·.other)) ∧
        Each (NeedOf data dyn.strings) (l.zipIdx.flatMap fun n => n.1.2.map fun a => (n.2, a)) ns ∧
        Each (fun (n : Elf.Verneed × List Elf.Vernaux) str => StrAt data dyn.strings n.1.file str) l names ∧
        st = stOf (ks ++ l.flatMap fun n => n.2.map (·.other)) b (ds ++ ns) names := by
  unfold readGnuVerneed
  simp only [first_cases t.sections t.strings]
  cases h : t.firstOfType 0x6ffffffe with
  | none =>
    simp only [Res.ok.injEq]
    constructor
    · rintro rfl
      exact ⟨[], [], [], rfl, by simpa using hg, .nil, .nil, by simp⟩
    · rintro ⟨_, ns, names, rfl, -, h1, h2, rfl⟩
      simp only [List.zipIdx_nil, List.flatMap_nil, each_nil_left] at h1 h2
      subst h1; subst h2
      simp
  | some s =>
    simp only [Res.bind_eq_ok, data_iff]
    constructor
    · rintro ⟨d, h1, h2⟩
      split at h2
      · cases h2
      · rename_i hlk
        simp only [Res.bind_eq_ok] at h2
        obtain ⟨vs, h2, h3⟩ := h2
        rw [needs_fold en data hlen _ b vs (ver_cnt _ _ _ _ _ _ _ _ h2) ks ds [] hl hg] at h3
        obtain ⟨l, ns, names, k1, k2, k3, k4, k5⟩ := h3
        exact ⟨l, ns, names, ⟨d, h1, by omega, (needs_iff en d l).1 ⟨vs, h2, k1⟩⟩, k2, by simpa using k3, k4, by simpa using k5⟩
    · rintro ⟨l, ns, names, ⟨d, h1, hlk, h2⟩, k2, k3, k4, k5⟩
      refine ⟨d, h1, ?_⟩
      rw [if_neg (by omega)]
      obtain ⟨vs, h2, k1⟩ := (needs_iff en d l).2 h2
      rw [h2, Res.ok_bind, needs_fold en data hlen _ b vs (ver_cnt _ _ _ _ _ _ _ _ h2) ks ds [] hl hg]
      exact ⟨l, ns, names, k1, k2, by simpa using k3, k4, by simpa using k5⟩

theorem verneed_np (en : Endianness) (data : List UInt8) (hlen : data.length < 2 ^ 64) (t : SectionTable) (dyn : SymTab) (st : VerState) :
    readGnuVerneed en data t dyn st ≠ .panic := by
  unfold readGnuVerneed
  split
  · simp
  · refine Res.bind_no_panic (data_np _ _) fun d _ => ?_
    split
    · simp
    · exact Res.bind_no_panic (verneed_drain_np en d) fun _ _ => verneeds_np _ _ hlen _ _ _

/-- The symbol without its version. -/
def bare (y : Build.Sym) : Build.Sym := { y with version := 0, versionHidden := false }

theorem symbolOf_bare (data : List UInt8) (t : SymTab) (n : Nat) (p : Elf.Sym × Nat) (y : Build.Sym) : SymbolOf data t n p (bare y) ↔ SymbolOf data t n p y := Iff.rfl

theorem versions_each (ks : List Nat) (hg : Good ks) (ss : List Build.Sym) (h0 : ∀ s ∈ ss, s.version = 0 ∧ s.versionHidden = false) (vs : List Nat)
    (hl : ss.length = vs.length) (ys : List Build.Sym) :
    Each (VR (idsOf ks)) (ss.zip vs) ys ↔ Each (VersionOf ks) vs ys ∧ ys.map bare = ss := by
  induction ss generalizing vs ys with
  | nil =>
    have : vs = [] := List.eq_nil_of_length_eq_zero hl.symm
    subst this
    simp only [List.zip_nil_right, each_nil_left]
    constructor
    · rintro rfl; simp
    · rintro ⟨h, -⟩; exact h
  | cons s ss ih =>
    cases vs with
    | nil => simp at hl
    | cons v vs =>
      have hs := h0 s (by simp)
      have hbare : ∀ y : Build.Sym, ({ y with version := s.version, versionHidden := s.versionHidden } : Build.Sym) = bare y := by
        intro y; rw [hs.1, hs.2]; rfl
      simp only [List.zip_cons_cons, each_cons_left, ih (fun s hs => h0 s (by simp [hs])) vs (by simpa using hl), versionOf_iff ks hg, hbare]
      constructor
      · rintro ⟨y, ys', rfl, ⟨h1, h2⟩, h3, h4⟩
        exact ⟨⟨y, ys', rfl, h1, h3⟩, by rw [List.map_cons, h2, h4]⟩
      · rintro ⟨⟨y, ys', rfl, h1, h3⟩, h2⟩
        simp only [List.map_cons, List.cons.injEq] at h2
        exact ⟨y, ys', rfl, ⟨h1, h2.1⟩, h3, h2.2⟩

theorem versym_iff (t : Tables) (data : List UInt8) (hlen : data.length < 2 ^ 64) (ks : List Nat) (hg : Good ks) (ss : List Build.Sym)
    (h0 : ∀ s ∈ ss, s.version = 0 ∧ s.versionHidden = false) (hl : ss.length = t.dynSymbols.symbols.length - 1) (ys : List Build.Sym) :
    readGnuVersym t.cfg.en data ⟨t.sections, t.strings⟩ t.dynSymbols (idsOf ks) ss = .ok ys ↔ SymVersions t data ks ys ∧ ys.map bare = ss := by
  have hb : ∀ ys : List Build.Sym, (∀ x ∈ ys, x.version = 0 ∧ x.versionHidden = false) → ys.map bare = ys := by
    intro ys h
    conv => rhs; rw [← List.map_id ys]
    apply List.map_congr_left
    intro y hy
    obtain ⟨h1, h2⟩ := h y hy
    cases y
    simp only [] at h1 h2
    simp only [bare, id]
    rw [h1, h2]
  have hr : ∀ (s : Shdr) xs, (∃ imgs, s.dataAsArray data 2 = .ok imgs ∧ xs = imgs.map (rd t.cfg.en)) ↔ RecordsOf 2 (fun o => num t.cfg.en data o 2) data s xs :=
    fun s xs => ElfF.records_iff s data hlen 2 (by decide) (rd t.cfg.en) (fun o => num t.cfg.en data o 2) (fun o _ => rfl) xs
  unfold readGnuVersym SymVersions
  cases h : (⟨t.sections, t.strings⟩ : SectionTable).firstOfType 0x6fffffff with
  | none =>
    have hn := (first_none _ _).1 h
    simp only [Res.ok.injEq] at hn ⊢
    constructor
    · rintro rfl; exact ⟨.inl ⟨hn, h0⟩, hb _ h0⟩
    · rintro ⟨⟨-, k⟩ | ⟨i, s, vs, k1, k2, -⟩, k3⟩
      · rw [← k3, hb _ k]
      · exact absurd k2 (hn s (List.mem_of_getElem? k1))
  | some s =>
    obtain ⟨i, h1, h2, h3⟩ := (first_some _ _ _).1 h
    simp only [] at h1 h3 ⊢
    rw [Res.bind_eq_ok]
    constructor
    · rintro ⟨imgs, k1, k2⟩
      split at k2
      · cases k2
      · rename_i hc
        have hlen2 : ss.length = ((imgs.drop 1).map (rd t.cfg.en)).length := by simp; omega
        have := versyms_iff (idsOf ks) ((imgs.drop 1).map (rd t.cfg.en)) [] ss hlen2 ys
        simp only [List.length_nil, List.nil_append] at this
        rw [this] at k2
        obtain ⟨_, rfl, k2⟩ := k2
        rw [versions_each ks hg ss h0 _ hlen2] at k2
        refine ⟨.inr ⟨i, s, imgs.map (rd t.cfg.en), h1, h2, h3, (hr s _).1 ⟨imgs, k1, rfl⟩, by simp; omega, by omega, ?_⟩, k2.2⟩
        rw [← List.map_drop]
        exact k2.1
    · rintro ⟨⟨hn, -⟩ | ⟨j, s', vs, k1, k2, k3, k4, k5, k6, k7⟩, k8⟩
      · exact absurd h2 (hn s (List.mem_of_getElem? h1))
      · have : some s' = some s := by rw [← h, eq_comm, first_some]; exact ⟨j, k1, k2, k3⟩
        injection this with this
        subst this
        obtain ⟨imgs, k9, rfl⟩ := (hr s' vs).2 k4
        refine ⟨imgs, k9, ?_⟩
        simp only [List.length_map] at k5
        rw [if_neg (by omega)]
        have hlen2 : ss.length = ((imgs.drop 1).map (rd t.cfg.en)).length := by simp; omega
        have := versyms_iff (idsOf ks) ((imgs.drop 1).map (rd t.cfg.en)) [] ss hlen2 ys
        simp only [List.length_nil, List.nil_append] at this
        rw [this]
        refine ⟨ys, rfl, ?_⟩
        rw [versions_each ks hg ss h0 _ hlen2]
        rw [← List.map_drop] at k7
        exact ⟨k7, k8⟩

theorem versym_np (en : Endianness) (data : List UInt8) (t : SectionTable) (dyn : SymTab) (ids : List (Nat × Nat)) (ss : List Build.Sym)
    (hl : ss.length = dyn.symbols.length - 1) : readGnuVersym en data t dyn ids ss ≠ .panic := by
  unfold readGnuVersym
  split
  · simp
  · refine Res.bind_no_panic (dataAsArray_no_panic _ _ _) fun vs _ => ?_
    split
    · simp
    · exact versyms_np _ _ _ _ (by simp; omega)

theorem each_bare {data : List UInt8} {t : SymTab} {n : Nat} {ps : List (Elf.Sym × Nat)} {ys : List Build.Sym} :
    Each (SymbolOf data t n) ps (ys.map bare) ↔ Each (SymbolOf data t n) ps ys := by
  induction ps generalizing ys with
  | nil => simp [each_nil_left]
  | cons p ps ih =>
    cases ys with
    | nil => simp only [List.map_nil, each_cons_left]
    | cons y ys =>
      simp only [List.map_cons, each_cons_left]
      constructor
      · rintro ⟨_, _, h, h1, h2⟩
        simp only [List.cons.injEq] at h
        obtain ⟨rfl, rfl⟩ := h
        exact ⟨y, ys, rfl, h1, ih.1 h2⟩
      · rintro ⟨_, _, h, h1, h2⟩
        simp only [List.cons.injEq] at h
        obtain ⟨rfl, rfl⟩ := h
        exact ⟨_, _, rfl, h1, ih.2 h2⟩

end Obj.BuildR

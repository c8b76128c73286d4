import Verif.Spec.BuildRead
import Verif.Proof.ElfFile3
import Verif.Props.ElfTables

/-! Relocations, dynamic entries, symbols and segments of a builder that is read. -/

namespace Obj.BuildR
open Obj Obj.Build Obj.Spec Obj.Spec.BuildR Obj.Props
open Obj.Elf (StrTable Shdr Phdr Ehdr SymTab SectionTable Crel)
open Obj.Spec.MachoF (num Each)
open Obj.Spec.ElfF (word RecordsOf StringsOf DataOf relaAt)

/-! ## Lists -/

theorem each_nil_left {α β : Type} {P : α → β → Prop} {ys : List β} : Each P [] ys ↔ ys = [] := by
  constructor
  · intro h; cases h; rfl
  · rintro rfl; exact .nil

theorem each_cons_left {α β : Type} {P : α → β → Prop} {x : α} {xs : List α} {ys : List β} :
    Each P (x :: xs) ys ↔ ∃ y ys', ys = y :: ys' ∧ P x y ∧ Each P xs ys' := by
  constructor
  · intro h; cases h with | cons h1 h2 => exact ⟨_, _, rfl, h1, h2⟩
  · rintro ⟨y, ys', rfl, h1, h2⟩; exact .cons h1 h2

theorem each_length {α β : Type} {P : α → β → Prop} {xs : List α} {ys : List β} (h : Each P xs ys) : ys.length = xs.length := by
  induction h with
  | nil => rfl
  | cons _ _ ih => simp [ih]

theorem each_imp {α β : Type} {P Q : α → β → Prop} {xs : List α} {ys : List β} (h : Each P xs ys) (hi : ∀ x ∈ xs, ∀ y, P x y → Q x y) : Each Q xs ys := by
  induction h with
  | nil => exact .nil
  | cons h1 _ ih => exact .cons (hi _ (by simp) _ h1) (ih fun x hx => hi x (by simp [hx]))

theorem each_congr {α β : Type} {P Q : α → β → Prop} {xs : List α} {ys : List β} (hi : ∀ x ∈ xs, ∀ y, P x y ↔ Q x y) : Each P xs ys ↔ Each Q xs ys :=
  ⟨fun h => each_imp h fun x hx y => (hi x hx y).1, fun h => each_imp h fun x hx y => (hi x hx y).2⟩

theorem each_map_left {α β γ : Type} {P : α → β → Prop} (f : γ → α) {xs : List γ} {ys : List β} :
    Each P (xs.map f) ys ↔ Each (fun x y => P (f x) y) xs ys := by
  induction xs generalizing ys with
  | nil => simp only [List.map_nil, each_nil_left]
  | cons x xs ih => simp only [List.map_cons, each_cons_left, ih]

theorem each_mem {α β : Type} {P : α → β → Prop} {xs : List α} {ys : List β} (h : Each P xs ys) {y : β} (hy : y ∈ ys) : ∃ x ∈ xs, P x y := by
  induction h with
  | nil => cases hy
  | cons h1 _ ih =>
    rcases List.mem_cons.1 hy with rfl | hy
    · exact ⟨_, by simp, h1⟩
    · obtain ⟨x, hx, h⟩ := ih hy
      exact ⟨x, by simp [hx], h⟩

theorem each_get {α β : Type} {P : α → β → Prop} {xs : List α} {ys : List β} (h : Each P xs ys) {i : Nat} {y : β} (hy : ys[i]? = some y) :
    ∃ x, xs[i]? = some x ∧ P x y := by
  induction h generalizing i with
  | nil => simp at hy
  | cons h1 _ ih =>
    cases i with
    | zero => simp at hy; subst hy; exact ⟨_, rfl, h1⟩
    | succ i => simpa using ih (by simpa using hy)

/-- A loop that maps each element, or fails. -/
theorem loop_each {α β : Type} (g : α → Res β) (f : List α → Res (List β)) (h0 : f [] = .ok [])
    (h1 : ∀ x xs, f (x :: xs) = (g x).bind fun y => (f xs).bind fun ys => .ok (y :: ys)) (xs : List α) (ys : List β) :
    f xs = .ok ys ↔ Each (fun x y => g x = .ok y) xs ys := by
  induction xs generalizing ys with
  | nil => rw [h0, each_nil_left]; simp [eq_comm]
  | cons x xs ih =>
    rw [h1, each_cons_left, Res.bind_eq_ok]
    simp only [Res.bind_eq_ok, Res.ok.injEq, ih]
    constructor
    · rintro ⟨y, hy, zs, hz, rfl⟩; exact ⟨y, zs, rfl, hy, hz⟩
    · rintro ⟨y, zs, rfl, hy, hz⟩; exact ⟨y, hy, zs, hz, rfl⟩

theorem loop_no_panic {α β : Type} (g : α → Res β) (f : List α → Res (List β)) (h0 : f [] = .ok [])
    (h1 : ∀ x xs, f (x :: xs) = (g x).bind fun y => (f xs).bind fun ys => .ok (y :: ys)) (xs : List α) (hg : ∀ x ∈ xs, g x ≠ .panic) : f xs ≠ .panic := by
  induction xs with
  | nil => rw [h0]; simp
  | cons x xs ih =>
    rw [h1]
    exact Res.bind_no_panic (hg x (by simp)) fun _ _ => Res.bind_no_panic (ih fun y hy => hg y (by simp [hy])) fun _ _ => by simp

theorem flag_test (f k : Nat) : f &&& 2 ^ k ≠ 0 ↔ f.testBit k = true := by
  rw [and_two_pow_ne]

theorem str_iff (data : List UInt8) (hlen : data.length < 2 ^ 64) (t : StrTable) (o : Nat) (n : List UInt8) :
    t.get data o = .ok n ↔ StrAt data t o n := (C42_string_lookup t data o n hlen).1
theorem str_no_panic (data : List UInt8) (hlen : data.length < 2 ^ 64) (t : StrTable) (o : Nat) : t.get data o ≠ .panic :=
  (C42_string_lookup t data o [] hlen).2

theorem data_iff (s : Shdr) (data d : List UInt8) : s.data data = .ok d ↔ DataOf data s d := by
  rw [C42_section_data]
  unfold DataOf
  by_cases h : s.type = 8 ∨ s.size = 0
  · rw [if_pos h, if_pos h]; simp [eq_comm]
  · rw [if_neg h, if_neg h]
    by_cases h2 : s.offset + s.size ≤ data.length
    · rw [if_pos h2]; simp [h2, eq_comm]
    · rw [if_neg h2]; simp [h2]

theorem data_np (s : Shdr) (data : List UInt8) : s.data data ≠ .panic := by
  rw [C42_section_data]
  split
  · simp
  · split <;> simp

theorem dataOf_unique {data d d' : List UInt8} {s : Shdr} (h : DataOf data s d) (h' : DataOf data s d') : d = d' := by
  have := (data_iff s data d).2 h
  rw [(data_iff s data d').2 h'] at this
  simpa using this.symm

/-! ## Relocations -/

theorem relaEntry_eq (c : Elf.Cfg) (machine : Nat) (rela : Bool) (data : List UInt8) (o : Nat)
    (h : o + (if rela then 3 * word c.is64 else 2 * word c.is64) ≤ data.length) :
    ElfF.toCrel (relaEntry c (Elf.isMips64el c machine) rela (slice data o (if rela then 3 * word c.is64 else 2 * word c.is64))) =
      relocAt c machine rela data o := by
  cases rela
  · unfold relaEntry relocAt relaAt ElfF.toCrel Elf.isMips64el
    simp only [ElfF.field_num, Bool.false_eq_true, if_false] at *
    have hn := MachoF.num_lt c.en data (o + 8) 8
    cases hc : c.is64
    · simp only [Elf.Cfg.w, hc, word, Bool.false_eq_true, if_false] at *
      rw [MachoF.num_slice _ _ _ _ _ _ (by decide), MachoF.num_slice _ _ _ _ _ _ (by decide), ElfF.rSym32_eq, ElfF.rType32_eq]
      rfl
    · simp only [Elf.Cfg.w, hc, word, if_true, Bool.true_and] at *
      rw [MachoF.num_slice _ _ _ _ _ _ (by decide), MachoF.num_slice _ _ _ _ _ _ (by decide)]
      by_cases hm : machine = 8 ∧ c.en = .little
      · rw [if_pos hm, hm.1, hm.2]
        have := ElfF.mips_fields data (o + 8) (by omega)
        simp only [Nat.add_assoc, Nat.reduceAdd] at this
        simp only [beq_self_eq_true, Bool.and_self]
        rw [this.1, this.2]
        rfl
      · rw [if_neg hm]
        have : (c.en == Endianness.little && machine == 8) = false := by
          rw [Bool.eq_false_iff]
          intro h'
          simp only [Bool.and_eq_true, beq_iff_eq] at h'
          exact hm ⟨h'.2, h'.1⟩
        rw [this, ElfF.rSym64_eq _ (by simpa using hn), ElfF.rType64_eq]
        rfl
  · simp only [if_true] at *
    have hr : ∀ img, relaEntry c (Elf.isMips64el c machine) true img = Elf.readRel c (Elf.isMips64el c machine) true img := by
      intro img
      unfold relaEntry Elf.readRel
      cases c.is64 <;> simp
    rw [hr, ElfF.rela_decode c machine data o h]
    unfold relocAt
    simp

theorem relocsImpl_iff (n : Nat) (rs : List Elf.Rel) (l : List Build.Rel) :
    readRelocationsImpl n rs = .ok l ↔ Each (RelocOf n) (rs.map ElfF.toCrel) l := by
  rw [each_map_left]
  rw [loop_each (fun r => (if r.sym = 0 then .ok none else if n ≤ r.sym then .err else .ok (some (r.sym - 1)) : Res (Option Nat)).bind fun symbol =>
    .ok ⟨r.offset, symbol, r.type, r.addend⟩) (readRelocationsImpl n) rfl]
  · apply each_congr
    intro r _ y
    unfold RelocOf ElfF.toCrel
    simp only [Res.bind_eq_ok, Res.ok.injEq]
    obtain ⟨a, b, c, d⟩ := y
    simp only [Build.Rel.mk.injEq]
    by_cases h0 : r.sym = 0
    · simp only [h0, if_true, Res.ok.injEq, Nat.lt_irrefl, false_and, or_false, true_and]
      constructor
      · rintro ⟨_, rfl, rfl, rfl, rfl, rfl⟩; simp
      · rintro ⟨rfl, rfl, rfl, rfl⟩; exact ⟨_, rfl, rfl, rfl, rfl, rfl⟩
    · rw [if_neg h0]
      by_cases h1 : n ≤ r.sym
      · rw [if_pos h1]
        simp only [reduceCtorEq, false_and, exists_false, false_iff, h0, false_or]
        omega
      · rw [if_neg h1]
        simp only [Res.ok.injEq, h0, false_and, false_or]
        constructor
        · rintro ⟨_, rfl, rfl, rfl, rfl, rfl⟩; exact ⟨rfl, rfl, rfl, by omega, by omega, rfl⟩
        · rintro ⟨rfl, rfl, rfl, -, -, rfl⟩; exact ⟨_, rfl, rfl, rfl, rfl, rfl⟩
  · intro x xs
    rw [readRelocationsImpl]
    split <;> try rfl
    split <;> rfl

theorem relocsImpl_np (n : Nat) (rs : List Elf.Rel) : readRelocationsImpl n rs ≠ .panic := by
  induction rs with
  | nil => simp [readRelocationsImpl]
  | cons r rs ih =>
    rw [readRelocationsImpl]
    refine Res.bind_no_panic ?_ fun _ _ => Res.bind_no_panic ih fun _ _ => by simp
    repeat' split
    all_goals simp

/-- The relocations of a section, as contents. -/
def RelocData (t : Tables) (data : List UInt8) (s : Shdr) (x : SecData) : Prop :=
  (∃ count l, DynamicRelocs t s count ∧ RelocsOf t data s count l ∧ x = .dynRelocs l) ∨
  (∃ l, StaticRelocs t s ∧ RelocsOf t data s t.symbols.symbols.length l ∧ x = .relocs l)

theorem readRelocations_iff (t : Tables) (s : Shdr) (rels : List Elf.Rel) (x : SecData) :
    readRelocations s rels t.symbols t.dynSymbols = .ok x ↔
      (∃ count l, DynamicRelocs t s count ∧ Each (RelocOf count) (rels.map ElfF.toCrel) l ∧ x = .dynRelocs l) ∨
      (∃ l, StaticRelocs t s ∧ Each (RelocOf t.symbols.symbols.length) (rels.map ElfF.toCrel) l ∧ x = .relocs l) := by
  unfold readRelocations DynamicRelocs StaticRelocs
  have hf : s.flags &&& 2 ≠ 0 ↔ s.flags.testBit 1 = true := flag_test s.flags 1
  by_cases h1 : s.link = t.dynSymbols.sec
  · rw [if_pos h1]
    simp only [Res.bind_eq_ok, relocsImpl_iff, Res.ok.injEq]
    constructor
    · rintro ⟨l, h, rfl⟩; exact .inl ⟨_, l, .inl ⟨h1, rfl⟩, h, rfl⟩
    · rintro (⟨_, l, ⟨-, rfl⟩ | ⟨h, -⟩, h2, rfl⟩ | ⟨l, ⟨h, -⟩, -⟩)
      · exact ⟨l, h2, rfl⟩
      · exact absurd h1 h
      · exact absurd h1 h
  · rw [if_neg h1]
    by_cases h2 : s.link = 0 ∨ s.flags &&& 2 ≠ 0
    · rw [if_pos h2]
      simp only [Res.bind_eq_ok, relocsImpl_iff, Res.ok.injEq]
      rw [hf] at h2
      constructor
      · rintro ⟨l, h, rfl⟩; exact .inl ⟨_, l, .inr ⟨h1, h2, rfl⟩, h, rfl⟩
      · rintro (⟨_, l, ⟨h, -⟩ | ⟨-, -, rfl⟩, h3, rfl⟩ | ⟨l, ⟨-, h3, h4, -⟩, -⟩)
        · exact absurd h h1
        · exact ⟨l, h3, rfl⟩
        · rcases h2 with h2 | h2
          · exact absurd h2 h3
          · rw [h4] at h2; cases h2
    · rw [if_neg h2]
      have h2' : s.link ≠ 0 ∧ s.flags.testBit 1 = false := by
        rw [hf] at h2
        constructor
        · exact fun h => h2 (.inl h)
        · rw [Bool.eq_false_iff]; exact fun h => h2 (.inr h)
      by_cases h3 : s.link = t.symbols.sec
      · rw [if_pos h3]
        simp only [Res.bind_eq_ok, relocsImpl_iff, Res.ok.injEq]
        constructor
        · rintro ⟨l, h, rfl⟩; exact .inr ⟨l, ⟨h1, h2'.1, h2'.2, h3⟩, h, rfl⟩
        · rintro (⟨_, l, ⟨h, -⟩ | ⟨-, h, -⟩, -⟩ | ⟨l, -, h, rfl⟩)
          · exact absurd h h1
          · rw [← hf] at h; exact absurd h h2
          · exact ⟨l, h, rfl⟩
      · rw [if_neg h3]
        simp only [reduceCtorEq, false_iff]
        rintro (⟨_, l, ⟨h, -⟩ | ⟨-, h, -⟩, -⟩ | ⟨l, ⟨-, -, -, h⟩, -⟩)
        · exact absurd h h1
        · rw [← hf] at h; exact absurd h h2
        · exact absurd h h3

theorem readRelocations_np (s : Shdr) (rels : List Elf.Rel) (a b : SymTab) : readRelocations s rels a b ≠ .panic := by
  unfold readRelocations
  repeat' split
  any_goals exact Res.bind_no_panic (relocsImpl_np _ _) fun _ _ => by simp
  simp

theorem relImages_np (c : Elf.Cfg) (r : Bool) (s : Shdr) (data : List UInt8) : relImages c r s data ≠ .panic := by
  unfold relImages
  by_cases h : s.type ≠ (if r then 4 else 9)
  · rw [if_pos h]; simp
  · rw [if_neg h]; exact Res.bind_no_panic (dataAsArray_no_panic _ _ _) fun _ _ => by simp

theorem sectionRelocs_np (c : Elf.Cfg) (m : Bool) (data : List UInt8) (a b : SymTab) (s : Shdr) : readSectionRelocations c m data a b s ≠ .panic := by
  unfold readSectionRelocations
  refine Res.bind_no_panic (relImages_np _ _ _ _) fun x _ => ?_
  cases x
  · refine Res.bind_no_panic (relImages_np _ _ _ _) fun x _ => ?_
    cases x
    · simp
    · exact readRelocations_np _ _ _ _
  · exact readRelocations_np _ _ _ _

theorem word_pos (b : Bool) : 0 < word b := by cases b <;> decide

theorem sectionRelocs_of (t : Tables) (data : List UInt8) (hlen : data.length < 2 ^ 64) (s : Shdr) (rela : Bool)
    (ht : s.type = if rela then 4 else 9) (x : SecData) :
    (∃ imgs, s.dataAsArray data (t.cfg.relSize rela) = .ok imgs ∧
      readRelocations s (imgs.map (relaEntry t.cfg (Elf.isMips64el t.cfg t.machine) rela)) t.symbols t.dynSymbols = .ok x) ↔
    RelocData t data s x := by
  have hsz : t.cfg.relSize rela = if rela then 3 * word t.cfg.is64 else 2 * word t.cfg.is64 := by
    unfold Elf.Cfg.relSize Elf.Cfg.w word; cases rela <;> cases t.cfg.is64 <;> rfl
  have hw := word_pos t.cfg.is64
  have hpos : 0 < if rela then 3 * word t.cfg.is64 else 2 * word t.cfg.is64 := by split <;> omega
  have hr := ElfF.records_iff s data hlen _ hpos (fun img => ElfF.toCrel (relaEntry t.cfg (Elf.isMips64el t.cfg t.machine) rela img))
    (relocAt t.cfg t.machine rela data) (fun o ho => relaEntry_eq t.cfg t.machine rela data o ho)
  rw [hsz]
  simp only [readRelocations_iff, List.map_map]
  have hR : ∀ count l, RelocsOf t data s count l ↔
      ∃ rs, RecordsOf (if rela then 3 * word t.cfg.is64 else 2 * word t.cfg.is64) (relocAt t.cfg t.machine rela data) data s rs ∧ Each (RelocOf count) rs l := by
    intro count l
    constructor
    · rintro ⟨rela', rs, h1, h2, h3⟩
      have : rela' = rela := by
        rw [ht] at h1
        cases rela <;> cases rela' <;> simp at h1 <;> rfl
      subst this
      exact ⟨rs, h2, h3⟩
    · rintro ⟨rs, h2, h3⟩; exact ⟨rela, rs, ht, h2, h3⟩
  unfold RelocData
  simp only [hR, ← hr]
  constructor
  · rintro ⟨imgs, h1, ⟨count, l, h2, h3, rfl⟩ | ⟨l, h2, h3, rfl⟩⟩
    · exact .inl ⟨count, l, h2, ⟨_, ⟨imgs, h1, rfl⟩, h3⟩, rfl⟩
    · exact .inr ⟨l, h2, ⟨_, ⟨imgs, h1, rfl⟩, h3⟩, rfl⟩
  · rintro (⟨count, l, h2, ⟨_, ⟨imgs, h1, rfl⟩, h3⟩, rfl⟩ | ⟨l, h2, ⟨_, ⟨imgs, h1, rfl⟩, h3⟩, rfl⟩)
    · exact ⟨imgs, h1, .inl ⟨count, l, h2, h3, rfl⟩⟩
    · exact ⟨imgs, h1, .inr ⟨l, h2, h3, rfl⟩⟩

theorem sectionRelocs_iff (t : Tables) (data : List UInt8) (hlen : data.length < 2 ^ 64) (s : Shdr) (ht : s.type = 9 ∨ s.type = 4) (x : SecData) :
    readSectionRelocations t.cfg (Elf.isMips64el t.cfg t.machine) data t.symbols t.dynSymbols s = .ok x ↔ RelocData t data s x := by
  unfold readSectionRelocations
  rcases ht with ht | ht
  · rw [← sectionRelocs_of t data hlen s false ht]
    have : relImages t.cfg false s data = (s.dataAsArray data (t.cfg.relSize false)).bind fun imgs => .ok (some imgs) := by
      unfold relImages; rw [if_neg (by simp [ht])]
    rw [this]
    simp only [Res.bind_eq_ok, Res.ok.injEq]
    constructor
    · rintro ⟨_, ⟨imgs, h1, rfl⟩, h2⟩; exact ⟨imgs, h1, h2⟩
    · rintro ⟨imgs, h1, h2⟩; exact ⟨_, ⟨imgs, h1, rfl⟩, h2⟩
  · rw [← sectionRelocs_of t data hlen s true ht]
    have h0 : relImages t.cfg false s data = .ok none := by unfold relImages; rw [if_pos (by simp [ht])]
    have : relImages t.cfg true s data = (s.dataAsArray data (t.cfg.relSize true)).bind fun imgs => .ok (some imgs) := by
      unfold relImages; rw [if_neg (by simp [ht])]
    rw [h0, this]
    simp only [Res.ok_bind, Res.bind_eq_ok, Res.ok.injEq]
    constructor
    · rintro ⟨_, ⟨imgs, h1, rfl⟩, h2⟩; exact ⟨imgs, h1, h2⟩
    · rintro ⟨imgs, h1, h2⟩; exact ⟨_, ⟨imgs, h1, rfl⟩, h2⟩

theorem sectionRelocs_none (t : Tables) (data : List UInt8) (s : Shdr) (h9 : s.type ≠ 9) (h4 : s.type ≠ 4) :
    readSectionRelocations t.cfg (Elf.isMips64el t.cfg t.machine) data t.symbols t.dynSymbols s = .ok (.data []) := by
  unfold readSectionRelocations relImages
  simp [h9, h4]

/-! ## Dynamic entries -/

theorem dyn_decode (c : Elf.Cfg) (data : List UInt8) (o : Nat) (h : o + 2 * word c.is64 ≤ data.length) :
    ((Elf.readDyn c (slice data o (2 * word c.is64))).tag, (Elf.readDyn c (slice data o (2 * word c.is64))).val) = dynAt c data o := by
  have hw : c.w = word c.is64 := rfl
  unfold Elf.readDyn dynAt
  rw [hw]
  have h1 := ElfF.rdI_num c.en data o (2 * word c.is64) 0 (word c.is64) (by omega) h
  rw [List.drop_zero, Nat.add_zero] at h1
  rw [h1]
  have h2 : rd c.en (((slice data o (2 * word c.is64)).drop (word c.is64)).take (word c.is64)) = num c.en data (o + word c.is64) (word c.is64) := by
    have := MachoF.num_slice c.en data o (2 * word c.is64) (word c.is64) (word c.is64) (by omega)
    rw [← this]
    rfl
  rw [h2]

theorem isString_iff (tag : Int) : isString tag = true ↔ tag ∈ stringTags := by
  unfold isString stringTags
  simp only [Bool.or_eq_true, decide_eq_true_eq, List.mem_cons, List.not_mem_nil, or_false]
  omega
theorem autoTags_eq : autoTags = [6, 5, 10, 4, 0x6ffffef5, 0x6ffffff0, 0x6ffffffe, 0x6fffffff, 0x6ffffffc, 0x6ffffffd] := by decide
theorem isAuto_iff (tag : Int) : isAuto tag = true ↔ tag ∈ autoTags := by
  rw [autoTags_eq]
  unfold isAuto
  simp only [Bool.or_eq_true, decide_eq_true_eq, List.mem_cons, List.not_mem_nil, or_false]
  omega
theorem tags_disjoint (tag : Int) (h : tag ∈ stringTags) : tag ∉ autoTags := by
  rw [autoTags_eq]
  unfold stringTags at h
  simp only [List.mem_cons, List.not_mem_nil, or_false] at h ⊢
  omega

theorem dynEntry_iff (strings : StrTable) (data : List UInt8) (hlen : data.length < 2 ^ 64) (d : Elf.Dyn) (x : Build.Dyn) :
    readDynamicEntry strings data d = .ok x ↔ DynOf data strings (d.tag, d.val) x := by
  unfold readDynamicEntry DynOf
  simp only []
  by_cases h : isString d.tag = true
  · rw [if_pos h]
    have h := (isString_iff _).1 h
    unfold Elf.Dyn.string
    simp only [Res.bind_eq_ok, Res.ok.injEq]
    constructor
    · rintro ⟨str, h1, rfl⟩
      split at h1
      · exact .inl ⟨h, by simpa using ‹d.val < U32›, str, (str_iff data hlen _ _ _).1 h1, rfl⟩
      · cases h1
    · rintro (⟨-, h1, str, h2, rfl⟩ | ⟨h1, -⟩ | ⟨h1, -⟩)
      · exact ⟨str, by rw [if_pos (by simpa using h1)]; exact (str_iff data hlen _ _ _).2 h2, rfl⟩
      · exact absurd h1 (tags_disjoint _ h)
      · exact absurd h h1
  · rw [if_neg h]
    have h := fun h' => h ((isString_iff _).2 h')
    by_cases ha : isAuto d.tag = true
    · rw [if_pos ha]
      have ha := (isAuto_iff _).1 ha
      simp only [Res.ok.injEq]
      constructor
      · rintro rfl; exact .inr (.inl ⟨ha, rfl⟩)
      · rintro (⟨h1, -⟩ | ⟨-, rfl⟩ | ⟨-, h1, -⟩)
        · exact absurd h1 h
        · rfl
        · exact absurd ha h1
    · rw [if_neg ha]
      have ha := fun h' => ha ((isAuto_iff _).2 h')
      simp only [Res.ok.injEq]
      constructor
      · rintro rfl; exact .inr (.inr ⟨h, ha, rfl⟩)
      · rintro (⟨h1, -⟩ | ⟨h1, -⟩ | ⟨-, -, rfl⟩)
        · exact absurd h1 h
        · exact absurd h1 ha
        · rfl

theorem dynEntry_np (strings : StrTable) (data : List UInt8) (hlen : data.length < 2 ^ 64) (d : Elf.Dyn) : readDynamicEntry strings data d ≠ .panic := by
  unfold readDynamicEntry Elf.Dyn.string
  split
  · refine Res.bind_no_panic ?_ fun _ _ => by simp
    split
    · exact str_no_panic data hlen _ _
    · simp
  · simp

theorem dynLoop_iff (strings : StrTable) (data : List UInt8) (hlen : data.length < 2 ^ 64) (fuel : Nat) (ds : List Elf.Dyn) (hf : ds.length < fuel)
    (l : List Build.Dyn) :
    readDynamicLoop strings data fuel ds = .ok l ↔ Each (DynOf data strings) ((ds.map fun d => (d.tag, d.val)).takeWhile fun d => d.1 ≠ 0) l := by
  induction fuel generalizing ds l with
  | zero => omega
  | succ fuel ih =>
    rw [readDynamicLoop]
    cases ds with
    | nil => simp only [Elf.dynNext, List.map_nil, List.takeWhile_nil, each_nil_left, Res.ok.injEq]; exact eq_comm
    | cons d ds =>
      by_cases h : d.tag = 0
      · simp only [Elf.dynNext, h, if_true, List.map_cons, ne_eq, not_true_eq_false, decide_false, List.takeWhile_cons,
          Bool.false_eq_true, if_false, each_nil_left, Res.ok.injEq]
        exact eq_comm
      · simp only [Elf.dynNext, h, if_false, List.map_cons, ne_eq, not_false_eq_true, decide_true, List.takeWhile_cons, if_true,
          each_cons_left, Res.bind_eq_ok, dynEntry_iff strings data hlen, Res.ok.injEq]
        simp only [List.length_cons] at hf
        constructor
        · rintro ⟨y, h1, ys, h2, rfl⟩
          exact ⟨y, ys, rfl, h1, by simpa using (ih ds (by omega) ys).1 h2⟩
        · rintro ⟨y, ys, rfl, h1, h2⟩
          exact ⟨y, h1, ys, (ih ds (by omega) ys).2 (by simpa using h2), rfl⟩

theorem dynLoop_np (strings : StrTable) (data : List UInt8) (hlen : data.length < 2 ^ 64) (fuel : Nat) (ds : List Elf.Dyn) (hf : ds.length < fuel) :
    readDynamicLoop strings data fuel ds ≠ .panic := by
  induction fuel generalizing ds with
  | zero => omega
  | succ fuel ih =>
    rw [readDynamicLoop]
    cases ds with
    | nil => simp [Elf.dynNext]
    | cons d ds =>
      simp only [List.length_cons] at hf
      by_cases h : d.tag = 0
      · simp [Elf.dynNext, h]
      · simp only [Elf.dynNext, h, if_false]
        exact Res.bind_no_panic (dynEntry_np _ _ hlen _) fun _ _ => Res.bind_no_panic (ih ds (by omega)) fun _ _ => by simp

theorem dynamics_iff (c : Elf.Cfg) (tb : SectionTable) (data : List UInt8) (hlen : data.length < 2 ^ 64) (s : Shdr) (hs : s.type = 6) (x : SecData) :
    readDynamics c tb data s = .ok x ↔ ∃ strings ds l, RecordsOf (2 * word c.is64) (dynAt c data) data s ds ∧ StringsOf tb.sections s.link strings ∧
      Each (DynOf data strings) (ds.takeWhile fun d => d.1 ≠ 0) l ∧ x = .dynamic l := by
  have hw := word_pos c.is64
  have hr := ElfF.records_iff s data hlen (2 * word c.is64) (by omega) (fun img => ((Elf.readDyn c img).tag, (Elf.readDyn c img).val)) (dynAt c data)
    (fun o ho => dyn_decode c data o ho)
  unfold readDynamics
  rw [if_neg (by simp [hs])]
  have hcw : c.w = word c.is64 := rfl
  simp only [← hr, Res.bind_eq_ok, Res.ok.injEq, ElfF.strings_iff, hcw]
  constructor
  · rintro ⟨imgs, h1, st, h2, l, h3, rfl⟩
    rw [dynLoop_iff _ _ hlen _ _ (by simp), List.map_map] at h3
    exact ⟨st, _, l, ⟨imgs, h1, rfl⟩, h2, h3, rfl⟩
  · rintro ⟨st, _, l, ⟨imgs, h1, rfl⟩, h2, h3, rfl⟩
    refine ⟨imgs, h1, st, h2, l, ?_, rfl⟩
    rw [dynLoop_iff _ _ hlen _ _ (by simp), List.map_map]
    exact h3

theorem dynamics_np (c : Elf.Cfg) (tb : SectionTable) (data : List UInt8) (hlen : data.length < 2 ^ 64) (s : Shdr) (hs : s.type = 6) :
    readDynamics c tb data s ≠ .panic := by
  unfold readDynamics
  rw [if_neg (by simp [hs])]
  exact Res.bind_no_panic (dataAsArray_no_panic _ _ _) fun _ _ => Res.bind_no_panic (stringsAt_no_panic _ _) fun _ _ =>
    Res.bind_no_panic (dynLoop_np _ _ hlen _ _ (by simp)) fun _ _ => by simp

/-! ## Symbols -/

theorem symSection_iff (t : SymTab) (n i : Nat) (s : Elf.Sym) (hb : ∀ x ∈ t.shndx, x < 2 ^ 32) (hsx : s.shndx < 2 ^ 16) (x : Option Nat) :
    readSymbolSection t n i s = .ok x ↔ ∃ k, SymSection t i s k ∧ LinkOf (n + 1) k x := by
  unfold readSymbolSection SymSection LinkOf Elf.SymTab.symbolSection Elf.symbolSectionIndex
  have key : ∀ k, 0 < k → k < 2 ^ 32 → ((if n ≤ (k + (U64 - 1)) % U64 then .err else .ok (some ((k + (U64 - 1)) % U64)) : Res (Option Nat)) = .ok x ↔
      k < n + 1 ∧ x = some (k - 1)) := by
    intro k h0 h1
    have : (k + (U64 - 1)) % U64 = k - 1 := by simp only [Nat.reducePow] at *; omega
    rw [this]
    split
    · simp only [reduceCtorEq, false_iff]; omega
    · simp only [Res.ok.injEq]
      constructor
      · rintro rfl; exact ⟨by omega, rfl⟩
      · rintro ⟨-, rfl⟩; rfl
  by_cases h0 : s.shndx = 0 ∨ 0xff00 ≤ s.shndx
  · rw [if_pos h0]
    simp only []
    by_cases hx : s.shndx = 0xffff
    · rw [if_pos hx]
      simp only [hx, if_true]
      cases hk : t.shndx[i]? with
      | none => simp [Res.bind]
      | some k =>
        have hkb := hb k (List.mem_of_getElem? hk)
        simp only [Option.some.injEq]
        by_cases k0 : k = 0
        · subst k0
          simp only [if_true, Res.ok_bind, Res.ok.injEq]
          constructor
          · rintro rfl; exact ⟨0, rfl, .inl ⟨rfl, rfl⟩⟩
          · rintro ⟨_, rfl, ⟨-, rfl⟩ | ⟨h, -⟩⟩
            · rfl
            · omega
        · rw [if_neg k0]
          simp only [Res.ok_bind]
          rw [key k (by omega) hkb]
          constructor
          · rintro ⟨h1, rfl⟩; exact ⟨k, rfl, .inr ⟨by omega, h1, rfl⟩⟩
          · rintro ⟨_, rfl, ⟨h, -⟩ | ⟨-, h1, rfl⟩⟩
            · exact absurd h k0
            · exact ⟨h1, rfl⟩
    · rw [if_neg hx]
      simp only [hx, if_false, Res.ok_bind, Res.ok.injEq]
      have hz : (if s.shndx < 0xff00 then s.shndx else 0) = 0 := by
        rcases h0 with h0 | h0
        · rw [h0]; rfl
        · rw [if_neg (by omega)]
      rw [hz]
      constructor
      · rintro rfl; exact ⟨0, rfl, .inl ⟨rfl, rfl⟩⟩
      · rintro ⟨_, rfl, ⟨-, rfl⟩ | ⟨h, -⟩⟩
        · rfl
        · omega
  · rw [if_neg h0]
    have hx : s.shndx ≠ 0xffff := by omega
    have hz : (if s.shndx < 0xff00 then s.shndx else 0) = s.shndx := by rw [if_pos (by omega)]
    simp only [Res.ok_bind, hx, if_false, hz]
    rw [key s.shndx (by omega) (by simp only [Nat.reducePow] at *; omega)]
    constructor
    · rintro ⟨h1, rfl⟩; exact ⟨_, rfl, .inr ⟨by omega, h1, rfl⟩⟩
    · rintro ⟨_, rfl, ⟨h, -⟩ | ⟨-, h1, rfl⟩⟩
      · omega
      · exact ⟨h1, rfl⟩

theorem link_count (n k : Nat) (x : Option Nat) : LinkOf (n - 1 + 1) k x ↔ LinkOf n k x := by
  unfold LinkOf
  constructor
  · rintro (h | ⟨h1, h2, h3⟩)
    · exact .inl h
    · exact .inr ⟨h1, by omega, h3⟩
  · rintro (h | ⟨h1, h2, h3⟩)
    · exact .inl h
    · exact .inr ⟨h1, by omega, h3⟩

theorem symbols_each (data : List UInt8) (hlen : data.length < 2 ^ 64) (t : SymTab) (n : Nat) (hb : ∀ x ∈ t.shndx, x < 2 ^ 32)
    (ps : List (Elf.Sym × Nat)) (hsx : ∀ p ∈ ps, p.1.shndx < 2 ^ 16) (l : List Build.Sym) :
    readSymbols data t (n - 1) ps = .ok l ↔ Each (SymbolOf data t n) ps l ∧ ∀ x ∈ l, x.version = 0 ∧ x.versionHidden = false := by
  induction ps generalizing l with
  | nil =>
    rw [readSymbols, each_nil_left]
    simp only [Res.ok.injEq]
    constructor
    · rintro rfl; exact ⟨rfl, by simp⟩
    · rintro ⟨rfl, -⟩; rfl
  | cons p ps ih =>
    obtain ⟨s, i⟩ := p
    rw [readSymbols, each_cons_left]
    have hi : s.shndx < 2 ^ 16 := hsx (s, i) (by simp)
    have hsec := symSection_iff t (n - 1) i s hb hi
    simp only [Res.bind_eq_ok, Res.ok.injEq, hsec, link_count, ih fun p hp => hsx p (by simp [hp]),
      Elf.SymTab.symbolName, str_iff data hlen]
    constructor
    · rintro ⟨sec, h1, name, h2, xs, ⟨h3, h4⟩, rfl⟩
      refine ⟨⟨_, xs, rfl, ⟨rfl, rfl, h2, h1, rfl, rfl, rfl, rfl, rfl⟩, h3⟩, ?_⟩
      intro x hx
      rcases List.mem_cons.1 hx with rfl | hx
      · exact ⟨rfl, rfl⟩
      · exact h4 x hx
    · rintro ⟨⟨y, xs, rfl, ⟨e1, e2, h2, h1, e3, e4, e5, e6, e7⟩, h3⟩, h4⟩
      refine ⟨_, h1, _, h2, xs, ⟨h3, fun x hx => h4 x (by simp [hx])⟩, ?_⟩
      obtain ⟨e8, e9⟩ := h4 y (by simp)
      cases y
      simp only at *
      rw [e1, e2, e3, e4, e5, e6, e7, e8, e9]

theorem symbols_np (data : List UInt8) (hlen : data.length < 2 ^ 64) (t : SymTab) (n : Nat) (ps : List (Elf.Sym × Nat)) :
    readSymbols data t n ps ≠ .panic := by
  induction ps with
  | nil => simp [readSymbols]
  | cons p ps ih =>
    obtain ⟨s, i⟩ := p
    rw [readSymbols]
    refine Res.bind_no_panic ?_ fun _ _ => Res.bind_no_panic (str_no_panic data hlen _ _) fun _ _ => Res.bind_no_panic ih fun _ _ => by simp
    unfold readSymbolSection Elf.SymTab.symbolSection
    refine Res.bind_no_panic ?_ fun x _ => ?_
    · repeat' split
      all_goals simp
    · cases x
      · simp
      · simp only []; split <;> simp

end Obj.BuildR

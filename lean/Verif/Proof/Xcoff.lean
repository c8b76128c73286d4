import Verif.Spec.Xcoff
import Verif.Proof.Pe
import Verif.Proof.Util
import Verif.Props.ElfTables

/-! Lemmas about reading XCOFF. -/

namespace Obj.Xcoff
open Obj Obj.Spec Obj.Spec.XcoffS

theorem field_of_slice (data : List UInt8) (o n off w : Nat) (h : off + w ≤ n) :
    field .big (slice data o n) off w = field .big data (o + off) w := by
  have := slice_slice data o n off w h
  unfold field
  exact congrArg (rd .big) this

theorem slice_eq_slice (data : List UInt8) (o n off w : Nat) (h : off + w ≤ n) :
    slice (slice data o n) off w = slice data (o + off) w := slice_slice data o n off w h

theorem Hdr.decode_at (is64 : Bool) (img : List UInt8) :
    Hdr.decode is64 img = (field .big img 0 2, ⟨field .big img 2 2, field .big img 4 4, field .big img 8 (if is64 then 8 else 4),
      field .big img (if is64 then 20 else 12) 4, field .big img 16 2, field .big img 18 2⟩) := by
  cases is64 <;> simp [Hdr.decode, Obj.decode, field, List.drop_drop]

theorem Sect.decode_at (is64 : Bool) (data : List UInt8) (o : Nat) (h : o + sectSize is64 ≤ data.length) :
    SectAt is64 data o (Sect.decode is64 (slice data o (sectSize is64))) := by
  have hf : ∀ off w, off + w ≤ sectSize is64 → field .big (slice data o (sectSize is64)) off w = field .big data (o + off) w :=
    fun off w => field_of_slice data o _ off w
  have hs : ∀ off w, off + w ≤ sectSize is64 → slice (slice data o (sectSize is64)) off w = slice data (o + off) w :=
    fun off w => slice_eq_slice data o _ off w
  generalize slice data o (sectSize is64) = img at hf hs
  cases is64
  · have f1 := hf 8 4 (by decide)
    have f2 := hf 12 4 (by decide)
    have f3 := hf 16 4 (by decide)
    have f4 := hf 20 4 (by decide)
    have f5 := hf 24 4 (by decide)
    have f6 := hf 28 4 (by decide)
    have f7 := hf 32 2 (by decide)
    have f8 := hf 34 2 (by decide)
    have f9 := hf 36 4 (by decide)
    have s1 := hs 0 8 (by decide)
    refine ⟨h, ?_, ?_, ?_, ?_, ?_, ?_, ?_, ?_, ?_, ?_⟩
    · simpa [slice, Sect.decode] using s1
    · simp only [Bool.false_eq_true, if_false]; rw [← f1]; simp [Sect.decode, Obj.decode, field, word]
    · simp only [Bool.false_eq_true, if_false]; rw [← f2]; simp [Sect.decode, Obj.decode, field, word]
    · simp only [Bool.false_eq_true, if_false]; rw [← f3]; simp [Sect.decode, Obj.decode, field, word]
    · simp only [Bool.false_eq_true, if_false]; rw [← f4]; simp [Sect.decode, Obj.decode, field, word]
    · simp only [Bool.false_eq_true, if_false]; rw [← f5]; simp [Sect.decode, Obj.decode, field, word]
    · simp only [Bool.false_eq_true, if_false]; rw [← f6]; simp [Sect.decode, Obj.decode, field, word]
    · simp only [Bool.false_eq_true, if_false]; rw [← f7]; simp [Sect.decode, Obj.decode, field, word]
    · simp only [Bool.false_eq_true, if_false]; rw [← f8]; simp [Sect.decode, Obj.decode, field, word]
    · simp only [Bool.false_eq_true, if_false]; rw [← f9]; simp [Sect.decode, Obj.decode, field, word]
  · have f1 := hf 8 8 (by decide)
    have f2 := hf 16 8 (by decide)
    have f3 := hf 24 8 (by decide)
    have f4 := hf 32 8 (by decide)
    have f5 := hf 40 8 (by decide)
    have f6 := hf 48 8 (by decide)
    have f7 := hf 56 4 (by decide)
    have f8 := hf 60 4 (by decide)
    have f9 := hf 64 4 (by decide)
    have s1 := hs 0 8 (by decide)
    refine ⟨h, ?_, ?_, ?_, ?_, ?_, ?_, ?_, ?_, ?_, ?_⟩
    · simpa [slice, Sect.decode] using s1
    · simp only [if_true]; rw [← f1]; simp [Sect.decode, Obj.decode, field, word]
    · simp only [if_true]; rw [← f2]; simp [Sect.decode, Obj.decode, field, word]
    · simp only [if_true]; rw [← f3]; simp [Sect.decode, Obj.decode, field, word]
    · simp only [if_true]; rw [← f4]; simp [Sect.decode, Obj.decode, field, word]
    · simp only [if_true]; rw [← f5]; simp [Sect.decode, Obj.decode, field, word]
    · simp only [if_true]; rw [← f6]; simp [Sect.decode, Obj.decode, field, word]
    · simp only [if_true]; rw [← f7]; simp [Sect.decode, Obj.decode, field, word]
    · simp only [if_true]; rw [← f8]; simp [Sect.decode, Obj.decode, field, word]
    · simp only [if_true]; rw [← f9]; simp [Sect.decode, Obj.decode, field, word]

theorem Rel.decode_at (is64 : Bool) (data : List UInt8) (o : Nat) (h : o + relSize is64 ≤ data.length) :
    RelAt is64 data o (Rel.decode is64 (slice data o (relSize is64))) := by
  have hf : ∀ off w, off + w ≤ relSize is64 → field .big (slice data o (relSize is64)) off w = field .big data (o + off) w :=
    fun off w => field_of_slice data o _ off w
  generalize slice data o (relSize is64) = img at hf
  cases is64
  · have f1 := hf 0 4 (by decide)
    have f2 := hf 4 4 (by decide)
    have f3 := hf 8 1 (by decide)
    have f4 := hf 9 1 (by decide)
    refine ⟨h, ?_, ?_, ?_, ?_⟩
    · simp only [Bool.false_eq_true, if_false]; rw [Nat.add_zero] at f1; rw [← f1]; simp [Rel.decode, Obj.decode, field, word]
    · simp only [Bool.false_eq_true, if_false]; rw [← f2]; simp [Rel.decode, Obj.decode, field, word]
    · simp only [Bool.false_eq_true, if_false]; rw [← f3]; simp [Rel.decode, Obj.decode, field, word]
    · simp only [Bool.false_eq_true, if_false]; rw [← f4]; simp [Rel.decode, Obj.decode, field, word]
  · have f1 := hf 0 8 (by decide)
    have f2 := hf 8 4 (by decide)
    have f3 := hf 12 1 (by decide)
    have f4 := hf 13 1 (by decide)
    refine ⟨h, ?_, ?_, ?_, ?_⟩
    · simp only [if_true]; rw [Nat.add_zero] at f1; rw [← f1]; simp [Rel.decode, Obj.decode, field, word]
    · simp only [if_true]; rw [← f2]; simp [Rel.decode, Obj.decode, field, word]
    · simp only [if_true]; rw [← f3]; simp [Rel.decode, Obj.decode, field, word]
    · simp only [if_true]; rw [← f4]; simp [Rel.decode, Obj.decode, field, word]

theorem Sym.decode_of (is64 : Bool) (r : List UInt8) : SymOf is64 r (Sym.decode is64 r) := by
  cases is64 <;> constructor <;> simp [Sym.decode, Obj.decode, field, slice]

/-- What `SymbolTable::parse` returns has records of 18 bytes. -/
def SymTab.Ok (t : SymTab) : Prop := (∀ r ∈ t.records, r.length = 18) ∧ t.records.length < 2 ^ 32

theorem get_no_panic (t : SymTab) (i off : Nat) : t.get i off ≠ .panic := by
  unfold SymTab.get
  repeat' split
  all_goals simp

theorem get_ok {t : SymTab} {i off : Nat} {b : List UInt8} (h : t.get i off = .ok b) : t.records[i + off]? = some b := by
  unfold SymTab.get at h
  split at h
  · simp at h
  · split at h
    · rename_i hb
      simp only [Res.ok.injEq] at h
      subst h; exact hb
    · simp at h

theorem get_iff {t : SymTab} (ht : t.Ok) (i off : Nat) (b : List UInt8) : t.get i off = .ok b ↔ t.records[i + off]? = some b := by
  refine ⟨get_ok, fun h => ?_⟩
  have h1 := (List.getElem?_eq_some_iff.1 h).1
  have h2 := ht.2
  have hu : (2 : Nat) ^ 32 < U64 := by decide
  unfold SymTab.get
  rw [if_neg (by omega), h]

theorem symbol_no_panic (t : SymTab) (i : Nat) : t.symbol i ≠ .panic := by
  refine Res.bind_no_panic (Res.bind_no_panic (get_no_panic t i 0) fun a _ => by simp) fun s _ => ?_
  split <;> simp

theorem field_one (r : List UInt8) (k : Nat) : field .big r k 1 = (r.getD k 0).toNat := by
  unfold field
  rw [List.getD_eq_getElem?_getD]
  cases h : r[k]? with
  | none =>
    have : r.drop k = [] := by
      rw [List.drop_eq_nil_iff]
      exact List.getElem?_eq_none_iff.1 h
    rw [this]; rfl
  | some b =>
    obtain ⟨h1, h2⟩ := List.getElem?_eq_some_iff.1 h
    rw [List.drop_eq_getElem_cons h1, h2]
    simp [rd, fromBe]

theorem unchecked_cases {t : SymTab} (ht : t.Ok) (i : Nat) :
    (t.records.length ≤ i ∧ t.symbolUnchecked i = .err) ∨
    ∃ r, t.records[i]? = some r ∧ r.length = 18 ∧ t.symbolUnchecked i = .ok (Sym.decode t.is64 r) := by
  rcases Nat.lt_or_ge i t.records.length with h | h
  · right
    refine ⟨t.records[i], List.getElem?_eq_getElem h, ht.1 _ (List.getElem_mem h), ?_⟩
    unfold SymTab.symbolUnchecked
    rw [(get_iff ht i 0 t.records[i]).2 (List.getElem?_eq_getElem h)]
    rfl
  · left
    refine ⟨h, ?_⟩
    have h2 : ∀ b, t.get i 0 ≠ .ok b := by
      intro b hb
      have := get_ok hb
      rw [List.getElem?_eq_none (by omega)] at this
      cases this
    unfold SymTab.symbolUnchecked
    cases hg : t.get i 0 with
    | ok b => exact absurd hg (h2 b)
    | err => rfl
    | panic => exact absurd hg (get_no_panic _ _ _)

theorem symbol_iff {t : SymTab} (ht : t.Ok) (i : Nat) (s : Sym) :
    t.symbol i = .ok s ↔ ∃ r, t.records[i]? = some r ∧ r.getD 16 0 ≠ 0 ∧ s = Sym.decode t.is64 r := by
  unfold SymTab.symbol
  rcases unchecked_cases ht i with ⟨h1, h2⟩ | ⟨r, h1, -, h2⟩
  · rw [h2]
    constructor
    · intro h; simp at h
    · rintro ⟨r, hr, -⟩
      rw [List.getElem?_eq_none h1] at hr
      cases hr
  · rw [h2, Res.ok_bind, h1]
    have hc := (Sym.decode_of t.is64 r).sclass
    rw [field_one] at hc
    rw [hc]
    have hz : (r.getD 16 0).toNat = 0 ↔ r.getD 16 0 = 0 := by
      constructor
      · intro h; exact UInt8.toNat.inj h
      · intro h; rw [h]; rfl
    by_cases h0 : r.getD 16 0 = 0
    · rw [if_pos (hz.2 h0)]
      constructor
      · intro h; cases h
      · rintro ⟨r', hr', h, -⟩
        simp only [Option.some.injEq] at hr'
        subst hr'
        exact absurd h0 h
    · rw [if_neg (fun h => h0 (hz.1 h))]
      simp only [Res.ok.injEq]
      constructor
      · intro h; exact ⟨r, rfl, h0, h.symm⟩
      · rintro ⟨r', hr', -, h⟩
        simp only [Option.some.injEq] at hr'
        subst hr'
        exact h.symm

/-- The loop finds the next symbol. -/
theorem nextFuel_spec {t : SymTab} (ht : t.Ok) : ∀ (n i : Nat), t.records.length - i < n →
    (∃ j, t.nextFuel n i = (none, j) ∧ Entries t.records i []) ∨
    ∃ j s k, t.nextFuel n i = (some (j, s), k) ∧ t.symbol j = .ok s ∧ i ≤ j ∧ j < t.records.length ∧ j < k ∧
      ∀ is, Entries t.records k is → Entries t.records i (j :: is)
  | 0, i, h => by omega
  | n + 1, i, h => by
    unfold SymTab.nextFuel
    rcases unchecked_cases ht i with ⟨h1, h2⟩ | ⟨r, h1, hl, h2⟩
    · rw [h2]
      exact .inl ⟨i, rfl, .done h1⟩
    · rw [h2]
      have hd := Sym.decode_of t.is64 r
      have hc := hd.sclass
      have hn := hd.numaux
      rw [field_one] at hc hn
      have hb : r[16]? = some (r.getD 16 0) := by
        rw [List.getD_eq_getElem?_getD]
        cases hx : r[16]? with
        | none => rw [List.getElem?_eq_none_iff] at hx; omega
        | some b => rfl
      have hi := (List.getElem?_eq_some_iff.1 h1).1
      by_cases h0 : r.getD 16 0 = 0
      · simp only [hc, h0]
        rw [if_pos (by rfl)]
        rw [h0] at hb
        rcases nextFuel_spec ht n (i + 1 + (Sym.decode t.is64 r).numaux) (by omega) with ⟨j, g1, g2⟩ | ⟨j, s, k, g1, g2, g3, g4, g5, g6⟩
        · refine .inl ⟨j, g1, .deleted h1 hb ?_⟩
          rw [← hn]; exact g2
        · refine .inr ⟨j, s, k, g1, g2, by omega, g4, g5, ?_⟩
          intro is his
          refine .deleted h1 hb ?_
          rw [← hn]; exact g6 is his
      · have hz : (Sym.decode t.is64 r).sclass ≠ 0 := by
          rw [hc]
          intro h; exact h0 (UInt8.toNat.inj h)
        simp only [if_neg hz]
        refine .inr ⟨i, _, _, rfl, (symbol_iff ht i _).2 ⟨r, h1, h0, rfl⟩, Nat.le_refl _, hi, by omega, ?_⟩
        intro is his
        refine .symbol h1 hb h0 ?_
        rw [← hn]; exact his

/-- The name in a field. -/
theorem upToNul_iff (f n : List UInt8) : upToNul f = n ↔ (0 : UInt8) ∉ n ∧ (f = n ∨ ∃ rest, f = n ++ 0 :: rest) := by
  induction f generalizing n with
  | nil =>
    simp only [upToNul, List.takeWhile_nil]
    constructor
    · rintro rfl; simp
    · rintro ⟨-, h | ⟨rest, h⟩⟩
      · exact h
      · simp at h
  | cons b f ih =>
    unfold upToNul at ih ⊢
    rw [List.takeWhile_cons]
    by_cases hb : b = 0
    · subst hb
      simp only [ne_eq, not_true_eq_false, decide_false, Bool.false_eq_true, if_false]
      constructor
      · rintro rfl; exact ⟨by simp, .inr ⟨f, rfl⟩⟩
      · rintro ⟨h1, h2 | ⟨rest, h2⟩⟩
        · rw [← h2] at h1; simp at h1
        · cases n with
          | nil => rfl
          | cons x n => simp only [List.cons_append, List.cons.injEq] at h2; rw [← h2.1] at h1; simp at h1
    · simp only [ne_eq, hb, not_false_eq_true, decide_true, if_true]
      cases n with
      | nil =>
        constructor
        · intro h; cases h
        · rintro ⟨-, h2 | ⟨rest, h2⟩⟩
          · cases h2
          · simp only [List.nil_append, List.cons.injEq] at h2; exact absurd h2.1 hb
      | cons x n =>
        simp only [List.cons.injEq, List.cons_append, List.mem_cons, not_or]
        rw [ih n]
        constructor
        · rintro ⟨rfl, h1, h2⟩
          refine ⟨⟨Ne.symm hb, h1⟩, ?_⟩
          rcases h2 with rfl | ⟨rest, rfl⟩
          · exact .inl ⟨rfl, rfl⟩
          · exact .inr ⟨rest, rfl, rfl⟩
        · rintro ⟨⟨h0, h1⟩, h2⟩
          rcases h2 with ⟨rfl, rfl⟩ | ⟨rest, rfl, rfl⟩
          · exact ⟨rfl, h1, .inl rfl⟩
          · exact ⟨rfl, h1, .inr ⟨rest, rfl⟩⟩

end Obj.Xcoff

import Verif.Proof.Names

/-! # C104: names of flags and constants -/

namespace Obj.Props
open Obj.Nm

/-- Every value has a decoding into named parts and a rest, which `try_names` gives to every closure in order until it fails, which
`names` and the debug text show, and whose first part is that of `name`. -/
theorem C104_names {w : Nat} (t : List (Flags w)) (value : BitVec w) :
    ∃ parts rest, Decoded t value parts rest ∧
      (∀ (σ ε : Type) (f : σ → BitVec w → String → Out σ ε Unit) (s : σ),
        tryNames f t s value = giving (callAll f parts s) rest) ∧
      (∀ (σ : Type) (f : σ → BitVec w → String → σ) (s : σ),
        names f t s value = (parts.foldl (fun s p => f s p.1 p.2) s, rest)) ∧
      flagName t value = parts.head? ∧
      (∀ (σ : Type) (put : σ → String → Out σ Unit Unit) (s : σ),
        flagDebug put t s value = putAll put ((shown parts rest).intersperse " | ") s) :=
  ⟨_, _, decoded t value, fun _ _ f s => tryNames_eq f t s value, fun _ f s => names_eq f t s value, flagName_eq t value,
    fun _ put s => flagDebug_eq put t s value⟩

/-- The same for the functions of single flags. -/
theorem C104_bit_names {w : Nat} (t : List (Flags w)) (value : BitVec w) :
    ∃ parts rest, BitParts t value parts rest ∧
      (∀ (σ ε : Type) (f : σ → BitVec w → String → Out σ ε Unit) (s : σ),
        tryBitNames f t s value = giving (callAll f parts s) rest) ∧
      (∀ (σ : Type) (f : σ → BitVec w → String → σ) (s : σ),
        bitNames f t s value = (parts.foldl (fun s p => f s p.1 p.2) s, rest)) :=
  ⟨_, _, bParts_ok t value, fun _ _ f s => tryBitNames_eq f t s value, fun _ f s => bitNames_eq f t s value⟩

/-- If no two entries of the tables share a bit, each entry is there by itself. -/
theorem C104_separate {w : Nat} (t : List (Flags w)) (ht : Separate t) (value : BitVec w) :
    ∃ rest, Splits value (simpleParts t value) rest ∧
      ∀ (σ ε : Type) (f : σ → BitVec w → String → Out σ ε Unit) (s : σ),
        tryNames f t s value = giving (callAll f (simpleParts t value) s) rest := by
  refine ⟨rest t value, ?_, fun σ ε f s => ?_⟩
  · rw [← parts_separate t ht]
    exact (decoded t value).1
  · rw [tryNames_eq, parts_separate t ht]

/-- There is only one decoding, so the results above are all the same one. -/
theorem C104_unique {w : Nat} {t : List (Flags w)} {value a b : BitVec w} {ps qs : List (Part w)} (ha : Decoded t value ps a)
    (hb : Decoded t value qs b) : ps = qs ∧ a = b :=
  decoded_unique ha hb

/-- The parts and the rest determine the value. -/
theorem C104_determined {w : Nat} {a b rest : BitVec w} {parts : List (Part w)} (ha : Splits a parts rest) (hb : Splits b parts rest) :
    a = b :=
  ext_has fun i => (ha.all i).trans (hb.all i).symm

/-- The text that `Debug` gives. -/
theorem C104_text {w : Nat} (t : List (Flags w)) (value : BitVec w) :
    ∃ parts rest, Decoded t value parts rest ∧
      flagDebug (fun (s : List String) x => (s ++ [x], .ok ())) t [] value = ((shown parts rest).intersperse " | ", .ok ()) ∧
      (parts = [] → shown parts rest = if value = 0 then ["0"] else ["0x" ++ hex value.toNat]) := by
  refine ⟨parts t value, rest t value, decoded t value, ?_, ?_⟩
  · rw [flagDebug_eq]
    have h : ∀ (l : List String) (s : List String),
        putAll (ε := Unit) (fun (s : List String) x => (s ++ [x], .ok ())) l s = (s ++ l, .ok ()) := by
      intro l
      induction l with
      | nil => intro s; simp [putAll]
      | cons x xs ih => intro s; simp only [putAll]; rw [ih]; simp
    rw [h]
    simp
  · intro hp
    have hs := (decoded t value).1
    rw [hp] at hs
    have hv : value = rest t value := ext_has fun i => by rw [hs.all i]; simp
    rw [hp, ← hv]
    simp only [shown, List.map_nil, List.nil_append]
    by_cases h : value = 0
    · simp only [if_pos h, if_true]
    · simp only [if_neg h, reduceCtorEq, if_false]

/-- `ConstantNames::name` is the name of the first entry with the value in the tables in order. -/
theorem C104_constants {w : Nat} (t : List (Consts w)) (value : BitVec w) :
    (∀ n, constName t value = some n ↔ FirstNamed (t.flatMap (·.entries)) value n) ∧
    (constName t value = none ↔ ∀ c ∈ t, ∀ e ∈ c.entries, e.1 ≠ value) := by
  constructor
  · intro n
    rw [constName_eq]
    exact findEntry_iff _ _ _
  · rw [constName_eq, findEntry_none]
    constructor
    · intro h c hc e he
      exact h e (List.mem_flatMap.2 ⟨c, hc, he⟩)
    · intro h e he
      obtain ⟨c, hc, he⟩ := List.mem_flatMap.1 he
      exact h c hc e he

/-- The operations of flag types, bit by bit. -/
theorem C104_operations {w : Nat} (a b : BitVec w) :
    (contains a b = true ↔ Within b a) ∧ (intersects a b = true ↔ ∃ i, Has a i ∧ Has b i) ∧
    (∀ i, Has (with_ a b) i ↔ Has a i ∨ Has b i) ∧ (∀ i, Has (without a b) i ↔ Has a i ∧ ¬ Has b i) := by
  refine ⟨?_, ?_, fun i => has_or a b i, fun i => has_andnot a b i⟩
  · simp only [contains, beq_iff_eq]
    exact and_eq_iff a b
  · simp only [intersects, bne_iff_ne, ne_eq]
    constructor
    · intro h
      apply Classical.byContradiction
      intro hn
      apply h
      apply eq_zero_of_not_has
      intro i hi
      exact hn ⟨i, (has_and a b i).1 hi⟩
    · rintro ⟨i, hi⟩ h
      have := (has_and a b i).2 hi
      rw [h] at this
      exact not_has_zero i this

/-! ## Examples -/

/-- `NAMES_STV` and `NAMES_STO`, src/elf.rs:1602-1632, and a table with two more flags that refers to it. -/
private def stv : List (Consts 8) :=
  [⟨[(0, "STV_DEFAULT"), (1, "STV_INTERNAL"), (2, "STV_HIDDEN"), (3, "STV_PROTECTED")]⟩]
private def sto : List (Flags 8) :=
  [⟨[(0x80, "A"), (0x60, "B")], []⟩, ⟨[], [⟨3, constName stv⟩]⟩]

private theorem sto_separate : Separate sto := by
  constructor
  · exact List.pairwise_singleton _ _
  · refine List.Pairwise.cons ?_ (List.pairwise_singleton _ _)
    intro b hb i hi hbi
    have : b = ((0x60 : BitVec 8), "B") := by simpa [allBits, sto] using hb
    subst this
    have h := (has_and (w := 8) 0x80 0x60 i).2 ⟨hi, hbi⟩
    rw [show (0x80 &&& 0x60 : BitVec 8) = 0 by decide] at h
    exact not_has_zero i h
  · intro g hg b hb i hi hbi
    have hg' : g = ⟨3, constName stv⟩ := by simpa [allGroups, sto] using hg
    subst hg'
    have hb' : b = ((0x80 : BitVec 8), "A") ∨ b = ((0x60 : BitVec 8), "B") := by simpa [allBits, sto] using hb
    rcases hb' with rfl | rfl
    · have h := (has_and (w := 8) 3 0x80 i).2 ⟨hi, hbi⟩
      rw [show (3 &&& 0x80 : BitVec 8) = 0 by decide] at h
      exact not_has_zero i h
    · have h := (has_and (w := 8) 3 0x60 i).2 ⟨hi, hbi⟩
      rw [show (3 &&& 0x60 : BitVec 8) = 0 by decide] at h
      exact not_has_zero i h

example (value : BitVec 8) := C104_separate sto sto_separate value

example : names (fun s v n => s ++ [(v, n)]) sto [] 0xa2#8 = ([(2#8, "STV_HIDDEN"), (0x80#8, "A")], 0x20#8) := by decide +kernel

example : (flagDebug (fun (s : List String) x => (s ++ [x], .ok ())) sto [] 0xa2#8).1 =
    ["STV_HIDDEN", " | ", "A", " | ", "0x20"] := by decide +kernel

example : flagName sto 0x80#8 = some (0#8, "STV_DEFAULT") := by decide +kernel

end Obj.Props

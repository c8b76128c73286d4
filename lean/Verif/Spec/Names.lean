import Verif.Model.Names

/-!
# Specification: how a value is split into named flags

The set bits of a value are a set of numbers.  A decoding of a value is a list of named parts and a rest which together are exactly the
set bits of the value, without any bit twice; each part is one that the tables name, and nothing that could be named is left in the rest.
-/

namespace Obj.Nm

/-- Bit `i` is set. -/
def Has {w : Nat} (v : BitVec w) (i : Nat) : Prop := v.getLsbD i = true

/-- All set bits of `a` are set in `b`. -/
def Within {w : Nat} (a b : BitVec w) : Prop := ∀ i, Has a i → Has b i

/-- No bit is set in both. -/
def Apart {w : Nat} (a b : BitVec w) : Prop := ∀ i, Has a i → ¬ Has b i

/-- A named part of a value. -/
abbrev Part (w : Nat) := BitVec w × String

/-- All groups and all bits of the tables in their order. -/
def allGroups {w : Nat} (t : List (Flags w)) : List (Group w) := t.flatMap (·.groups)
def allBits {w : Nat} (t : List (Flags w)) : List (Part w) := t.flatMap (·.bits)

/-- The parts and the rest make up the value, and every bit is in one of them only. -/
structure Splits {w : Nat} (value : BitVec w) (parts : List (Part w)) (rest : BitVec w) : Prop where
  all : ∀ i, Has value i ↔ (∃ p ∈ parts, Has p.1 i) ∨ Has rest i
  apart : parts.Pairwise (fun p q => Apart p.1 q.1)
  restApart : ∀ p ∈ parts, Apart p.1 rest

/-- What each group gives in order: `v` is the bits of the value in its mask that no earlier group took, and it gives them with its name for
them, or nothing if it has no name for them. -/
structure GroupsInOrder {w : Nat} (gs : List (Group w)) (value : BitVec w) (results : List (Option (Part w))) : Prop where
  length : results.length = gs.length
  each : ∀ k g, gs[k]? = some g → ∃ v,
    (∀ i, Has v i ↔ Has value i ∧ Has g.mask i ∧ ∀ p ∈ (results.take k).filterMap id, ¬ Has p.1 i) ∧
    results[k]? = some ((g.name v).map (fun n => (v, n)))

/-- What each single flag gives in order: itself if all its bits are in the value and no earlier flag took one of them. -/
structure BitsInOrder {w : Nat} (bs : List (Part w)) (value : BitVec w) (results : List (Option (Part w))) : Prop where
  length : results.length = bs.length
  each : ∀ k b, bs[k]? = some b →
    (results[k]? = some (some b) ∧ ∀ i, Has b.1 i → Has value i ∧ ∀ p ∈ (results.take k).filterMap id, ¬ Has p.1 i) ∨
    (results[k]? = some none ∧ ∃ i, Has b.1 i ∧ (Has value i → ∃ p ∈ (results.take k).filterMap id, Has p.1 i))

/-- The parts of single flags: each is an entry, and no entry with bits is left in the rest. -/
structure BitParts {w : Nat} (t : List (Flags w)) (value : BitVec w) (parts : List (Part w)) (rest : BitVec w) : Prop where
  splits : Splits value parts rest
  order : ∃ results, BitsInOrder (allBits t) value results ∧ parts = results.filterMap id
  entry : List.Sublist parts (allBits t)
  complete : ∀ b ∈ allBits t, b.1 ≠ 0 → ¬ Within b.1 rest
  taken : ∀ b ∈ allBits t, Within b.1 value → b ∈ parts ∨ ∃ p ∈ parts, ¬ Apart p.1 b.1

/-- The decoding of a value: groups first, then single flags. -/
def Decoded {w : Nat} (t : List (Flags w)) (value : BitVec w) (parts : List (Part w)) (rest : BitVec w) : Prop :=
  Splits value parts rest ∧
  ∃ gs bs left, parts = gs ++ bs ∧ Splits value gs left ∧ BitParts t left bs rest ∧
    (∃ results, GroupsInOrder (allGroups t) value results ∧ gs = results.filterMap id)

/-- Call `f` for the parts in order, until it fails. -/
def callAll {σ ε : Type} {w : Nat} (f : σ → BitVec w → String → Out σ ε Unit) : List (Part w) → σ → Out σ ε Unit
  | [], s => (s, .ok ())
  | p :: ps, s =>
    match f s p.1 p.2 with
    | (s', .error e) => (s', .error e)
    | (s', .ok _) => callAll f ps s'

/-- The same result with `rest` as the value if there is no error. -/
def giving {σ ε α : Type} (o : Out σ ε Unit) (rest : α) : Out σ ε α :=
  match o with
  | (s, .error e) => (s, .error e)
  | (s, .ok _) => (s, .ok rest)

/-- Write the strings in order, until a write fails. -/
def putAll {σ ε : Type} (put : σ → String → Out σ ε Unit) : List String → σ → Out σ ε Unit
  | [], s => (s, .ok ())
  | x :: xs, s =>
    match put s x with
    | (s', .error e) => (s', .error e)
    | (s', .ok _) => putAll put xs s'

/-- What the text shows: the names, then the rest in hexadecimal if it is not 0, or `0` if there is nothing. -/
def shown {w : Nat} (parts : List (Part w)) (rest : BitVec w) : List String :=
  let l := parts.map (·.2) ++ (if rest = 0 then [] else ["0x" ++ hex rest.toNat])
  if l = [] then ["0"] else l

/-- Tables in which no two entries share a bit. -/
structure Separate {w : Nat} (t : List (Flags w)) : Prop where
  groups : (allGroups t).Pairwise (fun g h => Apart g.mask h.mask)
  bits : (allBits t).Pairwise (fun a b => Apart a.1 b.1)
  mixed : ∀ g ∈ allGroups t, ∀ b ∈ allBits t, Apart g.mask b.1

open Classical in
/-- For tables in which no two entries share a bit: each group names its bits of the value by itself, and each single flag is there if its
bits are in the value. -/
noncomputable def simpleParts {w : Nat} (t : List (Flags w)) (value : BitVec w) : List (Part w) :=
  (allGroups t).filterMap (fun g => (g.name (value &&& g.mask)).map (fun n => (value &&& g.mask, n))) ++
  (allBits t).filter (fun b => Within b.1 value)

/-- `name` is that of the first entry with the value. -/
def FirstNamed {w : Nat} (entries : List (BitVec w × String)) (value : BitVec w) (name : String) : Prop :=
  ∃ before after, entries = before ++ (value, name) :: after ∧ ∀ e ∈ before, e.1 ≠ value

end Obj.Nm

import Verif.Model.SymbolMap

/-! # What the symbol map promises -/

namespace Obj.Spec.SymMapS
open Obj Obj.SymMap

/-- The documented contract of `binary_search_by_key` on a sorted list of keys: an index of an equal key if there
is one, else the position where the key could be inserted. -/
def IsBinarySearch (search : List Nat → Nat → Search) : Prop :=
  ∀ keys key, List.Pairwise (· ≤ ·) keys →
    match search keys key with
    | .found i => keys[i]? = some key
    | .missing i => i ≤ keys.length ∧ (∀ j k, keys[j]? = some k → j < i → k < key) ∧
        (∀ j k, keys[j]? = some k → i ≤ j → key < k)

/-- The symbol may appear in the map: a definition with a non-empty readable name, of kind text, data or unknown. -/
def Candidate (s : Symbol) : Prop :=
  s.isDefinition = true ∧ (∃ n, s.name = some n ∧ n ≠ []) ∧ s.kind ≠ .other

/-- Preference between symbols: known kind, then XCOFF labels, then a known size, then wider scope. -/
def rank (s : Symbol) : List Nat :=
  [if s.kind = .unknown then 1 else 0, if s.xcoffLabel = some false then 1 else 0, if s.size = 0 then 1 else 0,
    match s.scope with | .dynamic => 0 | .linkage => 1 | .compilation => 2 | .unknown => 3]

/-- `s` is at least as good a name for its address as `t`: lower rank (compared lexicographically), then the
later entry of the table. -/
def Better (s t : Symbol) : Prop := rank s < rank t ∨ (rank s = rank t ∧ t.index ≤ s.index)

/-- The addresses that bound a guessed size: starts of candidates, ends of sections, ends of sized XCOFF
symbols (ends saturate at the end of the address space). -/
def Known (symbols : List Symbol) (sections : List (Nat × Nat)) (a : Nat) : Prop :=
  (∃ s ∈ symbols, Candidate s ∧ a = s.address) ∨
  (∃ s ∈ symbols, Candidate s ∧ s.xcoffLabel ≠ none ∧ s.size ≠ 0 ∧ a = min (s.address + s.size) (2 ^ 64 - 1)) ∨
  (∃ s ∈ sections, a = min (s.1 + s.2) (2 ^ 64 - 1))

/-- The size shown for a symbol: its own if known, else the distance to the next known address, else 0. -/
def SizeIs (known : Nat → Prop) (s : Symbol) (size : Nat) : Prop :=
  if s.size ≠ 0 then size = s.size
  else (∃ a, known a ∧ s.address < a ∧ (∀ b, known b → s.address < b → a ≤ b) ∧ size = a - s.address) ∨
    ((∀ b, known b → b ≤ s.address) ∧ size = 0)

end Obj.Spec.SymMapS

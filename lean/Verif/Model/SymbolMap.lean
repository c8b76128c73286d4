import Verif.Base

/-! # Model of `src/read/symbol_map.rs` -/

namespace Obj.SymMap

/-- `SymbolMapName`, src/read/symbol_map.rs:72-77 (the name as bytes). -/
structure Entry where
  address : Nat
  size : Nat
  name : List UInt8
  deriving DecidableEq, Repr

/-- `SymbolMap::new`, src/read/symbol_map.rs:34-37: `sort_by_key` is a stable sort. -/
def new (symbols : List Entry) : List Entry := symbols.mergeSort fun a b => a.address ≤ b.address

/-- Result of `binary_search_by_key`. -/
inductive Search where
  | found (index : Nat)
  | missing (index : Nat)
  deriving DecidableEq, Repr

/-- `SymbolMap::before`, src/read/symbol_map.rs:46-55.  `search keys address` is the standard library's
`binary_search_by_key`, which may return any matching index. -/
def before (search : List Nat → Nat → Search) (symbols : List Entry) (address : Nat) : Option Entry :=
  match search (symbols.map Entry.address) address with
  | .found index => symbols[index]?
  | .missing index => if index = 0 then none else symbols[index - 1]?

/-- `SymbolMap::containing`, src/read/symbol_map.rs:58-62; `wrapping_sub` on `u64`. -/
def containing (search : List Nat → Nat → Search) (symbols : List Entry) (address : Nat) : Option Entry :=
  (before search symbols address).filter fun entry =>
    entry.size = 0 || (address + U64 - entry.address) % U64 < entry.size

/-- `SymbolKind`, src/common.rs: the cases distinguished by the builder. -/
inductive Kind where
  | text | data | unknown | other
  deriving DecidableEq, Repr

/-- `SymbolScope`, src/common.rs. -/
inductive Scope where
  | unknown | compilation | linkage | dynamic
  deriving DecidableEq, Repr

/-- What the builder asks of a symbol (the `ObjectSymbol` methods).  `name` is `none` when `name()` fails;
`xcoffLabel` is `none` for other formats and otherwise whether `x_smtyp.typ() == XTY_LD`. -/
structure Symbol where
  isDefinition : Bool
  name : Option (List UInt8)
  address : Nat
  size : Nat
  kind : Kind
  xcoffLabel : Option Bool
  scope : Scope
  index : Nat
  deriving DecidableEq, Repr

/-- An element `(address, priority, index, size, name)` of `all_symbols`. -/
structure Tuple where
  address : Nat
  priority : Nat
  index : Nat
  size : Nat
  name : List UInt8
  deriving DecidableEq, Repr

/-- The derived order of the tuples. -/
def Tuple.le (a b : Tuple) : Bool :=
  a.address < b.address || (a.address == b.address &&
    (a.priority < b.priority || (a.priority == b.priority &&
      (a.index < b.index || (a.index == b.index &&
        (a.size < b.size || (a.size == b.size && decide (a.name ≤ b.name))))))))

/-- `u64::saturating_add`. -/
def satAdd (a b : Nat) : Nat := min (a + b) (U64 - 1)

/-- The marker for an end address: `(address, !0, !0, !0, "")`. -/
def endMarker (address : Nat) : Tuple := ⟨address, U32 - 1, U64 - 1, U64 - 1, []⟩

/-- The priority of a symbol, src/read/symbol_map.rs:306-339; lower is better. -/
def priority (s : Symbol) (kindPriority : Nat) : Nat :=
  let p := kindPriority * 2 + (match s.xcoffLabel with | some false => 1 | _ => 0)
  let p := p * 2 + (if s.size = 0 then 1 else 0)
  p * 4 + (match s.scope with | .unknown => 3 | .compilation => 2 | .linkage => 1 | .dynamic => 0)

/-- The body of the symbol loop, src/read/symbol_map.rs:290-346: what is pushed to `all_symbols`. -/
def tuplesOf (s : Symbol) : List Tuple :=
  if !s.isDefinition then []
  else match s.name with
    | none => []
    | some name =>
      if name = [] then []
      else
        let push (k : Nat) : List Tuple :=
          (if s.xcoffLabel ≠ none ∧ s.size ≠ 0 then [endMarker (satAdd s.address s.size)] else []) ++
          [⟨s.address, priority s k, U64 - 1 - s.index, s.size, name⟩]
        match s.kind with
        | .text => push 0
        | .data => push 0
        | .unknown => push 1
        | .other => []

/-- `all_symbols` before sorting, src/read/symbol_map.rs:288-352; sections are given by address and size. -/
def allSymbols (symbols : List Symbol) (sections : List (Nat × Nat)) : List Tuple :=
  symbols.flatMap tuplesOf ++ sections.map fun s => endMarker (satAdd s.1 s.2)

/-- The deduplicating loop, src/read/symbol_map.rs:357-363. -/
def dedup : (previousAddress : Nat) → List Tuple → List Entry
  | _, [] => []
  | p, t :: ts => if t.address ≠ p then ⟨t.address, t.size, t.name⟩ :: dedup t.address ts else dedup p ts

/-- The loop guessing sizes, src/read/symbol_map.rs:368-373, over the reversed list after its first element. -/
def guessLoop : (previousAddress : Nat) → List Entry → List Entry
  | _, [] => []
  | p, s :: ss => ⟨s.address, if s.size = 0 then p - s.address else s.size, s.name⟩ :: guessLoop s.address ss

/-- Guessing sizes, src/read/symbol_map.rs:365-373. -/
def guess (symbols : List Entry) : List Entry :=
  match symbols.reverse with
  | [] => []
  | last :: rest => (last :: guessLoop last.address rest).reverse

/-- `SymbolMapBuilder::build`, src/read/symbol_map.rs:279-379.  `table` is the symbols of the symbol table if
there is one, else of the dynamic symbol table if there is one.  `sort_unstable` is modelled by the only
sorted permutation. -/
def build (table : Option (List Symbol)) (sections : List (Nat × Nat)) : List Entry :=
  match table with
  | none => new []
  | some symbols =>
    let sorted := (allSymbols symbols sections).mergeSort Tuple.le
    new ((guess (dedup (U64 - 1) sorted)).filter fun e => e.name ≠ [])

end Obj.SymMap

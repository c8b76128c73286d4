import Verif.Spec.Leb
import Verif.Model.ExportsTrie

/-!
# The exports trie format

Independent description of the format given in the comment src/read/macho/exports_trie.rs:6-39.  From the model only the types
`ExportData` and `ExportSymbol` are used.
-/

namespace Obj.Spec.Trie
open Obj Obj.Trie Obj.Spec

/-- The bytes `d` start with a ULEB128 number `v`, followed by `rest`. -/
def Uleb (d : List UInt8) (v : Nat) (rest : List UInt8) : Prop :=
  ∃ g, d = g ++ rest ∧ LebGroup g ∧ g.length ≤ 10 ∧ ulebValue g = v ∧ v < 2 ^ 64

/-- The bytes `d` start with a NUL terminated string `s`, followed by `rest`. -/
def CStr (d s rest : List UInt8) : Prop := d = s ++ 0 :: rest ∧ (0 : UInt8) ∉ s

/-- The bytes `d` are terminal data with the given flags and contents. -/
def Terminal (d : List UInt8) (flags : Nat) (x : ExportData) : Prop :=
  flags < 64 ∧ ∃ d1, Uleb d flags d1 ∧
    ((flags.testBit 3 = true ∧ ∃ ordinal name d2 d3, Uleb d1 ordinal d2 ∧ CStr d2 name d3 ∧ x = .reexport ordinal name) ∨
     (flags.testBit 3 = false ∧ flags.testBit 4 = true ∧
        ∃ stub resolver d2 d3, Uleb d1 stub d2 ∧ Uleb d2 resolver d3 ∧ x = .stubAndResolver stub resolver) ∨
     (flags.testBit 3 = false ∧ flags.testBit 4 = false ∧ ∃ address d2, Uleb d1 address d2 ∧ x = .regular address))

/-- At offset `off` of `data` there is a node with terminal data `term` and `count` children; `edges` are the bytes after the
number of children. -/
def NodeAt (data : List UInt8) (off : Nat) (term : Option (Nat × ExportData)) (count : Nat) (edges : List UInt8) : Prop :=
  ∃ pre body size d1 d2 c, data = pre ++ body ∧ pre.length = off ∧ Uleb body size d1 ∧
    ((size = 0 ∧ term = none ∧ d2 = d1) ∨
     (size ≠ 0 ∧ ∃ t flags x, d1 = t ++ d2 ∧ t.length = size ∧ Terminal t flags x ∧ term = some (flags, x))) ∧
    d2 = c :: edges ∧ c.toNat = count

/-- The bytes `d` start with the edges `es` (label and offset of the child), followed by `rest`. -/
def EdgesAt : List UInt8 → List (List UInt8 × Nat) → List UInt8 → Prop
  | d, [], rest => d = rest
  | d, (label, child) :: es, rest => ∃ d1 d2, CStr d label d1 ∧ Uleb d1 child d2 ∧ EdgesAt d2 es rest

/-- The symbol of a node that is reached with the given name. -/
def symbols (name : List UInt8) (term : Option (Nat × ExportData)) : List ExportSymbol :=
  match term with
  | some (flags, x) => [⟨name, flags, x⟩]
  | none => []

mutual

/-- `Subtrie data path off name xs`: the trie below the node at offset `off`, which was reached through the nodes at offsets
`path` with edge labels that concatenate to `name`, is finite and well formed and has the symbols `xs`, in depth first order. -/
inductive Subtrie (data : List UInt8) : List Nat → Nat → List UInt8 → List ExportSymbol → Prop where
  | node {path : List Nat} {off : Nat} {name : List UInt8} {term : Option (Nat × ExportData)} {edges rest : List UInt8}
      {es : List (List UInt8 × Nat)} {xs : List ExportSymbol} :
      off ∉ path → NodeAt data off term es.length edges → EdgesAt edges es rest → Children data (off :: path) name es xs →
      Subtrie data path off name (symbols name term ++ xs)

/-- The same for the children given by a list of edges. -/
inductive Children (data : List UInt8) : List Nat → List UInt8 → List (List UInt8 × Nat) → List ExportSymbol → Prop where
  | nil {path : List Nat} {name : List UInt8} : Children data path name [] []
  | cons {path : List Nat} {name label : List UInt8} {child : Nat} {es : List (List UInt8 × Nat)} {xs ys : List ExportSymbol} :
      Subtrie data path child (name ++ label) xs → Children data path name es ys →
      Children data path name ((label, child) :: es) (xs ++ ys)

end

/-- `Reach data path off name`: there is a chain of edges from the root through the nodes `path` (last first) to the node at
`off`, on which no node occurs twice, and whose labels concatenate to `name`. -/
inductive Reach (data : List UInt8) : List Nat → Nat → List UInt8 → Prop where
  | root : Reach data [] 0 []
  | edge {path : List Nat} {off child count : Nat} {name label edges rest : List UInt8} {term : Option (Nat × ExportData)}
      {es : List (List UInt8 × Nat)} :
      Reach data path off name → NodeAt data off term count edges → es.length < count →
      EdgesAt edges (es ++ [(label, child)]) rest → child ∉ off :: path → Reach data (off :: path) child (name ++ label)

end Obj.Spec.Trie

/-!
# Model of the names of constants and flags

`src/constants.rs:61-268` and the methods of flag types (`src/constants.rs:739-770`).  A value of the wrapped type of `w` bits is a
`BitVec w`.  A `ConstantNames` or `FlagNames` is a table with an optional reference to a next table; the tables are `static`, so following
the references ends, and the model has the list of tables in that order (the first is `self`).  The name of a group is any function from
values to optional names (the macros give the function of a `ConstantNames`).

A closure `FnMut` is a function of its state; the state after an error is observable, so both are returned.
-/

namespace Obj.Nm

/-- `ConstantNames`, src/constants.rs:64-67, without `next` (see above). -/
structure Consts (w : Nat) where
  entries : List (BitVec w × String)

/-- The loop over the entries of one table in `ConstantNames::name`, src/constants.rs:79-83. -/
def findEntry {w : Nat} (value : BitVec w) : List (BitVec w × String) → Option String
  | [] => none
  | e :: es => if e.1 = value then some e.2 else findEntry value es

/-- `ConstantNames::name`, src/constants.rs:72-88. -/
def constName {w : Nat} : List (Consts w) → BitVec w → Option String
  | [], _ => none
  | t :: next, value =>
    match findEntry value t.entries with
    | some n => some n
    | none => constName next value

/-- `FlagGroup`, src/constants.rs:94-97. -/
structure Group (w : Nat) where
  mask : BitVec w
  name : BitVec w → Option String

/-- `FlagNames`, src/constants.rs:119-125, without `next` (see above). -/
structure Flags (w : Nat) where
  bits : List (BitVec w × String)
  groups : List (Group w)

/-- The result of a closure or of a function that calls one: its state, and the error or the value. -/
abbrev Out (σ ε α : Type) := σ × Except ε α

/-- The loop over the groups of one table, src/constants.rs:157-163. -/
def groupLoop {w : Nat} {σ ε : Type} (f : σ → BitVec w → String → Out σ ε Unit) :
    List (Group w) → σ → BitVec w → Out σ ε (BitVec w)
  | [], s, unmatched => (s, .ok unmatched)
  | g :: gs, s, unmatched =>
    let masked := unmatched &&& g.mask
    match g.name masked with
    | some n =>
      match f s masked n with
      | (s', .error e) => (s', .error e)
      | (s', .ok _) => groupLoop f gs s' (unmatched &&& ~~~ g.mask)
    | none => groupLoop f gs s unmatched

/-- The loop over the tables, src/constants.rs:155-165. -/
def groupTables {w : Nat} {σ ε : Type} (f : σ → BitVec w → String → Out σ ε Unit) :
    List (Flags w) → σ → BitVec w → Out σ ε (BitVec w)
  | [], s, unmatched => (s, .ok unmatched)
  | t :: next, s, unmatched =>
    match groupLoop f t.groups s unmatched with
    | (s', .error e) => (s', .error e)
    | (s', .ok u) => groupTables f next s' u

/-- The loop over the bits of one table, src/constants.rs:180-185. -/
def bitLoop {w : Nat} {σ ε : Type} (f : σ → BitVec w → String → Out σ ε Unit) :
    List (BitVec w × String) → σ → BitVec w → Out σ ε (BitVec w)
  | [], s, unmatched => (s, .ok unmatched)
  | (bit, name) :: bs, s, unmatched =>
    if unmatched &&& bit = bit then
      match f s bit name with
      | (s', .error e) => (s', .error e)
      | (s', .ok _) => bitLoop f bs s' (unmatched &&& ~~~ bit)
    else bitLoop f bs s unmatched

/-- `FlagNames::try_bit_names`, src/constants.rs:173-189. -/
def tryBitNames {w : Nat} {σ ε : Type} (f : σ → BitVec w → String → Out σ ε Unit) :
    List (Flags w) → σ → BitVec w → Out σ ε (BitVec w)
  | [], s, unmatched => (s, .ok unmatched)
  | t :: next, s, unmatched =>
    match bitLoop f t.bits s unmatched with
    | (s', .error e) => (s', .error e)
    | (s', .ok u) => tryBitNames f next s' u

/-- `FlagNames::try_names`, src/constants.rs:150-167. -/
def tryNames {w : Nat} {σ ε : Type} (f : σ → BitVec w → String → Out σ ε Unit) (t : List (Flags w)) (s : σ) (value : BitVec w) :
    Out σ ε (BitVec w) :=
  match groupTables f t s value with
  | (s', .error e) => (s', .error e)
  | (s', .ok u) => tryBitNames f t s' u

/-- `unwrap_infallible`, src/constants.rs:227-232. -/
def unwrapInfallible {σ α : Type} : Out σ Empty α → σ × α
  | (s, .ok v) => (s, v)
  | (_, .error e) => nomatch e

/-- `FlagNames::names`, src/constants.rs:194-202. -/
def names {w : Nat} {σ : Type} (f : σ → BitVec w → String → σ) (t : List (Flags w)) (s : σ) (value : BitVec w) : σ × BitVec w :=
  unwrapInfallible (tryNames (ε := Empty) (fun s v n => (f s v n, .ok ())) t s value)

/-- `FlagNames::bit_names`, src/constants.rs:207-215. -/
def bitNames {w : Nat} {σ : Type} (f : σ → BitVec w → String → σ) (t : List (Flags w)) (s : σ) (value : BitVec w) : σ × BitVec w :=
  unwrapInfallible (tryBitNames (ε := Empty) (fun s v n => (f s v n, .ok ())) t s value)

/-- `FlagNames::name`, src/constants.rs:220-223. -/
def flagName {w : Nat} (t : List (Flags w)) (value : BitVec w) : Option (BitVec w × String) :=
  match tryNames (σ := Unit) (fun s v n => (s, .error (v, n))) t () value with
  | (_, .error e) => some e
  | (_, .ok _) => none

/-- The text of `{:x}` for an unsigned number. -/
def hex (n : Nat) : String := String.ofList (Nat.toDigits 16 n)

/-- `flag_debug`, src/constants.rs:236-268.  `put` is `write_str` of the formatter, with its state; each `write!` is one `put` (the
formatting machinery may split it). -/
def flagDebug {w : Nat} {σ : Type} (put : σ → String → Out σ Unit Unit) (t : List (Flags w)) (s : σ) (value : BitVec w) :
    Out σ Unit Unit :=
  let each : (σ × Bool) → BitVec w → String → Out (σ × Bool) Unit Unit := fun st _ name =>
    match (if st.2 then (st.1, .ok ()) else put st.1 " | ") with
    | (s', .error e) => ((s', st.2), .error e)
    | (s', .ok _) =>
      match put s' name with
      | (s'', r) => ((s'', false), r)
  match tryNames each t (s, true) value with
  | ((s', _), .error e) => (s', .error e)
  | ((s', first), .ok unmatched) =>
    if unmatched ≠ 0 then
      match (if first then (s', .ok ()) else put s' " | ") with
      | (s'', .error e) => (s'', .error e)
      | (s'', .ok _) => put s'' ("0x" ++ hex unmatched.toNat)
    else if first then put s' "0"
    else (s', .ok ())

/-- `contains` of a flag type, src/constants.rs:741-743. -/
def contains {w : Nat} (a b : BitVec w) : Bool := a &&& b == b
/-- `intersects`, src/constants.rs:746-748. -/
def intersects {w : Nat} (a b : BitVec w) : Bool := a &&& b != 0
/-- `with`, src/constants.rs:751-753, and `insert`, 761-763. -/
def with_ {w : Nat} (a b : BitVec w) : BitVec w := a ||| b
/-- `without`, src/constants.rs:756-758, and `remove`, 766-768. -/
def without {w : Nat} (a b : BitVec w) : BitVec w := a &&& ~~~ b

end Obj.Nm

import Verif.Spec.ExportsTrie
import Verif.Model.DyldInfo

/-!
# Rebase and bind streams

Independent description of the opcodes of `<mach-o/loader.h>` and of their meaning.  From the model only the types of operations
and of results are used.
-/

namespace Obj.Spec.Dyld
open Obj Obj.Dyld Obj.Spec Obj.Spec.Trie

/-- The bytes `d` start with a SLEB128 number `v`, followed by `rest`. -/
def Sleb (d : List UInt8) (v : Int) (rest : List UInt8) : Prop :=
  ∃ g, d = g ++ rest ∧ LebGroup g ∧ g.length ≤ 10 ∧ slebValue g = v ∧ -(2 ^ 63 : Int) ≤ v ∧ v < 2 ^ 63

/-- The bytes start with the encoding of an operation, followed by the last argument.  The high four bits of the first byte are
the opcode, the low four bits are an immediate value. -/
inductive RebaseOpAt : List UInt8 → RebaseOp → List UInt8 → Prop where
  | done {b : UInt8} {tl : List UInt8} : b.toNat / 16 = 0 → RebaseOpAt (b :: tl) .done tl
  | setType {b : UInt8} {tl : List UInt8} : b.toNat / 16 = 1 → RebaseOpAt (b :: tl) (.setType (b.toNat % 16)) tl
  | setSegment {b : UInt8} {tl rest : List UInt8} {offset : Nat} : b.toNat / 16 = 2 → Uleb tl offset rest →
      RebaseOpAt (b :: tl) (.setSegmentAndOffset (b.toNat % 16) offset) rest
  | addAddr {b : UInt8} {tl rest : List UInt8} {offset : Nat} : b.toNat / 16 = 3 → Uleb tl offset rest →
      RebaseOpAt (b :: tl) (.addAddr offset) rest
  | addAddrScaled {b : UInt8} {tl : List UInt8} : b.toNat / 16 = 4 → RebaseOpAt (b :: tl) (.addAddrScaled (b.toNat % 16)) tl
  | doImmTimes {b : UInt8} {tl : List UInt8} : b.toNat / 16 = 5 → RebaseOpAt (b :: tl) (.doRebaseTimes (b.toNat % 16)) tl
  | doUlebTimes {b : UInt8} {tl rest : List UInt8} {count : Nat} : b.toNat / 16 = 6 → Uleb tl count rest →
      RebaseOpAt (b :: tl) (.doRebaseTimes count) rest
  | doAddAddr {b : UInt8} {tl rest : List UInt8} {offset : Nat} : b.toNat / 16 = 7 → Uleb tl offset rest →
      RebaseOpAt (b :: tl) (.doRebaseAddAddr offset) rest
  | doTimesSkipping {b : UInt8} {tl d rest : List UInt8} {count skip : Nat} : b.toNat / 16 = 8 → Uleb tl count d →
      Uleb d skip rest → RebaseOpAt (b :: tl) (.doRebaseTimesSkipping count skip) rest

/-- What has been set: segment and offset, type. -/
structure RState where
  segment : Option (Nat × Nat)
  kind : Option Nat

/-- `n` rebases, `stride` apart (modulo 2^64), and the state after them; `none` if segment or type are missing. -/
def RState.rebases (st : RState) (n stride : Nat) : Option (List Rebase × RState) :=
  match st.segment, st.kind with
  | some (i, o), some k => some ((List.range n).map (fun j => ⟨i, (o + j * stride) % 2 ^ 64, k⟩),
      { st with segment := some (i, (o + n * stride) % 2 ^ 64) })
  | _, _ => none

/-- Move the offset. -/
def move (segment : Option (Nat × Nat)) (n : Nat) : Option (Nat × Nat) := segment.map fun (i, o) => (i, (o + n) % 2 ^ 64)

/-- The rebases described by a list of operations, and how the list ends; `e` is how reading the operations ended. -/
def evalRebases (ptr : Nat) : RState → List RebaseOp → End → List Rebase × End
  | _, [], e => ([], e)
  | st, op :: ops, e =>
    let doRebases (n stride : Nat) : List Rebase × End :=
      if n = 0 then evalRebases ptr st ops e
      else match st.rebases n stride with
        | none => ([], .err)
        | some (xs, st') => (xs ++ (evalRebases ptr st' ops e).1, (evalRebases ptr st' ops e).2)
    match op with
    | .done => ([], .done)
    | .setType k => evalRebases ptr { st with kind := some k } ops e
    | .setSegmentAndOffset i o => evalRebases ptr { st with segment := some (i, o) } ops e
    | .addAddr n => evalRebases ptr { st with segment := move st.segment n } ops e
    | .addAddrScaled n => evalRebases ptr { st with segment := move st.segment (n * ptr) } ops e
    | .doRebaseTimes n => doRebases n ptr
    | .doRebaseAddAddr o => doRebases 1 (ptr + o)
    | .doRebaseTimesSkipping n skip => doRebases n (ptr + skip)

/-- A four bit two's complement number, except that only 0 is not negative. -/
def special (imm : Nat) : Int := if imm = 0 then 0 else (imm : Int) - 16

/-- The same for bind operations. -/
inductive BindOpAt : List UInt8 → BindOp → List UInt8 → Prop where
  | done {b : UInt8} {tl : List UInt8} : b.toNat / 16 = 0 → BindOpAt (b :: tl) .done tl
  | ordinalImm {b : UInt8} {tl : List UInt8} : b.toNat / 16 = 1 → BindOpAt (b :: tl) (.setDylibOrdinal (b.toNat % 16)) tl
  | ordinalUleb {b : UInt8} {tl rest : List UInt8} {ordinal : Nat} : b.toNat / 16 = 2 → Uleb tl ordinal rest →
      BindOpAt (b :: tl) (.setDylibOrdinal ordinal) rest
  | special {b : UInt8} {tl : List UInt8} : b.toNat / 16 = 3 → BindOpAt (b :: tl) (.setDylibSpecial (special (b.toNat % 16))) tl
  | symbol {b : UInt8} {tl name rest : List UInt8} : b.toNat / 16 = 4 → CStr tl name rest →
      BindOpAt (b :: tl) (.setSymbol (b.toNat % 16) name) rest
  | setType {b : UInt8} {tl : List UInt8} : b.toNat / 16 = 5 → BindOpAt (b :: tl) (.setType (b.toNat % 16)) tl
  | addend {b : UInt8} {tl rest : List UInt8} {v : Int} : b.toNat / 16 = 6 → Sleb tl v rest →
      BindOpAt (b :: tl) (.setAddend v) rest
  | setSegment {b : UInt8} {tl rest : List UInt8} {offset : Nat} : b.toNat / 16 = 7 → Uleb tl offset rest →
      BindOpAt (b :: tl) (.setSegmentAndOffset (b.toNat % 16) offset) rest
  | addAddr {b : UInt8} {tl rest : List UInt8} {offset : Nat} : b.toNat / 16 = 8 → Uleb tl offset rest →
      BindOpAt (b :: tl) (.addAddr offset) rest
  | doBind {b : UInt8} {tl : List UInt8} : b.toNat / 16 = 9 → BindOpAt (b :: tl) .doBind tl
  | doAddAddr {b : UInt8} {tl rest : List UInt8} {offset : Nat} : b.toNat / 16 = 10 → Uleb tl offset rest →
      BindOpAt (b :: tl) (.doBindAddAddr offset) rest
  | doAddAddrScaled {b : UInt8} {tl : List UInt8} : b.toNat / 16 = 11 → BindOpAt (b :: tl) (.doBindAddAddrScaled (b.toNat % 16)) tl
  | doTimesSkipping {b : UInt8} {tl d rest : List UInt8} {count skip : Nat} : b.toNat / 16 = 12 → Uleb tl count d →
      Uleb d skip rest → BindOpAt (b :: tl) (.doBindTimesSkipping count skip) rest

/-- What has been set: segment and offset, type, library, symbol name and flags, addend. -/
structure BState where
  segment : Option (Nat × Nat)
  kind : Option Nat
  dylib : Option Int
  symbol : Option (List UInt8 × Nat)
  addend : Int

/-- The initial states for the three kinds of streams: `BIND_TYPE_POINTER` is 1, `BIND_SPECIAL_DYLIB_WEAK_LOOKUP` is -3. -/
def normalStart : BState := ⟨none, none, none, none, 0⟩
def weakStart : BState := ⟨none, some 1, some (-3), none, 0⟩
def lazyStart : BState := ⟨none, some 1, none, none, 0⟩

/-- `n` binds, `stride` apart (modulo 2^64), and the state after them; `none` if something is missing. -/
def BState.binds (st : BState) (n stride : Nat) : Option (List Bind × BState) :=
  match st.segment, st.kind, st.dylib, st.symbol with
  | some (i, o), some k, some l, some (name, flags) =>
    some ((List.range n).map (fun j => ⟨i, (o + j * stride) % 2 ^ 64, k, l, name, flags, st.addend⟩),
      { st with segment := some (i, (o + n * stride) % 2 ^ 64) })
  | _, _, _, _ => none

/-- The binds described by a list of operations, and how the list ends. -/
def evalBinds (ptr : Nat) (isLazy : Bool) : BState → List BindOp → End → List Bind × End
  | _, [], e => ([], e)
  | st, op :: ops, e =>
    let doBinds (n stride : Nat) : List Bind × End :=
      if n = 0 then evalBinds ptr isLazy st ops e
      else match st.binds n stride with
        | none => ([], .err)
        | some (xs, st') => (xs ++ (evalBinds ptr isLazy st' ops e).1, (evalBinds ptr isLazy st' ops e).2)
    match op with
    | .done => if isLazy then evalBinds ptr isLazy lazyStart ops e else ([], .done)
    | .setDylibOrdinal n => if n < 2 ^ 31 then evalBinds ptr isLazy { st with dylib := some n } ops e else ([], .err)
    | .setDylibSpecial n => evalBinds ptr isLazy { st with dylib := some n } ops e
    | .setSymbol flags name => evalBinds ptr isLazy { st with symbol := some (name, flags) } ops e
    | .setType k => evalBinds ptr isLazy { st with kind := some k } ops e
    | .setAddend v => evalBinds ptr isLazy { st with addend := v } ops e
    | .setSegmentAndOffset i o => evalBinds ptr isLazy { st with segment := some (i, o) } ops e
    | .addAddr n => evalBinds ptr isLazy { st with segment := move st.segment n } ops e
    | .doBind => doBinds 1 ptr
    | .doBindAddAddr o => doBinds 1 (ptr + o)
    | .doBindAddAddrScaled n => doBinds 1 (ptr + n * ptr)
    | .doBindTimesSkipping n skip => doBinds n (ptr + skip)

end Obj.Spec.Dyld

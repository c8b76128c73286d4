import Verif.Model.Bytes

/-!
# Model of `src/write/string.rs`: the writer's string table.
-/

namespace Obj

/-- `struct StringTable`, src/write/string.rs:16-23.  `IndexSet<&[u8]>` is an insertion ordered list
without duplicates. -/
structure StrTab where
  strings : List (List UInt8)
  offsets : List Nat
  size : Nat
  inOrder : Bool
  base : Nat
  deriving DecidableEq, Repr

namespace StrTab

/-- `StringTable::new`, src/write/string.rs:27-29. -/
def new : StrTab := { strings := [], offsets := [], size := 0, inOrder := false, base := 0 }

/-- `StringTable::new_in_order`, src/write/string.rs:35-43. -/
def newInOrder (base : Nat) : StrTab :=
  { strings := [], offsets := [], size := base, inOrder := true, base := base }

/-- Position of the first element equal to `s` (`IndexSet::get_index_of`). -/
def indexOf (s : List UInt8) : List (List UInt8) → Option Nat
  | [] => none
  | t :: ts => if t = s then some 0 else (indexOf s ts).map (· + 1)

/-- The debug assertions of `StringTable::add`, src/write/string.rs:59-60. -/
def addAssert (t : StrTab) (s : List UInt8) : Bool :=
  (t.inOrder || t.offsets.isEmpty) && !(s.contains 0)

/-- `StringTable::add`, src/write/string.rs:58-67, in a release build (see `addAssert` for the debug
assertions); returns the id (`id as u32`) and the new table. -/
def add (t : StrTab) (s : List UInt8) : Nat × StrTab :=
  match indexOf s t.strings with
  | some id => (id % U32, t)
  | none =>
    let id := t.strings.length
    let t := { t with strings := t.strings ++ [s] }
    let t := if t.inOrder then
        { t with offsets := t.offsets ++ [t.size % U32], size := t.size + (s.length + 1) }
      else t
    (id % U32, t)

/-- `StringTable::get_id`, src/write/string.rs:72-75. -/
def getId (t : StrTab) (s : List UInt8) : Res Nat :=
  match indexOf s t.strings with
  | some id => .ok (id % U32)
  | none => .panic

/-- `StringTable::get_string`, src/write/string.rs:80-82. -/
def getString (t : StrTab) (id : Nat) : Res (List UInt8) :=
  match t.strings[id]? with
  | some s => .ok s
  | none => .panic

/-- `StringTable::get_offset`, src/write/string.rs:93-95. -/
def getOffset (t : StrTab) (id : Nat) : Res Nat :=
  match t.offsets[id]? with
  | some o => .ok o
  | none => .panic

/-- `byte`, src/write/string.rs:232-241. -/
def byte (strings : List (List UInt8)) (id pos : Nat) : Res UInt8 :=
  match strings[id]? with
  | none => .panic
  | some string =>
    let len := string.length
    if pos ≤ len then
      match string[len - pos]? with
      | some b => .ok b
      | none => .panic
    else .ok 0

/-- `slice::swap`. -/
def swap (ids : List Nat) (a b : Nat) : Res (List Nat) :=
  match ids[a]?, ids[b]? with
  | some x, some y => .ok ((ids.set a y).set b x)
  | _, _ => .panic

/-- The partition loop of `sort`, src/write/string.rs:207-219. -/
def partLoop (strings : List (List UInt8)) (pos : Nat) (pivot : UInt8) (ids : List Nat)
    (lower upper i : Nat) : Res (List Nat × Nat × Nat) :=
  if i < upper then
    match ids[i]? with
    | none => .panic
    | some id =>
      match byte strings id pos with
      | .ok b =>
        if pivot < b then
          match swap ids lower i with
          | .ok ids => partLoop strings pos pivot ids (lower + 1) upper (i + 1)
          | .err => .err
          | .panic => .panic
        else if b < pivot then
          match swap ids (upper - 1) i with
          | .ok ids => partLoop strings pos pivot ids lower (upper - 1) i
          | .err => .err
          | .panic => .panic
        else partLoop strings pos pivot ids lower upper (i + 1)
      | .err => .err
      | .panic => .panic
  else .ok (ids, lower, upper)
termination_by upper - i

/-- `sort`, src/write/string.rs:197-230.  `fuel` bounds the recursion depth (running out is a `panic`,
proved not to happen for `sortFuel`).  The tail loop over the middle part is a recursive call. -/
def sort (strings : List (List UInt8)) : Nat → List Nat → Nat → Res (List Nat)
  | 0, _, _ => .panic
  | fuel + 1, ids, pos =>
    if ids.length ≤ 1 then .ok ids
    else
      match ids[0]? with
      | none => .panic
      | some id0 =>
        (byte strings id0 pos).bind fun pivot =>
        (partLoop strings pos pivot ids 0 ids.length 1).bind fun p =>
        let (ids, lower, upper) := p
        (sort strings fuel (ids.take lower) pos).bind fun a =>
        (sort strings fuel (ids.drop upper) pos).bind fun c =>
        let mid := (ids.take upper).drop lower
        (if pivot = 0 then .ok mid else sort strings fuel mid (pos + 1)).bind fun b =>
        .ok (a ++ b ++ c)

/-- A recursion depth that suffices. -/
def sortFuel (strings : List (List UInt8)) : Nat :=
  strings.length + (strings.map fun s => s.length + 1).sum + 1

/-- One iteration of the emission loop of `write`, src/write/string.rs:144-156; state is
`(offsets, offset, previous, output)`. -/
def writeStep (strings : List (List UInt8)) (st : List Nat × Nat × List UInt8 × List UInt8) (id : Nat) :
    Res (List Nat × Nat × List UInt8 × List UInt8) :=
  let (offsets, offset, previous, out) := st
  match strings[id]? with
  | none => .panic
  | some string =>
    let len := string.length + 1
    if string.isSuffixOf previous then
      if offset < len then .panic
      else if offsets.length ≤ id then .panic
      else .ok (offsets.set id ((offset - len) % U32), offset, previous, out)
    else
      if offsets.length ≤ id then .panic
      else .ok (offsets.set id (offset % U32), offset + len, string, out ++ string ++ [0])

/-- The emission loop of `write`. -/
def writeLoop (strings : List (List UInt8)) :
    List Nat → List Nat × Nat × List UInt8 × List UInt8 →
    Res (List Nat × Nat × List UInt8 × List UInt8)
  | [], st => .ok st
  | id :: ids, st => (writeStep strings st id).bind (writeLoop strings ids)

/-- `StringTable::write`, src/write/string.rs:120-158: result, new table, bytes appended to the buffer. -/
def write (t : StrTab) (base : Nat) : Res Nat × StrTab × List UInt8 :=
  if !t.inOrder && !t.offsets.isEmpty then (.err, t, [])
  else if t.strings.any (fun s => s.contains 0) then (.err, t, [])
  else if t.inOrder then
    if t.base ≠ base then (.panic, t, [])
    else
      let out := (t.strings.map fun s => s ++ [0]).flatten
      if t.size < U32 then (.ok t.size, t, out) else (.err, t, out)
  else
    match sort t.strings (sortFuel t.strings) (List.range t.strings.length) 1 with
    | .ok ids =>
      match writeLoop t.strings ids (List.replicate ids.length 0, base, [], []) with
      | .ok (offsets, offset, _, out) =>
        let t := { t with offsets := offsets }
        if offset < U32 then (.ok offset, t, out) else (.err, t, out)
      | .err => (.err, t, [])
      | .panic => (.panic, t, [])
    | .err => (.err, t, [])
    | .panic => (.panic, t, [])

/-- The size loop, src/write/string.rs:176-184. -/
def sizeLoop (strings : List (List UInt8)) : List Nat → Nat → List UInt8 → Res Nat
  | [], size, _ => .ok size
  | id :: ids, size, previous =>
    match strings[id]? with
    | none => .panic
    | some string =>
      if string.isSuffixOf previous then sizeLoop strings ids size previous
      else sizeLoop strings ids (size + (string.length + 1)) string

/-- `StringTable::size`, src/write/string.rs:166-186. -/
def sizeOf (t : StrTab) (base : Nat) : Res Nat :=
  if t.inOrder then (if t.base ≠ base then .panic else .ok t.size)
  else
    (sort t.strings (sortFuel t.strings) (List.range t.strings.length) 1).bind fun ids =>
    sizeLoop t.strings ids base []

end StrTab

end Obj

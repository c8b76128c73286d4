import Verif.Model.Iter
import Verif.Model.Endian

/-!
# Model of `src/read/elf/note.rs`
-/

namespace Obj.Elf

/-- `Note`, src/read/elf/note.rs:109-116 (the header is represented by its `n_type`; `n_namesz` and
`n_descsz` are the lengths of `name` and `desc`). -/
structure Note where
  typ : Nat
  name : List UInt8
  desc : List UInt8
  deriving DecidableEq, Repr

/-- `NoteIterator::new`, src/read/elf/note.rs:38-50: the alignment used for iteration. -/
def noteAlign (align : Nat) : Res Nat :=
  if align ≤ 4 then .ok 4 else if align = 8 then .ok 8 else .err

/-- `NoteIterator::parse`, src/read/elf/note.rs:65-96.  `NoteHeader32` and `NoteHeader64`
(src/elf.rs:2681-2720) are three `u32`s.  `offset + namesz` and `offset + descsz` are `usize` additions
(a panic on overflow, which `alignUsize` includes since it adds more). -/
def parseNote (en : Endianness) (align : Nat) (data : List UInt8) : Res Note × List UInt8 :=
  match Bytes.readAt data 0 12 with
  | .ok header =>
    let namesz := field en header 0 4
    match Bytes.readBytesAt data 12 namesz with
    | .ok name =>
      match alignUsize (12 + namesz) align with
      | .ok offset =>
        let descsz := field en header 4 4
        match Bytes.readBytesAt data offset descsz with
        | .ok desc =>
          match alignUsize (offset + descsz) align with
          | .ok offset =>
            let data := match Bytes.skip data offset with
              | (.ok (), tl) => tl
              | (_, _) => []
            (.ok ⟨field en header 8 4, name, desc⟩, data)
          | .err => (.err, data)
          | .panic => (.panic, data)
        | .err => (.err, data)
        | .panic => (.panic, data)
      | .err => (.err, data)
      | .panic => (.panic, data)
    | .err => (.err, data)
    | .panic => (.panic, data)
  | .err => (.err, data)
  | .panic => (.panic, data)

/-- `NoteIterator::next`, src/read/elf/note.rs:53-63. -/
def nextNote (en : Endianness) (align : Nat) : List UInt8 → Res (Option Note) × List UInt8 :=
  fuseNext (parseNote en align)

/-- `Note::name`, src/read/elf/note.rs:148-154: strip trailing zero bytes (the loop pops from the end,
written here over the reversed name). -/
def Note.trimmedName (n : Note) : List UInt8 := (go n.name.reverse).reverse
where
  go : List UInt8 → List UInt8
    | [] => []
    | b :: rest => if b = 0 then go rest else b :: rest

/-- `GnuProperty`, src/read/elf/note.rs:281-284. -/
structure GnuProperty where
  typ : Nat
  data : List UInt8
  deriving DecidableEq, Repr

/-- `Note::gnu_properties`, src/read/elf/note.rs:165-180: the data and alignment of the property
iterator.  `ELF_NOTE_GNU` is `b"GNU"`, `NT_GNU_PROPERTY_TYPE_0` is 5. -/
def Note.gnuProperties (n : Note) (is64 : Bool) : Option (Nat × List UInt8) :=
  if n.trimmedName ≠ [0x47, 0x4e, 0x55] ∨ n.typ ≠ 5 then none
  else some (if is64 then 8 else 4, n.desc)

/-- `GnuPropertyIterator::parse`, src/read/elf/note.rs:259-268. -/
def parseProperty (en : Endianness) (align : Nat) (data : List UInt8) : Res GnuProperty × List UInt8 :=
  match Bytes.readAt data 0 4 with
  | .ok t =>
    match Bytes.readAt data 4 4 with
    | .ok sz =>
      let datasz := rd en sz
      match Bytes.readBytesAt data 8 datasz with
      | .ok d =>
        match alignUsize (8 + datasz) align with
        | .ok offset =>
          match Bytes.skip data offset with
          | (.ok (), tl) => (.ok ⟨rd en t, d⟩, tl)
          | (.err, tl) => (.err, tl)
          | (.panic, tl) => (.panic, tl)
        | .err => (.err, data)
        | .panic => (.panic, data)
      | .err => (.err, data)
      | .panic => (.panic, data)
    | .err => (.err, data)
    | .panic => (.panic, data)
  | .err => (.err, data)
  | .panic => (.panic, data)

/-- `GnuPropertyIterator::next`, src/read/elf/note.rs:247-257. -/
def nextProperty (en : Endianness) (align : Nat) : List UInt8 → Res (Option GnuProperty) × List UInt8 :=
  fuseNext (parseProperty en align)

/-- `GnuProperty::data_u32`, src/read/elf/note.rs:300-305. -/
def GnuProperty.dataU32 (en : Endianness) (p : GnuProperty) : Res Nat :=
  match Bytes.readAt p.data 0 4 with
  | .ok b => .ok (rd en b)
  | .err => .err
  | .panic => .panic

end Obj.Elf

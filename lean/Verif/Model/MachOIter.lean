import Verif.Model.Bytes
import Verif.Model.Endian

/-!
# Model of `src/read/macho/function_starts.rs` and the iterator of `src/read/macho/load_command.rs`
-/

namespace Obj.MachO

/-- `FunctionStartsIterator`, src/read/macho/function_starts.rs:5-8. -/
structure FnStarts where
  data : List UInt8
  addr : Nat

/-- `FunctionStartsIterator::parse`, src/read/macho/function_starts.rs:33-48. -/
def FnStarts.parse (s : FnStarts) : Res (Option Nat) × FnStarts :=
  match Bytes.readUleb s.data with
  | (.ok delta, data) =>
    if delta = 0 then (.ok none, { s with data := [] })
    else if U64 ≤ s.addr + delta then (.err, { s with data := data })
    else (.ok (some (s.addr + delta)), { data := data, addr := s.addr + delta })
  | (.err, data) => (.err, { s with data := data })
  | (.panic, data) => (.panic, { s with data := data })

/-- `FunctionStartsIterator::next`, src/read/macho/function_starts.rs:21-31. -/
def FnStarts.next (s : FnStarts) : Res (Option Nat) × FnStarts :=
  if s.data = [] then (.ok none, s)
  else match s.parse with
    | (.err, s') => (.err, { s' with data := [] })
    | r => r

/-- `LoadCommandData`, src/read/macho/load_command.rs:79-85. -/
structure LoadCommandData where
  cmd : Nat
  offset : Nat
  data : List UInt8
  deriving DecidableEq, Repr

/-- `LoadCommandIterator`, src/read/macho/load_command.rs:12-17 (the byte order is a parameter). -/
structure LoadCommands where
  data : List UInt8
  ncmds : Nat
  offset : Nat

/-- `LoadCommandIterator::parse`, src/read/macho/load_command.rs:44-66.  `macho::LoadCommand`
(src/macho.rs:1243-1250) is two `u32`s.  `self.offset += cmdsize` panics on overflow. -/
def LoadCommands.parse (e : Endianness) (s : LoadCommands) : Res LoadCommandData × LoadCommands :=
  match Bytes.readAt s.data 0 8 with
  | .ok header =>
    let cmd := field e header 0 4
    let cmdsize := field e header 4 4
    if cmdsize < 8 then (.err, s)
    else match Bytes.readBytes s.data cmdsize with
      | (.ok data, rest) =>
        if U64 ≤ s.offset + cmdsize then (.panic, { s with data := rest })
        else (.ok ⟨cmd, s.offset, data⟩, { s with data := rest, offset := s.offset + cmdsize })
      | (.err, rest) => (.err, { s with data := rest })
      | (.panic, rest) => (.panic, { s with data := rest })
  | .err => (.err, s)
  | .panic => (.panic, s)

/-- `LoadCommandIterator::next`, src/read/macho/load_command.rs:30-42. -/
def LoadCommands.next (e : Endianness) (s : LoadCommands) : Res (Option LoadCommandData) × LoadCommands :=
  if s.ncmds = 0 then (.ok none, s)
  else match s.parse e with
    | (.ok c, s') => (.ok (some c), { s' with ncmds := s'.ncmds - 1 })
    | (.err, s') => (.err, { s' with ncmds := 0 })
    | (.panic, s') => (.panic, s')

end Obj.MachO

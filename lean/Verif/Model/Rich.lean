import Verif.Model.Bytes
import Verif.Model.Endian

/-!
# Model of `src/read/pe/rich.rs`
-/

namespace Obj.Pe

/-- The loop of `memmem`, src/read/pe/rich.rs:86-95; the fuel is larger than the number of iterations
possible (see `memmem`). -/
def memmemLoop (data needle : List UInt8) (align : Nat) : Nat → Nat → Option Nat
  | 0, _ => none
  | fuel + 1, offset =>
    if data.length < offset then none
    else if (data.drop offset).length < needle.length then none
    else if (data.drop offset).take needle.length = needle then some offset
    else memmemLoop data needle align fuel (offset + align)

/-- `memmem`, src/read/pe/rich.rs:86-95: offsets increase by `align ≥ 1`, so `data.len() + 1` iterations
always suffice. -/
def memmem (data needle : List UInt8) (align : Nat) : Option Nat :=
  memmemLoop data needle align (data.length + 1) 0

/-- `RichHeaderInfo`, src/read/pe/rich.rs:11-26; the entries are stored masked. -/
structure RichHeaderInfo where
  offset : Nat
  length : Nat
  xorKey : Nat
  maskedEntries : List (List UInt8)
  deriving DecidableEq, Repr

/-- `RichHeaderInfo::parse`, src/read/pe/rich.rs:42-69; `Res.err` is `None`. -/
def richParse (data : List UInt8) (ntHeaderOffset : Nat) : Res RichHeaderInfo :=
  match ReadRef.readBytesAt data 0 ntHeaderOffset with
  | .err => .err
  | .panic => .panic
  | .ok data =>
    match memmem data [0x52, 0x69, 0x63, 0x68] 4 with   -- b"Rich"
    | none => .err
    | some endMarker =>
      match Bytes.readAt data (endMarker + 4) 4 with
      | .err => .err
      | .panic => .panic
      | .ok xorKey =>
        let startSequence := wr .little 4 (0x536e6144 ^^^ rd .little xorKey) ++ xorKey ++ xorKey ++ xorKey
        match memmem (data.take endMarker) startSequence 4 with
        | none => .err
        | some startMarker =>
          let itemsOffset := startMarker + startSequence.length
          if endMarker < itemsOffset then .panic
          else
            let itemCount := (endMarker - itemsOffset) / 8
            match Bytes.skip data itemsOffset with
            | (.err, _) => .err
            | (.panic, _) => .panic
            | (.ok (), tl) =>
              match (Bytes.readSlice tl 8 itemCount).1 with
              | .err => .err
              | .panic => .panic
              | .ok items => .ok ⟨startMarker, endMarker - startMarker + 8, rd .little xorKey, items⟩

/-- `RichHeaderInfo::unmasked_entries`, src/read/pe/rich.rs:72-80: (comp_id, count). -/
def RichHeaderInfo.unmasked (self : RichHeaderInfo) : List (Nat × Nat) :=
  self.maskedEntries.map fun e => (field .little e 0 4 ^^^ self.xorKey, field .little e 4 4 ^^^ self.xorKey)

end Obj.Pe

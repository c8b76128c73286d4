import Verif.Model.Archive

/-! # The `ar` archive formats, as written by archivers -/

namespace Obj.Spec.ArchiveS
open Obj Obj.Archive

/-! ## Numbers -/

/-- The value of a digit string. -/
def value (zero : UInt8) (radix : Nat) (digits : List UInt8) : Nat :=
  digits.foldl (fun acc d => acc * radix + (d.toNat - zero.toNat)) 0

/-- A header field holds the number `n`: digits up to the first space or the end of the field (at least one,
unless the field itself is empty), and the number fits in 64 bits. -/
def Number (zero space : UInt8) (radix : Nat) (fld : List UInt8) (n : Nat) : Prop :=
  ∃ digits rest, fld = digits ++ rest ∧ (rest = [] ∨ rest.head? = some space) ∧ (fld = [] ∨ digits ≠ []) ∧
    (∀ d ∈ digits, zero.toNat ≤ d.toNat ∧ d.toNat < zero.toNat + radix) ∧ n = value zero radix digits ∧ n < 2 ^ 64

/-- Decimal notation. -/
def decimal (n : Nat) : List UInt8 :=
  if n < 10 then [UInt8.ofNat (48 + n)] else decimal (n / 10) ++ [UInt8.ofNat (48 + n % 10)]
termination_by n

/-- Pad a field with spaces. -/
def spaces (w : Nat) (b : List UInt8) : List UInt8 := b ++ List.replicate (w - b.length) 0x20

/-! ## Safety of reading -/

/-- The members `ms` lie one after the other in `data` from `pos` on: each has its 60-byte header at the current
position and (unless it is a thin member without data) its data after the header and before the next member. -/
def Layered (data : List UInt8) : Nat → List Member → Prop
  | _, [] => True
  | pos, m :: ms => pos + 60 ≤ data.length ∧ m.header = slice data pos 60 ∧
      ∃ next, pos + 60 ≤ next ∧ (m.offset = 0 ∨ (pos + 60 ≤ m.offset ∧ m.offset + m.size ≤ next)) ∧
        Layered data next ms

/-! ## Writing -/

/-- An archive member to be written; `info` is the date, uid, gid and mode fields (32 bytes). -/
structure Entry where
  name : List UInt8
  info : List UInt8
  body : List UInt8
  deriving DecidableEq, Repr

/-- How the name is stored: `name/` (GNU), `name` (BSD), `/offset` into the names table (GNU, COFF), or `#1/length`
with the name, padded with NUL bytes, in front of the data (BSD). -/
inductive Form where
  | slash
  | plain
  | table (offset : Nat)
  | inline (pad : Nat)
  deriving DecidableEq, Repr

def nameField (e : Entry) : Form → List UInt8
  | .slash => e.name ++ [0x2f]
  | .plain => e.name
  | .table offset => 0x2f :: decimal offset
  | .inline pad => [0x23, 0x31, 0x2f] ++ decimal (e.name.length + pad)

def content (e : Entry) : Form → List UInt8
  | .inline pad => e.name ++ List.replicate pad 0 ++ e.body
  | _ => e.body

/-- A member: header, content, and a newline if the content has odd length.  A member of a thin archive is only
the header. -/
def header (nameField info : List UInt8) (size : Nat) : List UInt8 :=
  spaces 16 nameField ++ info ++ spaces 10 (decimal size) ++ [0x60, 0x0a]

def padded (content : List UInt8) : List UInt8 := content ++ if content.length % 2 = 1 then [0x0a] else []

def member (thin : Bool) (e : Entry) (f : Form) : List UInt8 :=
  header (nameField e f) e.info (content e f).length ++ if thin then [] else padded (content e f)

/-- The entry can be stored in the given form. -/
def Storable (names : List UInt8) (e : Entry) (f : Form) : Prop :=
  e.info.length = 32 ∧ (decimal (content e f).length).length ≤ 10 ∧
  match f with
  | .slash => e.name ≠ [] ∧ 0x2f ∉ e.name ∧ e.name.length ≤ 15
  | .plain => 0x2f ∉ e.name ∧ 0x20 ∉ e.name ∧ e.name.length ≤ 16
  | .table offset => 0x0a ∉ e.name ∧ 0 ∉ e.name ∧ (decimal offset).length ≤ 15 ∧
      ∃ before after, before.length = offset ∧
        (names = before ++ e.name ++ [0x2f, 0x0a] ++ after ∨ names = before ++ e.name ++ [0] ++ after)
  | .inline pad => 0 ∉ e.name ∧ (decimal (e.name.length + pad)).length ≤ 13

/-- Names with a special meaning. -/
def Reserved (name : List UInt8) : Prop :=
  name ∈ ["/", "//", "/SYM64/", "/<ECSYMBOLS>/", "__.SYMDEF", "__.SYMDEF SORTED", "__.SYMDEF_64",
    "__.SYMDEF_64 SORTED"].map fun s : String => s.toUTF8.toList

/-- A special member: its name, then spaces. -/
def specialMember (name info body : List UInt8) : List UInt8 :=
  header name info body.length ++ padded body

/-- The special members in front of the ordinary ones. -/
inductive Layout where
  | none
  | gnu (symbols names : Option (List UInt8))
  | gnu64 (symbols : List UInt8) (names : Option (List UInt8))
  | bsd (form : Form) (sorted : Bool) (symbols : List UInt8)
  | bsd64 (form : Form) (sorted : Bool) (symbols : List UInt8)
  | coff (first second : List UInt8) (names ec : Option (List UInt8))
  deriving DecidableEq, Repr

def Layout.names : Layout → List UInt8
  | .gnu _ names => names.getD []
  | .gnu64 _ names => names.getD []
  | .coff _ _ names _ => names.getD []
  | _ => []

def Layout.symbols : Layout → Option (List UInt8)
  | .none => Option.none
  | .gnu symbols _ => symbols
  | .gnu64 symbols _ => some symbols
  | .bsd _ _ symbols => some symbols
  | .bsd64 _ _ symbols => some symbols
  | .coff _ second _ _ => some second

def Layout.kind : Layout → Kind
  | .none => .unknown
  | .gnu Option.none Option.none => .unknown
  | .gnu _ _ => .gnu
  | .gnu64 _ _ => .gnu64
  | .bsd _ _ _ => .bsd
  | .bsd64 _ _ _ => .bsd64
  | .coff _ _ _ _ => .coff

def optMember (name info : List UInt8) : Option (List UInt8) → List UInt8
  | some b => specialMember name info b
  | Option.none => []

/-- The BSD symbol table as a member. -/
def symdefEntry (wide sorted : Bool) (info body : List UInt8) : Entry :=
  ⟨(if wide then "__.SYMDEF_64".toUTF8.toList else "__.SYMDEF".toUTF8.toList) ++
    (if sorted then " SORTED".toUTF8.toList else []), info, body⟩

/-- The special members as bytes; `info` is used for all of them. -/
def Layout.bytes (info : List UInt8) : Layout → List UInt8
  | .none => []
  | .gnu symbols names => optMember "/".toUTF8.toList info symbols ++ optMember "//".toUTF8.toList info names
  | .gnu64 symbols names => specialMember "/SYM64/".toUTF8.toList info symbols ++ optMember "//".toUTF8.toList info names
  | .bsd form sorted symbols => member false (symdefEntry false sorted info symbols) form
  | .bsd64 form sorted symbols => member false (symdefEntry true sorted info symbols) form
  | .coff first second names ec =>
    specialMember "/".toUTF8.toList info first ++ specialMember "/".toUTF8.toList info second ++
      optMember "//".toUTF8.toList info names ++ optMember "/<ECSYMBOLS>/".toUTF8.toList info ec

/-- The special members can be written: every size has at most 10 digits, and a thin archive is a GNU one. -/
def Layout.Ok (thin : Bool) (info : List UInt8) (l : Layout) : Prop :=
  info.length = 32 ∧
  match l with
  | .none => True
  | .gnu symbols names => ∀ b, symbols = some b ∨ names = some b → b.length < 10 ^ 10
  | .gnu64 symbols names => ∀ b, symbols = b ∨ names = some b → b.length < 10 ^ 10
  | .bsd form sorted symbols => thin = false ∧ Storable [] (symdefEntry false sorted info symbols) form
  | .bsd64 form sorted symbols => thin = false ∧ Storable [] (symdefEntry true sorted info symbols) form
  | .coff first second names ec => thin = false ∧
      ∀ b, first = b ∨ second = b ∨ names = some b ∨ ec = some b → b.length < 10 ^ 10

/-- The whole archive. -/
def archive (thin : Bool) (l : Layout) (info : List UInt8) (es : List (Entry × Form)) : List UInt8 :=
  (if thin then "!<thin>\n".toUTF8.toList else "!<arch>\n".toUTF8.toList) ++ (l.bytes info ++
    (es.map fun e => member thin e.1 e.2).flatten)

/-- The ordinary members can be written: they are storable, the first one does not look like a special member; in a
thin archive no member has a reserved name and none stores its name in its (absent) data. -/
def EntriesOk (thin : Bool) (l : Layout) (es : List (Entry × Form)) : Prop :=
  (∀ e ∈ es, Storable l.names e.1 e.2) ∧
  (∀ e, es.head? = some e → ¬ Reserved e.1.name) ∧
  (thin = true → ∀ e ∈ es, ¬ Reserved e.1.name ∧ ∀ pad, e.2 ≠ .inline pad)

/-! ## Symbol tables -/

/-- A GNU symbol table (`w` is 4 or 8 bytes per integer). -/
def gnuSymbols (w : Nat) (syms : List (List UInt8 × Nat)) : List UInt8 :=
  wr .big w syms.length ++ (syms.map fun s => wr .big w s.2).flatten ++ (syms.map fun s => s.1 ++ [0]).flatten

/-- A COFF symbol table: `members` are header offsets, each symbol has a 1-based member index. -/
def coffSymbols (members : List Nat) (syms : List (List UInt8 × Nat)) : List UInt8 :=
  wr .little 4 members.length ++ (members.map (wr .little 4)).flatten ++
    wr .little 4 syms.length ++ (syms.map fun s => wr .little 2 s.2).flatten ++ (syms.map fun s => s.1 ++ [0]).flatten

/-- Pairs of name offset and member offset. -/
def bsdEntries (w : Nat) : (pos : Nat) → List (List UInt8 × Nat) → List UInt8
  | _, [] => []
  | pos, s :: ss => wr .little w pos ++ wr .little w s.2 ++ bsdEntries w (pos + s.1.length + 1) ss

/-- A BSD symbol table. -/
def bsdSymbols (w : Nat) (syms : List (List UInt8 × Nat)) : List UInt8 :=
  let names := (syms.map fun s => s.1 ++ [0]).flatten
  wr .little w (2 * w * syms.length) ++ bsdEntries w 0 syms ++ wr .little w names.length ++ names

end Obj.Spec.ArchiveS

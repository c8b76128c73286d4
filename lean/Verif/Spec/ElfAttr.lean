import Verif.Model.ElfAttr

/-! # Vocabulary for the attributes properties -/

namespace Obj.Spec.AttrS
open Obj Obj.Attr

/-- The values of an attribute, in the order they are written. -/
inductive Value where
  | int (v : Nat)
  | str (s : List UInt8)

/-- An attribute: its tag and values. -/
structure Attribute where
  tag : Nat
  values : List Value

/-- A sub-subsection: what it applies to (file: tag 1, sections: 2, symbols: 3), and its attributes. -/
structure SubSub where
  tag : UInt8
  indices : List Nat
  attributes : List Attribute

/-- A subsection. -/
structure Sub where
  vendor : List UInt8
  subs : List SubSub

/-- The value can be stored. -/
def Value.Fits : Value → Prop
  | .int v => v < 2 ^ 64
  | .str s => (0 : UInt8) ∉ s

/-- The sub-subsection can be stored: indices are not 0 and the file has none. -/
structure SubSub.Fits (s : SubSub) : Prop where
  tag : s.tag = 1 ∧ s.indices = [] ∨ s.tag = 2 ∨ s.tag = 3
  indices : ∀ i ∈ s.indices, i ≠ 0 ∧ i < 2 ^ 32
  attributes : ∀ a ∈ s.attributes, a.tag < 2 ^ 64 ∧ ∀ v ∈ a.values, v.Fits

/-- The subsection can be stored. -/
structure Sub.Fits (s : Sub) : Prop where
  vendor : (0 : UInt8) ∉ s.vendor
  subs : ∀ x ∈ s.subs, x.Fits

/-- Do something for each element in turn. -/
def each {α : Type} (f : Writer → α → Res Writer) : Writer → List α → Res Writer
  | w, [] => .ok w
  | w, x :: xs => (f w x).bind fun w => each f w xs

/-- Write a value. -/
def Value.write (w : Writer) : Value → Res Writer
  | .int v => w.integer v
  | .str s => w.string s

/-- Write an attribute. -/
def Attribute.write (w : Writer) (a : Attribute) : Res Writer := (w.integer a.tag).bind fun w => each Value.write w a.values

/-- Write a sub-subsection: the indices are ended by 0 if there can be any. -/
def SubSub.write (w : Writer) (s : SubSub) : Res Writer :=
  (w.startSubsubsection s.tag).bind fun w =>
  (if s.tag = 1 then .ok w else (each Writer.index w s.indices).bind fun w => w.index 0).bind fun w =>
  (each Attribute.write w s.attributes).bind fun w => w.endSubsubsection

/-- Write a subsection. -/
def Sub.write (w : Writer) (s : Sub) : Res Writer :=
  (w.startSubsection s.vendor).bind fun w => (each SubSub.write w s.subs).bind fun w => w.endSubsection

/-- Write a whole section. -/
def writeAll (e : Endianness) (subs : List Sub) : Res (List UInt8) :=
  (each Sub.write (Writer.new e) subs).bind fun w => w.finish

/-- Two lists agree elementwise. -/
def Each {α β : Type} (r : α → β → Prop) : List α → List β → Prop
  | [], [] => True
  | a :: as, b :: bs => r a b ∧ Each r as bs
  | _, _ => False

/-- Reading the values, with the calls for their kinds, gives the values and leaves the rest. -/
def ReadValues : List UInt8 → List Value → List UInt8 → Prop
  | d, [], rest => d = rest
  | d, .int v :: vs, rest => ∃ d', readInteger d = (.ok v, d') ∧ ReadValues d' vs rest
  | d, .str s :: vs, rest => ∃ d', readStr d = (.ok s, d') ∧ ReadValues d' vs rest

/-- Reading all attributes gives these. -/
def ReadAttributes : List UInt8 → List Attribute → Prop
  | d, [] => readTag d = (.ok none, d)
  | d, a :: as => ∃ d' d'', readTag d = (.ok (some a.tag), d') ∧ ReadValues d' a.values d'' ∧ ReadAttributes d'' as

/-- Reading the subsections of a section, and everything in them, gives these. -/
def ReadSubs (e : Endianness) (d : List UInt8) (subs : List Sub) : Prop :=
  ∃ ys, Runs (subsectionNext e) d ys .done ∧
    Each (fun (s : Sub) (y : Subsection) => y.vendor = s.vendor ∧ ∃ zs, Runs (subsubsectionNext e) y.data zs .done ∧
      Each (fun (x : SubSub) (z : Subsubsection) => z.tag = x.tag ∧ Runs indexNext z.indices x.indices .done ∧
        ReadAttributes z.data x.attributes) s.subs zs) subs ys

end Obj.Spec.AttrS

namespace Obj.Spec.AttrS

/-- The number of bytes of an unsigned LEB128 number. -/
def ulebSize (v : Nat) : Nat := if v < 128 then 1 else 1 + ulebSize (v / 128)
termination_by v

/-- The number of bytes of a value. -/
def Value.size : Value → Nat
  | .int v => ulebSize v
  | .str s => s.length + 1

/-- The number of bytes of an attribute. -/
def Attribute.size (a : Attribute) : Nat := ulebSize a.tag + (a.values.map Value.size).sum

/-- The number of bytes of a sub-subsection. -/
def SubSub.size (s : SubSub) : Nat :=
  5 + (if s.tag = 1 then 0 else (s.indices.map ulebSize).sum + 1) + (s.attributes.map Attribute.size).sum

/-- The number of bytes of a subsection. -/
def Sub.size (s : Sub) : Nat := 4 + (s.vendor.length + 1) + (s.subs.map SubSub.size).sum

/-- The number of bytes of a section. -/
def sizeAll (subs : List Sub) : Nat := 1 + (subs.map Sub.size).sum

end Obj.Spec.AttrS

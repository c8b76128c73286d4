import Verif.Model.WriteObject
import Verif.Spec.Buffer

/-!
# Specification vocabulary for the object builder
-/

namespace Obj.W.Spec

/-- A power of two. -/
def PowTwo (a : Nat) : Prop := ∃ k, a = 2 ^ k

/-- `l` starts with `p`. -/
def StartsWith {α : Type} (p l : List α) : Prop := ∃ t, l = p ++ t

/-- Calls that may overwrite existing bytes of section `j`: `section_mut(j).data_mut()` and a relocation
added to section `j` (whose addend may be stored at its place). -/
def Overwrites (j : Nat) : Op → Prop
  | .dataMut i _ => i = j
  | .addRelocation i _ _ _ _ _ => i = j
  | _ => False

/-- Calls that may change section `j` (other than by creating its section symbol): those that name it,
attaching data to a symbol of a Mach-O file when `j` is the thread variables section, and adding a GNU
property to an ELF file when `j` is the section for them. -/
def Touches (o : Object) (j : Nat) : Op → Prop
  | .setSectionData i _ _ => i = j
  | .appendSectionData i _ _ => i = j
  | .appendSectionBss i _ _ => i = j
  | .dataMut i _ => i = j
  | .setSectionFlags i _ => i = j
  | .addRelocation i _ _ _ _ _ => i = j
  | .addSymbolData _ i _ _ => i = j ∨ (o.format = .macho ∧ o.std .tlsVariables = some j)
  | .addSymbolBss _ i _ _ => i = j ∨ (o.format = .macho ∧ o.std .tlsVariables = some j)
  | .setSymbolData _ _ _ _ => o.format = .macho ∧ o.std .tlsVariables = some j
  | .addGnuProperty _ _ => o.format = .elf ∧ o.std .gnuProperty = some j
  | _ => False

/-- Calls that replace the alignment of section `j` instead of raising it. -/
def ResetsAlign (j : Nat) : Op → Prop
  | .setSectionData i _ _ => i = j
  | _ => False

/-- `symbol_mut`. -/
def EditsSymbol : Op → Prop
  | .symbolMut _ _ => True
  | _ => False

/-- A symbol whose name is entered in the name map: non-empty name, text, data or TLS. -/
def Named (s : Symbol) : Prop := s.name ≠ [] ∧ (s.kind = .text ∨ s.kind = .data ∨ s.kind = .tls)

/-- "_tlv_bootstrap" -/
def tlvName : List UInt8 := [95, 116, 108, 118, 95, 98, 111, 111, 116, 115, 116, 114, 97, 112]

/-- Calls that may define the name `n`: adding a symbol with that name, or (for the name
`_tlv_bootstrap`) attaching data to a symbol. -/
def Defines (n : List UInt8) : Op → Prop
  | .addSymbol s => Named s ∧ s.name = n
  | .addCommonSymbol s _ _ => Named s ∧ s.name = n
  | .addSymbolData _ _ _ _ => n = tlvName
  | .addSymbolBss _ _ _ _ => n = tlvName
  | .setSymbolData _ _ _ _ => n = tlvName
  | _ => False

/-- The section has the segment, name and kind of a standard section in this format. -/
def IsStd (o : Object) (ss : StdSection) (s : Section) : Prop :=
  s.segment = (sectionInfo o.format o.arch ss).segment ∧ s.name = (sectionInfo o.format o.arch ss).name ∧
    s.kind = (sectionInfo o.format o.arch ss).kind

/-- The bytes of an ASCII string. -/
def ascii (s : String) : List UInt8 := s.toList.map (fun c => UInt8.ofNat c.toNat)

/-- The data `d'` is `d` with the `n`-bit signed value `v` stored at `off`; nothing is stored for 0 (and then
the offset is not looked at). -/
def Stored (e : Endianness) (d d' : List UInt8) (off n : Nat) (v : Int) : Prop :=
  (v = 0 ∧ d' = d) ∨
    (v ≠ 0 ∧ (n = 32 ∨ n = 64) ∧ off + n / 8 ≤ d.length ∧
      d' = d.take off ++ wrI e (n / 8) v ++ d.drop (off + n / 8))

end Obj.W.Spec

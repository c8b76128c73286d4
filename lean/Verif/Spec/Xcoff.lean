import Verif.Model.XcoffRead
import Verif.Spec.FileKind

/-! # The layout of XCOFF structures

Byte offsets of the fields, all big endian. -/

namespace Obj.Spec.XcoffS
open Obj Obj.Xcoff

/-- `h` is the file header of `data`. -/
structure HeaderAt (is64 : Bool) (data : List UInt8) (h : Hdr) : Prop where
  inside : (if is64 then 24 else 20) ≤ data.length
  magic : field .big data 0 2 = if is64 then 0x1f7 else 0x1df
  nscns : h.nscns = field .big data 2 2
  timdat : h.timdat = field .big data 4 4
  symptr : h.symptr = field .big data 8 (if is64 then 8 else 4)
  nsyms : h.nsyms = field .big data (if is64 then 20 else 12) 4
  opthdr : h.opthdr = field .big data 16 2
  flags : h.flags = field .big data 18 2

/-- Where the section headers start. -/
def sectionsAt (is64 : Bool) (h : Hdr) : Nat := (if is64 then 24 else 20) + h.opthdr

/-- `s` is the section header at offset `o` of `data`. -/
structure SectAt (is64 : Bool) (data : List UInt8) (o : Nat) (s : Sect) : Prop where
  inside : o + (if is64 then 72 else 40) ≤ data.length
  name : s.name = slice data o 8
  paddr : s.paddr = if is64 then field .big data (o + 8) 8 else field .big data (o + 8) 4
  vaddr : s.vaddr = if is64 then field .big data (o + 16) 8 else field .big data (o + 12) 4
  size : s.size = if is64 then field .big data (o + 24) 8 else field .big data (o + 16) 4
  scnptr : s.scnptr = if is64 then field .big data (o + 32) 8 else field .big data (o + 20) 4
  relptr : s.relptr = if is64 then field .big data (o + 40) 8 else field .big data (o + 24) 4
  lnnoptr : s.lnnoptr = if is64 then field .big data (o + 48) 8 else field .big data (o + 28) 4
  nreloc : s.nreloc = if is64 then field .big data (o + 56) 4 else field .big data (o + 32) 2
  nlnno : s.nlnno = if is64 then field .big data (o + 60) 4 else field .big data (o + 34) 2
  flags : s.flags = if is64 then field .big data (o + 64) 4 else field .big data (o + 36) 4

/-- `r` is the relocation at offset `o` of `data`. -/
structure RelAt (is64 : Bool) (data : List UInt8) (o : Nat) (r : Rel) : Prop where
  inside : o + (if is64 then 14 else 10) ≤ data.length
  vaddr : r.vaddr = if is64 then field .big data o 8 else field .big data o 4
  symndx : r.symndx = if is64 then field .big data (o + 8) 4 else field .big data (o + 4) 4
  rsize : r.rsize = if is64 then field .big data (o + 12) 1 else field .big data (o + 8) 1
  rtype : r.rtype = if is64 then field .big data (o + 13) 1 else field .big data (o + 9) 1

/-- `s` is the symbol with the record `r` of 18 bytes. -/
structure SymOf (is64 : Bool) (r : List UInt8) (s : Sym) : Prop where
  name : s.name = if is64 then slice r 8 4 else slice r 0 8
  value : s.value = if is64 then field .big r 0 8 else field .big r 8 4
  scnum : s.scnum = field .big r 12 2
  typ : s.typ = field .big r 14 2
  sclass : s.sclass = field .big r 16 1
  numaux : s.numaux = field .big r 17 1

/-- The symbols from record `i` on: `is` are the indices of their records.  A symbol is followed by the number of auxiliary
records that its byte 17 gives; a symbol whose class (byte 16) is 0 was deleted. -/
inductive Entries (records : List (List UInt8)) : Nat → List Nat → Prop where
  | done {i : Nat} : records.length ≤ i → Entries records i []
  | deleted {i : Nat} {r : List UInt8} {is : List Nat} : records[i]? = some r → r[16]? = some 0 →
      Entries records (i + 1 + (r.getD 17 0).toNat) is → Entries records i is
  | symbol {i : Nat} {r : List UInt8} {c : UInt8} {is : List Nat} : records[i]? = some r → r[16]? = some c → c ≠ 0 →
      Entries records (i + 1 + (r.getD 17 0).toNat) is → Entries records i (i :: is)

/-- `t` is the symbol table that the header gives: `nsyms` records of 18 bytes, and the string table after them, which
starts with its length. -/
structure TableAt (is64 : Bool) (data : List UInt8) (h : Hdr) (t : SymTab) : Prop where
  is64 : t.is64 = is64
  absent : h.symptr = 0 → t.records = [] ∧ t.strings = none
  count : h.symptr ≠ 0 → t.records.length = h.nsyms
  records : ∀ (i : Nat) (r : List UInt8), t.records[i]? = some r → r = slice data (h.symptr + 18 * i) 18 ∧
    h.symptr + 18 * i + 18 ≤ data.length
  strings : h.symptr ≠ 0 → h.symptr + 18 * h.nsyms + 4 ≤ data.length ∧
    t.strings = some (h.symptr + 18 * h.nsyms, h.symptr + 18 * h.nsyms + field .big data (h.symptr + 18 * h.nsyms) 4)

/-- `n` is the NUL-terminated string at offset `off` of the string table. -/
def StringIn (strings : Elf.StrTable) (data : List UInt8) (off : Nat) (n : List UInt8) : Prop :=
  ∃ start stop, strings = some (start, stop) ∧ stop ≤ data.length ∧ start + off + n.length < stop ∧
    At data (start + off) (n ++ [0]) ∧ (0 : UInt8) ∉ n

/-- `n` is the name in a field of 8 bytes: if the first byte is 0, bytes 4 to 7 are an offset in the string table. -/
def NameIn (strings : Elf.StrTable) (data f n : List UInt8) : Prop :=
  (f.getD 0 1 = 0 ∧ StringIn strings data (field .big f 4 4) n) ∨
  (f.getD 0 1 ≠ 0 ∧ (0 : UInt8) ∉ n ∧ (f = n ∨ ∃ rest, f = n ++ 0 :: rest))

/-- The classes of symbols with a csect record: external, weak external and hidden external. -/
def Csect (c : Nat) : Prop := c = 2 ∨ c = 111 ∨ c = 107

/-- `a` is the csect record `r`: the length (in two halves in a 64-bit file), type and storage mapping class. -/
structure CsectIn (is64 : Bool) (r : List UInt8) (a : CsectAux) : Prop where
  scnlen : a.scnlen = field .big r 0 4 + if is64 then 2 ^ 32 * field .big r 12 4 else 0
  smtyp : a.smtyp = field .big r 10 1
  smclas : a.smclas = field .big r 11 1
  tag : is64 = true → field .big r 17 1 = 251

end Obj.Spec.XcoffS

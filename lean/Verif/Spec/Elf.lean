import Verif.Model.Elf
import Verif.Spec.FileKind

/-! # Vocabulary for the ELF properties: which values a file of a given class can hold -/

namespace Obj.Spec.ElfS
open Obj Obj.Elf

/-- `2^64` or `2^32`: one more than the largest address, offset or size of the class. -/
def wordMax (is64 : Bool) : Nat := if is64 then 2 ^ 64 else 2 ^ 32

/-- The section header can be stored in a file of the class. -/
structure ShdrFits (is64 : Bool) (s : Shdr) : Prop where
  name : s.name < 2 ^ 32
  type : s.type < 2 ^ 32
  flags : s.flags < wordMax is64
  addr : s.addr < wordMax is64
  offset : s.offset < wordMax is64
  size : s.size < wordMax is64
  link : s.link < 2 ^ 32
  info : s.info < 2 ^ 32
  addralign : s.addralign < wordMax is64
  entsize : s.entsize < wordMax is64

/-- The program header can be stored in a file of the class. -/
structure PhdrFits (is64 : Bool) (p : Phdr) : Prop where
  type : p.type < 2 ^ 32
  flags : p.flags < 2 ^ 32
  offset : p.offset < wordMax is64
  vaddr : p.vaddr < wordMax is64
  paddr : p.paddr < wordMax is64
  filesz : p.filesz < wordMax is64
  memsz : p.memsz < wordMax is64
  align : p.align < wordMax is64

/-- The symbol can be stored in a file of the class. -/
structure SymFits (is64 : Bool) (s : Sym) : Prop where
  name : s.name < 2 ^ 32
  info : s.info < 2 ^ 8
  other : s.other < 2 ^ 8
  shndx : s.shndx < 2 ^ 16
  value : s.value < wordMax is64
  size : s.size < wordMax is64

/-- The symbol given to the writer can be stored in a file of the class. -/
structure WSymFits (is64 : Bool) (s : WSym) : Prop where
  name : s.name < 2 ^ 32
  info : s.info < 2 ^ 8
  other : s.other < 2 ^ 8
  shndx : s.shndx < 2 ^ 16
  value : s.value < wordMax is64
  size : s.size < wordMax is64
  sec : ∀ n, s.sec = some n → n < 2 ^ 32

/-- The section a symbol given to the writer belongs to: the explicit section index if it is not 0, else
the section field if it is an ordinary index (1 to 0xfeff). -/
def wsymSection (s : WSym) : Option Nat :=
  match s.sec with
  | some n => if n = 0 then none else some n
  | none => if 0 < s.shndx ∧ s.shndx < 0xff00 then some s.shndx else none

/-- The bytes `d` are what section header `s` describes in the file (and the section occupies file space). -/
def Holds (data : List UInt8) (s : Shdr) (d : List UInt8) : Prop :=
  s.type ≠ 8 ∧ s.size = d.length ∧ At data s.offset d

/-- The relocation can be stored in a file of the class: 24-bit symbol and 8-bit type for 32-bit ELF,
32-bit symbol and type for 64-bit ELF; a zero addend without explicit addends. -/
structure RelFits (is64 isRela : Bool) (r : Rel) : Prop where
  offset : r.offset < wordMax is64
  sym : r.sym < if is64 then 2 ^ 32 else 2 ^ 24
  type : r.type < if is64 then 2 ^ 32 else 2 ^ 8
  addend : if isRela then -(wordMax is64 / 2 : Nat) ≤ r.addend ∧ r.addend < (wordMax is64 / 2 : Nat) else r.addend = 0

/-- The header fields and table positions can be stored in a file of the class. -/
structure HeaderFits (is64 : Bool) (h : WEhdr) (l : Layout) : Prop where
  type : h.type < 2 ^ 16
  machine : h.machine < 2 ^ 16
  entry : h.entry < wordMax is64
  flags : h.flags < 2 ^ 32
  phoff : l.phoff < wordMax is64
  shoff : l.shoff < wordMax is64
  segmentNum : l.segmentNum < 2 ^ 32
  sectionNum : l.sectionNum < 2 ^ 32
  shstrtabIndex : l.shstrtabIndex < 2 ^ 32

end Obj.Spec.ElfS

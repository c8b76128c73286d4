import Verif.Model.DyldImage
import Verif.Spec.MachoFile
import Verif.Spec.DyldCache

/-!
# What an image of a dyld shared cache is

The image's header is where its address is mapped.  The load commands follow it.  The address of each segment says which file of the
cache the segment is in, and the file offsets in the segment, its sections and the symbol table are offsets in that file.
-/

namespace Obj.Spec.DyldI
open Obj Obj.Dyld Obj.MachoR Obj.Spec.Dyld Obj.Spec.MachoF
open Obj.DyldI (Image)

/-- The address is mapped from the file with index `i`, at the offset `o`: this is the first file that has it. -/
def Located (c : Dyld.Cache) (a i o : Nat) : Prop :=
  ∃ f, c.files[i]? = some f ∧ FoundIn f.mappings a o ∧ ∀ (i' : Nat) f', i' < i → c.files[i']? = some f' → ¬ ∃ o', FoundIn f'.mappings a o'

/-- `data` is what the file with index `i` contains. -/
def Contents (c : Dyld.Cache) (i : Nat) (data : List UInt8) : Prop := ∃ f, c.files[i]? = some f ∧ f.data = data

/-- A segment of an image with its sections, and the file that has their data. -/
structure Part where
  seg : Seg
  file : Nat
  sections : List SecInt

/-- What a segment command says. -/
structure PartOf (c : Dyld.Cache) (cfg : Cfg) (filetype : Nat) (b : List UInt8) (p : Part) : Prop where
  seg : p.seg = segmentIn cfg b
  located : ∃ o, Located c p.seg.vmaddr p.file o
  sections : SectionsOf cfg filetype b p.sections

/-- The segment that has the symbols. -/
def IsLinkedit (p : Part) : Prop := HasName p.seg.segname (ascii "__LINKEDIT")

/-- The image at the address `a` of the cache is the Mach-O file `f`. -/
structure ImageAt (c : Dyld.Cache) (a : Nat) (is64 : Bool) (f : Image) : Prop where
  place : Located c a f.file f.headerOffset
  width : f.cfg.is64 = is64
  body : ∃ data, Contents c f.file data ∧
    f.headerOffset + headerSize is64 ≤ data.length ∧
    /- `MH_MAGIC` or `MH_MAGIC_64`, in the byte order of the file. -/
    num f.cfg.en data f.headerOffset 4 = (if is64 then 0xfeedfacf else 0xfeedface) ∧
    f.header = headerIn f.cfg.en (data.drop f.headerOffset) ∧
    ∃ cmds parts, CommandsOf f.cfg f.header (data.drop f.headerOffset) cmds ∧
      Each (PartOf c f.cfg f.header.filetype) (cmds.filter fun b => IsSegment f.cfg b) parts ∧
      f.segments = parts.map (fun p => (p.seg, p.file)) ∧
      f.sections = parts.flatMap (fun p => p.sections.map fun s => (s, p.file)) ∧
      ((∃ p, LastOf IsLinkedit parts p ∧ f.linkedit = some p.file) ∨ ((∀ p ∈ parts, ¬ IsLinkedit p) ∧ f.linkedit = none)) ∧
      (∀ b ∈ cmds, IsSymtab f.cfg.en b → 24 ≤ b.length) ∧
      ((∃ b i d, LastOf (IsSymtab f.cfg.en) cmds b ∧ f.linkedit = some i ∧ Contents c i d ∧ SymbolsOf f.cfg d b f.symbols) ∨
        (((∀ b ∈ cmds, ¬ IsSymtab f.cfg.en b) ∨ f.linkedit = none) ∧ f.symbols = ⟨[], none⟩))

end Obj.Spec.DyldI

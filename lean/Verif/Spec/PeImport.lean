import Verif.Model.PeImport
import Verif.Spec.Pe

/-! # PE imports -/

namespace Obj.Spec.Pe
open Obj Obj.Pe

/-- `data` starts with the records `xs` of `size` bytes, none of which is null, followed by a null record (`done`) or by less than a
record (`err`). -/
inductive NullTerm {α : Type} (size : Nat) (parse : List UInt8 → α) (isNull : α → Prop) : List UInt8 → List α → End → Prop where
  | null {i tl : List UInt8} : i.length = size → isNull (parse i) → NullTerm size parse isNull (i ++ tl) [] .done
  | missing {d : List UInt8} : d.length < size → NullTerm size parse isNull d [] .err
  | item {i tl : List UInt8} {xs : List α} {e : End} : i.length = size → ¬ isNull (parse i) → NullTerm size parse isNull tl xs e →
      NullTerm size parse isNull (i ++ tl) (parse i :: xs) e

/-- The 32-bit number at offset `o`. -/
def u32At (i : List UInt8) (o : Nat) : Nat := rd .little (slice i o 4)

/-- Import descriptors end with one whose bytes are all zero. -/
def ImportDescs : List UInt8 → List ImportDesc → End → Prop :=
  NullTerm 20 (fun i => ⟨u32At i 0, u32At i 4, u32At i 8, u32At i 12, u32At i 16⟩) fun d => d = ⟨0, 0, 0, 0, 0⟩

/-- Delay-load descriptors end with one whose bytes are all zero. -/
def DelayDescs : List UInt8 → List DelayDesc → End → Prop :=
  NullTerm 32 (fun i => ⟨u32At i 0, u32At i 4, u32At i 8, u32At i 12, u32At i 16, u32At i 20, u32At i 24, u32At i 28⟩)
    fun d => d = ⟨0, 0, 0, 0, 0, 0, 0, 0⟩

/-- Thunks are numbers of `w` bytes; a thunk with low 31 bits zero ends the list. -/
def Thunks (w : Nat) : List UInt8 → List Nat → End → Prop := NullTerm w (rd .little) fun v => v % 2 ^ 31 = 0

/-- At the address `a` there is a 16-bit hint and a non-empty NUL-terminated name. -/
def HintNameAt (data : List UInt8) (va a hint : Nat) (name : List UInt8) : Prop :=
  ∃ off, Rva va a off ∧ off + 2 ≤ data.length ∧ hint = rd .little (slice data off 2) ∧ CStrAt data (off + 2) name ∧ name ≠ []

/-- What the thunk `v` imports: the highest bit selects an import by ordinal (the low 16 bits), otherwise the low 31 bits are the
address of a hint and name. -/
inductive ImportOf (w : Nat) (data : List UInt8) (va v : Nat) : Import → Prop where
  | ordinal : 2 ^ (8 * w - 1) ≤ v → ImportOf w data va v (.ordinal (v % 2 ^ 16))
  | name {hint : Nat} {n : List UInt8} : v < 2 ^ (8 * w - 1) → HintNameAt data va (v % 2 ^ 31) hint n →
      ImportOf w data va v (.name hint n)

/-- The import in the unified API. -/
def unified (library : List UInt8) (delay : Bool) : Import → GImport
  | .ordinal o => ⟨library, .ordinal o, delay⟩
  | .name _ n => ⟨library, .name n, delay⟩

/-- The result for the thunk `v`. -/
def ThunkItem (w : Nat) (data : List UInt8) (va : Nat) (library : List UInt8) (delay : Bool) (v : Nat) (r : Res GImport) : Prop :=
  r ≠ .panic ∧ ∀ x, r = .ok x ↔ ∃ i, ImportOf w data va v i ∧ x = unified library delay i

/-- The error at the end of an incomplete list. -/
def endErr {α : Type} : End → List (Res α)
  | .done => []
  | _ => [.err]

/-- Where the strings and the tables are: data and address. -/
structure Where where
  nameData : List UInt8
  nameVa : Nat
  data : List UInt8
  va : Nat

/-- The results for one library with its name at the address `name` and its thunks at `thunks`. -/
inductive LibImports (w : Nat) (p : Where) (delay : Bool) (name thunks : Nat) : List (Res GImport) → Prop where
  | noName : (∀ n, ¬ NameAt p.nameData p.nameVa name n) → LibImports w p delay name thunks [.err]
  | noThunks {n : List UInt8} : NameAt p.nameData p.nameVa name n → (∀ off, Rva p.va thunks off → p.data.length < off) →
      LibImports w p delay name thunks [.err]
  | thunks {n : List UInt8} {off : Nat} {ts : List Nat} {e : End} {rs : List (Res GImport)} :
      NameAt p.nameData p.nameVa name n → Rva p.va thunks off → off ≤ p.data.length → Thunks w (p.data.drop off) ts e →
      rs.length = ts.length →
      (∀ (j : Nat) v r, ts[j]? = some v → rs[j]? = some r → ThunkItem w p.nameData p.nameVa n delay v r) →
      LibImports w p delay name thunks (rs ++ endErr e)

/-- The results for a list of items `ds` that ended with `e`: each item has its results, in order. -/
def Each {α β : Type} (P : α → List (Res β) → Prop) (ds : List α) (e : End) (rs : List (Res β)) : Prop :=
  ∃ rss : List (List (Res β)), rss.length = ds.length ∧ (∀ (j : Nat) d r, ds[j]? = some d → rss[j]? = some r → P d r) ∧
    rs = rss.flatten ++ endErr e

/-- Where an import table looks. -/
def ImportTable.where (t : ImportTable) : Where := ⟨t.nameData, t.nameAddress, t.sectionData, t.sectionAddress⟩

/-- Where a delay-load import table looks. -/
def DelayTable.where (t : DelayTable) : Where := ⟨t.sectionData, t.sectionAddress, t.sectionData, t.sectionAddress⟩

/-- The address of the thunks of a descriptor. -/
def thunksOf (d : ImportDesc) : Nat := if d.originalFirstThunk ≠ 0 then d.originalFirstThunk else d.firstThunk

/-- All imports of a table: the imports of each library. -/
def Imports (w : Nat) (t : ImportTable) (rs : List (Res GImport)) : Prop :=
  ∃ off ds e, Rva t.sectionAddress t.importAddress off ∧ off ≤ t.sectionData.length ∧ ImportDescs (t.sectionData.drop off) ds e ∧
    Each (fun d => LibImports w (ImportTable.where t) false d.name (thunksOf d)) ds e rs

/-- The results for a delay-load descriptor; it must use relative addresses. -/
def DelayLib (w : Nat) (t : DelayTable) (d : DelayDesc) (rs : List (Res GImport)) : Prop :=
  if d.attributes % 2 = 0 then rs = [.err] else LibImports w (DelayTable.where t) true d.dllNameRva d.importNameTableRva rs

/-- All delay-load imports of a table. -/
def DelayImports (w : Nat) (t : DelayTable) (rs : List (Res GImport)) : Prop :=
  ∃ off ds e, Rva t.sectionAddress t.importAddress off ∧ off ≤ t.sectionData.length ∧ DelayDescs (t.sectionData.drop off) ds e ∧
    Each (DelayLib w t) ds e rs

/-- A library name. -/
def LibName (data : List UInt8) (va a : Nat) (delay : Bool) (rs : List (Res GLibrary)) : Prop :=
  (∃ n, NameAt data va a n ∧ rs = [.ok ⟨n, delay⟩]) ∨ ((∀ n, ¬ NameAt data va a n) ∧ rs = [.err])

/-- The libraries of a table. -/
def Libraries (t : ImportTable) (rs : List (Res GLibrary)) : Prop :=
  ∃ off ds e, Rva t.sectionAddress t.importAddress off ∧ off ≤ t.sectionData.length ∧ ImportDescs (t.sectionData.drop off) ds e ∧
    Each (fun d => LibName t.nameData t.nameAddress d.name false) ds e rs

/-- The delay-load libraries of a table. -/
def DelayLibraries (t : DelayTable) (rs : List (Res GLibrary)) : Prop :=
  ∃ off ds e, Rva t.sectionAddress t.importAddress off ∧ off ≤ t.sectionData.length ∧ DelayDescs (t.sectionData.drop off) ds e ∧
    Each (fun d rs => if d.attributes % 2 = 0 then rs = [.err] else LibName t.sectionData t.sectionAddress d.dllNameRva true rs) ds e rs

/-- The results of an optional part. -/
def Opt {α β : Type} (P : α → List (Res β) → Prop) : Option α → List (Res β) → Prop
  | none, rs => rs = []
  | some a, rs => P a rs

/-- The file data `d` and the address `va` of the section whose file data contains the address `a`. -/
def DataOf (ss : List Coff.Section) (data : List UInt8) (a : Nat) (d : List UInt8) (va : Nat) : Prop :=
  ∃ s, First (fun s => s.virtualAddress ≤ a ∧ a < s.virtualAddress + min s.virtualSize s.sizeOfRawData ∧
      s.pointerToRawData + min s.virtualSize s.sizeOfRawData ≤ data.length) ss s ∧
    va = s.virtualAddress ∧ d = slice data s.pointerToRawData (min s.virtualSize s.sizeOfRawData)

/-- The first import descriptor of a table. -/
def FirstDesc (t : ImportTable) (d : ImportDesc) : Prop :=
  ∃ off ds e, Rva t.sectionAddress t.importAddress off ∧ ImportDescs (t.sectionData.drop off) (d :: ds) e

/-- The import table for the address `a`: its data is that of the section containing the address.  Names are in the section that
contains the name of the first descriptor, or otherwise in the same section. -/
def ImportTableOf (ss : List Coff.Section) (data : List UInt8) (a : Nat) (t : ImportTable) : Prop :=
  t.importAddress = a ∧ DataOf ss data a t.sectionData t.sectionAddress ∧
  ((∃ d, FirstDesc t d ∧ DataOf ss data d.name t.nameData t.nameAddress) ∨
   ((∀ d nd na, FirstDesc t d → ¬ DataOf ss data d.name nd na) ∧ t.nameData = t.sectionData ∧ t.nameAddress = t.sectionAddress))

/-- The delay-load import table for the address `a`. -/
def DelayTableOf (ss : List Coff.Section) (data : List UInt8) (a : Nat) (t : DelayTable) : Prop :=
  t.importAddress = a ∧ DataOf ss data a t.sectionData t.sectionAddress

/-- An optional table: data directory `i` is present if its address is not zero. -/
def TableIn {α : Type} (dirs : List DataDir) (i : Nat) (P : Nat → α → Prop) : Option α → Prop
  | none => ∀ d, dirs[i]? = some d → d.virtualAddress = 0
  | some t => ∃ d, dirs[i]? = some d ∧ d.virtualAddress ≠ 0 ∧ P d.virtualAddress t

/-- The data directory `i` is present, but its address is not in the file data of a section. -/
def BadDir (dirs : List DataDir) (i : Nat) (ss : List Coff.Section) (data : List UInt8) : Prop :=
  ∃ d, dirs[i]? = some d ∧ d.virtualAddress ≠ 0 ∧ ∀ x va, ¬ DataOf ss data d.virtualAddress x va

end Obj.Spec.Pe

import Verif.Model.MachoFixup
import Verif.Spec.Pe

/-!
# What the chained fixups of a Mach-O file are

From `mach-o/fixup-chains.h`.  The layouts of the pointers are written as sums of their bit fields.
-/

namespace Obj.Spec.Fixup
open Obj Obj.Fixup
open Obj.Spec.Pe (CStrAt)

/-! ## Layouts of the pointers -/

/-- The number of a key. -/
def keyNum : Key → Nat
  | .ia => 0 | .ib => 1 | .da => 2 | .db => 3

/-- A bit. -/
def bit (b : Bool) : Nat := if b then 1 else 0

/-- The authentication bits `diversity : 16, addrDiv : 1, key : 2` from bit 32. -/
def authBits (a : Auth) : Nat := a.diversity * 2 ^ 32 + bit a.addrDiv * 2 ^ 48 + keyNum a.key * 2 ^ 49

/-- The authentication bits fit. -/
def AuthOk (a : Auth) : Prop := a.diversity < 2 ^ 16

/-- A target less the base address, with the top byte. -/
def withTop (target base high8 : Nat) : Nat := (target + 2 ^ 64 - base) % 2 ^ 64 ||| high8 * 2 ^ 56

/-- `dyld_chained_ptr_arm64e_{rebase,bind,auth_rebase,auth_bind}` (and `bind24`, if `ord` is 24): `Arm64e ord base v next f` says
that the value `v` is the fixup `f`, and `next` the distance to the next one in strides.  Bits 62 and 63 are `bind` and `auth`. -/
inductive Arm64e (ord base : Nat) : (v next : Nat) → Fix → Prop where
  | rebase {target high8 next : Nat} : target < 2 ^ 43 → high8 < 2 ^ 8 → next < 2 ^ 11 →
      Arm64e ord base (target + high8 * 2 ^ 43 + next * 2 ^ 51) next (.rebase (withTop target base high8) none)
  | bnd {ordinal zero : Nat} {addend : Int} {next : Nat} : ordinal < 2 ^ ord → zero < 2 ^ (32 - ord) → -2 ^ 18 ≤ addend → addend < 2 ^ 18 →
      next < 2 ^ 11 →
      Arm64e ord base (ordinal + zero * 2 ^ ord + (addend % 2 ^ 19).toNat * 2 ^ 32 + next * 2 ^ 51 + 2 ^ 62) next (.bnd ordinal addend none)
  | authRebase {target next : Nat} {a : Auth} : target < 2 ^ 32 → AuthOk a → next < 2 ^ 11 →
      Arm64e ord base (target + authBits a + next * 2 ^ 51 + 2 ^ 63) next (.rebase target (some a))
  | authBind {ordinal zero next : Nat} {a : Auth} : ordinal < 2 ^ ord → zero < 2 ^ (32 - ord) → AuthOk a → next < 2 ^ 11 →
      Arm64e ord base (ordinal + zero * 2 ^ ord + authBits a + next * 2 ^ 51 + 2 ^ 62 + 2 ^ 63) next (.bnd ordinal 0 (some a))

/-- `dyld_chained_ptr_64_{rebase,bind}`: bit 63 is `bind`. -/
inductive Ptr64 (base : Nat) : (v next : Nat) → Fix → Prop where
  | rebase {target high8 reserved next : Nat} : target < 2 ^ 36 → high8 < 2 ^ 8 → reserved < 2 ^ 7 → next < 2 ^ 12 →
      Ptr64 base (target + high8 * 2 ^ 36 + reserved * 2 ^ 44 + next * 2 ^ 51) next (.rebase (withTop target base high8) none)
  | bnd {ordinal addend reserved next : Nat} : ordinal < 2 ^ 24 → addend < 2 ^ 8 → reserved < 2 ^ 19 → next < 2 ^ 12 →
      Ptr64 base (ordinal + addend * 2 ^ 24 + reserved * 2 ^ 32 + next * 2 ^ 51 + 2 ^ 63) next (.bnd ordinal addend none)

/-- `dyld_chained_ptr_64_kernel_cache_rebase`: bit 63 is `auth`; without it the authentication bits are ignored. -/
inductive KernelCache : (v next : Nat) → Fix → Prop where
  | plain {target level next : Nat} {a : Auth} : target < 2 ^ 30 → level < 2 ^ 2 → AuthOk a → next < 2 ^ 12 →
      KernelCache (target + level * 2 ^ 30 + authBits a + next * 2 ^ 51) next (.kernelCache target level none)
  | auth {target level next : Nat} {a : Auth} : target < 2 ^ 30 → level < 2 ^ 2 → AuthOk a → next < 2 ^ 12 →
      KernelCache (target + level * 2 ^ 30 + authBits a + next * 2 ^ 51 + 2 ^ 63) next (.kernelCache target level (some a))

/-- `dyld_chained_ptr_32_{rebase,bind}`: bit 31 is `bind`. -/
inductive Ptr32 (base : Nat) : (v next : Nat) → Fix → Prop where
  | rebase {target next : Nat} : target < 2 ^ 26 → next < 2 ^ 5 →
      Ptr32 base (target + next * 2 ^ 26) next (.rebase ((target + 2 ^ 64 - base) % 2 ^ 64) none)
  | bnd {ordinal addend next : Nat} : ordinal < 2 ^ 20 → addend < 2 ^ 6 → next < 2 ^ 5 →
      Ptr32 base (ordinal + addend * 2 ^ 20 + next * 2 ^ 26 + 2 ^ 31) next (.bnd ordinal addend none)

/-- `dyld_chained_ptr_32_cache_rebase`. -/
inductive Cache32 : (v next : Nat) → Fix → Prop where
  | rebase {target next : Nat} : target < 2 ^ 30 → next < 2 ^ 2 → Cache32 (target + next * 2 ^ 30) next (.rebase target none)

/-- `dyld_chained_ptr_32_firmware_rebase`. -/
inductive Firmware32 : (v next : Nat) → Fix → Prop where
  | rebase {target next : Nat} : target < 2 ^ 26 → next < 2 ^ 6 → Firmware32 (target + next * 2 ^ 26) next (.rebase target none)

/-- `dyld_chained_ptr_arm64e_segmented_rebase` and `dyld_chained_ptr_arm64e_auth_segmented_rebase`. -/
inductive Segmented : (v next : Nat) → Fix → Prop where
  | plain {off idx next : Nat} {a : Auth} : off < 2 ^ 28 → idx < 2 ^ 4 → AuthOk a → next < 2 ^ 12 →
      Segmented (off + idx * 2 ^ 28 + authBits a + next * 2 ^ 51) next (.segmented idx off none)
  | auth {off idx next : Nat} {a : Auth} : off < 2 ^ 28 → idx < 2 ^ 4 → AuthOk a → next < 2 ^ 12 →
      Segmented (off + idx * 2 ^ 28 + authBits a + next * 2 ^ 51 + 2 ^ 63) next (.segmented idx off (some a))

/-- `dyld_chained_ptr_arm64e_shared_cache_rebase` and `dyld_chained_ptr_arm64e_shared_cache_auth_rebase`. -/
inductive SharedCache : (v next : Nat) → Fix → Prop where
  | plain {off high8 unused next : Nat} : off < 2 ^ 34 → high8 < 2 ^ 8 → unused < 2 ^ 10 → next < 2 ^ 11 →
      SharedCache (off + high8 * 2 ^ 34 + unused * 2 ^ 42 + next * 2 ^ 52) next (.rebase (off + high8 * 2 ^ 56) none)
  | auth {off diversity next : Nat} {addrDiv isData : Bool} : off < 2 ^ 34 → diversity < 2 ^ 16 → next < 2 ^ 11 →
      SharedCache (off + diversity * 2 ^ 34 + bit addrDiv * 2 ^ 50 + bit isData * 2 ^ 51 + next * 2 ^ 52 + 2 ^ 63) next
        (.rebase off (some ⟨if isData then .da else .ia, diversity, addrDiv⟩))

/-- `Decodes format base v next f`: in the pointer format `format`, the value `v` is the fixup `f`, and `next` is the distance in bytes
to the next pointer of the chain (0 for the last).  `base` is the preferred load address. -/
inductive Decodes (base : Nat) : (format v next : Nat) → Fix → Prop where
  | arm64e {v n : Nat} {f : Fix} : Arm64e 16 base v n f → Decodes base 1 v (n * 8) f
  | arm64eKernel {v n : Nat} {f : Fix} : Arm64e 16 0 v n f → Decodes base 7 v (n * 4) f
  | arm64eUserland {v n : Nat} {f : Fix} : Arm64e 16 0 v n f → Decodes base 9 v (n * 8) f
  | arm64eFirmware {v n : Nat} {f : Fix} : Arm64e 16 base v n f → Decodes base 10 v (n * 4) f
  | arm64eUserland24 {v n : Nat} {f : Fix} : Arm64e 24 0 v n f → Decodes base 12 v (n * 8) f
  | ptr64 {v n : Nat} {f : Fix} : Ptr64 base v n f → Decodes base 2 v (n * 4) f
  | ptr64Offset {v n : Nat} {f : Fix} : Ptr64 0 v n f → Decodes base 6 v (n * 4) f
  | kernelCache {v n : Nat} {f : Fix} : KernelCache v n f → Decodes base 8 v (n * 4) f
  | x86KernelCache {v n : Nat} {f : Fix} : KernelCache v n f → Decodes base 11 v n f
  | ptr32 {v n : Nat} {f : Fix} : Ptr32 base v n f → Decodes base 3 v (n * 4) f
  | cache32 {v n : Nat} {f : Fix} : Cache32 v n f → Decodes base 4 v (n * 4) f
  | firmware32 {v n : Nat} {f : Fix} : Firmware32 v n f → Decodes base 5 v (n * 4) f
  | sharedCache {v n : Nat} {f : Fix} : SharedCache v n f → Decodes base 13 v (n * 8) f
  | segmented {v n : Nat} {f : Fix} : Segmented v n f → Decodes base 14 v (n * 4) f

/-- The size of the pointers of a format. -/
def ptrSize (format : Nat) : Nat := if format = 3 ∨ format = 4 ∨ format = 5 then 4 else 8

/-! ## The chains -/

/-- There is a pointer at an offset of the segment, which is the fixup `f` with distance `next`. -/
def PtrAt (c : Ctx) (offset next : Nat) (f : Fix) : Prop :=
  offset + ptrSize c.format ≤ c.seg.length ∧ Decodes c.vmaddr c.format (field c.en c.seg offset (ptrSize c.format)) next f

/-- The fixups of a chain that starts at an offset, and whether it ends properly. -/
inductive Chain (c : Ctx) : Nat → List (Nat × Fix) → Bool → Prop where
  | last {o : Nat} {f : Fix} : PtrAt c o 0 f → Chain c o [(o, f)] true
  | step {o next : Nat} {f : Fix} {xs : List (Nat × Fix)} {good : Bool} : PtrAt c o next f → next ≠ 0 → Chain c (o + next) xs good →
      Chain c o ((o, f) :: xs) good
  | bad {o : Nat} : (¬ ∃ next f, PtrAt c o next f) → Chain c o [] false

/-- The fixups of the chains whose starts are listed from index `i` on; the top bit of a start marks the last. -/
inductive Chains (c : Ctx) (pageOffset : Nat) : Nat → List (Nat × Fix) → Bool → Prop where
  | last {i x : Nat} {xs : List (Nat × Fix)} {good : Bool} : c.starts[i]? = some (0x8000 + x) → Chain c (pageOffset + x) xs good →
      Chains c pageOffset i xs good
  | more {i x : Nat} {xs ys : List (Nat × Fix)} {good : Bool} : c.starts[i]? = some x → x < 0x8000 → Chain c (pageOffset + x) xs true →
      Chains c pageOffset (i + 1) ys good → Chains c pageOffset i (xs ++ ys) good
  | broken {i x : Nat} {xs : List (Nat × Fix)} : c.starts[i]? = some x → x < 0x8000 → Chain c (pageOffset + x) xs false →
      Chains c pageOffset i xs false
  | missing {i : Nat} : c.starts.length ≤ i → Chains c pageOffset i [] false

/-- The fixups of a page. -/
inductive Page (c : Ctx) (p : Nat) : List (Nat × Fix) → Bool → Prop where
  | none : c.starts[p]? = some 0xffff → Page c p [] true
  | single {x : Nat} {xs : List (Nat × Fix)} {good : Bool} : c.starts[p]? = some x → x < 0x8000 → Chain c (p * c.pageSize + x) xs good →
      Page c p xs good
  | multi {i : Nat} {xs : List (Nat × Fix)} {good : Bool} : c.starts[p]? = some (0x8000 + i) → i ≠ 0x7fff →
      Chains c (p * c.pageSize) i xs good → Page c p xs good
  | missing : c.starts.length ≤ p → Page c p [] false

/-- The fixups of the pages from `p` on, up to the first error. -/
inductive Pages (c : Ctx) : Nat → List (Nat × Fix) → Bool → Prop where
  | done {p : Nat} : c.pageCount ≤ p → Pages c p [] true
  | page {p : Nat} {xs ys : List (Nat × Fix)} {good : Bool} : p < c.pageCount → Page c p xs true → Pages c (p + 1) ys good →
      Pages c p (xs ++ ys) good
  | broken {p : Nat} {xs : List (Nat × Fix)} : p < c.pageCount → Page c p xs false → Pages c p xs false

/-! ## The header, the imports and the segments -/

/-- The chained fixups header at the start of the data. -/
structure HeaderIn (en : Endianness) (data : List UInt8) (h : Header) : Prop where
  inside : 28 ≤ data.length
  version : field en data 0 4 = 0
  starts : h.startsOffset = field en data 4 4
  imports : h.importsOffset = field en data 8 4
  symbols : h.symbolsOffset = field en data 12 4
  count : h.importsCount = field en data 16 4
  format : h.importsFormat = field en data 20 4
  symbolsFormat : h.symbolsFormat = field en data 24 4

/-- A library ordinal of `bits` bits; the top fifteen values are the negative special libraries. -/
def Dylib (bits v : Nat) (d : Int) : Prop := v < 2 ^ bits ∧ if v + 15 < 2 ^ bits then d = v else d = (v : Int) - 2 ^ bits

/-- An entry of the imports table at an offset. -/
inductive EntryAt (en : Endianness) (table : List UInt8) (o : Nat) : (format : Nat) → (dylib : Int) → (weak : Bool) → (nameOffset : Nat) →
    (addend : Int) → Prop where
  | plain {lib nameOff : Nat} {d : Int} {weak : Bool} : o + 4 ≤ table.length → Dylib 8 lib d →
      field en table o 4 = lib + bit weak * 2 ^ 8 + nameOff * 2 ^ 9 → EntryAt en table o 1 d weak nameOff 0
  | addend {lib nameOff : Nat} {d a : Int} {weak : Bool} : o + 8 ≤ table.length → Dylib 8 lib d →
      field en table o 4 = lib + bit weak * 2 ^ 8 + nameOff * 2 ^ 9 →
      -2 ^ 31 ≤ a → a < 2 ^ 31 → (a % 2 ^ 32).toNat = field en table (o + 4) 4 → EntryAt en table o 2 d weak nameOff a
  | addend64 {lib nameOff reserved : Nat} {d a : Int} {weak : Bool} : o + 16 ≤ table.length → Dylib 16 lib d → reserved < 2 ^ 15 →
      field en table o 8 = lib + bit weak * 2 ^ 16 + reserved * 2 ^ 17 + nameOff * 2 ^ 32 →
      -2 ^ 63 ≤ a → a < 2 ^ 63 → (a % 2 ^ 64).toNat = field en table (o + 8) 8 → EntryAt en table o 3 d weak nameOff a

/-- The size of the entries of an imports format. -/
def entrySize (format : Nat) : Nat := if format = 1 then 4 else if format = 2 then 8 else 16

/-- The import at an index. -/
def ImportAt (en : Endianness) (f : Fixups) (i : Nat) (x : Import) : Prop :=
  ∃ nameOff, EntryAt en f.data (f.header.importsOffset + i * entrySize f.header.importsFormat) f.header.importsFormat x.dylib x.weak nameOff
      x.addend ∧ CStrAt f.data (f.header.symbolsOffset + nameOff) x.name

/-- The results of iterating over the imports from index `i` on: up to the first error. -/
inductive Imports (en : Endianness) (f : Fixups) : Nat → List (Res Import) → Prop where
  | done : Imports en f f.header.importsCount []
  | item {i : Nat} {x : Import} {xs : List (Res Import)} : i < f.header.importsCount → ImportAt en f i x → Imports en f (i + 1) xs →
      Imports en f i (.ok x :: xs)
  | bad {i : Nat} : i < f.header.importsCount → (¬ ∃ x, ImportAt en f i x) → Imports en f i [.err]

/-- The chain starts of a segment at an offset of the data. -/
structure SegIn (en : Endianness) (data : List UInt8) (o : Nat) (s : Seg) : Prop where
  inside : o + 22 ≤ data.length
  header : s.header = ⟨field en data o 4, field en data (o + 4) 2, field en data (o + 6) 2, field en data (o + 8) 8,
    field en data (o + 16) 4, field en data (o + 20) 2⟩
  size : 22 ≤ s.header.size
  startsInside : o + 22 + 2 * ((s.header.size - 22) / 2) ≤ data.length
  starts : s.starts = (List.range ((s.header.size - 22) / 2)).map fun i => field en data (o + 22 + 2 * i) 2

/-- What the offset `x` of the segment with index `i` contributes, relative to `base`: nothing if it is 0. -/
inductive SegOut (en : Endianness) (data : List UInt8) (base i : Nat) : Nat → Option (Res Seg) → Prop where
  | none : SegOut en data base i 0 none
  | item {x : Nat} {s : Seg} : x ≠ 0 → SegIn en data (base + x) s → s.index = i → SegOut en data base i x (some (.ok s))
  | bad {x : Nat} : x ≠ 0 → (¬ ∃ s, SegIn en data (base + x) s) → SegOut en data base i x (some .err)

end Obj.Spec.Fixup

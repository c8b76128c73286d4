import Verif.Model.DyldCache
import Verif.Spec.MachoFixup
import Verif.Spec.Archive

/-!
# What the dyld shared cache is

From `dyld_cache_format.h`.  Numbers and tables are given by their positions in the file.
-/

namespace Obj.Spec.Dyld
open Obj Obj.Dyld
open Obj.Fixup (Key Auth)
open Obj.Spec.Fixup (bit authBits AuthOk)
open Obj.Spec.Pe (CStrAt)

/-! ## The header and its tables (C92) -/

/-- The magic strings: 15 characters and a NUL. -/
def magics : List (String × Obj.Arch × Endianness) :=
  [("dyld_v1    i386", .i386, .little), ("dyld_v1  x86_64", .x86_64, .little), ("dyld_v1 x86_64h", .x86_64, .little),
   ("dyld_v1     ppc", .powerPc, .big), ("dyld_v1   armv6", .arm, .little), ("dyld_v1   armv7", .arm, .little),
   ("dyld_v1  armv7f", .arm, .little), ("dyld_v1  armv7s", .arm, .little), ("dyld_v1  armv7k", .arm, .little),
   ("dyld_v1   arm64", .aarch64, .little), ("dyld_v1  arm64e", .aarch64, .little)]

/-- The architecture and the byte order that the start of the file says. -/
def MagicIn (data : List UInt8) (arch : Obj.Arch) (en : Endianness) : Prop :=
  ∃ s, (s, arch, en) ∈ magics ∧ slice data 0 16 = s.toUTF8.toList ++ [0]

/-- A table of `count` entries of `size` bytes is in the file (an empty one is anywhere). -/
def TableIn (data : List UInt8) (off size count : Nat) : Prop := count = 0 ∨ off + size * count ≤ data.length

/-- The size of the header is the offset of the mappings, which follow it.  It tells which fields there are. -/
def headerSize (en : Endianness) (data : List UInt8) : Nat := field en data 16 4

/-- The mappings: those with slide info, if the header has them, otherwise those without. -/
def MappingsIn (en : Endianness) (data : List UInt8) (l : List Mapping) : Prop :=
  if 0x140 ≤ headerSize en data then
    let off := field en data 312 4
    let count := field en data 316 4
    TableIn data off 56 count ∧ l.length = count ∧ ∀ i m, l[i]? = some m →
      let o := off + 56 * i
      m = ⟨field en data o 8, field en data (o + 8) 8, field en data (o + 16) 8, field en data (o + 48) 4, field en data (o + 52) 4,
        some (field en data (o + 24) 8, field en data (o + 32) 8)⟩
  else
    let off := field en data 16 4
    let count := field en data 20 4
    TableIn data off 32 count ∧ l.length = count ∧ ∀ i m, l[i]? = some m →
      let o := off + 32 * i
      m = ⟨field en data o 8, field en data (o + 8) 8, field en data (o + 16) 8, field en data (o + 24) 4, field en data (o + 28) 4, none⟩

/-- The images; newer headers have other fields for them. -/
def ImagesIn (en : Endianness) (data : List UInt8) (l : List ImageInfo) : Prop :=
  let off := if 0x1c8 ≤ headerSize en data then field en data 448 4 else field en data 24 4
  let count := if 0x1c8 ≤ headerSize en data then field en data 452 4 else field en data 28 4
  TableIn data off 32 count ∧ l.length = count ∧ ∀ i x, l[i]? = some x →
    let o := off + 32 * i
    x = ⟨field en data o 8, field en data (o + 8) 8, field en data (o + 16) 8, field en data (o + 24) 4, field en data (o + 28) 4⟩

/-- The size of a subcache entry: version 2 has a suffix of 32 bytes. -/
def entrySize (en : Endianness) (data : List UInt8) : Nat := if 0x1d0 ≤ headerSize en data then 56 else 24

/-- The UUIDs of the subcaches; old headers have none. -/
def UuidsIn (en : Endianness) (data : List UInt8) (l : List (List UInt8)) : Prop :=
  if 0x1c8 ≤ headerSize en data then
    TableIn data (field en data 392 4) (entrySize en data) (field en data 396 4) ∧ l.length = field en data 396 4 ∧
      ∀ i u, l[i]? = some u → u = slice data (field en data 392 4 + entrySize en data * i) 16
  else l = []

/-- The UUID of the file with the symbols: none in old headers, or if it is zero. -/
def symbolsUuid (en : Endianness) (data : List UInt8) : List (List UInt8) :=
  if 0x1c8 ≤ headerSize en data ∧ ∃ b ∈ slice data 400 16, b ≠ 0 then [slice data 400 16] else []

/-- A subcache file with the UUID that is expected.  The byte order is that of the main file. -/
structure SubIn (en : Endianness) (uuid d : List UInt8) (f : DyldFile) : Prop where
  size : 552 ≤ d.length
  uuid : slice d 88 16 = uuid
  data : f.data = d
  mappings : MappingsIn en d f.mappings

/-- The main file and the subcaches are the cache `c`.  The file with the symbols is the last; it is only checked. -/
structure CacheIn (data : List UInt8) (subs : List (List UInt8)) (c : Cache) : Prop where
  size : 552 ≤ data.length
  magic : MagicIn data c.arch c.en
  main : c.data = data
  images : ImagesIn c.en data c.images
  files : ∃ maps fs uuids, c.files = ⟨data, maps⟩ :: fs ∧ MappingsIn c.en data maps ∧ UuidsIn c.en data uuids ∧
    fs.length = uuids.length ∧ subs.length = (uuids ++ symbolsUuid c.en data).length ∧
    ∀ i d u, subs[i]? = some d → (uuids ++ symbolsUuid c.en data)[i]? = some u →
      ∃ f, SubIn c.en u d f ∧ (i < uuids.length → fs[i]? = some f)

/-- The suffix of the subcache at an index: a number from 1, or (version 2) the string in its entry, which ends at the first NUL or with the
32 bytes. -/
def SuffixIn (en : Endianness) (data : List UInt8) (i : Nat) (s : List UInt8) : Prop :=
  if 0x1d0 ≤ headerSize en data then
    ∃ rest, slice data (field en data 392 4 + 56 * i + 24) 32 = s ++ rest ∧ (0 : UInt8) ∉ s ∧ (rest = [] ∨ rest.head? = some 0)
  else s = ".".toUTF8.toList ++ ArchiveS.decimal (i + 1)

/-- The suffixes of the subcaches, and that of the file with the symbols. -/
structure SuffixesIn (data : List UInt8) (l : List (List UInt8)) : Prop where
  size : 552 ≤ data.length
  suffixes : ∃ (arch : Obj.Arch) (en : Endianness) (uuids : List (List UInt8)), MagicIn data arch en ∧ UuidsIn en data uuids ∧ l.length = (uuids ++ symbolsUuid en data).length ∧
    ∀ i s, l[i]? = some s → if i < uuids.length then SuffixIn en data i s else s = ".symbols".toUTF8.toList

/-! ## Addresses -/

/-- The mapping contains the address. -/
def Contains (m : Mapping) (a : Nat) : Prop := m.address ≤ a ∧ a < m.address + m.size

/-- The first mapping of a file that contains the address says that it is at the file offset `o` (a 64-bit number). -/
def FoundIn (maps : List Mapping) (a o : Nat) : Prop :=
  ∃ (j : Nat) (m : Mapping), maps[j]? = some m ∧ Contains m a ∧ (∀ (j' : Nat) m', j' < j → maps[j']? = some m' → ¬ Contains m' a) ∧
    o = m.fileOffset + (a - m.address) ∧ o < 2 ^ 64

/-! ## Slide information (C93) -/

/-- The 16-bit numbers in a table. -/
def U16sIn (en : Endianness) (data : List UInt8) (off count : Nat) (l : List Nat) : Prop :=
  off < 2 ^ 64 ∧ TableIn data off 2 count ∧ l = (List.range count).map fun i => field en data (off + 2 * i) 2

/-- The slide info of a mapping. -/
inductive SlideIn (en : Endianness) (data : List UInt8) : Option (Nat × Nat) → Slide → Prop where
  | old : SlideIn en data none .none
  | empty {o : Nat} : SlideIn en data (some (o, 0)) .none
  | v2 {o size : Nat} {starts extras : List Nat} : size ≠ 0 → o + 40 ≤ data.length → field en data o 4 = 2 →
      U16sIn en data (o + field en data (o + 8) 4) (field en data (o + 12) 4) starts →
      U16sIn en data (o + field en data (o + 16) 4) (field en data (o + 20) 4) extras →
      SlideIn en data (some (o, size)) (.v2 (field en data (o + 4) 4) (field en data (o + 24) 8) (field en data (o + 32) 8) starts extras)
  | v3 {o size : Nat} {starts : List Nat} : size ≠ 0 → o + 24 ≤ data.length → field en data o 4 = 3 →
      U16sIn en data (o + 24) (field en data (o + 8) 4) starts →
      SlideIn en data (some (o, size)) (.v3 (field en data (o + 4) 4) (field en data (o + 16) 8) starts)
  | v5 {o size : Nat} {starts : List Nat} : size ≠ 0 → o + 24 ≤ data.length → field en data o 4 = 5 →
      U16sIn en data (o + 24) (field en data (o + 8) 4) starts →
      SlideIn en data (some (o, size)) (.v5 (field en data (o + 4) 4) (field en data (o + 16) 8) starts)

/-! ### Pointers -/

/-- `dyld_cache_slide_pointer3`: the value `v` is a pointer with the given distance to the next one (in units of 8 bytes), value and
authentication.  Bit 62 is not used. -/
inductive Ptr3 (add : Nat) : (v next value : Nat) → Option Auth → Prop where
  | plain {target high8 next unused : Nat} : target < 2 ^ 43 → high8 < 2 ^ 8 → next < 2 ^ 11 → unused < 2 →
      Ptr3 add (target + high8 * 2 ^ 43 + next * 2 ^ 51 + unused * 2 ^ 62) next (target + high8 * 2 ^ 56) none
  | auth {off next unused : Nat} {a : Auth} : off < 2 ^ 32 → AuthOk a → next < 2 ^ 11 → unused < 2 →
      Ptr3 add (off + authBits a + next * 2 ^ 51 + unused * 2 ^ 62 + 2 ^ 63) next ((off + add) % 2 ^ 64) (some a)

/-- `dyld_cache_slide_pointer5`.  The bits 42 to 51 of a plain pointer are not used. -/
inductive Ptr5 (add : Nat) : (v next value : Nat) → Option Auth → Prop where
  | plain {off high8 unused next : Nat} : off < 2 ^ 34 → high8 < 2 ^ 8 → unused < 2 ^ 10 → next < 2 ^ 11 →
      Ptr5 add (off + high8 * 2 ^ 34 + unused * 2 ^ 42 + next * 2 ^ 52) next ((off + add) % 2 ^ 64 ||| high8 * 2 ^ 56) none
  | auth {off diversity next : Nat} {addrDiv isData : Bool} : off < 2 ^ 34 → diversity < 2 ^ 16 → next < 2 ^ 11 →
      Ptr5 add (off + diversity * 2 ^ 34 + bit addrDiv * 2 ^ 50 + bit isData * 2 ^ 51 + next * 2 ^ 52 + 2 ^ 63) next ((off + add) % 2 ^ 64)
        (some ⟨if isData then .da else .ia, diversity, addrDiv⟩)

/-- Version 2: the bits of the mask are the distance to the next pointer (in units of 4 bytes), where `k` is the lowest bit of the mask; the
other bits are the value. -/
def Ptr2 (mask v next raw : Nat) : Prop :=
  ∃ k, mask % 2 ^ (k + 1) = 2 ^ k ∧ next * 2 ^ k = v &&& mask ∧ raw + (v &&& mask) = v

/-! ### Chains -/

/-- `P o n r`: there is a pointer at the offset `o`, the next one is `n` bytes further (0 for the last), and `r` is the relocation, if it is
one.  `Chain P o xs good`: the chain from `o` on has the relocations `xs`, and ends properly. -/
inductive Chain (P : Nat → Nat → Option Reloc → Prop) : Nat → List Reloc → Bool → Prop where
  | last {o : Nat} {r : Option Reloc} : P o 0 r → Chain P o r.toList true
  | step {o n : Nat} {r : Option Reloc} {xs : List Reloc} {good : Bool} : P o n r → n ≠ 0 → o + n < 2 ^ 64 → Chain P (o + n) xs good →
      Chain P o (r.toList ++ xs) good
  | bad {o : Nat} : (¬ ∃ n r, P o n r ∧ o + n < 2 ^ 64) → Chain P o [] false

/-- How the relocations end: properly, before the last page (the table of extra starts is too short), or with an error. -/
inductive Ending where
  | done | cut | bad
  deriving DecidableEq

/-- A pointer of version 3 or 5 at an offset in the mapping. -/
def At3 (c : Ctx3) (o n : Nat) (r : Option Reloc) : Prop :=
  c.fileOffset + o + 8 ≤ c.data.length ∧ ∃ next value auth, n = 8 * next ∧ r = some ⟨o, value, auth⟩ ∧
    if c.v5 then Ptr5 c.valueAdd (field c.en c.data (c.fileOffset + o) 8) next value auth
    else Ptr3 c.valueAdd (field c.en c.data (c.fileOffset + o) 8) next value auth

/-- The relocations of the pages from `p` on (versions 3 and 5). -/
inductive Pages3 (c : Ctx3) : Nat → List Reloc → Ending → Prop where
  | done {p : Nat} : c.starts.length ≤ p → Pages3 c p [] .done
  | skip {p : Nat} {xs : List Reloc} {e : Ending} : c.starts[p]? = some 0xffff → Pages3 c (p + 1) xs e → Pages3 c p xs e
  | page {p x : Nat} {xs ys : List Reloc} {e : Ending} : c.starts[p]? = some x → x ≠ 0xffff → Chain (At3 c) (p * c.pageSize + x) xs true →
      Pages3 c (p + 1) ys e → Pages3 c p (xs ++ ys) e
  | broken {p x : Nat} {xs : List Reloc} : c.starts[p]? = some x → x ≠ 0xffff → Chain (At3 c) (p * c.pageSize + x) xs false → Pages3 c p xs .bad

/-- A pointer of version 2 at an offset in the page at `pageOffset` in the mapping.  Pointers without a value are no relocations.  The offset
of the relocation is the one in the page (the documentation says: in the mapping). -/
def At2 (c : Ctx2) (pageOffset o n : Nat) (r : Option Reloc) : Prop :=
  c.fileOffset + pageOffset + o + 8 ≤ c.data.length ∧ ∃ next raw, n = 4 * next ∧
    Ptr2 c.deltaMask (field c.en c.data (c.fileOffset + pageOffset + o) 8) next raw ∧
    r = if raw = 0 then none else some ⟨o, (raw + c.valueAdd) % 2 ^ 64, none⟩

/-- The relocations of the extra starts from `i` on; bit 15 marks the last one, bit 14 is ignored, and the other bits are the offset in units of
4 bytes. -/
inductive Extras2 (c : Ctx2) (pageOffset : Nat) : Nat → List Reloc → Ending → Prop where
  | last {i x : Nat} {xs : List Reloc} : c.extras[i]? = some x → 0x8000 ≤ x → Chain (At2 c pageOffset) (4 * (x % 0x4000)) xs true →
      Extras2 c pageOffset i xs .done
  | more {i x : Nat} {xs ys : List Reloc} {e : Ending} : c.extras[i]? = some x → x < 0x8000 →
      Chain (At2 c pageOffset) (4 * (x % 0x4000)) xs true → Extras2 c pageOffset (i + 1) ys e → Extras2 c pageOffset i (xs ++ ys) e
  | broken {i x : Nat} {xs : List Reloc} : c.extras[i]? = some x → Chain (At2 c pageOffset) (4 * (x % 0x4000)) xs false →
      Extras2 c pageOffset i xs .bad
  | missing {i : Nat} : c.extras.length ≤ i → Extras2 c pageOffset i [] .cut

/-- The relocations of the pages from `p` on (version 2): bit 14 of a start says that there are none, bit 15 that the other bits are an index of
the extra starts; otherwise the start is an offset in units of 4 bytes. -/
inductive Pages2 (c : Ctx2) : Nat → List Reloc → Ending → Prop where
  | done {p : Nat} : c.starts.length ≤ p → Pages2 c p [] .done
  | skip {p x : Nat} {xs : List Reloc} {e : Ending} : c.starts[p]? = some x → x / 0x4000 % 2 = 1 → Pages2 c (p + 1) xs e → Pages2 c p xs e
  | page {p x : Nat} {xs ys : List Reloc} {e : Ending} : c.starts[p]? = some x → x < 0x4000 →
      Chain (At2 c (p * c.pageSize)) (4 * x) xs true → Pages2 c (p + 1) ys e → Pages2 c p (xs ++ ys) e
  | broken {p x : Nat} {xs : List Reloc} : c.starts[p]? = some x → x < 0x4000 → Chain (At2 c (p * c.pageSize)) (4 * x) xs false →
      Pages2 c p xs .bad
  | extras {p i : Nat} {xs ys : List Reloc} {e : Ending} : c.starts[p]? = some (0x8000 + i) → i < 0x4000 →
      Extras2 c (p * c.pageSize) i xs .done → Pages2 c (p + 1) ys e → Pages2 c p (xs ++ ys) e
  | stop {p i : Nat} {xs : List Reloc} {e : Ending} : c.starts[p]? = some (0x8000 + i) → i < 0x4000 → Extras2 c (p * c.pageSize) i xs e →
      e ≠ .done → Pages2 c p xs e

/-- The relocations of a mapping at `fileOffset` with its slide info. -/
def RelocsIn (en : Endianness) (data : List UInt8) (fileOffset : Nat) : Slide → List Reloc → Ending → Prop
  | .none, xs, e => xs = [] ∧ e = .done
  | .v2 pageSize deltaMask valueAdd starts extras, xs, e => Pages2 ⟨data, en, fileOffset, pageSize, deltaMask, valueAdd, starts, extras⟩ 0 xs e
  | .v3 pageSize authValueAdd starts, xs, e => Pages3 ⟨false, data, en, fileOffset, pageSize, authValueAdd, starts⟩ 0 xs e
  | .v5 pageSize valueAdd starts, xs, e => Pages3 ⟨true, data, en, fileOffset, pageSize, valueAdd, starts⟩ 0 xs e

/-- Calling `next` gives the items `xs`, and leads to the state `s'`. -/
inductive Yields {σ α : Type} (next : σ → Res (Option α) × σ) : σ → List α → σ → Prop where
  | nil {s : σ} : Yields next s [] s
  | cons {s s1 s' : σ} {x : α} {xs : List α} : next s = (.ok (some x), s1) → Yields next s1 xs s' → Yields next s (x :: xs) s'

/-- Calling `next` gives the result `r` for ever. -/
def Stays {σ α : Type} (next : σ → Res (Option α) × σ) (s : σ) (r : Res (Option α)) : Prop :=
  ∀ states : Nat → σ, states 0 = s → (∀ n, states (n + 1) = (next (states n)).2) → ∀ n, (next (states n)).1 = r

end Obj.Spec.Dyld

import Verif.Model.ElfVersion

/-!
# Model of `src/read/elf/hash.rs`, the hash functions of `src/elf.rs` and the hash tables of `src/write/elf/encoder.rs`
-/

namespace Obj.Elf

/-! ## Hash functions -/

/-- `elf::hash`, src/elf.rs:3004-3011. -/
def sysvHash (name : List UInt8) : Nat :=
  (name.foldl (fun hash byte =>
    let hash := (hash * 16 + byte.toNat) % U32
    hash ^^^ ((hash >>> 24) &&& 0xf0)) 0) &&& 0xfffffff

/-- `elf::gnu_hash`, src/elf.rs:3038-3044. -/
def gnuHash (name : List UInt8) : Nat := name.foldl (fun hash byte => (hash * 33 + byte.toNat) % U32) 5381

/-! ## Reading a SysV table -/

/-- `HashTable`, src/read/elf/hash.rs:13-16 (decoded words). -/
structure HashTable where
  buckets : List Nat
  chains : List Nat
  deriving DecidableEq, Repr

/-- `HashTable::parse`, src/read/elf/hash.rs:25-37; `HashHeader` is two words. -/
def HashTable.parse (en : Endianness) (data : List UInt8) : Res HashTable := do
  let h ← (ReadRef.read data 0 8).1
  let offset := (ReadRef.read data 0 8).2
  let buckets ← (ReadRef.readSlice data offset 4 (field en h 0 4)).1
  let offset := (ReadRef.readSlice data offset 4 (field en h 0 4)).2
  let chains ← (ReadRef.readSlice data offset 4 (field en h 4 4)).1
  .ok ⟨buckets.map (rd en), chains.map (rd en)⟩

/-- `HashTable::symbol_table_length`, src/read/elf/hash.rs:40-42. -/
def HashTable.symbolTableLength (t : HashTable) : Nat := t.chains.length % U32

/-- The test of a candidate symbol, src/read/elf/hash.rs:76-82: its name can be read and equals `name`, and its version
matches. -/
def nameMatches (data : List UInt8) (name : List UInt8) (version : Option Version) (symbols : SymTab) (versions : VersionTable)
    (index : Nat) (s : Sym) : Bool :=
  (symbols.symbolName data s == .ok name) && versions.matches index version

/-- The loop of `HashTable::find`, src/read/elf/hash.rs:75-86: `fuel` is `self.chains.len() - i`. -/
def HashTable.findLoop (t : HashTable) (data name : List UInt8) (version : Option Version) (symbols : SymTab)
    (versions : VersionTable) : (fuel : Nat) → (index : Nat) → Option (Nat × Sym)
  | 0, _ => none
  | fuel + 1, index =>
    if index = 0 then none
    else
      let next := match t.chains[index]? with
        | none => none
        | some n => t.findLoop data name version symbols versions fuel n
      match symbols.symbol index with
      | .ok s => if nameMatches data name version symbols versions index s then some (index, s) else next
      | _ => next

/-- `HashTable::find`, src/read/elf/hash.rs:61-88 with `bucket` (44-52) and `chain` (54-56); the index
`hash % bucket_count` is in bounds. -/
def HashTable.find (t : HashTable) (data name : List UInt8) (hash : Nat) (version : Option Version) (symbols : SymTab)
    (versions : VersionTable) : Option (Nat × Sym) :=
  if t.buckets.length = 0 then none
  else match t.buckets[hash % t.buckets.length]? with
    | none => none
    | some index => t.findLoop data name version symbols versions t.chains.length index

/-! ## Reading a GNU table -/

/-- `GnuHashTable`, src/read/elf/hash.rs:95-101. -/
structure GnuHashTable where
  symbolBase : Nat
  bloomShift : Nat
  bloom : List UInt8
  buckets : List Nat
  values : List Nat
  deriving DecidableEq, Repr

/-- `GnuHashTable::parse`, src/read/elf/hash.rs:116-142; the header is four words (bucket count, symbol base, bloom
count, bloom shift), src/elf.rs:3016-3026. -/
def GnuHashTable.parse (c : Cfg) (data : List UInt8) : Res GnuHashTable := do
  let h ← (ReadRef.read data 0 16).1
  let offset := (ReadRef.read data 0 16).2
  let bloomLen := field c.en h 8 4 * c.w
  let bloom ← (ReadRef.readBytes data offset bloomLen).1
  let offset := (ReadRef.readBytes data offset bloomLen).2
  let buckets ← (ReadRef.readSlice data offset 4 (field c.en h 0 4)).1
  let offset := (ReadRef.readSlice data offset 4 (field c.en h 0 4)).2
  if data.length < offset then .panic else
  let chainCount := (data.length - offset) / 4
  let values ← (ReadRef.readSlice data offset 4 chainCount).1
  .ok ⟨field c.en h 4 4, field c.en h 12 4, bloom, buckets.map (rd c.en), values.map (rd c.en)⟩

/-- The loop of `GnuHashTable::symbol_table_length`, src/read/elf/hash.rs:165-174. -/
def gnuLength (maxBucket : Nat) : List Nat → (chainLength : Nat) → Option Nat
  | [], _ => none
  | v :: vs, n =>
    if v &&& 1 ≠ 0 then (if maxBucket + (n + 1) < U32 then some (maxBucket + (n + 1)) else none)
    else gnuLength maxBucket vs (n + 1)

/-- `GnuHashTable::symbol_table_length`, src/read/elf/hash.rs:152-177.  `chain_length += 1` could overflow only with
2^32 values in one table, that is 16 GiB of data; this is not modelled. -/
def GnuHashTable.symbolTableLength (t : GnuHashTable) : Option Nat :=
  if t.symbolBase = 0 then none
  else match t.buckets.max? with
    | none => none
    | some maxBucket =>
      if maxBucket < t.symbolBase then none
      else if t.values.length < maxBucket - t.symbolBase then none
      else gnuLength maxBucket (t.values.drop (maxBucket - t.symbolBase)) 0

/-- The loop of `GnuHashTable::find`, src/read/elf/hash.rs:236-250. -/
def gnuLoop (data name : List UInt8) (hash : Nat) (version : Option Version) (symtab : SymTab) (versions : VersionTable) :
    List Sym → List Nat → (index : Nat) → Option (Nat × Sym)
  | s :: ss, v :: vs, index =>
    if (v ||| 1 == hash ||| 1) && nameMatches data name version symtab versions index s then some (index, s)
    else if v &&& 1 ≠ 0 then none
    else gnuLoop data name hash version symtab versions ss vs (index + 1)
  | _, _, _ => none

/-- `GnuHashTable::find`, src/read/elf/hash.rs:190-252.  `hash >> self.bloom_shift` panics in debug builds when the shift
is 32 or more. -/
def GnuHashTable.find (c : Cfg) (t : GnuHashTable) (data name : List UInt8) (hash : Nat) (version : Option Version)
    (symbols : SymTab) (versions : VersionTable) : Res (Option (Nat × Sym)) :=
  let wordBits := 8 * c.w
  let bloomCount := t.bloom.length / c.w
  if bloomCount = 0 then .ok none
  else
    let offset := ((hash / wordBits) &&& (bloomCount % U32 - 1)) * c.w
    match ReadRef.readBytesAt t.bloom offset c.w with
    | .ok img =>
      let filter := rd c.en img
      if filter &&& (1 <<< (hash % wordBits)) = 0 then .ok none
      else if 32 ≤ t.bloomShift then .panic
      else if filter &&& (1 <<< ((hash >>> t.bloomShift) % wordBits)) = 0 then .ok none
      else if t.buckets.length = 0 then .ok none
      else match t.buckets[hash % t.buckets.length]? with
        | none => .panic
        | some index =>
          if index = 0 then .ok none
          else if symbols.symbols.length < index then .ok none
          else if index < t.symbolBase then .ok none
          else if t.values.length < index - t.symbolBase then .ok none
          else .ok (gnuLoop data name hash version symbols versions (symbols.symbols.drop index)
            (t.values.drop (index - t.symbolBase)) index)
    | .err => .ok none
    | .panic => .panic

/-! ## Sections -/

/-- `SectionHeader::hash`, src/read/elf/section.rs:1015-1029; `SHT_HASH = 5`. -/
def Shdr.hash (c : Cfg) (s : Shdr) (data : List UInt8) : Res (Option (HashTable × Nat)) :=
  if s.type ≠ 5 then .ok none
  else do
    let d ← s.data data
    let t ← HashTable.parse c.en d
    .ok (some (t, s.link))

/-- `SectionHeader::gnu_hash`, src/read/elf/section.rs:1057-1071; `SHT_GNU_HASH = 0x6ffffff6`. -/
def Shdr.gnuHash (c : Cfg) (s : Shdr) (data : List UInt8) : Res (Option (GnuHashTable × Nat)) :=
  if s.type ≠ 0x6ffffff6 then .ok none
  else do
    let d ← s.data data
    let t ← GnuHashTable.parse c d
    .ok (some (t, s.link))

/-! ## Writing -/

/-- One step of the loop of `Encoder::hash_table`, src/write/elf/encoder.rs:1107-1113. -/
def hashStep (bucketCount : Nat) (hash : Nat → Option Nat) (st : List Nat × List Nat) (i : Nat) : List Nat × List Nat :=
  match hash i with
  | some h =>
    let bucket := h % bucketCount
    (st.1.set bucket i, st.2.set i ((st.1[bucket]?).getD 0))
  | none => st

/-- Words of 4 bytes. -/
def words (en : Endianness) (ws : List Nat) : List UInt8 := ws.flatMap (wr en 4)

/-- `Encoder::hash_table`, src/write/elf/encoder.rs:1100-1122.  A zero bucket count panics (division) if some symbol is
hashed. -/
def hashTable (en : Endianness) (bucketCount chainCount : Nat) (hash : Nat → Option Nat) : Res (List UInt8) :=
  if bucketCount = 0 ∧ (List.range chainCount).any (fun i => (hash i).isSome) then .panic
  else
    let st := (List.range chainCount).foldl (hashStep bucketCount hash)
      (List.replicate bucketCount 0, List.replicate chainCount 0)
    .ok (words en [bucketCount, chainCount] ++ words en st.1 ++ words en st.2)

/-- `write::elf::GnuHashTable`, src/write/elf/encoder.rs:239-245. -/
structure WGnuHash where
  bucketCount : Nat
  bloomCount : Nat
  bloomShift : Nat
  symbolBase : Nat
  symbolCount : Nat
  deriving DecidableEq, Repr

/-- One step of the bloom filter loops, src/write/elf/encoder.rs:1165-1169 and 1175-1179; `bits` is 64 or 32. -/
def bloomStep (bits bloomCount bloomShift : Nat) (hash : Nat → Nat) (filters : List Nat) (i : Nat) : List Nat :=
  let h := hash i
  let k := (h / bits) &&& (bloomCount - 1)
  filters.set k ((filters[k]?).getD 0 ||| ((1 <<< (h % bits)) ||| (1 <<< ((h >>> bloomShift) % bits))))

/-- The bucket loop, src/write/elf/encoder.rs:1188-1202: `bucket` is the number of buckets already written. -/
def gnuBuckets (bucketCount symbolBase : Nat) (hash : Nat → Nat) : List Nat → (bucket : Nat) → Res (List Nat)
  | [], bucket => .ok (List.replicate (bucketCount - bucket) 0)
  | i :: is, bucket =>
    let symbolBucket := hash i % bucketCount
    let zeros := List.replicate (symbolBucket - bucket) 0
    let bucket := max bucket symbolBucket
    if bucket = symbolBucket then
      if U32 ≤ symbolBase + i then .panic
      else (gnuBuckets bucketCount symbolBase hash is (bucket + 1)).bind fun rest => .ok (zeros ++ (symbolBase + i) :: rest)
    else (gnuBuckets bucketCount symbolBase hash is bucket).bind fun rest => .ok (zeros ++ rest)

/-- One hash value, src/write/elf/encoder.rs:1206-1212. -/
def gnuValue (bucketCount symbolCount : Nat) (hash : Nat → Nat) (i : Nat) : Nat :=
  if i = symbolCount - 1 ∨ hash i % bucketCount ≠ hash (i + 1) % bucketCount then hash i ||| 1 else hash i &&& (U32 - 2)

/-- `Encoder::gnu_hash_table`, src/write/elf/encoder.rs:1139-1216.  With at least one symbol, a zero bloom or bucket
count, or a shift of 32 or more, panics. -/
def gnuHashTable (c : Cfg) (t : WGnuHash) (hash : Nat → Nat) : Res (List UInt8) :=
  if t.symbolCount ≠ 0 ∧ (t.bloomCount = 0 ∨ 32 ≤ t.bloomShift ∨ t.bucketCount = 0) then .panic
  else do
    let is := List.range t.symbolCount
    let filters := is.foldl (bloomStep (8 * c.w) t.bloomCount t.bloomShift hash) (List.replicate t.bloomCount 0)
    let buckets ← gnuBuckets t.bucketCount t.symbolBase hash is 0
    .ok (words c.en [t.bucketCount, t.symbolBase, t.bloomCount, t.bloomShift] ++ filters.flatMap (wr c.en c.w) ++
      words c.en buckets ++ words c.en (is.map (gnuValue t.bucketCount t.symbolCount hash)))

end Obj.Elf

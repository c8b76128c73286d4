import Verif.Model.Bytes

/-!
# Model of `src/read/read_cache.rs`

The underlying stream is an immutable file `f : List UInt8`.  Every call may meet I/O faults and short
reads, chosen by an environment `Env` (one per call).  The hash maps are association lists with
newest-first lookup (keys are only inserted when vacant, so there is one entry per key).
-/

namespace Obj

/-- What the operating system does during one call.  `reads i` is the behaviour of the `i`-th call to
`Read::read`: `none` is an error, `some k` delivers at most `k + 1` bytes (but always at least one when
the buffer is not empty and the file has more data, the contract of `Read::read`). -/
structure Env where
  lenOk : Bool
  seekOk : Bool
  exactOk : Bool
  allocOk : Bool
  reads : Nat → Option Nat

/-- No faults (short reads are still possible). -/
def Env.Good (e : Env) : Prop :=
  e.lenOk = true ∧ e.seekOk = true ∧ e.exactOk = true ∧ e.allocOk = true ∧ ∀ i, e.reads i ≠ none

/-- `ReadCacheInternal`, src/read/read_cache.rs:35-41 (the stream itself is the file `f`). -/
structure Cache where
  bufs : List ((Nat × Nat) × List UInt8)
  strings : List ((Nat × UInt8) × List UInt8)
  len : Option Nat

/-- Map lookup. -/
def assoc {κ ν : Type} [DecidableEq κ] (k : κ) : List (κ × ν) → Option ν
  | [] => none
  | (k', v) :: tl => if k' = k then some v else assoc k tl

namespace Cache

/-- `ReadCache::new`, src/read/read_cache.rs:68-77. -/
def new : Cache := ⟨[], [], none⟩

/-- `ReadCacheInternal::len`, src/read/read_cache.rs:54-63. -/
def getLen (f : List UInt8) (env : Env) (c : Cache) : Res Nat × Cache :=
  match c.len with
  | some len => (.ok len, c)
  | none => if env.lenOk then (.ok f.length, { c with len := some f.length }) else (.err, c)

/-- `ReadCacheInternal::range_in_bounds`, src/read/read_cache.rs:45-51. -/
def rangeInBounds (f : List UInt8) (env : Env) (c : Cache) (start stop : Nat) : Res Unit × Cache :=
  if start ≤ stop then
    match getLen f env c with
    | (.ok len, c) => if stop ≤ len then (.ok (), c) else (.err, c)
    | (.err, c) => (.err, c)
    | (.panic, c) => (.panic, c)
  else (.err, c)

/-- `u64::saturating_add`. -/
def saturatingAdd (a b : Nat) : Nat := if a + b < U64 then a + b else U64 - 1

/-- `ReadRef::read_bytes_at for &ReadCache`, src/read/read_cache.rs:105-127.  `read_exact` fails when the
file ends early or on a fault. -/
def readBytesAt (f : List UInt8) (env : Env) (c : Cache) (offset size : Nat) : Res (List UInt8) × Cache :=
  if size = 0 then (.ok [], c)
  else match rangeInBounds f env c offset (saturatingAdd offset size) with
    | (.ok (), c) =>
      match assoc (offset, size) c.bufs with
      | some buf => (.ok buf, c)
      | none =>
        if env.seekOk then
          if env.allocOk then
            if env.exactOk ∧ size ≤ (f.drop offset).length then
              let bytes := (f.drop offset).take size
              (.ok bytes, { c with bufs := ((offset, size), bytes) :: c.bufs })
            else (.err, c)
          else (.err, c)
        else (.err, c)
    | (.err, c) => (.err, c)
    | (.panic, c) => (.panic, c)

/-- The loop of `read_bytes_at_until`, src/read/read_cache.rs:144-159.  `bytes` is the data read so far
(`checked` is its length; the zero fill of `Vec::resize` is never looked at), `i` counts `read` calls. -/
def untilLoop (f : List UInt8) (env : Env) (start maxCheck : Nat) (delimiter : UInt8)
    (i : Nat) (bytes : List UInt8) : Res (List UInt8) :=
  let checked := bytes.length
  let bufLen := min (checked + 256) maxCheck - checked
  match env.reads i with
  | none => .err
  | some k =>
    let got := (f.drop (start + checked)).take (min bufLen (k + 1))
    if hpos : got.length = 0 then .err
    else match memchr delimiter got with
      | some len => .ok ((bytes ++ got).take (checked + len))
      | none =>
        if hlt : maxCheck ≤ checked + got.length then .err
        else untilLoop f env start maxCheck delimiter (i + 1) (bytes ++ got)
termination_by maxCheck - bytes.length
decreasing_by
  simp only [List.length_append]
  have h2' : ¬ maxCheck ≤ bytes.length + got.length := hlt
  have h1' : ¬ got.length = 0 := hpos
  change maxCheck - (bytes.length + got.length) < maxCheck - bytes.length
  clear hpos hlt
  omega

/-- `ReadRef::read_bytes_at_until for &ReadCache`, src/read/read_cache.rs:129-164. -/
def readBytesAtUntil (f : List UInt8) (env : Env) (c : Cache) (start stop : Nat) (delimiter : UInt8) :
    Res (List UInt8) × Cache :=
  match rangeInBounds f env c start stop with
  | (.ok (), c) =>
    match assoc (start, delimiter) c.strings with
    | some buf => (.ok buf, c)
    | none =>
      if env.seekOk then
        match untilLoop f env start (min (stop - start) 4096) delimiter 0 [] with
        | .ok bytes => (.ok bytes, { c with strings := ((start, delimiter), bytes) :: c.strings })
        | .err => (.err, c)
        | .panic => (.panic, c)
      else (.err, c)
  | (.err, c) => (.err, c)
  | (.panic, c) => (.panic, c)

/-- `ReadCache::clear`, src/read/read_cache.rs:90-92. -/
def clear (c : Cache) : Cache := { c with bufs := [] }

/-- `ReadRef::read_bytes_at for ReadCacheRange`, src/read/read_cache.rs:190-200; the range is
`(offset, size) = (o, s)`. -/
def rangeReadBytesAt (f : List UInt8) (env : Env) (c : Cache) (o s offset size : Nat) :
    Res (List UInt8) × Cache :=
  if size = 0 then (.ok [], c)
  else if U64 ≤ offset + size then (.err, c)
  else if s < offset + size then (.err, c)
  else if U64 ≤ o + offset then (.err, c)
  else readBytesAt f env c (o + offset) size

/-- `ReadRef::read_bytes_at_until for ReadCacheRange`, src/read/read_cache.rs:202-213. -/
def rangeReadBytesAtUntil (f : List UInt8) (env : Env) (c : Cache) (o s start stop : Nat)
    (delimiter : UInt8) : Res (List UInt8) × Cache :=
  if U64 ≤ o + start then (.err, c)
  else if U64 ≤ o + stop then (.err, c)
  else match readBytesAtUntil f env c (o + start) (o + stop) delimiter with
    | (.ok bytes, c) =>
      if U64 ≤ start + bytes.length then (.err, c)
      else if s < start + bytes.length then (.err, c)
      else (.ok bytes, c)
    | (.err, c) => (.err, c)
    | (.panic, c) => (.panic, c)

/-- The public operations of a `ReadCache` and of `ReadCacheRange`s over it. -/
inductive Op where
  | len
  | read (offset size : Nat)
  | readUntil (start stop : Nat) (delimiter : UInt8)
  | rangeRead (o s offset size : Nat)
  | rangeReadUntil (o s start stop : Nat) (delimiter : UInt8)
  | clear

/-- The effect of one operation on the cache. -/
def step (f : List UInt8) (c : Cache) (x : Env × Op) : Cache :=
  match x.2 with
  | .len => (getLen f x.1 c).2
  | .read a b => (readBytesAt f x.1 c a b).2
  | .readUntil a b d => (readBytesAtUntil f x.1 c a b d).2
  | .rangeRead o s a b => (rangeReadBytesAt f x.1 c o s a b).2
  | .rangeReadUntil o s a b d => (rangeReadBytesAtUntil f x.1 c o s a b d).2
  | .clear => clear c

/-- The cache after a history of operations on a new `ReadCache`. -/
def after (f : List UInt8) (h : List (Env × Op)) : Cache := h.foldl (step f) new

end Cache
end Obj

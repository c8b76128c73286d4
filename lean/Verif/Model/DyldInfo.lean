import Verif.Model.Bytes

/-!
# Model of Mach-O rebase and bind information, `src/read/macho/dyld_info.rs`
-/

namespace Obj.Dyld
open Obj

/-! ## Rebase operations -/

/-- `RebaseOperation`, src/read/macho/dyld_info.rs:215-261. -/
inductive RebaseOp where
  | done
  | setType (kind : Nat)
  | setSegmentAndOffset (index offset : Nat)
  | addAddr (offset : Nat)
  | addAddrScaled (count : Nat)
  | doRebaseTimes (count : Nat)
  | doRebaseAddAddr (offset : Nat)
  | doRebaseTimesSkipping (count skip : Nat)
  deriving DecidableEq, Repr

/-- `RebaseOperation::parse`, src/read/macho/dyld_info.rs:264-309; the opcode that is also returned is the high half of the
byte. -/
def RebaseOp.parse (data : List UInt8) : Res (Nat × RebaseOp) × List UInt8 :=
  match Bytes.read data 1 with
  | (.ok b, data) =>
    let byte := (b.headD 0).toNat
    let opcode := byte &&& 0xf0
    let immediate := byte &&& 0x0f
    let uleb (k : Nat → RebaseOp) : Res (Nat × RebaseOp) × List UInt8 :=
      match Bytes.readUleb data with
      | (.ok v, d) => (.ok (opcode, k v), d)
      | (.err, d) => (.err, d)
      | (.panic, d) => (.panic, d)
    if opcode = 0x00 then (.ok (opcode, .done), data)
    else if opcode = 0x10 then (.ok (opcode, .setType immediate), data)
    else if opcode = 0x20 then uleb fun offset => .setSegmentAndOffset immediate offset
    else if opcode = 0x30 then uleb fun offset => .addAddr offset
    else if opcode = 0x40 then (.ok (opcode, .addAddrScaled immediate), data)
    else if opcode = 0x50 then (.ok (opcode, .doRebaseTimes immediate), data)
    else if opcode = 0x60 then uleb fun count => .doRebaseTimes count
    else if opcode = 0x70 then uleb fun offset => .doRebaseAddAddr offset
    else if opcode = 0x80 then
      match Bytes.readUleb data with
      | (.ok count, d) =>
        match Bytes.readUleb d with
        | (.ok skip, d) => (.ok (opcode, .doRebaseTimesSkipping count skip), d)
        | (.err, d) => (.err, d)
        | (.panic, d) => (.panic, d)
      | (.err, d) => (.err, d)
      | (.panic, d) => (.panic, d)
    else (.err, data)
  | (.err, d) => (.err, d)
  | (.panic, d) => (.panic, d)

/-- `RebaseOperationIterator::next`, src/read/macho/dyld_info.rs:191-200. -/
def rebaseOpNext (data : List UInt8) : Res (Option (Nat × RebaseOp)) × List UInt8 :=
  if data = [] then (.ok none, data)
  else match RebaseOp.parse data with
    | (.ok x, d) => (.ok (some x), d)
    | (.err, _) => (.err, [])
    | (.panic, d) => (.panic, d)

/-- `Rebase`, src/read/macho/dyld_info.rs:316-323. -/
structure Rebase where
  segmentIndex : Nat
  segmentOffset : Nat
  kind : Nat
  deriving DecidableEq, Repr

/-- `RebaseIterator`, src/read/macho/dyld_info.rs:332-343. -/
structure RebaseIter where
  operations : List UInt8
  pointerSize : Nat
  remaining : Nat
  advance : Nat
  setSegment : Bool
  setType : Bool
  rebase : Rebase
  deriving DecidableEq, Repr

/-- `RebaseIterator::new`, src/read/macho/dyld_info.rs:346-360. -/
def RebaseIter.new (operations : List UInt8) (pointerSize : Nat) : RebaseIter :=
  ⟨operations, pointerSize, 0, 0, false, false, ⟨0, 0, 0⟩⟩

/-- The first part of `RebaseIterator::next_inner`, src/read/macho/dyld_info.rs:373-384. -/
def RebaseIter.emit (it : RebaseIter) : Res (Option Rebase) × RebaseIter :=
  if it.setSegment = false then (.err, it)
  else if it.setType = false then (.err, it)
  else (.ok (some it.rebase),
    { it with rebase := { it.rebase with segmentOffset := (it.rebase.segmentOffset + it.advance) % U64 },
              remaining := it.remaining - 1 })

/-- Every operation consumes data. -/
theorem rebaseOpNext_lt {d d' : List UInt8} {x : Nat × RebaseOp} (h : rebaseOpNext d = (.ok (some x), d')) :
    d'.length < d.length := by
  have hu : ∀ (d d' : List UInt8) (v : Nat), Bytes.readUleb d = (.ok v, d') → d'.length ≤ d.length := by
    have hl : ∀ (d d' : List UInt8) (v r s : Nat), Bytes.readUlebLoop d r s = (.ok v, d') → d'.length ≤ d.length := by
      intro d
      induction d with
      | nil => intro d' v r s h; simp [Bytes.readUlebLoop] at h
      | cons b tl ih =>
        intro d' v r s h
        unfold Bytes.readUlebLoop at h
        split at h
        · simp at h
        · split at h
          · simp at h
          · simp only at h
            split at h
            · simp only [Prod.mk.injEq] at h; rw [← h.2]; simp
            · have := ih _ _ _ _ h; simp; omega
    exact fun d d' v h => hl d d' v 0 0 h
  unfold rebaseOpNext at h
  split at h
  · simp at h
  · split at h
    · rename_i y d1 hp
      simp only [Prod.mk.injEq, Res.ok.injEq, Option.some.injEq] at h
      obtain ⟨rfl, rfl⟩ := h
      unfold RebaseOp.parse at hp
      cases d with
      | nil => simp at *
      | cons b tl =>
        simp only [Bytes.read, Bytes.readBytes, List.length_cons, Nat.le_add_left, if_true, List.drop_succ_cons, List.drop_zero] at hp
        simp only [List.length_cons]
        repeat' split at hp
        all_goals first
          | (simp at hp; done)
          | (simp only [Prod.mk.injEq] at hp; rw [← hp.2]; omega)
          | (rename_i hu1; simp only [Prod.mk.injEq] at hp; have := hu _ _ _ hu1; rw [← hp.2]; omega)
          | (rename_i hu1 _ _ _ hu2; simp only [Prod.mk.injEq] at hp; have := hu _ _ _ hu1; have := hu _ _ _ hu2; rw [← hp.2]; omega)
    · simp at h
    · simp at h

/-- The loop of `RebaseIterator::next_inner`, src/read/macho/dyld_info.rs:385-430.  `count * pointer_size` is at most 15 * 255. -/
def RebaseIter.loop (it : RebaseIter) : Res (Option Rebase) × RebaseIter :=
  match _h : rebaseOpNext it.operations with
  | (.ok none, d) => (.ok none, { it with operations := d })
  | (.err, d) => (.err, { it with operations := d })
  | (.panic, d) => (.panic, { it with operations := d })
  | (.ok (some (_, op)), d) =>
    match op with
    | .done => (.ok none, { it with operations := d })
    | .setType kind =>
      RebaseIter.loop { it with operations := d, setType := true, rebase := { it.rebase with kind := kind } }
    | .setSegmentAndOffset index offset =>
      RebaseIter.loop { it with operations := d, setSegment := true,
                                rebase := { it.rebase with segmentIndex := index, segmentOffset := offset } }
    | .addAddr offset =>
      RebaseIter.loop { it with operations := d,
                                rebase := { it.rebase with segmentOffset := (it.rebase.segmentOffset + offset) % U64 } }
    | .addAddrScaled count =>
      RebaseIter.loop { it with operations := d,
                                rebase := { it.rebase with
                                  segmentOffset := (it.rebase.segmentOffset + count * it.pointerSize) % U64 } }
    | .doRebaseTimes count =>
      if count = 0 then RebaseIter.loop { it with operations := d }
      else RebaseIter.emit { it with operations := d, remaining := count, advance := it.pointerSize }
    | .doRebaseAddAddr offset =>
      RebaseIter.emit { it with operations := d, remaining := 1, advance := (it.pointerSize + offset) % U64 }
    | .doRebaseTimesSkipping count skip =>
      if count = 0 then RebaseIter.loop { it with operations := d }
      else RebaseIter.emit { it with operations := d, remaining := count, advance := (it.pointerSize + skip) % U64 }
termination_by it.operations.length
decreasing_by all_goals exact rebaseOpNext_lt _h

/-- `RebaseIterator::next_inner`, src/read/macho/dyld_info.rs:372-430. -/
def RebaseIter.nextInner (it : RebaseIter) : Res (Option Rebase) × RebaseIter :=
  if it.remaining ≠ 0 then it.emit else it.loop

/-- `RebaseIterator::next`, src/read/macho/dyld_info.rs:363-370. -/
def RebaseIter.next (it : RebaseIter) : Res (Option Rebase) × RebaseIter :=
  match it.nextInner with
  | (.err, it) => (.err, { it with remaining := 0, operations := [] })
  | r => r

/-! ## Bind operations -/

/-- `BindOperation`, src/read/macho/dyld_info.rs:485-549. -/
inductive BindOp where
  | done
  | setDylibOrdinal (ordinal : Nat)
  | setDylibSpecial (ordinal : Int)
  | setSymbol (flags : Nat) (name : List UInt8)
  | setType (kind : Nat)
  | setAddend (addend : Int)
  | setSegmentAndOffset (index offset : Nat)
  | addAddr (offset : Nat)
  | doBind
  | doBindAddAddr (offset : Nat)
  | doBindAddAddrScaled (count : Nat)
  | doBindTimesSkipping (count skip : Nat)
  deriving DecidableEq, Repr

/-- `(!BIND_IMMEDIATE_MASK | immediate) as i8` or 0, src/read/macho/dyld_info.rs:567-573. -/
def specialOrdinal (immediate : Nat) : Int :=
  if immediate = 0 then 0
  else if (0xf0 ||| immediate) < 128 then (0xf0 ||| immediate : Nat) else ((0xf0 ||| immediate : Nat) : Int) - 256

/-- `BindOperation::parse`, src/read/macho/dyld_info.rs:552-619. -/
def BindOp.parse (data : List UInt8) : Res (Nat × BindOp) × List UInt8 :=
  match Bytes.read data 1 with
  | (.ok b, data) =>
    let byte := (b.headD 0).toNat
    let opcode := byte &&& 0xf0
    let immediate := byte &&& 0x0f
    let uleb (k : Nat → BindOp) : Res (Nat × BindOp) × List UInt8 :=
      match Bytes.readUleb data with
      | (.ok v, d) => (.ok (opcode, k v), d)
      | (.err, d) => (.err, d)
      | (.panic, d) => (.panic, d)
    if opcode = 0x00 then (.ok (opcode, .done), data)
    else if opcode = 0x10 then (.ok (opcode, .setDylibOrdinal immediate), data)
    else if opcode = 0x20 then uleb fun ordinal => .setDylibOrdinal ordinal
    else if opcode = 0x30 then (.ok (opcode, .setDylibSpecial (specialOrdinal immediate)), data)
    else if opcode = 0x40 then
      match Bytes.readString data with
      | (.ok name, d) => (.ok (opcode, .setSymbol immediate name), d)
      | (.err, d) => (.err, d)
      | (.panic, d) => (.panic, d)
    else if opcode = 0x50 then (.ok (opcode, .setType immediate), data)
    else if opcode = 0x60 then
      match Bytes.readSleb data with
      | (.ok v, d) => (.ok (opcode, .setAddend v), d)
      | (.err, d) => (.err, d)
      | (.panic, d) => (.panic, d)
    else if opcode = 0x70 then uleb fun offset => .setSegmentAndOffset immediate offset
    else if opcode = 0x80 then uleb fun offset => .addAddr offset
    else if opcode = 0x90 then (.ok (opcode, .doBind), data)
    else if opcode = 0xa0 then uleb fun offset => .doBindAddAddr offset
    else if opcode = 0xb0 then (.ok (opcode, .doBindAddAddrScaled immediate), data)
    else if opcode = 0xc0 then
      match Bytes.readUleb data with
      | (.ok count, d) =>
        match Bytes.readUleb d with
        | (.ok skip, d) => (.ok (opcode, .doBindTimesSkipping count skip), d)
        | (.err, d) => (.err, d)
        | (.panic, d) => (.panic, d)
      | (.err, d) => (.err, d)
      | (.panic, d) => (.panic, d)
    else (.err, data)
  | (.err, d) => (.err, d)
  | (.panic, d) => (.panic, d)

/-- `BindOperationIterator::next`, src/read/macho/dyld_info.rs:459-468. -/
def bindOpNext (data : List UInt8) : Res (Option (Nat × BindOp)) × List UInt8 :=
  if data = [] then (.ok none, data)
  else match BindOp.parse data with
    | (.ok x, d) => (.ok (some x), d)
    | (.err, _) => (.err, [])
    | (.panic, d) => (.panic, d)

/-- `Bind`, src/read/macho/dyld_info.rs:627-642. -/
structure Bind where
  segmentIndex : Nat
  segmentOffset : Nat
  kind : Nat
  dylib : Int
  symbol : List UInt8
  flags : Nat
  addend : Int
  deriving DecidableEq, Repr

/-- `BindIterator`, src/read/macho/dyld_info.rs:652-666. -/
structure BindIter where
  operations : List UInt8
  pointerSize : Nat
  isLazy : Bool
  remaining : Nat
  advance : Nat
  setSegment : Bool
  setType : Bool
  setDylib : Bool
  setSymbol : Bool
  bind : Bind
  deriving DecidableEq, Repr

/-- `BindIterator::new_internal`, src/read/macho/dyld_info.rs:693-721. -/
def BindIter.newInternal (operations : List UInt8) (pointerSize : Nat) (isLazy : Bool) (kind : Option Nat) (dylib : Option Int) :
    BindIter :=
  ⟨operations, pointerSize, isLazy, 0, 0, false, kind.isSome, dylib.isSome, false,
    ⟨0, 0, kind.getD 0, dylib.getD 0, [], 0, 0⟩⟩

/-- `BindIterator::new`, src/read/macho/dyld_info.rs:669-671. -/
def BindIter.new (operations : List UInt8) (pointerSize : Nat) : BindIter := .newInternal operations pointerSize false none none

/-- `BindIterator::new_weak`, src/read/macho/dyld_info.rs:673-681. -/
def BindIter.newWeak (operations : List UInt8) (pointerSize : Nat) : BindIter :=
  .newInternal operations pointerSize false (some 1) (some (-3))

/-- `BindIterator::new_lazy`, src/read/macho/dyld_info.rs:683-691. -/
def BindIter.newLazy (operations : List UInt8) (pointerSize : Nat) : BindIter :=
  .newInternal operations pointerSize true (some 1) none

/-- The first part of `BindIterator::next_inner`, src/read/macho/dyld_info.rs:734-751. -/
def BindIter.emit (it : BindIter) : Res (Option Bind) × BindIter :=
  if it.setSegment = false then (.err, it)
  else if it.setType = false then (.err, it)
  else if it.setDylib = false then (.err, it)
  else if it.setSymbol = false then (.err, it)
  else (.ok (some it.bind),
    { it with bind := { it.bind with segmentOffset := (it.bind.segmentOffset + it.advance) % U64 },
              remaining := it.remaining - 1 })

/-- Every operation consumes data. -/
theorem bindOpNext_lt {d d' : List UInt8} {x : Nat × BindOp} (h : bindOpNext d = (.ok (some x), d')) :
    d'.length < d.length := by
  have hu : ∀ (d d' : List UInt8) (v : Nat), Bytes.readUleb d = (.ok v, d') → d'.length ≤ d.length := by
    have hl : ∀ (d d' : List UInt8) (v r s : Nat), Bytes.readUlebLoop d r s = (.ok v, d') → d'.length ≤ d.length := by
      intro d
      induction d with
      | nil => intro d' v r s h; simp [Bytes.readUlebLoop] at h
      | cons b tl ih =>
        intro d' v r s h
        unfold Bytes.readUlebLoop at h
        split at h
        · simp at h
        · split at h
          · simp at h
          · simp only at h
            split at h
            · simp only [Prod.mk.injEq] at h; rw [← h.2]; simp
            · have := ih _ _ _ _ h; simp; omega
    exact fun d d' v h => hl d d' v 0 0 h
  have hsl : ∀ (d d' : List UInt8) (v : Int), Bytes.readSleb d = (.ok v, d') → d'.length ≤ d.length := by
    have hl : ∀ (d d' : List UInt8) (v : Int) (r s : Nat), Bytes.readSlebLoop d r s = (.ok v, d') → d'.length ≤ d.length := by
      intro d
      induction d with
      | nil => intro d' v r s h; simp [Bytes.readSlebLoop] at h
      | cons b tl ih =>
        intro d' v r s h
        unfold Bytes.readSlebLoop at h
        split at h
        · simp at h
        · split at h
          · simp at h
          · simp only at h
            split at h
            · split at h <;> (simp only [Prod.mk.injEq] at h; rw [← h.2]; simp)
            · have := ih _ _ _ _ h; simp; omega
    exact fun d d' v h => hl d d' v 0 0 h
  have hst : ∀ (d d' s : List UInt8), Bytes.readString d = (.ok s, d') → d'.length ≤ d.length := by
    intro d d' s h
    unfold Bytes.readString at h
    split at h
    · unfold Bytes.readBytes at h
      split at h
      · unfold Bytes.skip at h
        rename_i hb
        split at hb
        · simp only [Prod.mk.injEq] at hb
          split at h
          · rename_i hs
            split at hs
            · simp only [Prod.mk.injEq] at h hs
              rw [← h.2, ← hs.2, ← hb.2]; simp
            · simp at hs
          · simp at h
          · simp at h
        · simp at hb
      · simp at h
      · simp at h
    · simp at h
  unfold bindOpNext at h
  split at h
  · simp at h
  · split at h
    · rename_i y d1 hp
      simp only [Prod.mk.injEq, Res.ok.injEq, Option.some.injEq] at h
      obtain ⟨rfl, rfl⟩ := h
      unfold BindOp.parse at hp
      cases d with
      | nil => simp at *
      | cons b tl =>
        simp only [Bytes.read, Bytes.readBytes, List.length_cons, Nat.le_add_left, if_true, List.drop_succ_cons, List.drop_zero] at hp
        simp only [List.length_cons]
        generalize ((List.take 1 (b :: tl)).headD 0).toNat = byte at hp
        generalize byte &&& 240 = opc at hp
        generalize byte &&& 15 = imm at hp
        have hu1 : ∀ (k : Nat → BindOp), (match Bytes.readUleb tl with
              | (.ok v, d) => (.ok (opc, k v), d)
              | (.err, d) => (.err, d)
              | (.panic, d) => (.panic, d)) = ((.ok y, d1) : Res (Nat × BindOp) × List UInt8) → d1.length < tl.length + 1 := by
          intro k hp
          split at hp
          · rename_i h1
            simp only [Prod.mk.injEq] at hp; have := hu _ _ _ h1; rw [← hp.2]; omega
          · simp at hp
          · simp at hp
        by_cases c0 : opc = 0
        · rw [if_pos c0] at hp
          simp only [Prod.mk.injEq] at hp; rw [← hp.2]; omega
        rw [if_neg c0] at hp
        by_cases c1 : opc = 16
        · rw [if_pos c1] at hp
          simp only [Prod.mk.injEq] at hp; rw [← hp.2]; omega
        rw [if_neg c1] at hp
        by_cases c2 : opc = 32
        · rw [if_pos c2] at hp
          exact hu1 _ hp
        rw [if_neg c2] at hp
        by_cases c3 : opc = 48
        · rw [if_pos c3] at hp
          simp only [Prod.mk.injEq] at hp; rw [← hp.2]; omega
        rw [if_neg c3] at hp
        by_cases c4 : opc = 64
        · rw [if_pos c4] at hp
          split at hp
          · rename_i h1
            simp only [Prod.mk.injEq] at hp; have := hst _ _ _ h1; rw [← hp.2]; omega
          · simp at hp
          · simp at hp
        rw [if_neg c4] at hp
        by_cases c5 : opc = 80
        · rw [if_pos c5] at hp
          simp only [Prod.mk.injEq] at hp; rw [← hp.2]; omega
        rw [if_neg c5] at hp
        by_cases c6 : opc = 96
        · rw [if_pos c6] at hp
          split at hp
          · rename_i h1
            simp only [Prod.mk.injEq] at hp; have := hsl _ _ _ h1; rw [← hp.2]; omega
          · simp at hp
          · simp at hp
        rw [if_neg c6] at hp
        by_cases c7 : opc = 112
        · rw [if_pos c7] at hp
          exact hu1 _ hp
        rw [if_neg c7] at hp
        by_cases c8 : opc = 128
        · rw [if_pos c8] at hp
          exact hu1 _ hp
        rw [if_neg c8] at hp
        by_cases c9 : opc = 144
        · rw [if_pos c9] at hp
          simp only [Prod.mk.injEq] at hp; rw [← hp.2]; omega
        rw [if_neg c9] at hp
        by_cases c10 : opc = 160
        · rw [if_pos c10] at hp
          exact hu1 _ hp
        rw [if_neg c10] at hp
        by_cases c11 : opc = 176
        · rw [if_pos c11] at hp
          simp only [Prod.mk.injEq] at hp; rw [← hp.2]; omega
        rw [if_neg c11] at hp
        by_cases c12 : opc = 192
        · rw [if_pos c12] at hp
          split at hp
          · rename_i h1
            split at hp
            · rename_i h2
              simp only [Prod.mk.injEq] at hp; have := hu _ _ _ h1; have := hu _ _ _ h2; rw [← hp.2]; omega
            · simp at hp
            · simp at hp
          · simp at hp
          · simp at hp
        rw [if_neg c12] at hp
        simp at hp
    · simp at h
    · simp at h

/-- The loop of `BindIterator::next_inner`, src/read/macho/dyld_info.rs:752-826.  `pointer_size * (count + 1)` is at most
255 * 16. -/
def BindIter.loop (it : BindIter) : Res (Option Bind) × BindIter :=
  match _h : bindOpNext it.operations with
  | (.ok none, d) => (.ok none, { it with operations := d })
  | (.err, d) => (.err, { it with operations := d })
  | (.panic, d) => (.panic, { it with operations := d })
  | (.ok (some (_, op)), d) =>
    match op with
    | .done => if it.isLazy then BindIter.loop (.newLazy d it.pointerSize) else (.ok none, { it with operations := d })
    | .setDylibOrdinal ordinal =>
      if ordinal < 2 ^ 31 then
        BindIter.loop { it with operations := d, setDylib := true, bind := { it.bind with dylib := ordinal } }
      else (.err, { it with operations := d })
    | .setDylibSpecial ordinal =>
      BindIter.loop { it with operations := d, setDylib := true, bind := { it.bind with dylib := ordinal } }
    | .setSymbol flags name =>
      BindIter.loop { it with operations := d, setSymbol := true, bind := { it.bind with flags := flags, symbol := name } }
    | .setType kind =>
      BindIter.loop { it with operations := d, setType := true, bind := { it.bind with kind := kind } }
    | .setAddend addend =>
      BindIter.loop { it with operations := d, bind := { it.bind with addend := addend } }
    | .setSegmentAndOffset index offset =>
      BindIter.loop { it with operations := d, setSegment := true,
                              bind := { it.bind with segmentIndex := index, segmentOffset := offset } }
    | .addAddr offset =>
      BindIter.loop { it with operations := d,
                              bind := { it.bind with segmentOffset := (it.bind.segmentOffset + offset) % U64 } }
    | .doBind => BindIter.emit { it with operations := d, remaining := 1, advance := it.pointerSize }
    | .doBindAddAddr offset =>
      BindIter.emit { it with operations := d, remaining := 1, advance := (it.pointerSize + offset) % U64 }
    | .doBindAddAddrScaled count =>
      BindIter.emit { it with operations := d, remaining := 1, advance := it.pointerSize * (count + 1) }
    | .doBindTimesSkipping count skip =>
      if count = 0 then BindIter.loop { it with operations := d }
      else BindIter.emit { it with operations := d, remaining := count, advance := (it.pointerSize + skip) % U64 }
termination_by it.operations.length
decreasing_by all_goals exact bindOpNext_lt _h

/-- `BindIterator::next_inner`, src/read/macho/dyld_info.rs:733-826. -/
def BindIter.nextInner (it : BindIter) : Res (Option Bind) × BindIter :=
  if it.remaining ≠ 0 then it.emit else it.loop

/-- `BindIterator::next`, src/read/macho/dyld_info.rs:724-731. -/
def BindIter.next (it : BindIter) : Res (Option Bind) × BindIter :=
  match it.nextInner with
  | (.err, it) => (.err, { it with remaining := 0, operations := [] })
  | r => r

end Obj.Dyld

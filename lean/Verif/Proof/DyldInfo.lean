import Verif.Spec.DyldInfo
import Verif.Proof.ExportsTrie

namespace Obj
/-- Equal steps give equal runs. -/
theorem Runs.congr {σ α : Type} {next : σ → Res (Option α) × σ} {s s' : σ} {xs : List α} {e : End} (h : next s = next s')
    (hr : Runs next s' xs e) : Runs next s xs e := by
  cases hr with
  | done h1 => exact .done (h.trans h1)
  | err h1 => exact .err (h.trans h1)
  | panic h1 => exact .panic (h.trans h1)
  | item h1 h2 => exact .item (h.trans h1) h2
end Obj

namespace Obj.Dyld
open Obj Obj.Spec Obj.Spec.Trie Obj.Spec.Dyld Obj.Trie

theorem sleb_iff (d r : List UInt8) (v : Int) : Bytes.readSleb d = (.ok v, r) ↔ Sleb d v r := readSleb_ok_iff d v r

private theorem nibbles : ∀ b : Fin 256, (b.val &&& 0xf0 = 16 * (b.val / 16)) ∧ (b.val &&& 0x0f = b.val % 16) ∧ b.val / 16 < 16 := by
  decide +kernel

theorem nib (b : UInt8) : (b.toNat &&& 0xf0 = 16 * (b.toNat / 16)) ∧ (b.toNat &&& 0x0f = b.toNat % 16) ∧ b.toNat / 16 < 16 :=
  nibbles ⟨b.toNat, b.toNat_lt⟩

private theorem read1 (b : UInt8) (tl : List UInt8) : Bytes.read (b :: tl) 1 = (.ok [b], tl) := by
  simp [Bytes.read, Bytes.readBytes]

/-! ### Rebase operations -/

/-- The parser after the first byte. -/
def rbody (opcode immediate : Nat) (data : List UInt8) : Res (Nat × RebaseOp) × List UInt8 :=
  let uleb (k : Nat → RebaseOp) : Res (Nat × RebaseOp) × List UInt8 :=
    match Bytes.readUleb data with
    | (.ok v, d) => (.ok (opcode, k v), d)
    | (.err, d) => (.err, d)
    | (.panic, d) => (.panic, d)
  if opcode = 0x00 then (.ok (opcode, .done), data)
  else if opcode = 0x10 then (.ok (opcode, .setType immediate), data)
  else if opcode = 0x20 then uleb fun offset => .setSegmentAndOffset immediate offset
  else if opcode = 0x30 then uleb fun offset => .addAddr offset
  else if opcode = 0x40 then (.ok (opcode, .addAddrScaled immediate), data)
  else if opcode = 0x50 then (.ok (opcode, .doRebaseTimes immediate), data)
  else if opcode = 0x60 then uleb fun count => .doRebaseTimes count
  else if opcode = 0x70 then uleb fun offset => .doRebaseAddAddr offset
  else if opcode = 0x80 then
    match Bytes.readUleb data with
    | (.ok count, d) =>
      match Bytes.readUleb d with
      | (.ok skip, d) => (.ok (opcode, .doRebaseTimesSkipping count skip), d)
      | (.err, d) => (.err, d)
      | (.panic, d) => (.panic, d)
    | (.err, d) => (.err, d)
    | (.panic, d) => (.panic, d)
  else (.err, data)

theorem rparse_cons (b : UInt8) (tl : List UInt8) :
    RebaseOp.parse (b :: tl) = rbody (16 * (b.toNat / 16)) (b.toNat % 16) tl := by
  have : RebaseOp.parse (b :: tl) = rbody (b.toNat &&& 0xf0) (b.toNat &&& 0x0f) tl := by
    unfold RebaseOp.parse
    rw [read1]
    rfl
  rw [this, (nib b).1, (nib b).2.1]

private theorem uleb_case {α : Type} {data d : List UInt8} {opc : Nat} {k : Nat → α} {x : Nat × α} :
    (match Bytes.readUleb data with
      | (.ok v, d) => (.ok (opc, k v), d)
      | (.err, d) => (.err, d)
      | (.panic, d) => (.panic, d)) = ((.ok x, d) : Res (Nat × α) × List UInt8) ↔ ∃ v, Uleb data v d ∧ x = (opc, k v) := by
  constructor
  · intro h
    split at h
    · rename_i v d' hu
      simp only [Prod.mk.injEq, Res.ok.injEq] at h
      obtain ⟨rfl, rfl⟩ := h
      exact ⟨v, (uleb_iff ..).1 hu, rfl⟩
    · simp at h
    · simp at h
  · rintro ⟨v, h, rfl⟩
    rw [(uleb_iff ..).2 h]

private theorem uleb2_case {α : Type} {data d : List UInt8} {opc : Nat} {k : Nat → Nat → α} {x : Nat × α} :
    (match Bytes.readUleb data with
      | (.ok v, d) => match Bytes.readUleb d with
        | (.ok w, d) => (.ok (opc, k v w), d)
        | (.err, d) => (.err, d)
        | (.panic, d) => (.panic, d)
      | (.err, d) => (.err, d)
      | (.panic, d) => (.panic, d)) = ((.ok x, d) : Res (Nat × α) × List UInt8) ↔
      ∃ v w d', Uleb data v d' ∧ Uleb d' w d ∧ x = (opc, k v w) := by
  constructor
  · intro h
    split at h
    · rename_i v d' hu
      obtain ⟨w, h1, h2⟩ := uleb_case.1 h
      exact ⟨v, w, d', (uleb_iff ..).1 hu, h1, h2⟩
    · simp at h
    · simp at h
  · rintro ⟨v, w, d', h1, h2, rfl⟩
    rw [(uleb_iff ..).2 h1]
    exact uleb_case.2 ⟨w, h2, rfl⟩

theorem rparse_iff (b : UInt8) (tl rest : List UInt8) (c : Nat) (op : RebaseOp) :
    RebaseOp.parse (b :: tl) = (.ok (c, op), rest) ↔ c = 16 * (b.toNat / 16) ∧ RebaseOpAt (b :: tl) op rest := by
  rw [rparse_cons]
  unfold rbody
  have hlt := (nib b).2.2
  constructor
  · intro h
    simp only at h
    rcases Nat.lt_or_ge (b.toNat / 16) 9 with h9 | h9
    · have : b.toNat / 16 = 0 ∨ b.toNat / 16 = 1 ∨ b.toNat / 16 = 2 ∨ b.toNat / 16 = 3 ∨ b.toNat / 16 = 4 ∨ b.toNat / 16 = 5 ∨
        b.toNat / 16 = 6 ∨ b.toNat / 16 = 7 ∨ b.toNat / 16 = 8 := by omega
      rcases this with hc | hc | hc | hc | hc | hc | hc | hc | hc <;> rw [hc] at h ⊢ <;>
        simp only [Nat.reduceMul, Nat.reduceEqDiff, if_true, if_false, uleb_case, uleb2_case] at h
      · simp only [Prod.mk.injEq, Res.ok.injEq] at h; obtain ⟨⟨rfl, rfl⟩, rfl⟩ := h; exact ⟨rfl, .done hc⟩
      · simp only [Prod.mk.injEq, Res.ok.injEq] at h; obtain ⟨⟨rfl, rfl⟩, rfl⟩ := h; exact ⟨rfl, .setType hc⟩
      · obtain ⟨v, hv, hx⟩ := h; simp only [Prod.mk.injEq] at hx; obtain ⟨rfl, rfl⟩ := hx; exact ⟨rfl, .setSegment hc hv⟩
      · obtain ⟨v, hv, hx⟩ := h; simp only [Prod.mk.injEq] at hx; obtain ⟨rfl, rfl⟩ := hx; exact ⟨rfl, .addAddr hc hv⟩
      · simp only [Prod.mk.injEq, Res.ok.injEq] at h; obtain ⟨⟨rfl, rfl⟩, rfl⟩ := h; exact ⟨rfl, .addAddrScaled hc⟩
      · simp only [Prod.mk.injEq, Res.ok.injEq] at h; obtain ⟨⟨rfl, rfl⟩, rfl⟩ := h; exact ⟨rfl, .doImmTimes hc⟩
      · obtain ⟨v, hv, hx⟩ := h; simp only [Prod.mk.injEq] at hx; obtain ⟨rfl, rfl⟩ := hx; exact ⟨rfl, .doUlebTimes hc hv⟩
      · obtain ⟨v, hv, hx⟩ := h; simp only [Prod.mk.injEq] at hx; obtain ⟨rfl, rfl⟩ := hx; exact ⟨rfl, .doAddAddr hc hv⟩
      · obtain ⟨v, w, d, hv, hw, hx⟩ := h; simp only [Prod.mk.injEq] at hx; obtain ⟨rfl, rfl⟩ := hx
        exact ⟨rfl, .doTimesSkipping hc hv hw⟩
    · iterate 9 rw [if_neg (by omega)] at h
      simp at h
  · rintro ⟨rfl, h⟩
    simp only
    cases h with
    | done hc => simp [hc]
    | setType hc => simp [hc]
    | setSegment hc hv => simp only [hc, Nat.reduceMul, Nat.reduceEqDiff, if_true, if_false, uleb_case]; exact ⟨_, hv, rfl⟩
    | addAddr hc hv => simp only [hc, Nat.reduceMul, Nat.reduceEqDiff, if_true, if_false, uleb_case]; exact ⟨_, hv, rfl⟩
    | addAddrScaled hc => simp [hc]
    | doImmTimes hc => simp [hc]
    | doUlebTimes hc hv => simp only [hc, Nat.reduceMul, Nat.reduceEqDiff, if_true, if_false, uleb_case]; exact ⟨_, hv, rfl⟩
    | doAddAddr hc hv => simp only [hc, Nat.reduceMul, Nat.reduceEqDiff, if_true, if_false, uleb_case]; exact ⟨_, hv, rfl⟩
    | doTimesSkipping hc hv hw =>
      simp only [hc, Nat.reduceMul, Nat.reduceEqDiff, if_true, if_false, uleb2_case]; exact ⟨_, _, _, hv, hw, rfl⟩

theorem rparse_no_panic (d : List UInt8) : (RebaseOp.parse d).1 ≠ .panic := by
  cases d with
  | nil => simp [RebaseOp.parse, Bytes.read, Bytes.readBytes]
  | cons b tl =>
    rw [rparse_cons]
    generalize 16 * (b.toNat / 16) = opc
    generalize b.toNat % 16 = imm
    have hu : ∀ (d : List UInt8) (k : Nat → RebaseOp), (match Bytes.readUleb d with
      | (.ok v, d) => ((.ok (opc, k v), d) : Res (Nat × RebaseOp) × List UInt8)
      | (.err, d) => (.err, d)
      | (.panic, d) => (.panic, d)).1 ≠ .panic := by
      intro d k
      split
      · simp
      · simp
      · rename_i h; exact absurd (congrArg Prod.fst h) (readUleb_no_panic d)
    unfold rbody
    simp only
    by_cases c0 : opc = 0x00
    · rw [if_pos c0]; simp
    rw [if_neg c0]
    by_cases c1 : opc = 0x10
    · rw [if_pos c1]; simp
    rw [if_neg c1]
    by_cases c2 : opc = 0x20
    · rw [if_pos c2]; exact hu _ _
    rw [if_neg c2]
    by_cases c3 : opc = 0x30
    · rw [if_pos c3]; exact hu _ _
    rw [if_neg c3]
    by_cases c4 : opc = 0x40
    · rw [if_pos c4]; simp
    rw [if_neg c4]
    by_cases c5 : opc = 0x50
    · rw [if_pos c5]; simp
    rw [if_neg c5]
    by_cases c6 : opc = 0x60
    · rw [if_pos c6]; exact hu _ _
    rw [if_neg c6]
    by_cases c7 : opc = 0x70
    · rw [if_pos c7]; exact hu _ _
    rw [if_neg c7]
    by_cases c8 : opc = 0x80
    · rw [if_pos c8]
      split
      · exact hu _ _
      · simp
      · rename_i h; exact absurd (congrArg Prod.fst h) (readUleb_no_panic tl)
    rw [if_neg c8]
    simp

/-! ### Rebases -/

/-- The specification's view of the state. -/
def rabs (it : RebaseIter) : RState :=
  ⟨if it.setSegment then some (it.rebase.segmentIndex, it.rebase.segmentOffset) else none,
   if it.setType then some it.rebase.kind else none⟩

/-- What `next` does with the result of `next_inner`. -/
def rfuse (r : Res (Option Rebase) × RebaseIter) : Res (Option Rebase) × RebaseIter :=
  match r with
  | (.err, it) => (.err, { it with remaining := 0, operations := [] })
  | r => r

theorem rnext_zero {it : RebaseIter} (h : it.remaining = 0) : it.next = rfuse it.loop := by
  show rfuse it.nextInner = _
  unfold RebaseIter.nextInner
  rw [if_neg (by simpa using h)]

theorem rnext_pos {it : RebaseIter} (h : it.remaining ≠ 0) : it.next = rfuse it.emit := by
  show rfuse it.nextInner = _
  unfold RebaseIter.nextInner
  rw [if_pos h]

/-- A run of rebases. -/
theorem remit_runs (n : Nat) (it : RebaseIter) (hn : it.remaining = n) (hs : it.setSegment = true) (ht : it.setType = true)
    (stride : Nat) (ha : it.advance = stride % 2 ^ 64) (ho : it.rebase.segmentOffset < 2 ^ 64) (ys : List Rebase) (f : End)
    (hk : Runs RebaseIter.next { it with remaining := 0, rebase := { it.rebase with
      segmentOffset := (it.rebase.segmentOffset + n * stride) % 2 ^ 64 } } ys f) :
    Runs RebaseIter.next it ((List.range n).map (fun j => ⟨it.rebase.segmentIndex,
      (it.rebase.segmentOffset + j * stride) % 2 ^ 64, it.rebase.kind⟩) ++ ys) f := by
  induction n generalizing it with
  | zero =>
    simp only [Nat.zero_mul, Nat.add_zero, Nat.mod_eq_of_lt ho] at hk
    have : ({ it with remaining := 0 } : RebaseIter) = it := by rw [← hn]
    simpa [this] using hk
  | succ n ih =>
    have hstep : it.next = (.ok (some it.rebase),
        { it with rebase := { it.rebase with segmentOffset := (it.rebase.segmentOffset + it.advance) % U64 }, remaining := n }) := by
      rw [rnext_pos (by omega)]
      unfold RebaseIter.emit
      rw [if_neg (by simp [hs]), if_neg (by simp [ht]), hn]
      rfl
    rw [List.range_succ_eq_map, List.map_cons, List.cons_append]
    have hfirst : (⟨it.rebase.segmentIndex, (it.rebase.segmentOffset + 0 * stride) % 2 ^ 64, it.rebase.kind⟩ : Rebase) = it.rebase := by
      rw [Nat.zero_mul, Nat.add_zero, Nat.mod_eq_of_lt ho]
    rw [hfirst]
    refine .item hstep ?_
    have hlt : (it.rebase.segmentOffset + it.advance) % 2 ^ 64 < 2 ^ 64 := Nat.mod_lt _ (by decide)
    have hmod : ∀ j, ((it.rebase.segmentOffset + it.advance) % 2 ^ 64 + j * stride) % 2 ^ 64 =
        (it.rebase.segmentOffset + (j + 1) * stride) % 2 ^ 64 := by
      intro j
      rw [ha, Nat.add_mul, Nat.one_mul]
      generalize j * stride = t
      omega
    have := ih { it with rebase := { it.rebase with segmentOffset := (it.rebase.segmentOffset + it.advance) % U64 }, remaining := n }
      rfl hs ht ha hlt (by simp only [hmod]; exact hk)
    simp only [List.map_map]
    refine cast ?_ this
    congr 2
    refine List.map_congr_left fun j _ => ?_
    simp only [Function.comp, Rebase.mk.injEq, true_and, and_true]
    exact hmod j

theorem rebaseOpNext_eq : rebaseOpNext = fuseNext RebaseOp.parse := by
  funext d
  unfold rebaseOpNext fuseNext
  split
  · rfl
  · split <;> rename_i h <;> rw [h]

theorem op_lt {d d' : List UInt8} {c : Nat} {op : RebaseOp} (h : rebaseOpNext d = (.ok (some (c, op)), d')) :
    ∃ b tl, d = b :: tl ∧ c = 16 * (b.toNat / 16) ∧ RebaseOpAt d op d' := by
  have := (fuseNext_some_iff (parse := RebaseOp.parse)).1 (rebaseOpNext_eq ▸ h)
  cases d with
  | nil => exact absurd rfl this.1
  | cons b tl =>
    have := (rparse_iff ..).1 this.2
    exact ⟨b, tl, rfl, this.1, this.2⟩

theorem rloop_some {it : RebaseIter} {c : Nat} {op : RebaseOp} {d : List UInt8}
    (h : rebaseOpNext it.operations = (.ok (some (c, op)), d)) : it.loop = match op with
    | .done => (.ok none, { it with operations := d })
    | .setType kind =>
      RebaseIter.loop { it with operations := d, setType := true, rebase := { it.rebase with kind := kind } }
    | .setSegmentAndOffset index offset =>
      RebaseIter.loop { it with operations := d, setSegment := true,
                                rebase := { it.rebase with segmentIndex := index, segmentOffset := offset } }
    | .addAddr offset =>
      RebaseIter.loop { it with operations := d,
                                rebase := { it.rebase with segmentOffset := (it.rebase.segmentOffset + offset) % U64 } }
    | .addAddrScaled count =>
      RebaseIter.loop { it with operations := d,
                                rebase := { it.rebase with
                                  segmentOffset := (it.rebase.segmentOffset + count * it.pointerSize) % U64 } }
    | .doRebaseTimes count =>
      if count = 0 then RebaseIter.loop { it with operations := d }
      else RebaseIter.emit { it with operations := d, remaining := count, advance := it.pointerSize }
    | .doRebaseAddAddr offset =>
      RebaseIter.emit { it with operations := d, remaining := 1, advance := (it.pointerSize + offset) % U64 }
    | .doRebaseTimesSkipping count skip =>
      if count = 0 then RebaseIter.loop { it with operations := d }
      else RebaseIter.emit { it with operations := d, remaining := count, advance := (it.pointerSize + skip) % U64 } := by
  rw [RebaseIter.loop]
  split <;> rename_i h2 <;> rw [h] at h2 <;>
    simp only [Prod.mk.injEq, Res.ok.injEq, Option.some.injEq, reduceCtorEq, false_and] at h2
  obtain ⟨⟨rfl, rfl⟩, rfl⟩ := h2
  rfl

private theorem rnext_set {it it' : RebaseIter} (h : it.remaining = 0) (h' : it'.remaining = 0) (hl : it.loop = it'.loop) :
    it.next = it'.next := by rw [rnext_zero h, rnext_zero h', hl]

private theorem rnext_do {it it' : RebaseIter} (h : it.remaining = 0) (h' : it'.remaining ≠ 0) (hl : it.loop = it'.emit) :
    it.next = it'.next := by rw [rnext_zero h, rnext_pos h', hl]

private theorem rdo (it it' : RebaseIter) (n stride : Nat) (d : List UInt8) (ops : List RebaseOp) (e : End) (h0 : it.remaining = 0)
    (hn : n ≠ 0) (ho : it.rebase.segmentOffset < 2 ^ 64)
    (hit : it' = { it with operations := d, remaining := n, advance := stride % 2 ^ 64 }) (hl : it.loop = it'.emit)
    (ih : ∀ (jt : RebaseIter), jt.operations = d → jt.remaining = 0 → jt.pointerSize = it.pointerSize →
      jt.rebase.segmentOffset < 2 ^ 64 →
      Runs RebaseIter.next jt (evalRebases it.pointerSize (rabs jt) ops e).1 (evalRebases it.pointerSize (rabs jt) ops e).2) :
    Runs RebaseIter.next it
      (match (rabs it).rebases n stride with
        | none => (([], .err) : List Rebase × End)
        | some (xs, st') => (xs ++ (evalRebases it.pointerSize st' ops e).1, (evalRebases it.pointerSize st' ops e).2)).1
      (match (rabs it).rebases n stride with
        | none => (([], .err) : List Rebase × End)
        | some (xs, st') => (xs ++ (evalRebases it.pointerSize st' ops e).1, (evalRebases it.pointerSize st' ops e).2)).2 := by
  have hr : it'.remaining = n := by rw [hit]
  refine Runs.congr (rnext_do h0 (by omega) hl) ?_
  unfold RState.rebases rabs
  by_cases hs : it.setSegment = true
  · by_cases ht : it.setType = true
    · simp only [hs, ht, if_true]
      have := remit_runs n it' hr (by rw [hit]; exact hs) (by rw [hit]; exact ht) stride (by rw [hit]) (by rw [hit]; exact ho) _ _
        (ih _ (by rw [hit]) rfl (by rw [hit]) (by exact Nat.mod_lt _ (by decide)))
      rw [hit] at this ⊢
      simp only [rabs, hs, ht, if_true] at this ⊢
      exact this
    · have ht : it.setType = false := by simpa using ht
      simp only [hs, ht, if_true, Bool.false_eq_true, if_false]
      refine .err (s' := { it' with remaining := 0, operations := [] }) ?_
      rw [rnext_pos (by omega)]
      unfold RebaseIter.emit
      rw [if_neg (by rw [hit]; simp [hs]), if_pos (by rw [hit]; simp [ht])]; rfl
  · have hs : it.setSegment = false := by simpa using hs
    simp only [hs, Bool.false_eq_true, if_false]
    refine .err (s' := { it' with remaining := 0, operations := [] }) ?_
    rw [rnext_pos (by omega)]
    unfold RebaseIter.emit
    rw [if_pos (by rw [hit]; simp [hs])]; rfl

theorem rebase_runs {d : List UInt8} {ops : List (Nat × RebaseOp)} {e : End} (h : Runs rebaseOpNext d ops e) (it : RebaseIter)
    (hd : it.operations = d) (h0 : it.remaining = 0) (hp : it.pointerSize < 2 ^ 64) (ho : it.rebase.segmentOffset < 2 ^ 64) :
    Runs RebaseIter.next it (evalRebases it.pointerSize (rabs it) (ops.map (·.2)) e).1
      (evalRebases it.pointerSize (rabs it) (ops.map (·.2)) e).2 := by
  induction h generalizing it with
  | @done s s' hn =>
    refine .done (s' := { it with operations := s' }) ?_
    rw [rnext_zero h0]
    rw [RebaseIter.loop]
    split <;> rename_i h2 <;> rw [hd, hn] at h2 <;>
      simp only [Prod.mk.injEq, Res.ok.injEq, Option.some.injEq, reduceCtorEq, false_and] at h2
    rw [← h2.2]; rfl
  | @err s s' hn =>
    refine .err (s' := { it with remaining := 0, operations := [] }) ?_
    rw [rnext_zero h0]
    rw [RebaseIter.loop]
    split <;> rename_i h2 <;> rw [hd, hn] at h2 <;>
      simp only [Prod.mk.injEq, Res.ok.injEq, Option.some.injEq, reduceCtorEq, false_and] at h2
    rw [← h2.2]; rfl
  | @panic s s' hn =>
    refine .panic (s' := { it with operations := s' }) ?_
    rw [rnext_zero h0]
    rw [RebaseIter.loop]
    split <;> rename_i h2 <;> rw [hd, hn] at h2 <;>
      simp only [Prod.mk.injEq, Res.ok.injEq, Option.some.injEq, reduceCtorEq, false_and] at h2
    rw [← h2.2]; rfl
  | @item s s' x ops e hn _ ih =>
    obtain ⟨c, op⟩ := x
    rw [← hd] at hn
    have hl := rloop_some hn
    obtain ⟨_, _, _, _, hat⟩ := op_lt hn
    rw [List.map_cons]
    have hih : ∀ (jt : RebaseIter), jt.operations = s' → jt.remaining = 0 → jt.pointerSize = it.pointerSize →
      jt.rebase.segmentOffset < 2 ^ 64 →
      Runs RebaseIter.next jt (evalRebases it.pointerSize (rabs jt) (ops.map (·.2)) e).1
        (evalRebases it.pointerSize (rabs jt) (ops.map (·.2)) e).2 := by
      intro jt j1 j2 j3 j4
      have := ih jt j1 j2 (by rw [j3]; exact hp) j4
      rwa [j3] at this
    unfold evalRebases
    cases op with
    | done =>
      refine .done (s' := { it with operations := s' }) ?_
      rw [rnext_zero h0, hl]; rfl
    | setType k =>
      refine Runs.congr (rnext_set h0 (by exact h0) hl) ?_
      exact hih { it with operations := s', setType := true, rebase := { it.rebase with kind := k } } rfl h0 rfl ho
    | setSegmentAndOffset i o =>
      refine Runs.congr (rnext_set h0 (by exact h0) hl) ?_
      have hlt : o < 2 ^ 64 := by
        generalize it.operations = dd at hat
        cases hat with
        | setSegment _ hv => obtain ⟨g, -, -, -, -, h5⟩ := hv; exact h5
      exact hih { it with operations := s', setSegment := true, rebase := { it.rebase with segmentIndex := i, segmentOffset := o } }
        rfl h0 rfl hlt
    | addAddr n =>
      refine Runs.congr (rnext_set h0 (by exact h0) hl) ?_
      have := hih { it with operations := s', rebase := { it.rebase with segmentOffset := (it.rebase.segmentOffset + n) % U64 } }
        rfl h0 rfl (Nat.mod_lt _ (by decide))
      refine cast ?_ this
      simp only [rabs, move]
      cases it.setSegment <;> rfl
    | addAddrScaled n =>
      refine Runs.congr (rnext_set h0 (by exact h0) hl) ?_
      have := hih { it with operations := s', rebase := { it.rebase with
        segmentOffset := (it.rebase.segmentOffset + n * it.pointerSize) % U64 } } rfl h0 rfl (Nat.mod_lt _ (by decide))
      refine cast ?_ this
      simp only [rabs, move]
      cases it.setSegment <;> rfl
    | doRebaseTimes n =>
      simp only at hl ⊢
      by_cases hn0 : n = 0
      · rw [if_pos hn0] at hl ⊢
        exact Runs.congr (rnext_set h0 (by exact h0) hl) (hih { it with operations := s' } rfl h0 rfl ho)
      · rw [if_neg hn0] at hl ⊢
        exact rdo it _ n it.pointerSize s' _ e h0 hn0 ho (by rw [Nat.mod_eq_of_lt hp]) hl hih
    | doRebaseAddAddr o =>
      simp only at hl ⊢
      rw [if_neg (by decide)]
      exact rdo it _ 1 (it.pointerSize + o) s' _ e h0 (by decide) ho rfl hl hih
    | doRebaseTimesSkipping n skip =>
      simp only at hl ⊢
      by_cases hn0 : n = 0
      · rw [if_pos hn0] at hl ⊢
        exact Runs.congr (rnext_set h0 (by exact h0) hl) (hih { it with operations := s' } rfl h0 rfl ho)
      · rw [if_neg hn0] at hl ⊢
        exact rdo it _ n (it.pointerSize + skip) s' _ e h0 hn0 ho rfl hl hih


/-! ### Bind operations -/

/-- The parser after the first byte. -/
def bbody (opcode immediate : Nat) (data : List UInt8) : Res (Nat × BindOp) × List UInt8 :=
  let uleb (k : Nat → BindOp) : Res (Nat × BindOp) × List UInt8 :=
    match Bytes.readUleb data with
    | (.ok v, d) => (.ok (opcode, k v), d)
    | (.err, d) => (.err, d)
    | (.panic, d) => (.panic, d)
  if opcode = 0x00 then (.ok (opcode, .done), data)
  else if opcode = 0x10 then (.ok (opcode, .setDylibOrdinal immediate), data)
  else if opcode = 0x20 then uleb fun ordinal => .setDylibOrdinal ordinal
  else if opcode = 0x30 then (.ok (opcode, .setDylibSpecial (specialOrdinal immediate)), data)
  else if opcode = 0x40 then
    match Bytes.readString data with
    | (.ok name, d) => (.ok (opcode, .setSymbol immediate name), d)
    | (.err, d) => (.err, d)
    | (.panic, d) => (.panic, d)
  else if opcode = 0x50 then (.ok (opcode, .setType immediate), data)
  else if opcode = 0x60 then
    match Bytes.readSleb data with
    | (.ok v, d) => (.ok (opcode, .setAddend v), d)
    | (.err, d) => (.err, d)
    | (.panic, d) => (.panic, d)
  else if opcode = 0x70 then uleb fun offset => .setSegmentAndOffset immediate offset
  else if opcode = 0x80 then uleb fun offset => .addAddr offset
  else if opcode = 0x90 then (.ok (opcode, .doBind), data)
  else if opcode = 0xa0 then uleb fun offset => .doBindAddAddr offset
  else if opcode = 0xb0 then (.ok (opcode, .doBindAddAddrScaled immediate), data)
  else if opcode = 0xc0 then
    match Bytes.readUleb data with
    | (.ok count, d) =>
      match Bytes.readUleb d with
      | (.ok skip, d) => (.ok (opcode, .doBindTimesSkipping count skip), d)
      | (.err, d) => (.err, d)
      | (.panic, d) => (.panic, d)
    | (.err, d) => (.err, d)
    | (.panic, d) => (.panic, d)
  else (.err, data)

theorem bparse_cons (b : UInt8) (tl : List UInt8) :
    BindOp.parse (b :: tl) = bbody (16 * (b.toNat / 16)) (b.toNat % 16) tl := by
  have : BindOp.parse (b :: tl) = bbody (b.toNat &&& 0xf0) (b.toNat &&& 0x0f) tl := by
    unfold BindOp.parse
    rw [read1]
    rfl
  rw [this, (nib b).1, (nib b).2.1]

private theorem special_fin : ∀ i : Fin 16, specialOrdinal i.val = special i.val := by decide +kernel

theorem special_eq (b : UInt8) : specialOrdinal (b.toNat % 16) = special (b.toNat % 16) :=
  special_fin ⟨b.toNat % 16, Nat.mod_lt _ (by decide)⟩

private theorem sleb_case {α : Type} {data d : List UInt8} {opc : Nat} {k : Int → α} {x : Nat × α} :
    (match Bytes.readSleb data with
      | (.ok v, d) => (.ok (opc, k v), d)
      | (.err, d) => (.err, d)
      | (.panic, d) => (.panic, d)) = ((.ok x, d) : Res (Nat × α) × List UInt8) ↔ ∃ v, Sleb data v d ∧ x = (opc, k v) := by
  constructor
  · intro h
    split at h
    · rename_i v d' hu
      simp only [Prod.mk.injEq, Res.ok.injEq] at h
      obtain ⟨rfl, rfl⟩ := h
      exact ⟨v, (sleb_iff ..).1 hu, rfl⟩
    · simp at h
    · simp at h
  · rintro ⟨v, h, rfl⟩
    rw [(sleb_iff ..).2 h]

private theorem cstr_case {α : Type} {data d : List UInt8} {opc : Nat} {k : List UInt8 → α} {x : Nat × α} :
    (match Bytes.readString data with
      | (.ok v, d) => (.ok (opc, k v), d)
      | (.err, d) => (.err, d)
      | (.panic, d) => (.panic, d)) = ((.ok x, d) : Res (Nat × α) × List UInt8) ↔ ∃ v, CStr data v d ∧ x = (opc, k v) := by
  constructor
  · intro h
    split at h
    · rename_i v d' hu
      simp only [Prod.mk.injEq, Res.ok.injEq] at h
      obtain ⟨rfl, rfl⟩ := h
      exact ⟨v, (cstr_iff ..).1 hu, rfl⟩
    · simp at h
    · simp at h
  · rintro ⟨v, h, rfl⟩
    rw [(cstr_iff ..).2 h]

theorem bparse_iff (b : UInt8) (tl rest : List UInt8) (c : Nat) (op : BindOp) :
    BindOp.parse (b :: tl) = (.ok (c, op), rest) ↔ c = 16 * (b.toNat / 16) ∧ BindOpAt (b :: tl) op rest := by
  rw [bparse_cons]
  unfold bbody
  rw [special_eq]
  have hlt := (nib b).2.2
  constructor
  · intro h
    simp only at h
    rcases Nat.lt_or_ge (b.toNat / 16) 13 with h9 | h9
    · have : b.toNat / 16 = 0 ∨ b.toNat / 16 = 1 ∨ b.toNat / 16 = 2 ∨ b.toNat / 16 = 3 ∨ b.toNat / 16 = 4 ∨ b.toNat / 16 = 5 ∨
        b.toNat / 16 = 6 ∨ b.toNat / 16 = 7 ∨ b.toNat / 16 = 8 ∨ b.toNat / 16 = 9 ∨ b.toNat / 16 = 10 ∨ b.toNat / 16 = 11 ∨
        b.toNat / 16 = 12 := by omega
      rcases this with hc | hc | hc | hc | hc | hc | hc | hc | hc | hc | hc | hc | hc <;> rw [hc] at h ⊢ <;>
        simp only [Nat.reduceMul, Nat.reduceEqDiff, if_true, if_false, uleb_case, uleb2_case, sleb_case, cstr_case] at h
      · simp only [Prod.mk.injEq, Res.ok.injEq] at h; obtain ⟨⟨rfl, rfl⟩, rfl⟩ := h; exact ⟨rfl, .done hc⟩
      · simp only [Prod.mk.injEq, Res.ok.injEq] at h; obtain ⟨⟨rfl, rfl⟩, rfl⟩ := h; exact ⟨rfl, .ordinalImm hc⟩
      · obtain ⟨v, hv, hx⟩ := h; simp only [Prod.mk.injEq] at hx; obtain ⟨rfl, rfl⟩ := hx; exact ⟨rfl, .ordinalUleb hc hv⟩
      · simp only [Prod.mk.injEq, Res.ok.injEq] at h; obtain ⟨⟨rfl, rfl⟩, rfl⟩ := h; exact ⟨rfl, .special hc⟩
      · obtain ⟨v, hv, hx⟩ := h; simp only [Prod.mk.injEq] at hx; obtain ⟨rfl, rfl⟩ := hx; exact ⟨rfl, .symbol hc hv⟩
      · simp only [Prod.mk.injEq, Res.ok.injEq] at h; obtain ⟨⟨rfl, rfl⟩, rfl⟩ := h; exact ⟨rfl, .setType hc⟩
      · obtain ⟨v, hv, hx⟩ := h; simp only [Prod.mk.injEq] at hx; obtain ⟨rfl, rfl⟩ := hx; exact ⟨rfl, .addend hc hv⟩
      · obtain ⟨v, hv, hx⟩ := h; simp only [Prod.mk.injEq] at hx; obtain ⟨rfl, rfl⟩ := hx; exact ⟨rfl, .setSegment hc hv⟩
      · obtain ⟨v, hv, hx⟩ := h; simp only [Prod.mk.injEq] at hx; obtain ⟨rfl, rfl⟩ := hx; exact ⟨rfl, .addAddr hc hv⟩
      · simp only [Prod.mk.injEq, Res.ok.injEq] at h; obtain ⟨⟨rfl, rfl⟩, rfl⟩ := h; exact ⟨rfl, .doBind hc⟩
      · obtain ⟨v, hv, hx⟩ := h; simp only [Prod.mk.injEq] at hx; obtain ⟨rfl, rfl⟩ := hx; exact ⟨rfl, .doAddAddr hc hv⟩
      · simp only [Prod.mk.injEq, Res.ok.injEq] at h; obtain ⟨⟨rfl, rfl⟩, rfl⟩ := h; exact ⟨rfl, .doAddAddrScaled hc⟩
      · obtain ⟨v, w, d, hv, hw, hx⟩ := h; simp only [Prod.mk.injEq] at hx; obtain ⟨rfl, rfl⟩ := hx
        exact ⟨rfl, .doTimesSkipping hc hv hw⟩
    · iterate 13 rw [if_neg (by omega)] at h
      simp at h
  · rintro ⟨rfl, h⟩
    simp only
    cases h with
    | done hc => simp [hc]
    | ordinalImm hc => simp [hc]
    | ordinalUleb hc hv => simp only [hc, Nat.reduceMul, Nat.reduceEqDiff, if_true, if_false, uleb_case]; exact ⟨_, hv, rfl⟩
    | special hc => simp [hc]
    | symbol hc hv => simp only [hc, Nat.reduceMul, Nat.reduceEqDiff, if_true, if_false, cstr_case]; exact ⟨_, hv, rfl⟩
    | setType hc => simp [hc]
    | addend hc hv => simp only [hc, Nat.reduceMul, Nat.reduceEqDiff, if_true, if_false, sleb_case]; exact ⟨_, hv, rfl⟩
    | setSegment hc hv => simp only [hc, Nat.reduceMul, Nat.reduceEqDiff, if_true, if_false, uleb_case]; exact ⟨_, hv, rfl⟩
    | addAddr hc hv => simp only [hc, Nat.reduceMul, Nat.reduceEqDiff, if_true, if_false, uleb_case]; exact ⟨_, hv, rfl⟩
    | doBind hc => simp [hc]
    | doAddAddr hc hv => simp only [hc, Nat.reduceMul, Nat.reduceEqDiff, if_true, if_false, uleb_case]; exact ⟨_, hv, rfl⟩
    | doAddAddrScaled hc => simp [hc]
    | doTimesSkipping hc hv hw =>
      simp only [hc, Nat.reduceMul, Nat.reduceEqDiff, if_true, if_false, uleb2_case]; exact ⟨_, _, _, hv, hw, rfl⟩

theorem bparse_no_panic (d : List UInt8) : (BindOp.parse d).1 ≠ .panic := by
  cases d with
  | nil => simp [BindOp.parse, Bytes.read, Bytes.readBytes]
  | cons b tl =>
    rw [bparse_cons]
    generalize 16 * (b.toNat / 16) = opc
    generalize b.toNat % 16 = imm
    have hu : ∀ (d : List UInt8) (k : Nat → BindOp), (match Bytes.readUleb d with
      | (.ok v, d) => ((.ok (opc, k v), d) : Res (Nat × BindOp) × List UInt8)
      | (.err, d) => (.err, d)
      | (.panic, d) => (.panic, d)).1 ≠ .panic := by
      intro d k
      split
      · simp
      · simp
      · rename_i h; exact absurd (congrArg Prod.fst h) (readUleb_no_panic d)
    unfold bbody
    simp only
    by_cases c0 : opc = 0
    · rw [if_pos c0]; simp
    rw [if_neg c0]
    by_cases c1 : opc = 16
    · rw [if_pos c1]; simp
    rw [if_neg c1]
    by_cases c2 : opc = 32
    · rw [if_pos c2]; exact hu _ _
    rw [if_neg c2]
    by_cases c3 : opc = 48
    · rw [if_pos c3]; simp
    rw [if_neg c3]
    by_cases c4 : opc = 64
    · rw [if_pos c4]
      split
      · simp
      · simp
      · rename_i h; exact absurd (congrArg Prod.fst h) (readString_no_panic' tl)
    rw [if_neg c4]
    by_cases c5 : opc = 80
    · rw [if_pos c5]; simp
    rw [if_neg c5]
    by_cases c6 : opc = 96
    · rw [if_pos c6]
      split
      · simp
      · simp
      · rename_i h; exact absurd (congrArg Prod.fst h) (readSleb_no_panic tl)
    rw [if_neg c6]
    by_cases c7 : opc = 112
    · rw [if_pos c7]; exact hu _ _
    rw [if_neg c7]
    by_cases c8 : opc = 128
    · rw [if_pos c8]; exact hu _ _
    rw [if_neg c8]
    by_cases c9 : opc = 144
    · rw [if_pos c9]; simp
    rw [if_neg c9]
    by_cases c10 : opc = 160
    · rw [if_pos c10]; exact hu _ _
    rw [if_neg c10]
    by_cases c11 : opc = 176
    · rw [if_pos c11]; simp
    rw [if_neg c11]
    by_cases c12 : opc = 192
    · rw [if_pos c12]
      split
      · exact hu _ _
      · simp
      · rename_i h; exact absurd (congrArg Prod.fst h) (readUleb_no_panic tl)
    rw [if_neg c12]
    simp

theorem bindOpNext_eq : bindOpNext = fuseNext BindOp.parse := by
  funext d
  unfold bindOpNext fuseNext
  split
  · rfl
  · split <;> rename_i h <;> rw [h]

theorem bop_lt {d d' : List UInt8} {c : Nat} {op : BindOp} (h : bindOpNext d = (.ok (some (c, op)), d')) :
    ∃ b tl, d = b :: tl ∧ c = 16 * (b.toNat / 16) ∧ BindOpAt d op d' := by
  have := (fuseNext_some_iff (parse := BindOp.parse)).1 (bindOpNext_eq ▸ h)
  cases d with
  | nil => exact absurd rfl this.1
  | cons b tl =>
    have := (bparse_iff ..).1 this.2
    exact ⟨b, tl, rfl, this.1, this.2⟩

/-! ### Binds -/

/-- The specification's view of the state. -/
def babs (it : BindIter) : BState :=
  ⟨if it.setSegment then some (it.bind.segmentIndex, it.bind.segmentOffset) else none,
   if it.setType then some it.bind.kind else none,
   if it.setDylib then some it.bind.dylib else none,
   if it.setSymbol then some (it.bind.symbol, it.bind.flags) else none,
   it.bind.addend⟩

/-- What `next` does with the result of `next_inner`. -/
def bfuse (r : Res (Option Bind) × BindIter) : Res (Option Bind) × BindIter :=
  match r with
  | (.err, it) => (.err, { it with remaining := 0, operations := [] })
  | r => r

theorem bnext_zero {it : BindIter} (h : it.remaining = 0) : it.next = bfuse it.loop := by
  show bfuse it.nextInner = _
  unfold BindIter.nextInner
  rw [if_neg (by simpa using h)]

theorem bnext_pos {it : BindIter} (h : it.remaining ≠ 0) : it.next = bfuse it.emit := by
  show bfuse it.nextInner = _
  unfold BindIter.nextInner
  rw [if_pos h]

/-- A run of binds. -/
theorem bemit_runs (n : Nat) (it : BindIter) (hn : it.remaining = n) (hs : it.setSegment = true) (ht : it.setType = true)
    (hl : it.setDylib = true) (hy : it.setSymbol = true)
    (stride : Nat) (ha : it.advance = stride % 2 ^ 64) (ho : it.bind.segmentOffset < 2 ^ 64) (ys : List Bind) (f : End)
    (hk : Runs BindIter.next { it with remaining := 0, bind := { it.bind with
      segmentOffset := (it.bind.segmentOffset + n * stride) % 2 ^ 64 } } ys f) :
    Runs BindIter.next it ((List.range n).map (fun j => ⟨it.bind.segmentIndex,
      (it.bind.segmentOffset + j * stride) % 2 ^ 64, it.bind.kind, it.bind.dylib, it.bind.symbol, it.bind.flags,
      it.bind.addend⟩) ++ ys) f := by
  induction n generalizing it with
  | zero =>
    simp only [Nat.zero_mul, Nat.add_zero, Nat.mod_eq_of_lt ho] at hk
    have : ({ it with remaining := 0 } : BindIter) = it := by rw [← hn]
    simpa [this] using hk
  | succ n ih =>
    have hstep : it.next = (.ok (some it.bind),
        { it with bind := { it.bind with segmentOffset := (it.bind.segmentOffset + it.advance) % U64 }, remaining := n }) := by
      rw [bnext_pos (by omega)]
      unfold BindIter.emit
      rw [if_neg (by simp [hs]), if_neg (by simp [ht]), if_neg (by simp [hl]), if_neg (by simp [hy]), hn]
      rfl
    rw [List.range_succ_eq_map, List.map_cons, List.cons_append]
    have hfirst : (⟨it.bind.segmentIndex, (it.bind.segmentOffset + 0 * stride) % 2 ^ 64, it.bind.kind, it.bind.dylib, it.bind.symbol,
        it.bind.flags, it.bind.addend⟩ : Bind) = it.bind := by
      rw [Nat.zero_mul, Nat.add_zero, Nat.mod_eq_of_lt ho]
    rw [hfirst]
    refine .item hstep ?_
    have hlt : (it.bind.segmentOffset + it.advance) % 2 ^ 64 < 2 ^ 64 := Nat.mod_lt _ (by decide)
    have hmod : ∀ j, ((it.bind.segmentOffset + it.advance) % 2 ^ 64 + j * stride) % 2 ^ 64 =
        (it.bind.segmentOffset + (j + 1) * stride) % 2 ^ 64 := by
      intro j
      rw [ha, Nat.add_mul, Nat.one_mul]
      generalize j * stride = t
      omega
    have := ih { it with bind := { it.bind with segmentOffset := (it.bind.segmentOffset + it.advance) % U64 }, remaining := n }
      rfl hs ht hl hy ha hlt (by simp only [hmod]; exact hk)
    simp only [List.map_map]
    refine cast ?_ this
    congr 2
    refine List.map_congr_left fun j _ => ?_
    simp only [Function.comp, Bind.mk.injEq, true_and, and_true]
    exact hmod j

theorem bloop_some {it : BindIter} {c : Nat} {op : BindOp} {d : List UInt8}
    (h : bindOpNext it.operations = (.ok (some (c, op)), d)) : it.loop = match op with
    | .done => if it.isLazy then BindIter.loop (.newLazy d it.pointerSize) else (.ok none, { it with operations := d })
    | .setDylibOrdinal ordinal =>
      if ordinal < 2 ^ 31 then
        BindIter.loop { it with operations := d, setDylib := true, bind := { it.bind with dylib := ordinal } }
      else (.err, { it with operations := d })
    | .setDylibSpecial ordinal =>
      BindIter.loop { it with operations := d, setDylib := true, bind := { it.bind with dylib := ordinal } }
    | .setSymbol flags name =>
      BindIter.loop { it with operations := d, setSymbol := true, bind := { it.bind with flags := flags, symbol := name } }
    | .setType kind =>
      BindIter.loop { it with operations := d, setType := true, bind := { it.bind with kind := kind } }
    | .setAddend addend =>
      BindIter.loop { it with operations := d, bind := { it.bind with addend := addend } }
    | .setSegmentAndOffset index offset =>
      BindIter.loop { it with operations := d, setSegment := true,
                              bind := { it.bind with segmentIndex := index, segmentOffset := offset } }
    | .addAddr offset =>
      BindIter.loop { it with operations := d,
                              bind := { it.bind with segmentOffset := (it.bind.segmentOffset + offset) % U64 } }
    | .doBind => BindIter.emit { it with operations := d, remaining := 1, advance := it.pointerSize }
    | .doBindAddAddr offset =>
      BindIter.emit { it with operations := d, remaining := 1, advance := (it.pointerSize + offset) % U64 }
    | .doBindAddAddrScaled count =>
      BindIter.emit { it with operations := d, remaining := 1, advance := it.pointerSize * (count + 1) }
    | .doBindTimesSkipping count skip =>
      if count = 0 then BindIter.loop { it with operations := d }
      else BindIter.emit { it with operations := d, remaining := count, advance := (it.pointerSize + skip) % U64 } := by
  rw [BindIter.loop]
  split <;> rename_i h2 <;> rw [h] at h2 <;>
    simp only [Prod.mk.injEq, Res.ok.injEq, Option.some.injEq, reduceCtorEq, false_and] at h2
  obtain ⟨⟨rfl, rfl⟩, rfl⟩ := h2
  rfl

private theorem bnext_set {it it' : BindIter} (h : it.remaining = 0) (h' : it'.remaining = 0) (hl : it.loop = it'.loop) :
    it.next = it'.next := by rw [bnext_zero h, bnext_zero h', hl]

private theorem bnext_do {it it' : BindIter} (h : it.remaining = 0) (h' : it'.remaining ≠ 0) (hl : it.loop = it'.emit) :
    it.next = it'.next := by rw [bnext_zero h, bnext_pos h', hl]

private theorem bdo (it it' : BindIter) (n stride : Nat) (d : List UInt8) (ops : List BindOp) (e : End) (h0 : it.remaining = 0)
    (hn : n ≠ 0) (ho : it.bind.segmentOffset < 2 ^ 64)
    (hit : it' = { it with operations := d, remaining := n, advance := stride % 2 ^ 64 }) (hl : it.loop = it'.emit)
    (ih : ∀ (jt : BindIter), jt.operations = d → jt.remaining = 0 → jt.pointerSize = it.pointerSize → jt.isLazy = it.isLazy →
      jt.bind.segmentOffset < 2 ^ 64 →
      Runs BindIter.next jt (evalBinds it.pointerSize it.isLazy (babs jt) ops e).1
        (evalBinds it.pointerSize it.isLazy (babs jt) ops e).2) :
    Runs BindIter.next it
      (match (babs it).binds n stride with
        | none => (([], .err) : List Bind × End)
        | some (xs, st') => (xs ++ (evalBinds it.pointerSize it.isLazy st' ops e).1, (evalBinds it.pointerSize it.isLazy st' ops e).2)).1
      (match (babs it).binds n stride with
        | none => (([], .err) : List Bind × End)
        | some (xs, st') => (xs ++ (evalBinds it.pointerSize it.isLazy st' ops e).1,
            (evalBinds it.pointerSize it.isLazy st' ops e).2)).2 := by
  have hr : it'.remaining = n := by rw [hit]
  refine Runs.congr (bnext_do h0 (by omega) hl) ?_
  have herr : it'.emit = (.err, it') → Runs BindIter.next it' [] .err := by
    intro h
    refine .err (s' := { it' with remaining := 0, operations := [] }) ?_
    rw [bnext_pos (by omega), h]; rfl
  unfold BState.binds babs
  by_cases hs : it.setSegment = true
  · by_cases ht : it.setType = true
    · by_cases hd : it.setDylib = true
      · by_cases hy : it.setSymbol = true
        · simp only [hs, ht, hd, hy, if_true]
          have := bemit_runs n it' hr (by rw [hit]; exact hs) (by rw [hit]; exact ht) (by rw [hit]; exact hd) (by rw [hit]; exact hy)
            stride (by rw [hit]) (by rw [hit]; exact ho) _ _
            (ih _ (by rw [hit]) rfl (by rw [hit]) (by rw [hit]) (by exact Nat.mod_lt _ (by decide)))
          rw [hit] at this ⊢
          simp only [babs, hs, ht, hd, hy, if_true] at this ⊢
          exact this
        · have hy : it.setSymbol = false := by simpa using hy
          simp only [hs, ht, hd, hy, if_true, Bool.false_eq_true, if_false]
          apply herr
          unfold BindIter.emit
          rw [if_neg (by rw [hit]; simp [hs]), if_neg (by rw [hit]; simp [ht]), if_neg (by rw [hit]; simp [hd]),
            if_pos (by rw [hit]; simp [hy])]
      · have hd : it.setDylib = false := by simpa using hd
        simp only [hs, ht, hd, if_true, Bool.false_eq_true, if_false]
        apply herr
        unfold BindIter.emit
        rw [if_neg (by rw [hit]; simp [hs]), if_neg (by rw [hit]; simp [ht]), if_pos (by rw [hit]; simp [hd])]
    · have ht : it.setType = false := by simpa using ht
      simp only [hs, ht, if_true, Bool.false_eq_true, if_false]
      apply herr
      unfold BindIter.emit
      rw [if_neg (by rw [hit]; simp [hs]), if_pos (by rw [hit]; simp [ht])]
  · have hs : it.setSegment = false := by simpa using hs
    simp only [hs, Bool.false_eq_true, if_false]
    apply herr
    unfold BindIter.emit
    rw [if_pos (by rw [hit]; simp [hs])]

theorem bind_runs {d : List UInt8} {ops : List (Nat × BindOp)} {e : End} (h : Runs bindOpNext d ops e) (it : BindIter)
    (hd : it.operations = d) (h0 : it.remaining = 0) (hp : it.pointerSize < 2 ^ 8) (ho : it.bind.segmentOffset < 2 ^ 64) :
    Runs BindIter.next it (evalBinds it.pointerSize it.isLazy (babs it) (ops.map (·.2)) e).1
      (evalBinds it.pointerSize it.isLazy (babs it) (ops.map (·.2)) e).2 := by
  induction h generalizing it with
  | @done s s' hn =>
    refine .done (s' := { it with operations := s' }) ?_
    rw [bnext_zero h0]
    rw [BindIter.loop]
    split <;> rename_i h2 <;> rw [hd, hn] at h2 <;>
      simp only [Prod.mk.injEq, Res.ok.injEq, Option.some.injEq, reduceCtorEq, false_and] at h2
    rw [← h2.2]; rfl
  | @err s s' hn =>
    refine .err (s' := { it with remaining := 0, operations := [] }) ?_
    rw [bnext_zero h0]
    rw [BindIter.loop]
    split <;> rename_i h2 <;> rw [hd, hn] at h2 <;>
      simp only [Prod.mk.injEq, Res.ok.injEq, Option.some.injEq, reduceCtorEq, false_and] at h2
    rw [← h2.2]; rfl
  | @panic s s' hn =>
    refine .panic (s' := { it with operations := s' }) ?_
    rw [bnext_zero h0]
    rw [BindIter.loop]
    split <;> rename_i h2 <;> rw [hd, hn] at h2 <;>
      simp only [Prod.mk.injEq, Res.ok.injEq, Option.some.injEq, reduceCtorEq, false_and] at h2
    rw [← h2.2]; rfl
  | @item s s' x ops e hn _ ih =>
    obtain ⟨c, op⟩ := x
    rw [← hd] at hn
    have hl := bloop_some hn
    obtain ⟨_, _, _, _, hat⟩ := bop_lt hn
    rw [List.map_cons]
    have hih : ∀ (jt : BindIter), jt.operations = s' → jt.remaining = 0 → jt.pointerSize = it.pointerSize → jt.isLazy = it.isLazy →
      jt.bind.segmentOffset < 2 ^ 64 →
      Runs BindIter.next jt (evalBinds it.pointerSize it.isLazy (babs jt) (ops.map (·.2)) e).1
        (evalBinds it.pointerSize it.isLazy (babs jt) (ops.map (·.2)) e).2 := by
      intro jt j1 j2 j3 j3' j4
      have := ih jt j1 j2 (by rw [j3]; exact hp) j4
      rwa [j3, j3'] at this
    unfold evalBinds
    cases op with
    | done =>
      simp only at hl ⊢
      by_cases hz : it.isLazy = true
      · rw [if_pos hz] at hl ⊢
        refine Runs.congr (bnext_set h0 (by rfl) hl) ?_
        exact hih (.newLazy s' it.pointerSize) rfl rfl rfl hz.symm (by show (0 : Nat) < 2 ^ 64; decide)
      · rw [if_neg hz] at hl ⊢
        refine .done (s' := { it with operations := s' }) ?_
        rw [bnext_zero h0, hl]; rfl
    | setDylibOrdinal n =>
      simp only at hl ⊢
      by_cases hz : n < 2 ^ 31
      · rw [if_pos hz] at hl ⊢
        refine Runs.congr (bnext_set h0 (by exact h0) hl) ?_
        exact hih { it with operations := s', setDylib := true, bind := { it.bind with dylib := n } } rfl h0 rfl rfl ho
      · rw [if_neg hz] at hl ⊢
        refine .err (s' := { it with remaining := 0, operations := [] }) ?_
        rw [bnext_zero h0, hl]; rfl
    | setDylibSpecial n =>
      refine Runs.congr (bnext_set h0 (by exact h0) hl) ?_
      exact hih { it with operations := s', setDylib := true, bind := { it.bind with dylib := n } } rfl h0 rfl rfl ho
    | setSymbol flags name =>
      refine Runs.congr (bnext_set h0 (by exact h0) hl) ?_
      exact hih { it with operations := s', setSymbol := true, bind := { it.bind with flags := flags, symbol := name } }
        rfl h0 rfl rfl ho
    | setType k =>
      refine Runs.congr (bnext_set h0 (by exact h0) hl) ?_
      exact hih { it with operations := s', setType := true, bind := { it.bind with kind := k } } rfl h0 rfl rfl ho
    | setAddend v =>
      refine Runs.congr (bnext_set h0 (by exact h0) hl) ?_
      exact hih { it with operations := s', bind := { it.bind with addend := v } } rfl h0 rfl rfl ho
    | setSegmentAndOffset i o =>
      refine Runs.congr (bnext_set h0 (by exact h0) hl) ?_
      have hlt : o < 2 ^ 64 := by
        generalize it.operations = dd at hat
        cases hat with
        | setSegment _ hv => obtain ⟨g, -, -, -, -, h5⟩ := hv; exact h5
      exact hih { it with operations := s', setSegment := true, bind := { it.bind with segmentIndex := i, segmentOffset := o } }
        rfl h0 rfl rfl hlt
    | addAddr n =>
      refine Runs.congr (bnext_set h0 (by exact h0) hl) ?_
      have := hih { it with operations := s', bind := { it.bind with segmentOffset := (it.bind.segmentOffset + n) % U64 } }
        rfl h0 rfl rfl (Nat.mod_lt _ (by decide))
      refine cast ?_ this
      simp only [babs, move]
      cases it.setSegment <;> rfl
    | doBind =>
      simp only at hl ⊢
      rw [if_neg (by decide)]
      exact bdo it _ 1 it.pointerSize s' _ e h0 (by decide) ho (by rw [Nat.mod_eq_of_lt (by omega)]) hl hih
    | doBindAddAddr o =>
      simp only at hl ⊢
      rw [if_neg (by decide)]
      exact bdo it _ 1 (it.pointerSize + o) s' _ e h0 (by decide) ho rfl hl hih
    | doBindAddAddrScaled n =>
      simp only at hl ⊢
      rw [if_neg (by decide)]
      have hlt : n < 16 := by
        generalize it.operations = dd at hat
        cases hat with
        | doAddAddrScaled _ => exact Nat.mod_lt _ (by decide)
      have hmul : n * it.pointerSize ≤ 16 * 2 ^ 8 := Nat.mul_le_mul (by omega) (by omega)
      refine bdo it _ 1 (it.pointerSize + n * it.pointerSize) s' _ e h0 (by decide) ho ?_ hl hih
      rw [Nat.mod_eq_of_lt (by omega), Nat.mul_add, Nat.mul_one, Nat.mul_comm, Nat.add_comm]
    | doBindTimesSkipping n skip =>
      simp only at hl ⊢
      by_cases hn0 : n = 0
      · rw [if_pos hn0] at hl ⊢
        exact Runs.congr (bnext_set h0 (by exact h0) hl) (hih { it with operations := s' } rfl h0 rfl rfl ho)
      · rw [if_neg hn0] at hl ⊢
        exact bdo it _ n (it.pointerSize + skip) s' _ e h0 hn0 ho rfl hl hih

end Obj.Dyld

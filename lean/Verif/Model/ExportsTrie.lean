import Verif.Model.Bytes

/-!
# Model of the Mach-O exports trie reader, `src/read/macho/exports_trie.rs`
-/

namespace Obj.Trie
open Obj

/-- `ExportData`, src/read/macho/exports_trie.rs:213-235. -/
inductive ExportData where
  | regular (address : Nat)
  | reexport (dylibOrdinal : Nat) (importName : List UInt8)
  | stubAndResolver (stubAddress resolverAddress : Nat)
  deriving DecidableEq, Repr

/-- `ExportSymbol`, src/read/macho/exports_trie.rs:75-79. -/
structure ExportSymbol where
  name : List UInt8
  flags : Nat
  data : ExportData
  deriving DecidableEq, Repr

/-- `Frame`, src/read/macho/exports_trie.rs:103-108. -/
structure Frame where
  data : List UInt8
  offset : Nat
  childrenRemaining : Nat
  nameBufLen : Nat
  deriving DecidableEq, Repr

/-- `NodeIterator`, src/read/macho/exports_trie.rs:111-117; the top of the stack is the head of the list. -/
structure NodeIter where
  data : List UInt8
  first : Bool
  stack : List Frame
  nameBuf : List UInt8
  deriving DecidableEq, Repr

/-- `NodeIterator::new`, src/read/macho/exports_trie.rs:121-128. -/
def NodeIter.new (data : List UInt8) : NodeIter := ⟨data, true, [], []⟩

/-- `ExportData::parse`, src/read/macho/exports_trie.rs:238-279; `has_unknown_bits`, src/macho.rs:3066-3068. -/
def ExportData.parse (data : List UInt8) : Res (Nat × ExportData) :=
  match Bytes.readUleb data with
  | (.ok flags, data) =>
    if flags &&& (U64 - 1 - 0x3f) ≠ 0 then .err
    else if flags &&& 0x08 = 0x08 then
      match Bytes.readUleb data with
      | (.ok ordinal, data) =>
        match Bytes.readString data with
        | (.ok name, _) => .ok (flags, .reexport ordinal name)
        | (.err, _) => .err
        | (.panic, _) => .panic
      | (.err, _) => .err
      | (.panic, _) => .panic
    else if flags &&& 0x10 = 0x10 then
      match Bytes.readUleb data with
      | (.ok stub, data) =>
        match Bytes.readUleb data with
        | (.ok resolver, _) => .ok (flags, .stubAndResolver stub resolver)
        | (.err, _) => .err
        | (.panic, _) => .panic
      | (.err, _) => .err
      | (.panic, _) => .panic
    else
      match Bytes.readUleb data with
      | (.ok address, _) => .ok (flags, .regular address)
      | (.err, _) => .err
      | (.panic, _) => .panic
  | (.err, _) => .err
  | (.panic, _) => .panic

/-- The part of `NodeIterator::push_node` that reads, src/read/macho/exports_trie.rs:131-155: the terminal data, the number of
children and the cursor after it.  `offset as usize` is the identity (64-bit target). -/
def readNode (data : List UInt8) (offset : Nat) : Res (Option (Nat × ExportData) × Nat × List UInt8) :=
  if data.length < offset then .err
  else match Bytes.readUleb (data.drop offset) with
    | (.ok size, d) =>
      let rest (term : Option (Nat × ExportData)) (d : List UInt8) : Res (Option (Nat × ExportData) × Nat × List UInt8) :=
        match Bytes.read d 1 with
        | (.ok c, d) => .ok (term, (c.headD 0).toNat, d)
        | (.err, _) => .err
        | (.panic, _) => .panic
      if size = 0 then rest none d
      else match Bytes.readBytes d size with
        | (.ok t, d) => (ExportData.parse t).bind fun x => rest (some x) d
        | (.err, _) => .err
        | (.panic, _) => .panic
    | (.err, _) => .err
    | (.panic, _) => .panic

/-- `NodeIterator::push_node`, src/read/macho/exports_trie.rs:130-163. -/
def NodeIter.pushNode (it : NodeIter) (offset : Nat) : Res (Option (Option ExportSymbol)) × NodeIter :=
  match readNode it.data offset with
  | .ok (term, count, d) =>
    (.ok (some (term.map fun x => ⟨it.nameBuf, x.1, x.2⟩)),
      { it with stack := ⟨d, offset, count, it.nameBuf.length⟩ :: it.stack })
  | .err => (.err, it)
  | .panic => (.panic, it)

/-- The loop of `NodeIterator::next`, src/read/macho/exports_trie.rs:175-201.  The subtraction cannot underflow. -/
def nodeLoop (data : List UInt8) : List Frame → List UInt8 → Res (Option (Option ExportSymbol)) × NodeIter
  | [], nameBuf => (.ok none, ⟨data, false, [], nameBuf⟩)
  | frame :: stack, nameBuf =>
    let nameBuf := nameBuf.take frame.nameBufLen
    if frame.childrenRemaining = 0 then nodeLoop data stack nameBuf
    else match Bytes.readString frame.data with
      | (.ok edge, d) =>
        match Bytes.readUleb d with
        | (.ok child, d) =>
          let stack := { frame with data := d, childrenRemaining := frame.childrenRemaining - 1 } :: stack
          let it : NodeIter := ⟨data, false, stack, nameBuf ++ edge⟩
          if stack.any (fun f => f.offset = child) then (.err, it)
          else it.pushNode child
        | (.err, d) => (.err, ⟨data, false, { frame with data := d } :: stack, nameBuf⟩)
        | (.panic, d) => (.panic, ⟨data, false, { frame with data := d } :: stack, nameBuf⟩)
      | (.err, d) => (.err, ⟨data, false, { frame with data := d } :: stack, nameBuf⟩)
      | (.panic, d) => (.panic, ⟨data, false, { frame with data := d } :: stack, nameBuf⟩)

/-- `NodeIterator::next`, src/read/macho/exports_trie.rs:169-202. -/
def NodeIter.next (it : NodeIter) : Res (Option (Option ExportSymbol)) × NodeIter :=
  if it.first then NodeIter.pushNode { it with first := false } 0
  else nodeLoop it.data it.stack it.nameBuf

/-! ### Termination of the loop in `ExportsTrieIterator::next`

The following is not part of the code: a bound on the number of nodes that are still to be visited. -/

/-- Upper bound for the number of steps in a subtrie, if `k` offsets are not on the path to it. -/
def weight : Nat → Nat
  | 0 => 1
  | k + 1 => 2 + 255 * weight k

/-- Offsets that are not on the stack. -/
def free (len : Nat) (stack : List Frame) : Nat := ((List.range len).filter fun o => !stack.any (fun f => f.offset = o)).length

def stackWeight (len : Nat) : List Frame → Nat
  | [] => 0
  | f :: fs => 1 + f.childrenRemaining * weight (free len (f :: fs)) + stackWeight len fs

def NodeIter.measure (it : NodeIter) : Nat :=
  (if it.first then weight (it.data.length + 1) else 0) + stackWeight it.data.length it.stack

theorem readNode_lt {data : List UInt8} {offset : Nat} {x : Option (Nat × ExportData) × Nat × List UInt8}
    (h : readNode data offset = .ok x) : offset < data.length ∧ x.2.1 ≤ 255 := by
  unfold readNode at h
  have hr : ∀ (term : Option (Nat × ExportData)) (d : List UInt8),
      (match Bytes.read d 1 with
        | (.ok c, d) => (.ok (term, (c.headD 0).toNat, d) : Res (Option (Nat × ExportData) × Nat × List UInt8))
        | (.err, _) => .err
        | (.panic, _) => .panic) = .ok x → x.2.1 ≤ 255 := by
    intro term d hx
    split at hx
    · rename_i c _ _
      simp only [Res.ok.injEq] at hx
      subst hx
      have := (List.headD c 0).toNat_lt
      simp only; omega
    · simp at hx
    · simp at hx
  split at h
  · simp at h
  · constructor
    · cases hd : data.drop offset with
      | nil => rw [hd] at h; simp [Bytes.readUleb, Bytes.readUlebLoop] at h
      | cons b l => have := congrArg List.length hd; simp at this; omega
    · split at h
      · simp only at h
        split at h
        · exact hr _ _ h
        · split at h
          · rename_i t _ _
            cases he : ExportData.parse t with
            | ok y => rw [he] at h; exact hr _ _ h
            | err => rw [he] at h; simp at h
            | panic => rw [he] at h; simp at h
          · simp at h
          · simp at h
      · simp at h
      · simp at h

private theorem filter_length_lt {p q : Nat → Bool} (c : Nat) (hpq : ∀ o, q o = (p o && o != c)) (hc : p c = true) (l : List Nat)
    (hl : l.Nodup) (hm : c ∈ l) : (l.filter q).length + 1 = (l.filter p).length := by
  induction l with
  | nil => simp at hm
  | cons a l ih =>
    rw [List.nodup_cons] at hl
    by_cases hac : a = c
    · subst hac
      have : l.filter q = l.filter p := by
        refine List.filter_congr fun o ho => ?_
        rw [hpq]
        have : o ≠ a := fun h => hl.1 (h ▸ ho)
        simp [this]
      rw [List.filter_cons, List.filter_cons, hpq a, hc, this]
      simp
    · rw [List.filter_cons, List.filter_cons, hpq a]
      have := ih hl.2 (by simpa [Ne.symm hac] using hm)
      by_cases hp : p a = true
      · simp [hp, hac, this]
      · simp [hp, this]

private theorem free_cons {len : Nat} {stack : List Frame} {f : Frame} (h : f.offset < len)
    (hn : stack.any (fun g => g.offset = f.offset) = false) : free len (f :: stack) + 1 = free len stack := by
  unfold free
  refine filter_length_lt f.offset ?_ ?_ _ List.nodup_range (by simpa using h)
  · intro o
    simp only [List.any_cons, Bool.not_or]
    rw [Bool.and_comm]
    congr 1
    by_cases ho : f.offset = o
    · simp [ho]
    · simp [ho, Ne.symm ho]
  · simp [hn]

theorem pushNode_measure {it it' : NodeIter} {x : Option ExportSymbol} {off : Nat}
    (h : it.pushNode off = (.ok (some x), it')) (hn : it.stack.any (fun g => g.offset = off) = false) :
    it'.first = it.first ∧
    stackWeight it'.data.length it'.stack + 1 ≤ weight (free it.data.length it.stack) + stackWeight it.data.length it.stack := by
  unfold NodeIter.pushNode at h
  split at h
  · rename_i term count d hr
    simp only [Prod.mk.injEq] at h
    obtain ⟨-, rfl⟩ := h
    obtain ⟨h1, h2⟩ := readNode_lt hr
    simp only at h2
    refine ⟨rfl, ?_⟩
    have hf := free_cons (f := ⟨d, off, count, it.nameBuf.length⟩) h1 hn
    simp only [stackWeight]
    rw [← hf]
    simp only [weight]
    have := Nat.mul_le_mul_right (weight (free it.data.length (⟨d, off, count, it.nameBuf.length⟩ :: it.stack))) h2
    omega
  · simp at h
  · simp at h

theorem nodeLoop_measure (data : List UInt8) (stack : List Frame) (nb : List UInt8) {x : Option ExportSymbol} {it' : NodeIter}
    (h : nodeLoop data stack nb = (.ok (some x), it')) : it'.first = false ∧ it'.data = data ∧
      stackWeight data.length it'.stack < stackWeight data.length stack := by
  induction stack generalizing nb with
  | nil => simp [nodeLoop] at h
  | cons f fs ih =>
    unfold nodeLoop at h
    simp only at h
    split at h
    · have := ih _ h
      refine ⟨this.1, this.2.1, ?_⟩
      simp only [stackWeight]; omega
    · rename_i hc
      split at h
      · split at h
        · split at h
          · simp at h
          · rename_i d hru hany
            have hm := pushNode_measure h (by simpa using hany)
            have hd : it'.data = data := by
              unfold NodeIter.pushNode at h
              split at h <;> simp only [Prod.mk.injEq] at h <;> obtain ⟨-, rfl⟩ := h <;> rfl
            rw [hd] at hm
            refine ⟨hm.1, hd, ?_⟩
            have := hm.2
            simp only [stackWeight] at this ⊢
            have hfr : ∀ (f' : Frame), f'.offset = f.offset → free data.length (f' :: fs) = free data.length (f :: fs) := by
              intro f' hf'
              unfold free
              simp only [List.any_cons, hf']
            rw [hfr ⟨d, f.offset, f.childrenRemaining - 1, f.nameBufLen⟩ rfl] at this
            have hsub : f.childrenRemaining * weight (free data.length (f :: fs)) =
                (f.childrenRemaining - 1) * weight (free data.length (f :: fs)) + weight (free data.length (f :: fs)) := by
              rw [← Nat.succ_mul]; congr 1; omega
            omega
        · simp at h
        · simp at h
      · simp at h
      · simp at h

theorem next_measure {it it' : NodeIter} {x : Option ExportSymbol} (h : it.next = (.ok (some x), it')) :
    it'.measure < it.measure := by
  unfold NodeIter.next at h
  unfold NodeIter.measure
  split at h
  · rename_i hf
    rw [if_pos hf]
    unfold NodeIter.pushNode at h
    split at h
    · rename_i term count d hr
      simp only [Prod.mk.injEq] at h
      obtain ⟨-, rfl⟩ := h
      obtain ⟨h1, h2⟩ := readNode_lt hr
      simp only [Bool.false_eq_true, if_false, stackWeight, weight] at h2 ⊢
      have hw : weight (free it.data.length (⟨d, 0, count, it.nameBuf.length⟩ :: it.stack)) ≤ weight it.data.length := by
        have hmono : ∀ a b, a ≤ b → weight a ≤ weight b := by
          intro a b hab
          induction hab with
          | refl => exact Nat.le_refl _
          | step _ ih => simp only [weight]; omega
        refine hmono _ _ ?_
        unfold free
        refine Nat.le_trans (List.length_filter_le _ _) (by simp)
      have := Nat.mul_le_mul h2 hw
      omega
    · simp at h
    · simp at h
  · rename_i hf
    obtain ⟨h1, h2, h3⟩ := nodeLoop_measure _ _ _ h
    rw [h1, h2]
    simp only [Bool.false_eq_true, if_false]
    omega

/-- `ExportsTrieIterator::next`, src/read/macho/exports_trie.rs:56-63. -/
def next (it : NodeIter) : Res (Option ExportSymbol) × NodeIter :=
  match _h : it.next with
  | (.ok (some (some x)), it) => (.ok (some x), it)
  | (.ok (some none), it) => next it
  | (.ok none, it) => (.ok none, it)
  | (.err, it) => (.err, it)
  | (.panic, it) => (.panic, it)
termination_by it.measure
decreasing_by exact next_measure _h

end Obj.Trie

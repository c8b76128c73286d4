import Verif.Proof.DyldInfo

/-!
# C25: rebase and bind opcodes
-/

namespace Obj.Props
open Obj Obj.Dyld Obj.Spec Obj.Spec.Trie Obj.Spec.Dyld Obj.Trie

private theorem rops (data : List UInt8) :
    ∃ ops e, Runs rebaseOpNext data ops e ∧ ops.length ≤ data.length ∧ e ≠ .panic := by
  rw [rebaseOpNext_eq]
  refine fuse_runs (fun d x d' h => ?_) rparse_no_panic data
  refine rebaseOpNext_lt (x := x) ?_
  cases d with
  | nil => simp [RebaseOp.parse, Bytes.read, Bytes.readBytes] at h
  | cons b tl => rw [rebaseOpNext_eq]; exact fuseNext_item (by simp) h

private theorem bops (data : List UInt8) :
    ∃ ops e, Runs bindOpNext data ops e ∧ ops.length ≤ data.length ∧ e ≠ .panic := by
  rw [bindOpNext_eq]
  refine fuse_runs (fun d x d' h => ?_) bparse_no_panic data
  refine bindOpNext_lt (x := x) ?_
  cases d with
  | nil => simp [BindOp.parse, Bytes.read, Bytes.readBytes] at h
  | cons b tl => rw [bindOpNext_eq]; exact fuseNext_item (by simp) h

private theorem reval_end (ptr : Nat) (ops : List RebaseOp) (e : End) (he : e ≠ .panic) (st : RState) :
    (evalRebases ptr st ops e).2 ≠ .panic := by
  induction ops generalizing st with
  | nil => exact he
  | cons op ops ih =>
    unfold evalRebases
    have hd : ∀ n stride, (if n = 0 then evalRebases ptr st ops e
        else match st.rebases n stride with
          | none => ([], .err)
          | some (xs, st') => (xs ++ (evalRebases ptr st' ops e).1, (evalRebases ptr st' ops e).2)).2 ≠ .panic := by
      intro n stride
      split
      · exact ih _
      · split
        · simp
        · exact ih _
    cases op with
    | done => simp
    | doRebaseTimes n => exact hd _ _
    | doRebaseAddAddr n => exact hd _ _
    | doRebaseTimesSkipping n s => exact hd _ _
    | _ => exact ih _

private theorem beval_end (ptr : Nat) (z : Bool) (ops : List BindOp) (e : End) (he : e ≠ .panic) (st : BState) :
    (evalBinds ptr z st ops e).2 ≠ .panic := by
  induction ops generalizing st with
  | nil => exact he
  | cons op ops ih =>
    unfold evalBinds
    have hd : ∀ n stride, (if n = 0 then evalBinds ptr z st ops e
        else match st.binds n stride with
          | none => ([], .err)
          | some (xs, st') => (xs ++ (evalBinds ptr z st' ops e).1, (evalBinds ptr z st' ops e).2)).2 ≠ .panic := by
      intro n stride
      split
      · exact ih _
      · split
        · simp
        · exact ih _
    cases op with
    | done => cases z <;> simp [ih]
    | setDylibOrdinal n =>
      show (if n < 2 ^ 31 then evalBinds ptr z { st with dylib := some n } ops e else ([], .err)).2 ≠ .panic
      split
      · exact ih _
      · simp
    | doBind => exact hd _ _
    | doBindAddAddr n => exact hd _ _
    | doBindAddAddrScaled n => exact hd _ _
    | doBindTimesSkipping n s => exact hd _ _
    | _ => exact ih _

/-- C25: the rebase operation iterator returns exactly the operations encoded in the data (opcode and operation); reading never
panics, stops after at most one operation per byte, and after an error there are no more operations. -/
theorem C25_rebase_ops :
    (∀ (b : UInt8) (tl : List UInt8) (c : Nat) (op : RebaseOp) (rest : List UInt8),
      rebaseOpNext (b :: tl) = (.ok (some (c, op)), rest) ↔ c = 16 * (b.toNat / 16) ∧ RebaseOpAt (b :: tl) op rest) ∧
    (∀ data d, rebaseOpNext data = (.ok none, d) ↔ data = [] ∧ d = []) ∧
    (∀ data d, rebaseOpNext data = (.err, d) → rebaseOpNext d = (.ok none, [])) ∧
    (∀ data, ∃ ops e, Runs rebaseOpNext data ops e ∧ ops.length ≤ data.length ∧ e ≠ .panic) := by
  refine ⟨fun b tl c op rest => ?_, fun data d => ?_, fun data d h => ?_, rops⟩
  · rw [rebaseOpNext_eq, fuseNext_some_iff, rparse_iff]; simp
  · rw [rebaseOpNext_eq]; exact ⟨fuseNext_none, fun ⟨h1, h2⟩ => by rw [h1, h2]; exact fuseNext_nil⟩
  · rw [rebaseOpNext_eq] at h ⊢; exact fuseNext_fused h

example : rebaseOpNext [0x73, 0x80, 0x01, 0x11] = (.ok (some (0x70, .doRebaseAddAddr 128)), [0x11]) := by decide +kernel
example : RebaseOpAt [0x73, 0x80, 0x01, 0x11] (.doRebaseAddAddr 128) [0x11] :=
  .doAddAddr (by decide) ((uleb_iff ..).1 (by decide +kernel))
example : rebaseOpNext [0x90] = (.err, []) := by decide +kernel

/-- C25: the same for the bind operation iterator. -/
theorem C25_bind_ops :
    (∀ (b : UInt8) (tl : List UInt8) (c : Nat) (op : BindOp) (rest : List UInt8),
      bindOpNext (b :: tl) = (.ok (some (c, op)), rest) ↔ c = 16 * (b.toNat / 16) ∧ BindOpAt (b :: tl) op rest) ∧
    (∀ data d, bindOpNext data = (.ok none, d) ↔ data = [] ∧ d = []) ∧
    (∀ data d, bindOpNext data = (.err, d) → bindOpNext d = (.ok none, [])) ∧
    (∀ data, ∃ ops e, Runs bindOpNext data ops e ∧ ops.length ≤ data.length ∧ e ≠ .panic) := by
  refine ⟨fun b tl c op rest => ?_, fun data d => ?_, fun data d h => ?_, bops⟩
  · rw [bindOpNext_eq, fuseNext_some_iff, bparse_iff]; simp
  · rw [bindOpNext_eq]; exact ⟨fuseNext_none, fun ⟨h1, h2⟩ => by rw [h1, h2]; exact fuseNext_nil⟩
  · rw [bindOpNext_eq] at h ⊢; exact fuseNext_fused h

example : bindOpNext [0x48, 95, 97, 0, 0x11] = (.ok (some (0x40, .setSymbol 8 [95, 97])), [0x11]) := by decide +kernel
example : bindOpNext [0x3d] = (.ok (some (0x30, .setDylibSpecial (-3))), []) := by decide +kernel

/-- C25: iterating over the rebases of any data with any pointer size ends without a panic, and returns exactly the rebases that
the operations in the data describe: a run of `n` rebases with stride `s` gives the `n` entries at offset `start + j*s` modulo
2^64, and missing parts are an error.  After an error there are no more rebases. -/
theorem C25_rebases (data : List UInt8) (pointerSize : Nat) (hp : pointerSize < 2 ^ 8) :
    (∃ ops e xs f, Runs rebaseOpNext data ops e ∧
      evalRebases pointerSize ⟨none, none⟩ (ops.map (·.2)) e = (xs, f) ∧
      Runs RebaseIter.next (RebaseIter.new data pointerSize) xs f ∧ f ≠ .panic) ∧
    (∀ it it' : RebaseIter, it.next = (.err, it') → it'.next = (.ok none, it')) := by
  constructor
  · obtain ⟨ops, e, h1, -, h3⟩ := rops data
    refine ⟨ops, e, _, _, h1, rfl, ?_, reval_end _ _ _ h3 _⟩
    exact rebase_runs h1 (RebaseIter.new data pointerSize) rfl rfl (by show pointerSize < 2 ^ 64; omega)
      (by show (0 : Nat) < 2 ^ 64; decide)
  · intro it it' h
    have h' : rfuse it.nextInner = (.err, it') := h
    have : it'.remaining = 0 ∧ it'.operations = [] := by
      unfold rfuse at h'
      split at h'
      · simp only [Prod.mk.injEq, true_and] at h'; rw [← h']; exact ⟨rfl, rfl⟩
      · rename_i hne; exact absurd h' (by intro hc; exact hne it' hc)
    rw [rnext_zero this.1, RebaseIter.loop]
    split <;> rename_i h2 <;> rw [this.2, show rebaseOpNext [] = (.ok none, []) from rfl] at h2 <;>
      simp only [Prod.mk.injEq, Res.ok.injEq, reduceCtorEq, false_and] at h2
    rw [← h2.2, ← this.2]
    rfl

/-! Set segment 2, offset 0x10, type 1, three rebases with skip 2^64 - 16: the offsets go down by 8 each. -/
example : Runs rebaseOpNext [0x22, 0x10, 0x11, 0x83, 3, 0xf0, 0xff, 0xff, 0xff, 0xff, 0xff, 0xff, 0xff, 0xff, 0x01]
    [(0x20, .setSegmentAndOffset 2 16), (0x10, .setType 1), (0x80, .doRebaseTimesSkipping 3 (2 ^ 64 - 16))] .done :=
  .item (s' := [0x11, 0x83, 3, 0xf0, 0xff, 0xff, 0xff, 0xff, 0xff, 0xff, 0xff, 0xff, 0x01]) (by decide +kernel)
    (.item (s' := [0x83, 3, 0xf0, 0xff, 0xff, 0xff, 0xff, 0xff, 0xff, 0xff, 0xff, 0x01]) (by decide +kernel)
    (.item (s' := []) (by decide +kernel) (.done (s' := []) (by decide +kernel))))
example : evalRebases 8 ⟨none, none⟩ [.setSegmentAndOffset 2 16, .setType 1, .doRebaseTimesSkipping 3 (2 ^ 64 - 16)] .done =
    ([⟨2, 16, 1⟩, ⟨2, 8, 1⟩, ⟨2, 0, 1⟩], .done) := by decide +kernel
/-! A rebase without a type is an error. -/
example : evalRebases 8 ⟨none, none⟩ [.setSegmentAndOffset 2 0x10, .doRebaseTimes 3] .done = ([], .err) := by decide +kernel

/-- C25: iterating over binds, lazy binds and weak binds of any data with any pointer size ends without a panic, and returns
exactly the binds that the operations in the data describe, starting from the state of that kind of stream.  After an error there
are no more binds. -/
theorem C25_binds (data : List UInt8) (pointerSize : Nat) (hp : pointerSize < 2 ^ 8) :
    (∃ ops e, Runs bindOpNext data ops e ∧
      (∃ xs f, evalBinds pointerSize false normalStart (ops.map (·.2)) e = (xs, f) ∧
        Runs BindIter.next (BindIter.new data pointerSize) xs f ∧ f ≠ .panic) ∧
      (∃ xs f, evalBinds pointerSize false weakStart (ops.map (·.2)) e = (xs, f) ∧
        Runs BindIter.next (BindIter.newWeak data pointerSize) xs f ∧ f ≠ .panic) ∧
      (∃ xs f, evalBinds pointerSize true lazyStart (ops.map (·.2)) e = (xs, f) ∧
        Runs BindIter.next (BindIter.newLazy data pointerSize) xs f ∧ f ≠ .panic)) ∧
    (∀ it it' : BindIter, it.next = (.err, it') → it'.next = (.ok none, it')) := by
  constructor
  · obtain ⟨ops, e, h1, -, h3⟩ := bops data
    refine ⟨ops, e, h1, ⟨_, _, rfl, ?_, beval_end _ _ _ _ h3 _⟩, ⟨_, _, rfl, ?_, beval_end _ _ _ _ h3 _⟩,
      ⟨_, _, rfl, ?_, beval_end _ _ _ _ h3 _⟩⟩
    · exact bind_runs h1 (BindIter.new data pointerSize) rfl rfl hp (by show (0 : Nat) < 2 ^ 64; decide)
    · exact bind_runs h1 (BindIter.newWeak data pointerSize) rfl rfl hp (by show (0 : Nat) < 2 ^ 64; decide)
    · exact bind_runs h1 (BindIter.newLazy data pointerSize) rfl rfl hp (by show (0 : Nat) < 2 ^ 64; decide)
  · intro it it' h
    have h' : bfuse it.nextInner = (.err, it') := h
    have : it'.remaining = 0 ∧ it'.operations = [] := by
      unfold bfuse at h'
      split at h'
      · simp only [Prod.mk.injEq, true_and] at h'; rw [← h']; exact ⟨rfl, rfl⟩
      · rename_i hne; exact absurd h' (by intro hc; exact hne it' hc)
    rw [bnext_zero this.1, BindIter.loop]
    split <;> rename_i h2 <;> rw [this.2, show bindOpNext [] = (.ok none, []) from rfl] at h2 <;>
      simp only [Prod.mk.injEq, Res.ok.injEq, reduceCtorEq, false_and] at h2
    rw [← h2.2, ← this.2]
    rfl

/-! A lazy stream: two symbols separated by `Done`; the second one is in a different library. -/
example : Runs bindOpNext [0x72, 0x10, 0x11, 0x40, 97, 0, 0x90, 0x00, 0x72, 0x18]
    [(0x70, .setSegmentAndOffset 2 16), (0x10, .setDylibOrdinal 1), (0x40, .setSymbol 0 [97]), (0x90, .doBind), (0x00, .done),
      (0x70, .setSegmentAndOffset 2 24)] .done :=
  .item (s' := [0x11, 0x40, 97, 0, 0x90, 0x00, 0x72, 0x18]) (by decide +kernel)
    (.item (s' := [0x40, 97, 0, 0x90, 0x00, 0x72, 0x18]) (by decide +kernel)
    (.item (s' := [0x90, 0x00, 0x72, 0x18]) (by decide +kernel) (.item (s' := [0x00, 0x72, 0x18]) (by decide +kernel)
    (.item (s' := [0x72, 0x18]) (by decide +kernel) (.item (s' := []) (by decide +kernel) (.done (s' := []) (by decide +kernel)))))))
example : evalBinds 8 true lazyStart [.setSegmentAndOffset 2 16, .setDylibOrdinal 1, .setSymbol 0 [97], .doBind, .done,
    .setSegmentAndOffset 2 24, .setDylibOrdinal 2, .setSymbol 0 [98], .doBind, .done] .done =
    ([⟨2, 16, 1, 1, [97], 0, 0⟩, ⟨2, 24, 1, 2, [98], 0, 0⟩], .done) := by decide +kernel
/-! The second symbol must name its library again, and needs its own segment. -/
example : evalBinds 8 true lazyStart [.setSegmentAndOffset 2 16, .setDylibOrdinal 1, .setSymbol 0 [97], .doBind, .done,
    .setSegmentAndOffset 2 24, .setSymbol 0 [98], .doBind] .done = ([⟨2, 16, 1, 1, [97], 0, 0⟩], .err) := by decide +kernel

/-- C25: the expansion of a run, up to the largest counts: a stream that sets segment `i`, offset `o` and type `k`, and has one
run of `n` rebases with skip `skip`, gives exactly the `n` entries `o + j*(pointer size + skip)` modulo 2^64. -/
theorem C25_run (ptr i o k n skip : Nat) (hp : ptr < 2 ^ 8) (a c r : UInt8) (t1 t2 t3 : List UInt8)
    (ha : a.toNat = 0x20 + i) (hi : i < 16) (ho : Uleb t1 o (c :: r :: t2)) (hc : c.toNat = 0x10 + k) (hk : k < 16)
    (hr : r.toNat / 16 = 8) (hn : Uleb t2 n t3) (hs : Uleb t3 skip []) :
    Runs RebaseIter.next (RebaseIter.new (a :: t1) ptr)
      ((List.range n).map fun j => ⟨i, (o + j * (ptr + skip)) % 2 ^ 64, k⟩) .done := by
  have h1 : RebaseOpAt (a :: t1) (.setSegmentAndOffset i o) (c :: r :: t2) := by
    have := RebaseOpAt.setSegment (b := a) (by omega) ho
    rwa [show a.toNat % 16 = i by omega] at this
  have h2 : RebaseOpAt (c :: r :: t2) (.setType k) (r :: t2) := by
    have := RebaseOpAt.setType (b := c) (tl := r :: t2) (by omega)
    rwa [show c.toNat % 16 = k by omega] at this
  have h3 : RebaseOpAt (r :: t2) (.doRebaseTimesSkipping n skip) [] := .doTimesSkipping hr hn hs
  have hr : Runs rebaseOpNext (a :: t1) [(_, .setSegmentAndOffset i o), (_, .setType k), (_, .doRebaseTimesSkipping n skip)] .done :=
    .item ((C25_rebase_ops.1 ..).2 ⟨rfl, h1⟩) (.item ((C25_rebase_ops.1 ..).2 ⟨rfl, h2⟩) (.item ((C25_rebase_ops.1 ..).2 ⟨rfl, h3⟩)
      (.done (s' := []) ((C25_rebase_ops.2.1 ..).2 ⟨rfl, rfl⟩))))
  have := rebase_runs hr (RebaseIter.new (a :: t1) ptr) rfl rfl (by show ptr < 2 ^ 64; omega) (by show (0 : Nat) < 2 ^ 64; decide)
  simp only [List.map_cons, List.map_nil, evalRebases, RState.rebases] at this
  by_cases h0 : n = 0
  · subst h0; simpa using this
  · simpa [h0, RebaseIter.new] using this

/-! 2^64 - 1 rebases with stride 8 - 2 modulo 2^64. -/
example : Uleb [0xff, 0xff, 0xff, 0xff, 0xff, 0xff, 0xff, 0xff, 0xff, 0x01, 0xfe, 0xff, 0xff, 0xff, 0xff, 0xff, 0xff, 0xff, 0xff, 0x01]
    (2 ^ 64 - 1) [0xfe, 0xff, 0xff, 0xff, 0xff, 0xff, 0xff, 0xff, 0xff, 0x01] ∧
    Uleb [0xfe, 0xff, 0xff, 0xff, 0xff, 0xff, 0xff, 0xff, 0xff, 0x01] (2 ^ 64 - 2) [] :=
  ⟨(uleb_iff ..).1 (by decide +kernel), (uleb_iff ..).1 (by decide +kernel)⟩

end Obj.Props
